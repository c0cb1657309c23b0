import Verif.Lemmas.GapRun
import Verif.Props.Certificates

/-!
# C80: the solution that `solve` prints as optimal
-/

namespace Verif.Props
open Spec Model Finset

variable {env : Env} {cfg : Cfg} {I : Inst} {rounds fuel : ℕ}

/-- **C80 (what holds).**  If `solve` prints an optimal solution (partitioned problems solved to
optimality, required gap less than 1), then the printed objective `u` is at least every feasible
objective and at most `(1 + gap)` times that of `xLB`; `xLB` is in the variable domain, violates at
most `epsilon * N` scenarios by more than the tolerance and is feasible if no violation is within
the tolerance.  After a feasible stop the printed solution is `xLB` and the printed objective its
own.  Missing from the full claim: that the printed solution is feasible after a stop on the gap,
which is false (`C80_counterexample`). -/
theorem C80_announced_partial (hC : Contract env I) (ht : Tight env) (hgap0 : 0 ≤ cfg.gap)
    (hgap : cfg.gap < 1) (r : Bool × Gap) (s : St)
    (h : run env cfg I rounds fuel = .ok (.ok r, s)) (x : Option Vec) (v : WithTop ℚ)
    (ha : announced cfg r s = some (x, v)) :
    ∃ (u : ℚ) (y : Vec), v = u ∧ s.xLB = some y ∧ s.vLB = (obj I y : WithBot ℚ) ∧ InX I y
      ∧ ((violBy I (1 / 10 ^ 6) y).card : ℚ) ≤ I.eps * I.N ∧ (Sharp I y → Feas I y)
      ∧ (∀ y', Feas I y' → obj I y' ≤ u) ∧ u ≤ (1 + cfg.gap) * obj I y
      ∧ (r.1 = true → x = some y ∧ u = obj I y) := by
  obtain ⟨b, g⟩ := r
  unfold announced at ha
  split at ha
  case isFalse => cases ha
  case isTrue hb =>
  cases ha
  cases b
  · obtain ⟨y, h1, h2, h3, h4, u, h5, h6, h7⟩ :=
      gap_stop hC hgap g s h (hb.resolve_left Bool.false_ne_true)
    refine ⟨u, y, h5, h1, h3, h2.1, feas_accepted hC.equi hC.eps h2, fun _ => h2, h7, h6, ?_⟩
    rintro ⟨⟩
  · obtain ⟨y, h1, h2, h3, h4, h5, h6, h7, h8⟩ := C51_feasible_stop_optimal hC ht g s h
    refine ⟨obj I y, y, h3, h2, h4, h6, h7, h8, h5, ?_, fun _ => ⟨h1, rfl⟩⟩
    linarith [mul_nonneg hgap0 (obj_nonneg hC.c h6)]

/-- Hypotheses of `C80_announced_partial`, with a feasible stop. -/
example : Contract exTight exPairs ∧ Tight exTight ∧ 0 ≤ exCfg.gap ∧ exCfg.gap < 1
    ∧ (outcome (run exTight exCfg exPairs 10 10)).map (fun o => (o.error, o.result))
      = some (none, some (true, Gap.fin 1)) := by
  refine ⟨?_, fun _ g ρ h => tightSolver_tight g ρ h, by decide +kernel, by decide +kernel,
    by decide +kernel⟩
  have h := exPairs_contract
  exact ⟨h.equi, h.eps, h.tolOk, h.ab, h.c, h.m, h.n, h.sub, h.sharp,
    fun _ g => tightSolver_valid g, h.lb, h.acc, h.big⟩

/-! ## Counterexample -/

/-- The two items that fit in half of the scenarios are slightly better than the third one. -/
def exSlight : Inst := { exPairs with c := fun j => if j = 2 then 10000 else 10001 }

/-- The default required gap (src/solver/AdaptivePartitioner.py:29). -/
def exSlightCfg : Cfg := { exCfg with gap := 1 / 10 ^ 4 }

/-- Two violated scenarios are too many. -/
theorem exSlight_two {y : Vec} (hy : Feas exSlight y) {s t : ℕ} (hst : s ≠ t) (hs : s < 4)
    (ht : t < 4) (h1 : ¬ Sat exSlight s y) (h2 : ¬ Sat exSlight t y) : False := by
  have hsub : ({s, t} : Finset ℕ) ⊆ viol exSlight y := by
    intro u hu
    rcases Finset.mem_insert.1 hu with rfl | hu
    · exact Finset.mem_filter.2 ⟨Finset.mem_range.2 hs, h1⟩
    · obtain rfl := Finset.mem_singleton.1 hu
      exact Finset.mem_filter.2 ⟨Finset.mem_range.2 ht, h2⟩
  have h3 : ∑ u ∈ ({s, t} : Finset ℕ), exSlight.proba u ≤ ∑ u ∈ viol exSlight y, exSlight.proba u :=
    Finset.sum_le_sum_of_subset_of_nonneg hsub fun u _ _ => by norm_num [exSlight, exPairs]
  rw [Finset.sum_pair hst] at h3
  have h4 : ∑ u ∈ viol exSlight y, exSlight.proba u ≤ 1 / 4 := hy.2
  have h5 : exSlight.proba s = 1 / 4 ∧ exSlight.proba t = 1 / 4 := ⟨rfl, rfl⟩
  linarith [h5.1, h5.2]

theorem exSlight_obj {y : Vec} (hy : Feas exSlight y) : obj exSlight y ≤ 10000 := by
  have hrow : ∀ s, Sat exSlight s y ↔
      (if s % 2 = 0 then y 0 + 2 * y 1 + y 2 ≤ 1 else 2 * y 0 + y 1 + y 2 ≤ 1) := by
    intro s
    unfold Sat dot
    by_cases h : s % 2 = 0 <;>
      simp [exSlight, exPairs, Finset.sum_range_succ, h]
  have h0 : y 0 = 0 ∨ y 0 = 1 := by simpa [exSlight, exPairs] using hy.1 0 (by decide)
  have h1 : y 1 = 0 ∨ y 1 = 1 := by simpa [exSlight, exPairs] using hy.1 1 (by decide)
  have h2 : y 2 = 0 ∨ y 2 = 1 := by simpa [exSlight, exPairs] using hy.1 2 (by decide)
  have hobj : obj exSlight y = 10001 * y 0 + 10001 * y 1 + 10000 * y 2 := by
    simp [obj, dot, exSlight, exPairs, Finset.sum_range_succ]
  have hp2 : 0 ≤ y 2 ∧ y 2 ≤ 1 := by rcases h2 with h | h <;> norm_num [h]
  rcases h0 with h0 | h0
  · rcases h1 with h1 | h1
    · rw [hobj, h0, h1]; linarith
    · exact (exSlight_two hy (s := 0) (t := 2) (by decide) (by decide) (by decide)
        (by rw [hrow]; norm_num [h0, h1]; linarith) (by rw [hrow]; norm_num [h0, h1]; linarith)).elim
  · have hp1 : 0 ≤ y 1 := by rcases h1 with h | h <;> norm_num [h]
    exact (exSlight_two hy (s := 1) (t := 3) (by decide) (by decide) (by decide)
      (by rw [hrow]; norm_num [h0]; linarith) (by rw [hrow]; norm_num [h0]; linarith)).elim

/-- Whether the printed solution violates exactly the scenarios `V`, and the printed objective. -/
def printed (cfg : Cfg) (I : Inst) (V : Finset ℕ) :
    PyM (Except PyErr (Bool × Gap) × St) → Option (Option Bool × WithTop ℚ)
  | .ok (.ok r, s) => (announced cfg r s).map fun a => (a.1.map fun x => decide (viol I x = V), a.2)
  | _ => none

/-- **C80 is false** after a stop on the gap: all problems are solved exactly, the instance is
binary with whole numbers as data and the required gap is the default one, but the solution that
`solve` prints as optimal violates two of four scenarios although `epsilon = 1/4`; no feasible
solution has the printed objective. -/
theorem C80_counterexample : Contract exTight exSlight ∧ Tight exTight
    ∧ ∃ r s x, run exTight exSlightCfg exSlight 10 10 = .ok (.ok r, s)
      ∧ announced exSlightCfg r s = some (some x, ((10001 : ℚ) : WithTop ℚ))
      ∧ viol exSlight x = {1, 3} ∧ ¬ Feas exSlight x
      ∧ ∀ y, Feas exSlight y → obj exSlight y ≤ 10000 := by
  have hcon : Contract exTight exSlight := by
    have h := exPairs_contract' (fun j => if j = 2 then 10000 else 10001) (by decide +kernel)
    exact ⟨h.equi, h.eps, h.tolOk, h.ab, h.c, h.m, h.n, h.sub, h.sharp,
      fun _ g => tightSolver_valid g, h.lb, h.acc, h.big⟩
  have hp : printed exSlightCfg exSlight {1, 3} (run exTight exSlightCfg exSlight 10 10)
      = some (some true, ((10001 : ℚ) : WithTop ℚ)) := by
    decide +kernel
  refine ⟨hcon, fun _ g ρ h => tightSolver_tight g ρ h, ?_⟩
  cases hq : run exTight exSlightCfg exSlight 10 10 with
  | error e => rw [hq] at hp; cases hp
  | ok q =>
    obtain ⟨r, s⟩ := q
    rw [hq] at hp
    cases r with
    | error e => cases hp
    | ok r =>
      obtain ⟨⟨x, v⟩, h1, h2⟩ := Option.map_eq_some_iff.1 hp
      obtain ⟨h2, rfl⟩ := Prod.mk.inj h2
      obtain ⟨x, rfl, h4⟩ := Option.map_eq_some_iff.1 h2
      have hv := of_decide_eq_true h4
      refine ⟨r, s, x, rfl, h1, hv, fun hx => ?_, fun y hy => exSlight_obj hy⟩
      have h1 : (1 : ℕ) ∈ viol exSlight x := by rw [hv]; decide
      have h3 : (3 : ℕ) ∈ viol exSlight x := by rw [hv]; decide
      exact exSlight_two hx (by decide) (by decide) (by decide) (Finset.mem_filter.1 h1).2
        (Finset.mem_filter.1 h3).2

end Verif.Props
