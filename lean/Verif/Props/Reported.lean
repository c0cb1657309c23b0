import Verif.Props.Certificates
import Verif.Props.Milp

/-!
# C59: the solution reported after a feasible stop
-/

open Finset

namespace Verif.Props
open Spec Model

variable {env : Env} {cfg : Cfg} {I : Inst} {rounds fuel : ℕ}

/-- **C59 (what holds).**  If the partitioned problems are solved with no gap, the solution
reported after a feasible stop is the point that passed `is_feasible` in the last iteration.
Missing from the full claim: answers within the relative gap 1e-8, for which it is false
(`C59_counterexample`). -/
theorem C59_reported_partial (hC : Contract env I) (ht : Tight env) (g : Gap) (s : St)
    (h : run env cfg I rounds fuel = .ok (.ok (true, g), s)) :
    ∃ x, s.xUB = some x ∧ s.xLB = some x ∧ PartFeas I s.partition x
      ∧ (checkFeasibility env.norm I x).feasible = true := by
  obtain ⟨s', -, -, a3, -, -, -, a7, a8, -⟩ := ((run_bounds hC h).1 _ rfl).before
  obtain ⟨⟨out, o1, o2, -, o4, -⟩, a3, -⟩ := a3 rfl
  obtain ⟨-, o5⟩ := o4 ht
  exact ⟨out.x, a8.trans o5, a3.trans o5, by rw [a7]; exact o1.point, o2⟩

/-- Hypotheses of `C59_reported_partial`: a run that stops with a feasible solution. -/
example : Contract exTight exPairs ∧ Tight exTight
    ∧ (outcome (run exTight exCfg exPairs 10 10)).map (fun o => (o.error, o.result))
      = some (none, some (true, Gap.fin 1)) := by
  refine ⟨?_, fun _ g ρ h => tightSolver_tight g ρ h, by decide +kernel⟩
  have h := exPairs_contract
  exact ⟨h.equi, h.eps, h.tolOk, h.ab, h.c, h.m, h.n, h.sub, h.sharp,
    fun _ g => tightSolver_valid g, h.lb, h.acc, h.big⟩

/-! ## Counterexample -/

/-- Exact solutions, bounds at the end of the allowed gap. -/
noncomputable def slackSolver (g : GModel) : GResult :=
  { exactSolver g with
    objBnd := if g.maximize then (exactSolver g).objBnd + max g.mipGap 0 * |(exactSolver g).objVal|
      else (exactSolver g).objBnd - max g.mipGap 0 * |(exactSolver g).objVal| }

theorem slackSolver_answers (g : GModel) : GapAnswers g (slackSolver g) := by
  have h := exactSolver_exact g
  have h0 : 0 ≤ max g.mipGap 0 * |(exactSolver g).objVal| :=
    mul_nonneg (le_max_right _ _) (abs_nonneg _)
  refine ⟨⟨⟨h.answers.valid.feas, fun hb ρ hρ => ?_, h.answers.valid.infeasible,
    h.answers.valid.optimal⟩, h.answers.notInterrupted, h.answers.solved⟩,
    fun ho => (h.optimum ho).1, fun hg h2 => ?_⟩
  · have := h.answers.valid.bound hb ρ hρ
    cases hm : g.maximize
    · rw [hm] at this
      simp only [slackSolver, hm, Bool.false_eq_true, if_false] at this ⊢
      linarith
    · rw [hm] at this
      simp only [slackSolver, hm, if_true] at this ⊢
      linarith
  · have hcl := exactSolver_closed g h2
    show |_ - (exactSolver g).objVal| ≤ g.mipGap * |(exactSolver g).objVal|
    unfold slackSolver
    rw [max_eq_left hg] at h0 ⊢
    cases hm : g.maximize
    · simp only [Bool.false_eq_true, if_false]
      rw [← hcl, sub_sub_cancel_left, abs_neg, abs_of_nonneg h0]
    · simp only [if_true]
      rw [← hcl, add_sub_cancel_left, abs_of_nonneg h0]

/-- Four scenarios, at most one item; items 0 and 1 cost 2, item 2 costs 1.  In scenario 1 only
item 2 fits, in scenario 3 also item 1. -/
def exTie : Inst :=
  { n := 3, N := 4, m := 1
    A := fun s _ j => if j = 2 ∨ s % 2 = 0 ∨ (s = 3 ∧ j = 1) then 1 else 2
    b := fun _ _ => 1, c := fun j => if j = 2 then 1 else 2
    proba := fun _ => 1 / 4, eps := 1 / 4, cont := false }

/-- `exCfg` without merging. -/
def exTieCfg : Cfg := { exCfg with useMerger := false }

noncomputable def exTieEnv : Env := { exactEnv exNorm 1 with cc := fun _ => slackSolver }

theorem exTie_contract : Contract exTieEnv exTie := by
  have hE : Equi exTie := ⟨by decide, fun s _ => by norm_num [exTie]⟩
  have hI : OneDecimal exTie := by
    refine ⟨by unfold NonnegAb; decide +kernel, fun s _ i _ => ⟨⟨10, by norm_num [exTie]⟩,
      fun j _ => ?_⟩⟩
    by_cases h : j = 2 ∨ s % 2 = 0 ∨ (s = 3 ∧ j = 1)
    · exact ⟨10, by simp only [exTie, if_pos h]; norm_num⟩
    · exact ⟨20, by simp only [exTie, if_neg h]; norm_num⟩
  exact contract_of_grid hE (by decide +kernel) (by decide +kernel) hI
    (by unfold NonnegC; decide +kernel) (by decide) (by decide) rfl
    (fun _ _ g => exactSolver_exact g) (fun _ g => (slackSolver_answers g).answers.valid)
    (fun _ g => (exactSolver_exact g).answers.valid) (fun _ _ g => (exactSolver_exact g).answers)
    (fun _ g => (exactSolver_exact g).answers)

theorem exTie_strong : Strong exTieEnv exTieCfg exTie 10 where
  cc _ g := (slackSolver_answers g).answers
  lb _ g := (exactSolver_exact g).answers
  lbInf _ g := (exactSolver_exact g).noPoint
  clock := exPairs_strong.clock
  method := .inl ⟨rfl, rfl⟩
  init := .inl rfl
  proj := .inl rfl
  bigM := by rintro ⟨⟩
  rounds := by decide +kernel

/-- What the counterexample looks at. -/
def reported : PyM (Except PyErr (Bool × Gap) × St) →
    Option (Option Bool × Option (List ℚ) × WithTop ℚ × WithBot ℚ)
  | .error _ => none
  | .ok (r, s) => some (r.toOption.map Prod.fst, s.xLB.map fun (x : Vec) => [x 0, x 1, x 2], s.vUB,
      s.vLB)

/-- **C59 (counterexample).**  All problems are solved exactly, except that the bounds of the
partitioned problems are within the relative gap 1e-8 that the code sets.  In the second
iteration the upper-bound solution is item 1, which is feasible, but its bound exceeds the
previous `vUB` by more than the absolute tolerance 1e-8, so that `xUB` keeps the solution of the
first iteration, item 0.  `solve` stops and reports item 0 with `vLB = vUB`, but it violates two
of the four scenarios. -/
theorem C59_counterexample : ∃ (env : Env) (cfg : Cfg) (I : Inst),
    Contract env I ∧ Strong env cfg I 10 ∧ (∀ t g, GapAnswers g (env.cc t g))
    ∧ ∃ g s x, run env cfg I 10 10 = .ok (.ok (true, g), s) ∧ s.xLB = some x ∧ s.xUB = some x
      ∧ s.vUB = ((2 : ℚ) : WithTop ℚ) ∧ s.vLB = ((2 : ℚ) : WithBot ℚ) ∧ ¬ Feas I x := by
  refine ⟨exTieEnv, exTieCfg, exTie, exTie_contract, exTie_strong, fun _ => slackSolver_answers, ?_⟩
  have h : reported (run exTieEnv exTieCfg exTie 10 10)
      = some (some true, some [1, 0, 0], ((2 : ℚ) : WithTop ℚ), ((2 : ℚ) : WithBot ℚ)) := by
    decide +kernel
  cases hr : run exTieEnv exTieCfg exTie 10 10 with
  | error e => rw [hr] at h; cases h
  | ok p =>
    obtain ⟨r, s⟩ := p
    rw [hr] at h
    simp only [reported, Option.some.injEq, Prod.mk.injEq] at h
    obtain ⟨h1, h2, h3, h4⟩ := h
    cases r with
    | error e => cases h1
    | ok q =>
      obtain ⟨b, g⟩ := q
      cases b with
      | false => cases h1
      | true =>
        obtain ⟨s', -, -, a3, -, -, -, -, a8, -⟩ := ((run_bounds exTie_contract hr).1 _ rfl).before
        obtain ⟨-, a3, -⟩ := a3 rfl
        cases hx : s.xLB with
        | none => rw [hx] at h2; cases h2
        | some x =>
          rw [hx] at h2
          simp only [Option.map_some, Option.some.injEq, List.cons.injEq, and_true] at h2
          obtain ⟨x0, x1, x2⟩ := h2
          refine ⟨g, s, x, rfl, hx, by rw [a8, ← a3, hx], h3, h4, fun hF => ?_⟩
          have hv : ∀ s', s' = 1 ∨ s' = 3 → ¬ Sat exTie s' x := by
            rintro s' hs' hsat
            have := hsat 0 (by decide)
            unfold dot at this
            rw [show exTie.n = 3 from rfl, Finset.sum_range_succ, Finset.sum_range_succ,
              Finset.sum_range_succ, Finset.sum_range_zero, x0, x1, x2] at this
            rcases hs' with rfl | rfl <;> norm_num [exTie] at this
          have hsub : ({1, 3} : Finset ℕ) ⊆ viol exTie x := by
            intro t ht
            simp only [Finset.mem_insert, Finset.mem_singleton] at ht
            exact Finset.mem_filter.2 ⟨Finset.mem_range.2 (by
              show t < 4
              omega), hv t ht⟩
          have h5 : ∑ t ∈ viol exTie x, exTie.proba t ≤ 1 / 4 := hF.2
          have h6 := Finset.sum_le_sum_of_subset_of_nonneg (f := exTie.proba) hsub
            fun t _ _ => by norm_num [exTie]
          have h7 : ∑ t ∈ ({1, 3} : Finset ℕ), exTie.proba t = 1 / 2 := by norm_num [exTie]
          rw [h7] at h6
          linarith

end Verif.Props
