import Verif.Lemmas.LbLog
import Verif.Lemmas.ExactSolver
import Verif.Props.Trajectory

/-!
# C75, C76: which scenarios the lower-bound problems contain
-/

open Finset

namespace Verif.Props
open Spec Model

/-! ## Specification -/

/-- By how much row `i` of scenario `s` exceeds its right-hand side. -/
def rowExcess (I : Inst) (x : Vec) (s i : ℕ) : ℚ := ∑ j ∈ range I.n, I.A s i j * x j - I.b s i

/-- The divisor of a row: its norm, or 1 for a zero row. -/
def rowScale (norm : Norm) (I : Inst) (s i : ℕ) : ℚ :=
  if norm.val I.n (I.A s i) = 0 then 1 else norm.val I.n (I.A s i)

/-- `v` is the severity of the violation of scenario `s` by `x`: the largest rescaled excess of
its rows, excesses below 1e-3 counting as 0. -/
structure IsSeverity (norm : Norm) (I : Inst) (x : Vec) (s : ℕ) (v : ℚ) : Prop where
  nonneg : 0 ≤ v
  ge : ∀ i < I.m, 1 / 10 ^ 3 ≤ rowExcess I x s i → rowExcess I x s i / rowScale norm I s i ≤ v
  attained : v = 0 ∨ ∃ i < I.m, 1 / 10 ^ 3 ≤ rowExcess I x s i
    ∧ v = rowExcess I x s i / rowScale norm I s i

theorem rowScale_pos (norm : Norm) (I : Inst) (s i : ℕ) : 0 < rowScale norm I s i := by
  unfold rowScale
  split
  · norm_num
  · next h => exact lt_of_le_of_ne (norm.nonneg _ _) (Ne.symm h)

/-- The severity is unique. -/
theorem IsSeverity.unique {norm : Norm} {I : Inst} {x : Vec} {s : ℕ} {v w : ℚ}
    (hv : IsSeverity norm I x s v) (hw : IsSeverity norm I x s w) : v = w := by
  refine le_antisymm ?_ ?_
  · rcases hv.attained with h | ⟨i, hi, h1, h2⟩
    · rw [h]; exact hw.nonneg
    · rw [h2]; exact hw.ge i hi h1
  · rcases hw.attained with h | ⟨i, hi, h1, h2⟩
    · rw [h]; exact hv.nonneg
    · rw [h2]; exact hv.ge i hi h1

/-- The severity vanishes exactly for scenarios satisfied up to 1e-3. -/
theorem IsSeverity.eq_zero_iff {norm : Norm} {I : Inst} {x : Vec} {s : ℕ} {v : ℚ}
    (hv : IsSeverity norm I x s v) : v = 0 ↔ ∀ i < I.m, rowExcess I x s i < 1 / 10 ^ 3 := by
  constructor
  · intro h0 i hi
    by_contra hc
    push Not at hc
    have h1 := hv.ge i hi hc
    rw [h0] at h1
    have h2 : 0 < rowExcess I x s i / rowScale norm I s i :=
      div_pos (lt_of_lt_of_le (by norm_num) hc) (rowScale_pos _ _ _ _)
    linarith
  · intro h
    rcases hv.attained with h0 | ⟨i, hi, h1, -⟩
    · exact h0
    · exact absurd (h i hi) (not_lt.2 h1)

/-! ## The index computed by the code -/

theorem foldl_max (f : ℕ → ℚ) : ∀ (m : ℕ),
    0 ≤ (List.range m).foldl (fun best i => max best (f i)) 0
    ∧ (∀ i < m, f i ≤ (List.range m).foldl (fun best i => max best (f i)) 0)
    ∧ ((List.range m).foldl (fun best i => max best (f i)) 0 = 0
      ∨ ∃ i < m, (List.range m).foldl (fun best i => max best (f i)) 0 = f i)
  | 0 => ⟨le_rfl, fun i hi => absurd hi (Nat.not_lt_zero _), .inl rfl⟩
  | m + 1 => by
    obtain ⟨h1, h2, h3⟩ := foldl_max f m
    rw [List.range_succ, List.foldl_append]
    simp only [List.foldl_cons, List.foldl_nil]
    refine ⟨h1.trans (le_max_left _ _), fun i hi => ?_, ?_⟩
    · rcases Nat.lt_succ_iff_lt_or_eq.1 hi with h | rfl
      · exact (h2 i h).trans (le_max_left _ _)
      · exact le_max_right _ _
    · rcases max_choice ((List.range m).foldl (fun best i => max best (f i)) 0) (f m) with h | h
      · rw [h]
        rcases h3 with h3 | ⟨i, hi, h3⟩
        · exact .inl h3
        · exact .inr ⟨i, hi.trans (Nat.lt_succ_self _), h3⟩
      · rw [h]; exact .inr ⟨m, Nat.lt_succ_self _, rfl⟩

theorem length_violationIndex (norm : Norm) (I : Inst) (x : Vec) :
    (violationIndex norm I x).length = I.N := by simp [violationIndex]

theorem violationIndex_severity (norm : Norm) (I : Inst) (x : Vec) (s : ℕ) (hs : s < I.N) :
    IsSeverity norm I x s ((violationIndex norm I x).getD s 0) := by
  have hex : ∀ i, dot I.n (I.A s i) x - I.b s i = rowExcess I x s i := fun i => rfl
  have key : (violationIndex norm I x).getD s 0
      = (List.range I.m).foldl (fun best i => max best
          (if 1 / 10 ^ 3 ≤ rowExcess I x s i then rowExcess I x s i / rowScale norm I s i else 0)) 0
      := by
    unfold violationIndex
    rw [List.getD_eq_getElem _ _ (by simpa using hs), List.getElem_map, List.getElem_range]
    congr 1
    funext best i
    simp only [hex]
    congr 1
    by_cases h : 1 / 10 ^ 3 ≤ rowExcess I x s i
    · rw [if_pos h, max_eq_left (le_trans (by norm_num) h), if_neg (not_lt.2 h)]
      unfold rowScale
      by_cases h0 : norm.val I.n (I.A s i) = 0 <;> simp [h0]
    · rw [if_neg h, if_pos (max_lt (not_le.1 h) (by norm_num))]
      simp
  obtain ⟨h1, h2, h3⟩ := foldl_max (fun i =>
    if 1 / 10 ^ 3 ≤ rowExcess I x s i then rowExcess I x s i / rowScale norm I s i else 0) I.m
  rw [key]
  refine ⟨h1, fun i hi he => ?_, ?_⟩
  · have := h2 i hi
    simp only [if_pos he] at this
    exact this
  · rcases h3 with h3 | ⟨i, hi, h3⟩
    · exact .inl h3
    · by_cases he : 1 / 10 ^ 3 ≤ rowExcess I x s i
      · rw [if_pos he] at h3; exact .inr ⟨i, hi, he, h3⟩
      · rw [if_neg he] at h3; exact .inl h3

/-- A prefix of an ordering contains no index larger than one left out. -/
theorem selected_le {I : Inst} {argsort : Argsort} {index : List ℚ} (hi : index.length = I.N)
    {sel : List ℕ} (h : selectedScenarios argsort I index = .ok (some sel)) :
    ∀ s ∈ sel, ∀ t < I.N, t ∉ sel → index.getD s 0 ≤ index.getD t 0 := by
  obtain ⟨-, -, -, k, -, -, hk, -⟩ := (C17_selection I argsort index hi).1 sel h
  obtain ⟨hperm, hpw⟩ := argsort.spec index
  intro s hs t ht hn
  have hmem : t ∈ argsort.run index := by
    rw [hperm.mem_iff, hi]; exact List.mem_range.2 ht
  rw [← List.take_append_drop k (argsort.run index)] at hmem hpw
  rw [hk] at hs hn
  have htd : t ∈ (argsort.run index).drop k := by
    rcases List.mem_append.1 hmem with h | h
    · exact absurd h hn
    · exact h
  exact (List.pairwise_append.1 hpw).2.2 s hs t htd

/-! ## A whole run -/

/-- How many of the points satisfy scenario `s` up to 1e-6. -/
def satCount (I : Inst) (points : List Vec) (s : ℕ) : ℕ :=
  points.countP fun x => decide (s ∉ violBy I (1 / 1000000) x)

/-- What holds for the attributes of the lower bounder throughout a run. -/
def LbLogInv (env : Env) (cfg : Cfg) (I : Inst)
    (v : LBState × List Vec × List (Option Vec × List Vec × List ℕ)) : Prop :=
  v.1.counter.length = I.N
  ∧ (∀ s < I.N, v.1.counter.getD s 0 = satCount I v.2.1 s)
  ∧ (∃ cuts, DetInv (instCI I) v.1.deter v.1.scenarios cuts)
  ∧ ∀ e ∈ v.2.2, ∃ p q, e.2.1 = p ++ [q] ∧ e.1 = some q ∧ e.2.1 <+: v.2.1
    ∧ (∃ index, index.length = I.N ∧ selectedScenarios env.argsort I index = .ok (some e.2.2)
      ∧ (cfg.projection = "rescaled_max_violation" → index = violationIndex env.norm I q)
      ∧ (cfg.projection = "counter" →
          ∀ s < I.N, index.getD s 0 = -(satCount I e.2.1 s : ℚ)))

theorem lbLogInv_closed (env : Env) (cfg : Cfg) (I : Inst) :
    LbClosed env cfg I (LbLogInv env cfg I) where
  save := by
    rintro l p c x ⟨h1, h2, h3, h4⟩
    obtain ⟨-, -, -, f1, f2⟩ := C02_check_feasibility_record env.norm I x
    refine ⟨by simp [LBState.saveFeasible, h1, f1], fun s hs => ?_, h3, fun e he => ?_⟩
    · have hlen : s < (l.saveFeasible
          (getFeasibleScenarios (checkFeasibility env.norm I x))).counter.length := by
        simp [LBState.saveFeasible, h1, f1, hs]
      have h2' := h2 s hs
      have f2' := f2 s hs
      simp only at h2'
      rw [List.getD_eq_getElem _ _ (by simpa [h1] using hs)] at h2'
      rw [List.getElem?_eq_getElem (by simpa [f1] using hs), Option.some.injEq] at f2'
      rw [List.getD_eq_getElem _ _ hlen]
      simp only [LBState.saveFeasible, List.getElem_zipWith]
      rw [h2', f2']
      simp only [satCount, List.countP_append, List.countP_singleton]
      push_cast
      rfl
    · obtain ⟨p', q, e1, e2, e3, e4⟩ := h4 e he
      exact ⟨p', q, e1, e2, e3.trans (List.prefix_append _ _), e4⟩
  bound := by
    rintro l p c x v solve r ⟨h1, h2, ⟨cuts, h3⟩, h4⟩ hr
    obtain ⟨⟨index, i1, i2⟩, -, i3, i4, -⟩ := (deterministicBound_inv (norm := env.norm)
      (argsort := env.argsort) (projection := cfg.projection) (solve := solve) (vLB := v)
      (xUB := some x) h3).1 r.1 r.2 hr
    simp only at h1 h2 h3 h4
    refine ⟨by rw [i3]; exact h1, fun s hs => by rw [i3]; exact h2 s hs, ⟨_, i4⟩, fun e he => ?_⟩
    rcases List.mem_append.1 he with he | he
    · exact h4 e he
    · rw [List.mem_singleton] at he
      subst he
      refine ⟨p, x, rfl, rfl, List.prefix_refl _, index, ?_, i2, fun hp => ?_, fun hp s hs => ?_⟩
      · unfold indexScenarios at i1
        split at i1
        · cases i1; simpa using h1
        · split at i1
          · cases i1; exact length_violationIndex _ _ _
          · cases i1
      · unfold indexScenarios at i1
        rw [hp, if_neg (by decide), if_pos rfl] at i1
        cases i1; rfl
      · unfold indexScenarios at i1
        rw [hp, if_pos rfl] at i1
        cases i1
        rw [← h2 s hs, List.getD_eq_getElem _ _ (by simpa [h1] using hs),
          List.getD_eq_getElem _ _ (by simpa [h1] using hs), List.getElem_map]

theorem lbLogInv_run {env : Env} {cfg : Cfg} {I : Inst} (hclock : Monotone env.clock)
    {rounds fuel : ℕ} {r : Except PyErr (Bool × Gap)} {s : St}
    (h : run env cfg I rounds fuel = .ok (r, s)) : LbLogInv env cfg I (lbv s) := by
  refine run_log (lbLogInv_closed env cfg I) hclock ⟨by simp [LBState.init], fun s hs => ?_,
    ⟨_, lbInit_inv I⟩, by simp⟩ rounds fuel h
  simp [LBState.init, satCount, hs]

/-- **C75.** Whatever the solver answers: every lower-bound problem of a run with
`projection_method="rescaled_max_violation"` is made from the upper-bound solution stored last,
and it contains the scenarios this solution violates least: no selected scenario is violated
more severely than one left out, where the severity is the largest excess of a row divided by
its norm, excesses below 1e-3 counting as 0.  In particular, if a scenario left out is satisfied
up to 1e-3, so are all selected ones. -/
theorem C75_least_violated_selected (env : Env) (cfg : Cfg) (I : Inst) (rounds fuel : ℕ)
    (hclock : Monotone env.clock) (r : Except PyErr (Bool × Gap)) (s : St)
    (hrun : run env cfg I rounds fuel = .ok (r, s))
    (hp : cfg.projection = "rescaled_max_violation")
    (x : Option Vec) (points : List Vec) (sel : List ℕ) (he : (x, points, sel) ∈ s.chosen) :
    ∃ q, x = some q ∧ points.getLast? = some q ∧ points <+: s.points
      ∧ sel.Nodup ∧ (∀ k ∈ sel, k < I.N)
      ∧ ∑ k ∈ sel.toFinset, I.proba k ≥ 1 - I.eps - 1 / 10 ^ 7
      ∧ (∀ k ∈ sel, ∀ t < I.N, t ∉ sel → ∃ v w, IsSeverity env.norm I q k v
          ∧ IsSeverity env.norm I q t w ∧ v ≤ w)
      ∧ ∀ t < I.N, t ∉ sel → (∀ i < I.m, rowExcess I q t i < 1 / 10 ^ 3) →
          ∀ k ∈ sel, ∀ i < I.m, rowExcess I q k i < 1 / 10 ^ 3 := by
  obtain ⟨-, -, -, h4⟩ := lbLogInv_run hclock hrun
  obtain ⟨p, q, e1, e2, e3, index, i1, i2, i3, -⟩ := h4 _ he
  obtain ⟨c1, c2, c3, -⟩ := (C17_selection I env.argsort index i1).1 sel i2
  have hidx := i3 hp
  have hle := selected_le i1 i2
  simp only at e1 e2 e3
  refine ⟨q, e2, by rw [e1]; simp, e3, c1, c2, c3, fun k hk t ht htn => ?_,
    fun t ht htn hsat k hk => ?_⟩
  · refine ⟨index.getD k 0, index.getD t 0, ?_, ?_, hle k hk t ht htn⟩
    · rw [hidx]; exact violationIndex_severity _ _ _ _ (c2 k hk)
    · rw [hidx]; exact violationIndex_severity _ _ _ _ ht
  · have hk1 := violationIndex_severity env.norm I q k (c2 k hk)
    have ht1 := violationIndex_severity env.norm I q t ht
    have h0 := hle k hk t ht htn
    rw [hidx] at h0
    rw [ht1.eq_zero_iff.2 hsat] at h0
    exact hk1.eq_zero_iff.1 (le_antisymm h0 hk1.nonneg)

/-- **C76.** Whatever the solver answers: at every time, also after an exception,
`feasibility_counter` is the number of stored upper-bound solutions that satisfy each scenario
up to 1e-6, and every lower-bound problem of a run with `projection_method="counter"` contains
scenarios satisfied at least as often as any scenario left out. -/
theorem C76_most_satisfied_selected (env : Env) (cfg : Cfg) (I : Inst) (rounds fuel : ℕ)
    (hclock : Monotone env.clock) (r : Except PyErr (Bool × Gap)) (s : St)
    (hrun : run env cfg I rounds fuel = .ok (r, s)) :
    (s.lb.counter.length = I.N ∧ ∀ k < I.N, s.lb.counter[k]? = some (satCount I s.points k : ℚ))
    ∧ (cfg.projection = "counter" → ∀ x points sel, (x, points, sel) ∈ s.chosen →
      points ≠ [] ∧ points <+: s.points ∧ sel.Nodup ∧ (∀ k ∈ sel, k < I.N)
      ∧ ∑ k ∈ sel.toFinset, I.proba k ≥ 1 - I.eps - 1 / 10 ^ 7
      ∧ ∀ k ∈ sel, ∀ t < I.N, t ∉ sel → satCount I points t ≤ satCount I points k) := by
  obtain ⟨h1, h2, -, h4⟩ := lbLogInv_run hclock hrun
  refine ⟨⟨h1, fun k hk => ?_⟩, fun hp x points sel he => ?_⟩
  · have := h2 k hk
    have hk' : k < s.lb.counter.length := by rw [show s.lb.counter.length = I.N from h1]; exact hk
    rw [List.getElem?_eq_getElem hk', Option.some.injEq]
    rw [← List.getD_eq_getElem _ 0 hk']
    exact this
  · obtain ⟨p, q, e1, e2, e3, index, i1, i2, -, i4⟩ := h4 _ he
    obtain ⟨c1, c2, c3, -⟩ := (C17_selection I env.argsort index i1).1 sel i2
    simp only at e1
    refine ⟨by rw [e1]; simp, e3, c1, c2, c3, fun k hk t ht htn => ?_⟩
    have h0 := selected_le i1 i2 k hk t ht htn
    rw [i4 hp k (c2 k hk), i4 hp t ht] at h0
    have : (satCount I points t : ℚ) ≤ satCount I points k := by simpa using h0
    exact_mod_cast this

/-- What the examples look at: points and selections of the lower-bound problems, final
counter. -/
def selLog : PyM (Except PyErr (Bool × Gap) × St) → Option (List (List (List ℚ) × List ℕ) × List ℚ)
  | .error _ => none
  | .ok (_, s) => some (s.chosen.map fun e =>
      (e.2.1.map fun x => [x 0, x 1, x 2], e.2.2), s.lb.counter)

/-- A run with two lower-bound problems.  The first solution takes item 0, which does not fit in
the odd scenarios, so the even ones are selected first; the second takes item 1, after which all
scenarios were satisfied once (and a third solution satisfied all). -/
example : Monotone (exactEnv exNorm 1).clock
    ∧ selLog (run (exactEnv exNorm 1) exCfg exPairs 10 10)
      = some ([([[1, 0, 0]], [0, 2, 1]), ([[1, 0, 0], [0, 1, 0]], [0, 1, 2])], [2, 2, 2, 2]) :=
  ⟨fun a b h => by show ((a : ℕ) : ℚ) * 1 ≤ ((b : ℕ) : ℚ) * 1; simpa using h, by decide +kernel⟩

/-- The same with the violation index: the second problem starts from the odd scenarios. -/
example : selLog (run (exactEnv exNorm 1) { exCfg with projection := "rescaled_max_violation" }
      exPairs 10 10)
      = some ([([[1, 0, 0]], [0, 2, 1]), ([[1, 0, 0], [0, 1, 0]], [1, 3, 0])], [2, 2, 2, 2]) := by
  decide +kernel

/-- The severities of the first solution: scenario 1 is violated by 1 (divided by its norm 4). -/
example : (violationIndex exNorm exPairs fun j => if j = 0 then 1 else 0) = [0, 1 / 4, 0, 1 / 4] := by
  decide +kernel

end Verif.Props
