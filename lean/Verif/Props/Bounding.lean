import Verif.Lemmas.LowerBounder
import Verif.Props.BigM
import Verif.Props.SortingBounds
import Verif.Props.Feasibility

/-!
# C16–C19, C67: pruning, lower-bound selection and model, incumbents, subset costs
-/

open Finset

namespace Verif.Props
open Spec Model

/-! ## Subset costs -/

/-- **C67.** With exact answers, `subset_cost` of a list of scenarios returns at most what it
returns for any list contained in it (so it does not depend on order or repetition), whatever
solutions the solver picks; if the smaller problem has no solution, neither has the larger
one. -/
theorem C67_subset_cost_antitone (I : Inst) (solve solve' : GModel → GResult)
    (hs : ∀ g, GResult.Exact g (solve g)) (hs' : ∀ g, GResult.Exact g (solve' g))
    (l l' : List ℕ) (hsub : ∀ s ∈ l, s ∈ l') :
    (∀ v x v' x', subsetCost I solve l = .ok (v, x) → subsetCost I solve' l' = .ok (v', x') →
      v' ≤ v ∧ ((∀ s ∈ l', s ∈ l) → v' = v))
    ∧ (subsetCost I solve l = .error .attributeError →
        subsetCost I solve' l' = .error .attributeError) := by
  have h1 := subsetCost_spec (I := I) (ss := l) (hs _)
  have h2 := subsetCost_spec (I := I) (ss := l') (hs' _)
  constructor
  · intro v x v' x' hv hv'
    have d1 := h1.1 v x hv
    have d2 := h2.1 v' x' hv'
    have key : v' ≤ v := by
      rw [← d2.1.2.2]
      exact d1.2 x' d2.1.1 fun s hs => d2.1.2.1 s (hsub s hs)
    refine ⟨key, fun hback => le_antisymm key ?_⟩
    rw [← d1.1.2.2]
    exact d2.2 x d1.1.1 fun s hs => d1.1.2.1 s (hback s hs)
  · intro he
    refine h2.2.2 fun ⟨x, hx1, hx2⟩ => ?_
    obtain ⟨v, y, hvy⟩ := h1.2.1 ⟨x, hx1, fun s hs => hx2 s (hsub s hs)⟩
    rw [hvy] at he; cases he

/-- The costs computed for a partition are the optima of its parts. -/
theorem partitionCost_spec {I : Inst} {solve : ℕ → GModel → GResult}
    (hs : ∀ k g, GResult.Exact g (solve k g)) {P : List (List ℕ)} {costs : List ℚ}
    {sols : List Vec} (h : partitionCost I solve P = .ok (costs, sols)) :
    PartCosts I P costs sols := by
  unfold partitionCost at h
  cases hm : P.zipIdx.mapM fun p => subsetCost I (solve p.2) p.1 with
  | error e => rw [hm] at h; cases h
  | ok rs =>
    rw [hm] at h; cases h
    obtain ⟨hl, hk⟩ := mapM_inv _ _ _ hm
    rw [List.length_zipIdx] at hl
    refine ⟨by simpa using hl, by simpa using hl, fun c hc => ?_⟩
    have hc' : c < rs.length := by omega
    have h1 := hk c (by simpa using hc) hc'
    rw [List.getElem_zipIdx] at h1
    have h2 := (subsetCost_spec (I := I) (hs _ _)).1 rs[c].1 rs[c].2 h1
    rw [List.getD_eq_getElem _ _ hc, List.getD_eq_getElem _ _ (by simpa using hc'),
      List.getD_eq_getElem _ _ (by simpa using hc'), List.getElem_map, List.getElem_map]
    exact h2

theorem zipIdx_mapM_ok {α β : Type} (l : List α) (f : α × ℕ → PyM β)
    (h : ∀ p ∈ l.zipIdx, ∃ b, f p = .ok b) : ∃ r, l.zipIdx.mapM f = .ok r := by
  generalize l.zipIdx = zs at h
  induction zs with
  | nil => exact ⟨[], rfl⟩
  | cons p zs ih =>
    obtain ⟨b, hb⟩ := h p (by simp)
    obtain ⟨r, hr⟩ := ih fun q hq => h q (List.mem_cons_of_mem _ hq)
    refine ⟨b :: r, ?_⟩
    rw [List.mapM_cons, hb]
    simp only [bind, Except.bind]
    rw [hr]; rfl

/-- Costs exist if every part's problem has a point. -/
theorem partitionCost_ok {I : Inst} {solve : ℕ → GModel → GResult}
    (hs : ∀ k g, GResult.Exact g (solve k g)) {P : List (List ℕ)}
    (hf : ∀ p ∈ P, ∃ x, InX I x ∧ SatAll I p x) :
    ∃ costs sols, partitionCost I solve P = .ok (costs, sols) := by
  obtain ⟨rs, hrs⟩ := zipIdx_mapM_ok P (fun p => subsetCost I (solve p.2) p.1) (by
    intro p hp
    have hpP : p.1 ∈ P := by
      obtain ⟨i, hi, rfl⟩ := List.mem_iff_getElem.1 hp
      rw [List.getElem_zipIdx]; exact List.getElem_mem _
    obtain ⟨v, x, h⟩ := (subsetCost_spec (I := I) (ss := p.1) (hs p.2 _)).2.1 (hf _ hpP)
    exact ⟨_, h⟩)
  exact ⟨_, _, by unfold partitionCost; rw [hrs]; rfl⟩

/-- The single-scenario costs are the optima of the scenarios. -/
theorem allScenarioCosts_spec {I : Inst} {solve : ℕ → GModel → GResult}
    (hs : ∀ k g, GResult.Exact g (solve k g)) {costs : List ℚ}
    (h : allScenarioCosts I solve = .ok costs) : ScenarioCosts I costs := by
  unfold allScenarioCosts scenarioCosts at h
  obtain ⟨hl, hk⟩ := mapM_inv _ _ _ h
  rw [List.length_zipIdx, List.length_range] at hl
  refine ⟨hl, fun s hs' => ?_⟩
  have hs2 : s < costs.length := by omega
  have h1 := hk s (by simpa using hs') hs2
  rw [List.getElem_zipIdx, List.getElem_range] at h1
  simp only at h1
  rw [List.getD_eq_getElem _ _ hs2]
  cases hc : subsetCost I (solve (0 + s)) [s] with
  | error e => rw [hc] at h1; cases h1
  | ok r =>
    rw [hc] at h1
    have : r.1 = costs[s] := Except.ok.inj h1
    rw [← this]
    exact ⟨r.2, (subsetCost_spec (I := I) (hs _ _)).1 r.1 r.2 hc⟩

theorem allScenarioCosts_ok {I : Inst} {solve : ℕ → GModel → GResult}
    (hs : ∀ k g, GResult.Exact g (solve k g))
    (hf : ∀ s < I.N, ∃ x, InX I x ∧ SatAll I [s] x) :
    ∃ costs, allScenarioCosts I solve = .ok costs := by
  refine zipIdx_mapM_ok _ _ ?_
  intro p hp
  have hpP : p.1 < I.N := by
    obtain ⟨i, hi, rfl⟩ := List.mem_iff_getElem.1 hp
    rw [List.getElem_zipIdx, List.getElem_range]
    simpa using hi
  obtain ⟨v, x, h⟩ := (subsetCost_spec (I := I) (ss := [p.1]) (hs p.2 _)).2.1 (hf _ hpP)
  exact ⟨v, by rw [h]; rfl⟩

/-! ## Pruning -/

/-- **C16.** Fixing to 0 the indicators of the subsets with cost at most `vLB - 1e-3` only
removes assignments with objective at most `vLB - 1e-3`, in the indicator model and in every
big-M model equivalent to it (C48); before any lower bound is known nothing is fixed. -/
theorem C16_pruning_safe (I : Inst) (P : List (List ℕ)) (hne : ∀ p ∈ P, p ≠ []) (D : PartData)
    (hD : loadPartition I P.length P = .ok D) (costs : List ℚ) (sols : List Vec)
    (hc : PartCosts I P costs sols) (vLB : WithBot ℚ) (bigM : Option (List (List ℚ)))
    (hM : ∀ Ms, bigM = some Ms → SameSolutions (partCI I D) Ms) (zStart : List ℕ)
    (hz : ∀ s ∈ zStart, s < P.length) (gap : ℚ) :
    ∃ g g', buildCCLP (partCI I D) bigM zStart [] gap = .ok g
      ∧ buildCCLP (partCI I D) bigM zStart (pruneIndices costs vLB) gap = .ok g'
      ∧ g'.obj = g.obj ∧ g'.maximize = g.maximize
      ∧ (∀ ρ, g'.Feas ρ → g.Feas ρ)
      ∧ ∀ ρ, g.Feas ρ → (∀ v : ℚ, vLB = v → v - 1 / 10 ^ 3 < obj I fun j => ρ (.x j)) →
          g'.Feas ρ := by
  have hnb : (partCI I D).nbScen = P.length := by
    rw [loadPartition_ok I P hne] at hD; cases hD; rfl
  have hpr : ∀ c ∈ pruneIndices costs vLB, c < P.length := by
    intro c hcm
    unfold pruneIndices at hcm
    cases vLB with
    | bot => simp at hcm
    | coe v =>
      have := List.mem_range.1 (List.mem_filter.1 hcm).1
      rw [hc.1] at this; exact this
  -- the indicator model
  have hind : ∃ g g', buildCCLP (partCI I D) none zStart [] gap = .ok g
      ∧ buildCCLP (partCI I D) none zStart (pruneIndices costs vLB) gap = .ok g'
      ∧ g'.obj = g.obj ∧ g'.maximize = g.maximize
      ∧ (∀ ρ, g'.Feas ρ → g.Feas ρ)
      ∧ ∀ ρ, g.Feas ρ → (∀ v : ℚ, vLB = v → v - 1 / 10 ^ 3 < obj I fun j => ρ (.x j)) →
          g'.Feas ρ := by
    obtain ⟨g, hg, ho, hx, -, hf⟩ := buildCCLP_ok (partCI I D) none (by rintro _ ⟨⟩) zStart [] gap
      (by rw [hnb]; exact hz) (by simp)
    obtain ⟨g', hg', ho', hx', -, hf'⟩ := buildCCLP_ok (partCI I D) none (by rintro _ ⟨⟩) zStart
      (pruneIndices costs vLB) gap (by rw [hnb]; exact hz) (by rw [hnb]; exact hpr)
    refine ⟨g, g', hg, hg', ho'.trans ho.symm, hx'.trans hx.symm, fun ρ h => ?_, fun ρ h hlt => ?_⟩
    · rw [hf'] at h; rw [hf]
      exact ⟨⟨h.1.1, h.1.2.1, h.1.2.2.1, by simp⟩, h.2⟩
    · rw [hf] at h; rw [hf']
      refine ⟨⟨h.1.1, h.1.2.1, h.1.2.2.1, fun c hcm => ?_⟩, h.2⟩
      have hcP := hpr c hcm
      rcases h.1.2.1 c (by rw [hnb]; exact hcP) with h0 | h1
      · exact h0
      · exfalso
        have hrows := h.2 c (by rw [hnb]; exact hcP) h1
        rw [(C10_subset_rows I P hne D hD c hcP).2] at hrows
        have hle := (hc.2.2 c hcP).2 _ h.1.1 hrows
        unfold pruneIndices at hcm
        cases vLB with
        | bot => simp at hcm
        | coe v =>
          have h3 := (List.mem_filter.1 hcm).2
          simp only [decide_eq_true_eq] at h3
          have h4 := hlt v rfl
          linarith
  cases bigM with
  | none => exact hind
  | some Ms =>
    obtain ⟨g, g', hg, hg', ho, -, h1, h2⟩ := hind
    obtain ⟨k, k1, hk, hk1, ko, kx, -, hkf⟩ := hM Ms rfl zStart [] gap (by rw [hnb]; exact hz)
      (by simp)
    obtain ⟨k', k1', hk', hk1', ko', kx', -, hkf'⟩ := hM Ms rfl zStart (pruneIndices costs vLB) gap
      (by rw [hnb]; exact hz) (by rw [hnb]; exact hpr)
    rw [hg] at hk1; cases hk1
    rw [hg'] at hk1'; cases hk1'
    refine ⟨k, k', hk, hk', by rw [ko, ko', ho], kx'.trans kx.symm, fun ρ h => ?_, fun ρ h hlt => ?_⟩
    · exact (hkf ρ).2 (h1 ρ ((hkf' ρ).1 h))
    · exact (hkf' ρ).2 (h2 ρ ((hkf ρ).1 h) hlt)

/-! ## Selection of scenarios -/

/-- **C17 (selection).** The selected scenarios are distinct, their total probability reaches
`1 - epsilon - 1e-7`, they are a prefix of the ordering and no shorter non-empty prefix
reaches the target. `None` is only returned if no prefix does. -/
theorem C17_selection (I : Inst) (argsort : Argsort) (index : List ℚ) (hi : index.length = I.N) :
    (∀ sel, selectedScenarios argsort I index = .ok (some sel) →
      sel.Nodup ∧ (∀ s ∈ sel, s < I.N)
      ∧ ∑ s ∈ sel.toFinset, I.proba s ≥ 1 - I.eps - 1 / 10 ^ 7
      ∧ ∃ k, 0 < k ∧ k ≤ I.N ∧ sel = (argsort.run index).take k
        ∧ ∀ e, 0 < e → e < k →
          (((argsort.run index).take e).map I.proba).sum < 1 - I.eps - 1 / 10 ^ 7)
    ∧ (selectedScenarios argsort I index = .ok none →
        ∀ e, 0 < e → e ≤ I.N →
          (((argsort.run index).take e).map I.proba).sum < 1 - I.eps - 1 / 10 ^ 7)
    ∧ ∀ e, selectedScenarios argsort I index ≠ .error e := by
  obtain ⟨hperm, -⟩ := argsort.spec index
  rw [hi] at hperm
  have hlen : (argsort.run index).length = I.N := by rw [hperm.length_eq, List.length_range]
  have hrun : selectedScenarios argsort I index
      = .ok ((selectLoop I.proba I.eps (argsort.run index) 0 0).map
          fun k => (argsort.run index).take k) := by
    unfold selectedScenarios
    rw [if_neg (by omega)]
  rw [hrun]
  have hnd : (argsort.run index).Nodup := hperm.nodup_iff.2 List.nodup_range
  refine ⟨fun sel hsel => ?_, fun hno e he0 he => ?_, fun e he => by cases he⟩
  · cases hl : selectLoop I.proba I.eps (argsort.run index) 0 0 with
    | none => rw [hl] at hsel; cases hsel
    | some r =>
      rw [hl] at hsel
      obtain ⟨d, h1, h2, h3, h4⟩ := selectLoop_some _ hl
      have hsel' : sel = (argsort.run index).take (d + 1) := by
        cases hsel
        rw [show r = d + 1 by omega]
      have hnds : sel.Nodup := by
        rw [hsel']; exact hnd.sublist (List.take_sublist _ _)
      refine ⟨hnds, ?_, ?_, d + 1, by omega, by omega, hsel', ?_⟩
      · intro s hs
        rw [hsel'] at hs
        exact List.mem_range.1 (hperm.mem_iff.1 (List.mem_of_mem_take hs))
      · rw [List.sum_toFinset _ hnds, hsel']
        simpa using h3
      · intro e he0 he
        have := h4 (e - 1) (by omega)
        rw [show e - 1 + 1 = e by omega, zero_add] at this
        exact this
  · cases hl : selectLoop I.proba I.eps (argsort.run index) 0 0 with
    | some r => rw [hl] at hno; cases hno
    | none =>
      have := selectLoop_none _ hl (e - 1) (by omega)
      rw [show e - 1 + 1 = e by omega, zero_add] at this
      exact this

/-- For probabilities summing to 1 and `epsilon ≥ 0` some scenarios are always selected. -/
theorem C17_selection_exists (I : Inst) (argsort : Argsort) (index : List ℚ)
    (hi : index.length = I.N) (hN : 0 < I.N) (hsum : ∑ s ∈ range I.N, I.proba s = 1)
    (heps : 0 ≤ I.eps) : ∃ sel, selectedScenarios argsort I index = .ok (some sel) := by
  obtain ⟨-, h2, h3⟩ := C17_selection I argsort index hi
  cases h : selectedScenarios argsort I index with
  | error e => exact absurd h (h3 e)
  | ok o =>
    cases o with
    | some sel => exact ⟨sel, rfl⟩
    | none =>
      exfalso
      have := h2 h I.N hN le_rfl
      obtain ⟨hperm, -⟩ := argsort.spec index
      rw [hi] at hperm
      rw [List.take_of_length_le (by rw [hperm.length_eq, List.length_range]),
        (hperm.map I.proba).sum_eq, ← list_sum_range, hsum] at this
      linarith [show (0 : ℚ) < 1 / 10 ^ 7 by norm_num]

/-- **C17 (violated probability).** For arbitrary non-negative probabilities summing to 1, a
point satisfying all selected scenarios violates scenarios of total probability at most
`epsilon + 1e-7`. -/
theorem C17_violation_within_tolerance (I : Inst) (argsort : Argsort) (index : List ℚ)
    (hi : index.length = I.N) (hp : ∀ s < I.N, 0 ≤ I.proba s)
    (hsum : ∑ s ∈ range I.N, I.proba s = 1) (sel : List ℕ)
    (hsel : selectedScenarios argsort I index = .ok (some sel)) (x : Vec)
    (hx : SatAll I sel x) : ∑ s ∈ viol I x, I.proba s ≤ I.eps + 1 / 10 ^ 7 := by
  obtain ⟨-, h2, h3, -⟩ := (C17_selection I argsort index hi).1 sel hsel
  have hdis : Disjoint (viol I x) sel.toFinset := by
    rw [Finset.disjoint_left]
    intro s hs hm
    exact (Finset.mem_filter.1 hs).2 (hx s (List.mem_toFinset.1 hm))
  have hsub : viol I x ∪ sel.toFinset ⊆ range I.N := by
    intro s hs
    rcases Finset.mem_union.1 hs with h | h
    · exact (Finset.mem_filter.1 h).1
    · exact Finset.mem_range.2 (h2 s (List.mem_toFinset.1 h))
  have := Finset.sum_le_sum_of_subset_of_nonneg hsub
    (fun s hs _ => hp s (Finset.mem_range.1 hs))
  rw [Finset.sum_union hdis, hsum] at this
  linarith

/-- The tolerance `1e-7` of the selection does not reach the next scenario: the fractional part
of `epsilon * N` stays below `1 - N * 1e-7`. -/
def TolOk (I : Inst) : Prop := (I.N : ℚ) * (I.eps + 1 / 10 ^ 7) < (⌊I.eps * I.N⌋₊ : ℚ) + 1

instance (I : Inst) : Decidable (TolOk I) := by unfold TolOk; infer_instance

theorem equi_sum {I : Inst} (hE : Equi I) : ∑ s ∈ range I.N, I.proba s = 1 := by
  have hN : (0 : ℚ) < I.N := by exact_mod_cast hE.1
  rw [Finset.sum_congr rfl fun s hs => hE.2 s (Finset.mem_range.1 hs)]
  simp [hN.ne']

theorem equi_nonneg {I : Inst} (hE : Equi I) : ∀ s < I.N, 0 ≤ I.proba s := fun s hs => by
  rw [hE.2 s hs]; positivity

/-- **C17 (chance constraint).** For equiprobable scenarios a point satisfying all selected
scenarios satisfies the chance constraint, provided the tolerance does not reach the next
scenario; without this proviso the claim is false (`C17_tolerance_counterexample`). -/
theorem C17_chance_partial (I : Inst) (argsort : Argsort) (index : List ℚ)
    (hi : index.length = I.N) (hE : Equi I) (heps : 0 ≤ I.eps) (htol : TolOk I) (sel : List ℕ)
    (hsel : selectedScenarios argsort I index = .ok (some sel)) (x : Vec)
    (hx : SatAll I sel x) : Chance I x := by
  have h := C17_violation_within_tolerance I argsort index hi (equi_nonneg hE) (equi_sum hE) sel hsel
    x hx
  have hN : (0 : ℚ) < I.N := by exact_mod_cast hE.1
  have hpr : ∑ s ∈ viol I x, I.proba s = ∑ _s ∈ viol I x, 1 / (I.N : ℚ) :=
    Finset.sum_congr rfl fun s hs =>
      hE.2 s (Finset.mem_range.1 (Finset.mem_filter.1 hs).1)
  rw [hpr] at h
  simp only [Finset.sum_const, nsmul_eq_mul] at h
  rw [chance_iff_card I hE heps]
  have h2 : ((viol I x).card : ℚ) ≤ I.N * (I.eps + 1 / 10 ^ 7) := by
    have := mul_le_mul_of_nonneg_left h hN.le
    have e : (I.N : ℚ) * ((viol I x).card * (1 / I.N)) = (viol I x).card := by field_simp
    rw [e] at this
    exact this
  have h3 : ((viol I x).card : ℚ) < (⌊I.eps * I.N⌋₊ : ℚ) + 1 := lt_of_le_of_lt h2 htol
  have h4 : (viol I x).card < ⌊I.eps * I.N⌋₊ + 1 := by exact_mod_cast h3
  unfold kmax
  omega

/-- Whole numbers of tolerated scenarios: the proviso holds below ten million scenarios. -/
theorem tolOk_of_integer (I : Inst) (k : ℕ) (hk : I.eps * I.N = k) (hN : I.N < 10 ^ 7) :
    TolOk I := by
  unfold TolOk
  rw [hk, Nat.floor_natCast]
  have h1 : (I.N : ℚ) < 10 ^ 7 := by exact_mod_cast hN
  have : (I.N : ℚ) * (I.eps + 1 / 10 ^ 7) = k + I.N / 10 ^ 7 := by
    rw [← hk]; ring
  rw [this]
  have : (I.N : ℚ) / 10 ^ 7 < 1 := by rw [div_lt_one (by norm_num)]; exact h1
  linarith

/-- Two scenarios, `epsilon = 0.49999995`; the item is too heavy in scenario 1 only. -/
def exTol : Inst :=
  { n := 1, N := 2, m := 1, A := fun s _ _ => if s = 0 then 0 else 2, b := fun _ _ => 1
    c := fun _ => 1, proba := fun _ => 1 / 2, eps := 49999995 / 10 ^ 8, cont := false }

/-- **C17 is false without the proviso**: one scenario is selected although both have to
be satisfied. -/
theorem C17_tolerance_counterexample : Equi exTol ∧ 0 ≤ exTol.eps ∧ exTol.eps < 1
    ∧ selectedScenarios Argsort.default exTol [0, 0] = .ok (some [0])
    ∧ (InX exTol fun _ => 1) ∧ (SatAll exTol [0] fun _ => 1) ∧ ¬ Chance exTol fun _ => 1 := by
  refine ⟨⟨by decide, fun s _ => by norm_num [exTol]⟩, by norm_num [exTol], by norm_num [exTol],
    ?_, fun j _ => ?_, by decide +kernel, ?_⟩
  · have : selectedScenarios Argsort.default exTol [0, 0]
        = .ok ((selectLoop exTol.proba exTol.eps (Argsort.default.run [0, 0]) 0 0).map
          fun k => (Argsort.default.run [0, 0]).take k) := rfl
    rw [this]
    congr 1
    decide +kernel
  · simp [exTol]
  · unfold Chance; decide +kernel

/-! ## The incremental lower-bound model -/

/-- One use of the lower bounder by the main loop: `save_feasible_scenarios(feasible)`, then
`deterministic_bound(xUB)` with the attribute `vLB` set. -/
structure LBCall where
  feasible : List Bool
  vLB : WithBot ℚ
  xUB : Option Vec
  solve : GModel → GResult

/-- A history of calls. -/
def lbRun (norm : Norm) (argsort : Argsort) (I : Inst) (projection : String) :
    LBState → List LBCall → PyM LBState
  | st, [] => .ok st
  | st, c :: cs => do
    let r ← deterministicBound norm argsort I projection c.solve (st.saveFeasible c.feasible) c.vLB
      c.xUB
    lbRun norm argsort I projection r.1 cs

/-- One call. -/
theorem deterministicBound_inv {norm : Norm} {argsort : Argsort} {I : Inst} {projection : String}
    {solve : GModel → GResult} {st : LBState} {vLB : WithBot ℚ} {xUB : Option Vec}
    {cuts : List ℚ} (h : DetInv (instCI I) st.deter st.scenarios cuts) :
    (∀ st' out, deterministicBound norm argsort I projection solve st vLB xUB = .ok (st', out) →
      (∃ index, indexScenarios norm I projection st.counter xUB = .ok index
        ∧ selectedScenarios argsort I index = .ok (some st'.scenarios))
      ∧ st'.prevVLB = vLB ∧ st'.counter = st.counter
      ∧ DetInv (instCI I) st'.deter st'.scenarios (cuts ++ keptCuts st.prevVLB [vLB])
      ∧ readDeter (solve st'.deter.g) = .ok out)
    ∧ ∀ e, deterministicBound norm argsort I projection solve st vLB xUB = .error e →
      e ≠ .keyError ∧ e ≠ .gurobiError := by
  unfold deterministicBound
  cases hi : indexScenarios norm I projection st.counter xUB with
  | error e =>
    refine ⟨fun st' out h' => (by cases h'), fun e' he => ?_⟩
    simp only [bind, Except.bind] at he
    cases he
    unfold indexScenarios at hi
    repeat' split at hi
    all_goals cases hi
    all_goals exact ⟨by simp, by simp⟩
  | ok index =>
    simp only [bind, Except.bind]
    cases hs : selectedScenarios argsort I index with
    | error e =>
      refine ⟨fun st' out h' => (by cases h'), fun e' he => ?_⟩
      cases he
      unfold selectedScenarios at hs
      split at hs
      · cases hs; exact ⟨by simp, by simp⟩
      · cases hs
    | ok o =>
      cases o with
      | none =>
        refine ⟨fun st' out h' => (by cases h'), fun e' he => ?_⟩
        cases he; exact ⟨by simp, by simp⟩
      | some sel =>
        have hnd : sel.Nodup := by
          unfold selectedScenarios at hs
          split at hs
          · cases hs
          · obtain ⟨hperm, -⟩ := argsort.spec index
            cases hl : selectLoop I.proba I.eps (argsort.run index) 0 0 with
            | none => simp [hl] at hs
            | some r =>
              simp only [hl, Option.map_some, Except.ok.injEq, Option.some.injEq] at hs
              rw [← hs]
              exact (hperm.nodup_iff.2 List.nodup_range).sublist (List.take_sublist _ _)
        obtain ⟨st1, h1, h2, h3, h4, h5⟩ := updateDeter_spec (vLB := vLB) h hnd
        simp only [solveDeter]
        rw [h1]
        simp only [bind, Except.bind]
        cases ho : optimize (solve st1.deter.g) with
        | error e =>
          refine ⟨fun st' out h' => (by cases h'), fun e' he => ?_⟩
          cases he
          unfold optimize at ho
          split at ho
          · cases ho; exact ⟨by simp, by simp⟩
          · cases ho
        | ok r =>
          have hr : r = solve st1.deter.g := by
            unfold optimize at ho
            split at ho
            · cases ho
            · cases ho; rfl
          cases hread : readDeter r with
          | error e =>
            simp only [hread]
            refine ⟨fun st' out h' => (by cases h'), fun e' he => ?_⟩
            cases he
            unfold readDeter at hread
            split at hread
            · cases hread
            · cases hso : r.sol with
              | none =>
                simp only [getX, getSol, hso, bind, Except.bind] at hread
                cases hread; exact ⟨by simp, by simp⟩
              | some ρ =>
                simp only [getX, getSol, getObjVal, hso, bind, Except.bind, pure, Except.pure] at hread
                cases hread
          | ok out =>
            simp only [hread]
            refine ⟨fun st' out' h' => ?_, fun e' he => by cases he⟩
            cases h'
            refine ⟨⟨index, rfl, by rw [h2]; exact hs⟩, h3, h4, by rw [h2]; exact h5, ?_⟩
            rw [← hr]; exact hread

/-- The last element of the history of `vLB` values decides whether the next cut is kept. -/
theorem lbRun_inv {norm : Norm} {argsort : Argsort} {I : Inst} {projection : String}
    (calls : List LBCall) : ∀ {st : LBState} {cuts : List ℚ},
    DetInv (instCI I) st.deter st.scenarios cuts →
    (∀ st', lbRun norm argsort I projection st calls = .ok st' →
      DetInv (instCI I) st'.deter st'.scenarios
        (cuts ++ keptCuts st.prevVLB (calls.map LBCall.vLB)))
    ∧ ∀ e, lbRun norm argsort I projection st calls = .error e →
      e ≠ .keyError ∧ e ≠ .gurobiError := by
  induction calls with
  | nil =>
    intro st cuts h
    refine ⟨fun st' h' => ?_, fun e he => by cases he⟩
    cases h'; simpa [keptCuts] using h
  | cons c cs ih =>
    intro st cuts h
    have hstep := deterministicBound_inv (norm := norm) (argsort := argsort)
      (projection := projection) (solve := c.solve) (vLB := c.vLB) (xUB := c.xUB)
      (st := st.saveFeasible c.feasible) h
    unfold lbRun
    cases hd : deterministicBound norm argsort I projection c.solve (st.saveFeasible c.feasible)
        c.vLB c.xUB with
    | error e =>
      refine ⟨fun st' h' => (by cases h'), fun e' he => ?_⟩
      cases he; exact hstep.2 e hd
    | ok r =>
      obtain ⟨-, h2, -, h4, -⟩ := hstep.1 r.1 r.2 hd
      have := ih h4
      simp only [bind, Except.bind]
      refine ⟨fun st' h' => ?_, this.2⟩
      have h5 := this.1 st' h'
      rw [h2, List.append_assoc] at h5
      have : keptCuts (st.saveFeasible c.feasible).prevVLB [c.vLB] ++
          keptCuts c.vLB (cs.map LBCall.vLB)
          = keptCuts st.prevVLB ((c :: cs).map LBCall.vLB) := by
        simp only [List.map_cons, keptCuts, List.append_nil]
        rfl
      rw [this] at h5
      exact h5

/-- **C18.** After any history of calls, the constraints of the persistent model are exactly
(each once) the rows of the scenarios selected in the last call and one cut `objective >= v`
for every finite `vLB` passed that is at least the previously passed one (the first is compared
with -1e6).  Updating the model never raises `KeyError` or `GurobiError`. -/
theorem C18_incremental_model (norm : Norm) (argsort : Argsort) (I : Inst) (projection : String)
    (calls : List LBCall) :
    (∀ st, lbRun norm argsort I projection (LBState.init I) calls = .ok st →
      (st.deter.g.constrs.map Prod.snd).Perm
        (st.scenarios.flatMap (rowsC (instCI I))
          ++ (keptCuts ((-(10 ^ 6) : ℚ) : WithBot ℚ) (calls.map LBCall.vLB)).map (cutC (instCI I)))
      ∧ st.deter.g.obj = objExpr (instCI I) ∧ st.deter.g.maximize = true
      ∧ ∀ ρ, st.deter.g.Feas ρ ↔ InX I (fun j => ρ (.x j))
          ∧ SatAll I st.scenarios (fun j => ρ (.x j))
          ∧ ∀ v ∈ keptCuts ((-(10 ^ 6) : ℚ) : WithBot ℚ) (calls.map LBCall.vLB),
              v ≤ obj I fun j => ρ (.x j))
    ∧ ∀ e, lbRun norm argsort I projection (LBState.init I) calls = .error e →
      e ≠ .keyError ∧ e ≠ .gurobiError := by
  have h := lbRun_inv (norm := norm) (argsort := argsort) (projection := projection) calls
    (lbInit_inv I)
  refine ⟨fun st hst => ?_, h.2⟩
  have h1 := h.1 st hst
  rw [List.nil_append] at h1
  exact ⟨h1.constrs, h1.obj, h1.maximize, fun ρ => h1.feas ρ⟩

/-- The scenarios in the model are those selected in the last call. -/
theorem C18_last_selection (norm : Norm) (argsort : Argsort) (I : Inst) (projection : String)
    (calls : List LBCall) (c : LBCall) (st : LBState)
    (h : lbRun norm argsort I projection (LBState.init I) (calls ++ [c]) = .ok st) :
    ∃ st0 index, lbRun norm argsort I projection (LBState.init I) calls = .ok st0
      ∧ indexScenarios norm I projection (st0.saveFeasible c.feasible).counter c.xUB = .ok index
      ∧ selectedScenarios argsort I index = .ok (some st.scenarios) := by
  have gen : ∀ (calls : List LBCall) (s : LBState) (cuts : List ℚ),
      DetInv (instCI I) s.deter s.scenarios cuts →
      lbRun norm argsort I projection s (calls ++ [c]) = .ok st →
      ∃ st0 index, lbRun norm argsort I projection s calls = .ok st0
      ∧ indexScenarios norm I projection (st0.saveFeasible c.feasible).counter c.xUB = .ok index
      ∧ selectedScenarios argsort I index = .ok (some st.scenarios) := by
    intro calls
    induction calls with
    | nil =>
      intro s cuts hs hrun
      unfold lbRun at hrun
      have hstep := deterministicBound_inv (norm := norm) (argsort := argsort)
        (projection := projection) (solve := c.solve) (vLB := c.vLB) (xUB := c.xUB)
        (st := s.saveFeasible c.feasible) hs
      cases hd : deterministicBound norm argsort I projection c.solve (s.saveFeasible c.feasible)
          c.vLB c.xUB with
      | error e => simp only [List.nil_append, hd, bind, Except.bind] at hrun; cases hrun
      | ok r =>
        simp only [List.nil_append, hd, bind, Except.bind, lbRun] at hrun
        cases hrun
        obtain ⟨⟨index, h1, h2⟩, -⟩ := hstep.1 r.1 r.2 hd
        exact ⟨s, index, rfl, h1, h2⟩
    | cons d ds ih =>
      intro s cuts hs hrun
      have hstep := deterministicBound_inv (norm := norm) (argsort := argsort)
        (projection := projection) (solve := d.solve) (vLB := d.vLB) (xUB := d.xUB)
        (st := s.saveFeasible d.feasible) hs
      rw [List.cons_append] at hrun
      unfold lbRun at hrun
      cases hd : deterministicBound norm argsort I projection d.solve (s.saveFeasible d.feasible)
          d.vLB d.xUB with
      | error e => simp only [hd, bind, Except.bind] at hrun; cases hrun
      | ok r =>
        simp only [hd, bind, Except.bind] at hrun
        obtain ⟨-, -, -, h4, -⟩ := hstep.1 r.1 r.2 hd
        obtain ⟨st0, index, h1, h2⟩ := ih r.1 _ h4 hrun
        refine ⟨st0, index, ?_, h2⟩
        unfold lbRun
        simp only [hd, bind, Except.bind]
        exact h1
  exact gen calls _ _ (lbInit_inv I) h

/-! ## Incumbents -/

/-- A candidate that may replace the lower bound: accepted by the feasibility check (at most
`epsilon * N` scenarios violated by more than 1e-6) and objective between `vLB + 1e-8` and
`vUB`. -/
def Admissible (I : Inst) (vUB : WithTop ℚ) (vLB : WithBot ℚ) (x : Vec) : Prop :=
  ((violBy I (1 / 10 ^ 6) x).card : ℚ) ≤ I.eps * I.N ∧ (obj I x : WithTop ℚ) ≤ vUB
    ∧ ∀ l : ℚ, vLB = l → l + 1 / 10 ^ 8 ≤ obj I x

theorem incumbent_test (norm : Norm) (I : Inst) (vUB : WithTop ℚ) (vLB : WithBot ℚ) (x : Vec) :
    (isImproving vUB vLB (dot I.n x I.c) && (isFeasible norm I x).feasible) = true
      ↔ Admissible I vUB vLB x := by
  have hd : dot I.n x I.c = obj I x := Finset.sum_congr rfl fun j _ => mul_comm _ _
  have hf : (isFeasible norm I x).feasible = true
      ↔ ((violBy I (1 / 10 ^ 6) x).card : ℚ) ≤ I.eps * I.N := by
    have h1 : (isFeasible norm I x).feasible
        = decide (((isFeasible norm I x).nbInf : ℚ) ≤ I.eps * I.N) := rfl
    rw [h1, nbInf_eq, decide_eq_true_eq]
    rw [show feasTol = 1 / 10 ^ 6 by norm_num [feasTol]]
  rw [hd, Bool.and_eq_true, hf]
  unfold isImproving Admissible
  cases vLB with
  | bot =>
    simp only [Bool.and_true, decide_eq_true_eq]
    constructor
    · rintro ⟨h1, h2⟩; exact ⟨h2, h1, by intro l hl; cases hl⟩
    · rintro ⟨h1, h2, -⟩; exact ⟨h2, h1⟩
  | coe l =>
    simp only [Bool.and_eq_true, decide_eq_true_eq]
    constructor
    · rintro ⟨⟨h1, h2⟩, h3⟩
      exact ⟨h3, h1, fun l' hl => by rw [WithBot.coe_inj] at hl; rw [← hl]; exact h2⟩
    · rintro ⟨h1, h2, h3⟩
      exact ⟨⟨h2, h3 l rfl⟩, h1⟩

/-- **C19.** `incumbent_bound` returns an admissible candidate with the largest objective of all
admissible candidates, and its objective; it reports no improvement exactly when no candidate
is admissible. -/
theorem C19_best_incumbent (norm : Norm) (argsort : Argsort) (I : Inst) (cands : List Vec)
    (vUB : WithTop ℚ) (vLB : WithBot ℚ) :
    (∀ x v, incumbentBound norm argsort I cands vUB vLB = some (x, v) →
      x ∈ cands ∧ v = obj I x ∧ Admissible I vUB vLB x
      ∧ ∀ y ∈ cands, Admissible I vUB vLB y → obj I y ≤ v)
    ∧ (incumbentBound norm argsort I cands vUB vLB = none
        ↔ ∀ y ∈ cands, ¬ Admissible I vUB vLB y) := by
  have hd : ∀ x : Vec, dot I.n x I.c = obj I x := fun x =>
    Finset.sum_congr rfl fun j _ => mul_comm _ _
  have key : ∀ l : List ℕ, (∀ i ∈ l, i < cands.length) →
      l.Pairwise (fun a b => obj I (cands.getD b fun _ => 0) ≤ obj I (cands.getD a fun _ => 0)) →
      (∀ x v, incumbentLoop norm I cands vUB vLB l = some (x, v) →
        x ∈ cands ∧ v = obj I x ∧ Admissible I vUB vLB x
        ∧ ∀ i ∈ l, Admissible I vUB vLB (cands.getD i fun _ => 0) →
            obj I (cands.getD i fun _ => 0) ≤ v)
      ∧ (incumbentLoop norm I cands vUB vLB l = none
          ↔ ∀ i ∈ l, ¬ Admissible I vUB vLB (cands.getD i fun _ => 0)) := by
    intro l
    induction l with
    | nil => intro _ _; exact ⟨fun x v h => (by cases h), by simp [incumbentLoop]⟩
    | cons i l ih =>
      intro hlt hpw
      rw [List.pairwise_cons] at hpw
      have ih' := ih (fun j hj => hlt j (List.mem_cons_of_mem _ hj)) hpw.2
      have hi := hlt i (by simp)
      unfold incumbentLoop
      simp only
      by_cases hadm : Admissible I vUB vLB (cands.getD i fun _ => 0)
      · rw [if_pos ((incumbent_test norm I vUB vLB _).2 hadm)]
        refine ⟨fun x v h => ?_, fun h => (by cases h), fun h => absurd hadm (h i (by simp))⟩
        cases h
        refine ⟨by rw [List.getD_eq_getElem _ _ hi]; exact List.getElem_mem _, hd _, hadm, ?_⟩
        intro j hj _
        rw [hd]
        rcases List.mem_cons.1 hj with rfl | hj
        · exact le_rfl
        · exact hpw.1 j hj
      · rw [if_neg (fun h => hadm ((incumbent_test norm I vUB vLB _).1 h))]
        refine ⟨fun x v h => ?_, ?_⟩
        · obtain ⟨h1, h2, h3, h4⟩ := ih'.1 x v h
          refine ⟨h1, h2, h3, fun j hj ha => ?_⟩
          rcases List.mem_cons.1 hj with rfl | hj
          · exact absurd ha hadm
          · exact h4 j hj ha
        · rw [ih'.2, List.forall_mem_cons]
          exact ⟨fun h => ⟨hadm, h⟩, fun h => h.2⟩
  by_cases hc : cands = []
  · subst hc
    refine ⟨fun x v h => by simp [incumbentBound] at h, by simp [incumbentBound]⟩
  · obtain ⟨hperm, hsort⟩ := argsort.spec ((cands.map fun x => dot I.n x I.c).map fun v => -v)
    have hmem : ∀ i, i ∈ argsort.run ((cands.map fun x => dot I.n x I.c).map fun v => -v)
        ↔ i < cands.length := fun i => by
      rw [hperm.mem_iff, List.mem_range]; simp
    have hrun : incumbentBound norm argsort I cands vUB vLB
        = incumbentLoop norm I cands vUB vLB
          (argsort.run ((cands.map fun x => dot I.n x I.c).map fun v => -v)) := by
      unfold incumbentBound; rw [if_neg hc]
    have hget : ∀ i < cands.length,
        ((cands.map fun x => dot I.n x I.c).map fun v => -v).getD i 0
          = - obj I (cands.getD i fun _ => 0) := fun i hi => by
      rw [List.getD_eq_getElem _ _ (by simpa using hi), List.getElem_map, List.getElem_map,
        List.getD_eq_getElem _ _ hi, hd]
    have := key (argsort.run ((cands.map fun x => dot I.n x I.c).map fun v => -v))
      (fun i hi => (hmem i).1 hi) (hsort.imp_of_mem (by
        intro a b ha hb hab
        rw [hget a ((hmem a).1 ha), hget b ((hmem b).1 hb)] at hab
        linarith))
    rw [hrun]
    have hall : ∀ Q : Vec → Prop, (∀ y ∈ cands, Q y) ↔
        ∀ i ∈ argsort.run ((cands.map fun x => dot I.n x I.c).map fun v => -v),
          Q (cands.getD i fun _ => 0) := by
      intro Q
      constructor
      · intro h i hi
        have hi := (hmem i).1 hi
        rw [List.getD_eq_getElem _ _ hi]
        exact h _ (List.getElem_mem _)
      · intro h y hy
        obtain ⟨i, hi, rfl⟩ := List.mem_iff_getElem.1 hy
        have := h i ((hmem i).2 hi)
        rwa [List.getD_eq_getElem _ _ hi] at this
    refine ⟨fun x v h => ?_, this.2.trans (hall fun y => ¬ Admissible I vUB vLB y).symm⟩
    obtain ⟨h1, h2, h3, h4⟩ := this.1 x v h
    exact ⟨h1, h2, h3, (hall fun y => Admissible I vUB vLB y → obj I y ≤ v).2 h4⟩

/-! ## Examples -/

/-- C67: a larger subset with a smaller cost. -/
example : ∃ solve : GModel → GResult, (∀ g, GResult.Exact g (solve g))
    ∧ (∃ x, subsetCost exSort solve [0] = .ok (1, x))
    ∧ ∃ x, subsetCost exSort solve [0, 2] = .ok (0, x) := by
  obtain ⟨solve, hs⟩ := GResult.exists_exact
  have h : ∀ l : List ℕ, (∀ s ∈ l, s < 4) → ∃ x, subsetCost exSort solve l
      = .ok (if ∀ s ∈ l, s ≤ 1 then 1 else 0, x) := by
    intro l hl
    have hsp := subsetCost_spec (I := exSort) (ss := l) (hs _)
    have hdet := exSort_det l _ rfl
    obtain ⟨v, x, hvx⟩ := hsp.2.1 ⟨_, hdet.1.1, hdet.1.2.1⟩
    have hd := hsp.1 v x hvx
    refine ⟨x, ?_⟩
    rw [hvx]
    congr 2
    refine le_antisymm ?_ ?_
    · rw [← hd.1.2.2]; exact hdet.2 x hd.1.1 hd.1.2.1
    · have := hd.2 _ hdet.1.1 hdet.1.2.1
      rwa [hdet.1.2.2] at this
  refine ⟨solve, hs, ?_, ?_⟩
  · simpa using h [0] (by simp)
  · simpa using h [0, 2] (by simp)

/-- C16: the second subset is pruned. -/
example : PartCosts exSort [[0, 1], [2, 3]] [1, 0] [fun _ => 1, fun _ => 0]
    ∧ pruneIndices [1, 0] ((1 : ℚ) : WithBot ℚ) = [1]
    ∧ ∃ D, loadPartition exSort 2 [[0, 1], [2, 3]] = .ok D := by
  refine ⟨⟨rfl, rfl, fun c hc => ?_⟩, by decide +kernel,
    ⟨_, loadPartition_ok exSort [[0, 1], [2, 3]] (by simp)⟩⟩
  have : c < 2 := hc
  interval_cases c
  · exact exSort_det [0, 1] 1 (by simp)
  · exact exSort_det [2, 3] 0 (by simp)

/-- C17: three of four scenarios are selected, those of smallest index. -/
example : Equi exSort ∧ TolOk exSort
    ∧ selectedScenarios Argsort.default exSort [3, 0, 1, 0] = .ok (some [1, 3, 2]) := by
  refine ⟨⟨by decide, fun s _ => by norm_num [exSort]⟩, by decide +kernel, ?_⟩
  have : selectedScenarios Argsort.default exSort [3, 0, 1, 0]
      = .ok ((selectLoop exSort.proba exSort.eps (Argsort.default.run [3, 0, 1, 0]) 0 0).map
        fun k => (Argsort.default.run [3, 0, 1, 0]).take k) := rfl
  rw [this]
  congr 1
  decide +kernel

/-- C18: a history of two calls with different selections; the model holds the second one. -/
example :
    ((lbRun exNorm .default exSort "counter" (.init exSort)
      [⟨[false, true, true, true], ⊥, none, fun _ => ⟨2, some fun _ => 0, 0, 0⟩⟩,
       ⟨[true, false, false, false], ((0 : ℚ) : WithBot ℚ), none,
        fun _ => ⟨2, some fun _ => 0, 0, 0⟩⟩]).toOption.map fun st =>
          (st.scenarios, st.deter.g.constrs.length)) = some ([0, 1, 2], 4) := by
  decide +kernel

/-- C19: of three candidates two are feasible, the better one is returned. -/
example (norm : Norm) :
    ∃ x, incumbentBound norm .default exTol [fun _ => 0, fun _ => 1 / 2, fun _ => 1] ⊤ ⊥
      = some (x, 1 / 2) := by
  have h := C19_best_incumbent norm .default exTol [fun _ => 0, fun _ => 1 / 2, fun _ => 1] ⊤ ⊥
  have hobj : ∀ q : ℚ, obj exTol (fun _ => q) = q := fun q => by simp [obj, dot, exTol]
  have ha : Admissible exTol ⊤ ⊥ fun _ => 1 / 2 :=
    ⟨by decide +kernel, le_top, fun l hl => by cases hl⟩
  have hb : ¬ Admissible exTol ⊤ ⊥ fun _ => 1 := fun h => by
    have := h.1
    revert this
    decide +kernel
  cases hr : incumbentBound norm .default exTol [fun _ => 0, fun _ => 1 / 2, fun _ => 1] ⊤ ⊥ with
  | none => exact absurd ha (h.2.1 hr _ (by simp))
  | some r =>
    obtain ⟨h1, h2, h3, h4⟩ := h.1 r.1 r.2 hr
    have h5 := h4 (fun _ => 1 / 2) (by simp) ha
    rw [hobj] at h5
    refine ⟨r.1, ?_⟩
    have : r.2 = 1 / 2 := by
      simp only [List.mem_cons, List.not_mem_nil, or_false] at h1
      rcases h1 with h1 | h1 | h1
      · rw [h1, hobj] at h2; rw [h2] at h5; norm_num at h5
      · rw [h1, hobj] at h2; exact h2
      · rw [h1] at h3; exact absurd h3 hb
    rw [← this]

end Verif.Props
