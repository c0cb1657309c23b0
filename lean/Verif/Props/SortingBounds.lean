import Verif.Lemmas.UpperBounder
import Verif.Props.Initial
import Mathlib.Tactic.IntervalCases

/-!
# C13–C15: the quantile bound and the bound of the first iteration
-/

open Finset

namespace Verif.Props
open Spec Model

/-- The costs are the optimal values of the single-scenario problems. -/
def ScenarioCosts (I : Inst) (costs : List ℚ) : Prop :=
  costs.length = I.N ∧ ∀ s < I.N, ∃ x, DetOpt I [s] (costs.getD s 0) x

/-- The costs and solutions are optimal for the deterministic problems of the parts. -/
def PartCosts (I : Inst) (P : List (List ℕ)) (costs : List ℚ) (sols : List Vec) : Prop :=
  costs.length = P.length ∧ sols.length = P.length
    ∧ ∀ c < P.length, DetOpt I (P.getD c []) (costs.getD c 0) (sols.getD c fun _ => 0)

theorem ScenarioCosts.le {I : Inst} {costs : List ℚ} (h : ScenarioCosts I costs) {s : ℕ}
    (hs : s < I.N) {x : Vec} (hx : InX I x) (hsat : Sat I s x) : obj I x ≤ costs.getD s 0 := by
  obtain ⟨y, hy⟩ := h.2 s hs
  exact hy.2 x hx (by intro t ht; rw [List.mem_singleton.1 ht]; exact hsat)

/-- **C13.** With single-scenario optima as costs, the number returned by `ahmed_et_al_bound`
is an upper bound on the objective of every point satisfying the chance constraint, for
arbitrary non-negative probabilities and every tie-breaking of the sort; it returns `None`
exactly when the probabilities never reach `epsilon + 1e-7`. -/
theorem C13_quantile_bound (I : Inst) (argsort : Argsort) (costs : List ℚ) (hN : 0 < I.N)
    (hp : ∀ s < I.N, 0 ≤ I.proba s) (hc : ScenarioCosts I costs) :
    (∀ v, ahmedBound argsort costs I.proba I.eps = some v → ∀ x, Feas I x → obj I x ≤ v)
    ∧ (ahmedBound argsort costs I.proba I.eps = none
        ↔ ∑ s ∈ range I.N, I.proba s < I.eps + 1 / 10 ^ 7) := by
  obtain ⟨hperm, hsort⟩ := argsort.spec costs
  rw [hc.1] at hperm
  constructor
  · intro v hv x hx
    obtain ⟨pre, s, post, hl, rfl, hge⟩ := quantileLoop_some hv
    rw [hl] at hperm hsort
    have hlt : ∀ t ∈ pre ++ [s], t < I.N := fun t ht => by
      have : t ∈ pre ++ s :: post := by
        rcases List.mem_append.1 ht with h | h
        · simp [h]
        · simp [List.mem_singleton.1 h]
      exact List.mem_range.1 (hperm.mem_iff.1 this)
    have hle : ∀ t ∈ pre ++ [s], costs.getD t 0 ≤ costs.getD s 0 := fun t ht => by
      rcases List.mem_append.1 ht with h | h
      · exact (List.pairwise_append.1 hsort).2.2 t h s (by simp)
      · rw [List.mem_singleton.1 h]
    -- some scenario of the prefix is satisfied
    have : ∃ t ∈ pre ++ [s], Sat I t x := by
      by_contra hno
      push Not at hno
      have hnd : (pre ++ [s]).Nodup := by
        have := hperm.nodup_iff.2 List.nodup_range
        have h2 : pre ++ s :: post = (pre ++ [s]) ++ post := by simp
        rw [h2] at this
        exact (List.nodup_append.1 this).1
      have hsub : (pre ++ [s]).toFinset ⊆ viol I x := by
        intro t ht
        rw [List.mem_toFinset] at ht
        exact Finset.mem_filter.2 ⟨Finset.mem_range.2 (hlt t ht), hno t ht⟩
      have h1 : ((pre ++ [s]).map I.proba).sum ≤ ∑ t ∈ viol I x, I.proba t := by
        rw [← List.sum_toFinset _ hnd]
        refine Finset.sum_le_sum_of_subset_of_nonneg hsub fun t ht _ => ?_
        exact hp t (Finset.mem_range.1 (Finset.mem_filter.1 ht).1)
      have h2 : ∑ t ∈ viol I x, I.proba t ≤ I.eps := hx.2
      have h3 : (0 : ℚ) < 1 / 10 ^ 7 := by norm_num
      linarith
    obtain ⟨t, ht, hsat⟩ := this
    exact (hc.le (hlt t ht) hx.1 hsat).trans (hle t ht)
  · unfold ahmedBound
    rw [quantileLoop_none]
    · rw [zero_add, (hperm.map I.proba).sum_eq, ← list_sum_range]
    · intro s hs
      exact hp s (List.mem_range.1 (hperm.mem_iff.1 hs))
    · intro h0
      rw [h0] at hperm
      have := hperm.length_eq
      simp at this
      omega

/-- **C14.** On a partition with `floor(epsilon*N)+1` subsets whose costs and solutions are the
subsets' optima, `first_iteration_bound` returns a point `x` that is feasible for the
partitioned problem, has the returned value as objective, and no point feasible for the
partitioned problem is better; the returned indicator vector is 1 exactly at one subset that
`x` satisfies. -/
theorem C14_first_iteration_bound (I : Inst) (P : List (List ℕ)) (costs : List ℚ)
    (sols : List Vec) (hsize : P.length = kmax I + 1) (hc : PartCosts I P costs sols) :
    ∃ R, firstIterationBound costs sols = .ok R
      ∧ PartFeas I P R.x ∧ obj I R.x = R.vObj ∧ R.vBnd = R.vObj
      ∧ (∀ y, PartFeas I P y → obj I y ≤ R.vBnd)
      ∧ ∃ c < P.length, SatAll I (P.getD c []) R.x
          ∧ R.z = (List.range P.length).map fun i => if i = c then 1 else 0 := by
  obtain ⟨h1, h2, h3⟩ := hc
  have hne : costs ≠ [] := by
    intro h0; rw [h0] at h1; simp at h1; omega
  obtain ⟨c, hcl, hmax, hR⟩ := firstIterationBound_ok (sols := sols) hne (by omega)
  have hcP : c < P.length := by omega
  obtain ⟨⟨hx1, hx2, hx3⟩, _⟩ := h3 c hcP
  have hcount : ∀ y : Vec, (∃ p ∈ P, SatAll I p y) → nbViolParts I P y ≤ kmax I := by
    rintro y ⟨p, hp, hs⟩
    have : nbViolParts I P y < P.length := by
      unfold nbViolParts
      refine lt_of_le_of_ne List.countP_le_length ?_
      rw [Ne, List.countP_eq_length]
      push Not
      exact ⟨p, hp, by simpa using hs⟩
    omega
  refine ⟨_, hR, ⟨hx1, hcount _ ⟨P.getD c [], ?_, hx2⟩⟩, hx3, rfl, ?_, c, hcP, hx2, ?_⟩
  · rw [List.getD_eq_getElem _ _ hcP]; exact List.getElem_mem _
  · intro y hy
    have : ∃ p ∈ P, SatAll I p y := by
      by_contra hno
      push Not at hno
      have : nbViolParts I P y = P.length := by
        unfold nbViolParts
        rw [List.countP_eq_length]
        intro p hp
        simpa using hno p hp
      have := hy.2
      omega
    obtain ⟨p, hp, hs⟩ := this
    obtain ⟨i, hi, rfl⟩ := List.mem_iff_getElem.1 hp
    have h4 := (h3 i hi).2 y hy.1 (by rw [List.getD_eq_getElem _ _ hi]; exact hs)
    refine h4.trans ?_
    apply hmax
    rw [List.getD_eq_getElem _ _ (by omega : i < costs.length)]
    exact List.getElem_mem _
  · simp only
    apply List.ext_getElem
    · simp [h1]
    · intro i hi hi2
      rw [List.getElem_set, List.getElem_map, List.getElem_range]
      by_cases h : i = c
      · simp [h]
      · rw [if_neg (fun h' => h h'.symm), if_neg h]; simp

/-- Every subset of the cost-based initial partition contains a scenario whose cost is at most the
quantile. -/
theorem cheap_scenario (I : Inst) (sample : Shuffle) (as1 as2 : Argsort)
    (scen : List ℚ) (P : List (List ℕ)) (q : ℚ)
    (hE : Equi I) (heps : 0 ≤ I.eps) (hsc : scen.length = I.N)
    (hP : createFirstPartition sample as1 scen I.N (kmax I + 1) "cost" = .ok P)
    (hq : ahmedBound as2 scen I.proba I.eps = some q) :
    P.length = kmax I + 1 ∧ ∀ c < P.length, ∃ s ∈ P.getD c [], s < I.N ∧ scen.getD s 0 ≤ q := by
  have hkN : kmax I + 1 ≤ I.N := by
    by_contra hgt
    unfold createFirstPartition at hP
    rw [pyAssert_false hgt] at hP
    cases hP
  have hP' : P = costPartition as1 I.N (List.range I.N) (kmax I + 1) scen := by
    obtain ⟨P', h1, _⟩ := C07_cost_initial_partition sample as1 scen I.N (kmax I + 1) hsc
      (by omega) hkN
    unfold createFirstPartition at hP
    rw [pyAssert_true hkN] at hP
    simp only [bind, Except.bind, if_true, pure, Except.pure] at hP
    rw [if_neg (by decide)] at hP
    split at hP
    · cases hP
    · cases hP; rfl
  have heq := costPartition_eq as1 I.N (kmax I + 1) scen hsc (by omega)
  have hsort := as1.spec (scen.map fun v => -v)
  have hvl : (scen.map fun v => -v).length = I.N := by simpa using hsc
  set σ := as1.run (scen.map fun v => -v) with hσ
  have hσp : σ.Perm (List.range I.N) := by rw [← hvl]; exact hsort.1
  have hdec : ∀ i j, i ≤ j → j < I.N → scen.getD (σ.getD j 0) 0 ≤ scen.getD (σ.getD i 0) 0 := by
    intro i j hij hj
    have h := hsort.le hij (by omega)
    rw [getD_map_neg, getD_map_neg] at h
    linarith
  -- at least `kmax + 1` scenarios cost at most `q`
  have hcheap : kmax I + 1 ≤ ((range I.N).filter fun s => scen.getD s 0 ≤ q).card := by
    obtain ⟨hperm, hs2⟩ := as2.spec scen
    rw [hsc] at hperm
    obtain ⟨pre, s, post, hl, rfl, hge⟩ := quantileLoop_some hq
    rw [hl] at hperm hs2
    have hlt : ∀ t ∈ pre ++ [s], t < I.N := fun t ht => by
      have : t ∈ pre ++ s :: post := by
        rcases List.mem_append.1 ht with h | h
        · simp [h]
        · simp [List.mem_singleton.1 h]
      exact List.mem_range.1 (hperm.mem_iff.1 this)
    have hnd : (pre ++ [s]).Nodup := by
      have := hperm.nodup_iff.2 List.nodup_range
      have h2 : pre ++ s :: post = (pre ++ [s]) ++ post := by simp
      rw [h2] at this
      exact (List.nodup_append.1 this).1
    have hN : (0 : ℚ) < I.N := by exact_mod_cast hE.1
    have hlen : kmax I + 1 ≤ (pre ++ [s]).length := by
      have h1 : ((pre ++ [s]).map I.proba).sum = (pre ++ [s]).length * (1 / (I.N : ℚ)) := by
        rw [List.map_congr_left fun t ht => hE.2 t (hlt t ht)]
        simp
        ring
      rw [h1, zero_add, mul_one_div, le_div_iff₀ hN] at hge
      have h2 : I.eps * I.N < (pre ++ [s]).length := by nlinarith
      exact Nat.succ_le_of_lt ((Nat.floor_lt (mul_nonneg heps hN.le)).2 h2)
    refine hlen.trans ?_
    rw [← List.toFinset_card_of_nodup hnd]
    apply Finset.card_le_card
    intro t ht
    rw [List.mem_toFinset] at ht
    refine Finset.mem_filter.2 ⟨Finset.mem_range.2 (hlt t ht), ?_⟩
    rcases List.mem_append.1 ht with h | h
    · exact (List.pairwise_append.1 hs2).2.2 t h s (by simp)
    · rw [List.mem_singleton.1 h]
  -- hence the last positions of the decreasing order cost at most `q`
  have hlast : ∀ p, I.N ≤ p + (kmax I + 1) → p < I.N → scen.getD (σ.getD p 0) 0 ≤ q := by
    intro p hp1 hp2
    by_contra hgt
    push Not at hgt
    have hsub : ((range I.N).filter fun s => scen.getD s 0 ≤ q)
        ⊆ (Finset.Ico (p + 1) I.N).image fun j => σ.getD j 0 := by
      intro s hs
      obtain ⟨hs1, hs2⟩ := Finset.mem_filter.1 hs
      have hmem : s ∈ σ := hσp.mem_iff.2 (List.mem_range.2 (Finset.mem_range.1 hs1))
      obtain ⟨j, hj, rfl⟩ := List.mem_iff_getElem.1 hmem
      have hσl : σ.length = I.N := by rw [hσp.length_eq, List.length_range]
      refine Finset.mem_image.2 ⟨j, Finset.mem_Ico.2 ⟨?_, by omega⟩, ?_⟩
      · by_contra hjp
        have := hdec j p (by omega) hp2
        rw [List.getD_eq_getElem σ 0 hj] at this
        linarith
      · exact List.getD_eq_getElem σ 0 hj
    have h1 := Finset.card_le_card hsub
    have h2 : ((Finset.Ico (p + 1) I.N).image fun j => σ.getD j 0).card ≤ I.N - (p + 1) := by
      refine Finset.card_image_le.trans ?_
      simp
    omega
  have hlen : P.length = kmax I + 1 := by rw [hP', heq]; simp
  refine ⟨hlen, fun c hcP => ?_⟩
  -- the subset contains a cheap scenario
  have hpc : P.getD c [] = (pyRange c I.N (kmax I + 1)).map fun j => σ.getD j 0 := by
    rw [List.getD_eq_getElem _ _ hcP]
    simp only [hP', heq, List.getElem_map, List.getElem_range]
  have hnil : pyRange c I.N (kmax I + 1) ≠ [] := by
    intro h0
    have h4 := pyRange_length c I.N (kmax I + 1)
    have h5 := (pyRange_size_bounds (by omega : 0 < kmax I + 1) hkN (by omega : c < kmax I + 1)).2.2
    rw [h0] at h4
    simp only [List.length_nil] at h4
    omega
  have hgl := getLast_pyRange (by omega : 0 < kmax I + 1) (List.getLast?_eq_some_getLast hnil)
  set p := (pyRange c I.N (kmax I + 1)).getLast hnil with hp
  have hpm : σ.getD p 0 ∈ P.getD c [] := by
    rw [hpc]; exact List.mem_map.2 ⟨p, List.getLast_mem hnil, rfl⟩
  have hpN : σ.getD p 0 < I.N := by
    have := hsort.getD_lt (i := p) (by omega)
    omega
  exact ⟨_, hpm, hpN, hlast p hgl.1 hgl.2⟩

/-- **C15.** With the cost-based initial partition of `floor(epsilon*N)+1` subsets the bound of
the first iteration is at most the quantile bound (so the test `v_bnd <= vUB + 1e-8` of
`_upper_bound` succeeds), for every tie-breaking of both sorts. -/
theorem C15_first_bound_improves (I : Inst) (sample : Shuffle) (as1 as2 : Argsort)
    (scen : List ℚ) (P : List (List ℕ)) (costs : List ℚ) (sols : List Vec) (q : ℚ)
    (hE : Equi I) (heps : 0 ≤ I.eps) (hsc : ScenarioCosts I scen)
    (hP : createFirstPartition sample as1 scen I.N (kmax I + 1) "cost" = .ok P)
    (hc : PartCosts I P costs sols) (hq : ahmedBound as2 scen I.proba I.eps = some q) :
    ∃ R, firstIterationBound costs sols = .ok R ∧ R.vBnd ≤ q := by
  obtain ⟨hlen, hcheap⟩ := cheap_scenario I sample as1 as2 scen P q hE heps hsc.1 hP hq
  obtain ⟨h1, h2, h3⟩ := hc
  have hne : costs ≠ [] := by
    intro h0; rw [h0] at h1; simp at h1; omega
  obtain ⟨c, hcl, _, hR⟩ := firstIterationBound_ok (sols := sols) hne (by omega)
  refine ⟨_, hR, ?_⟩
  simp only
  have hcP : c < P.length := by omega
  obtain ⟨⟨hx1, hx2, hx3⟩, _⟩ := h3 c hcP
  obtain ⟨s, hs1, hs2, hs3⟩ := hcheap c hcP
  rw [← hx3]
  exact (hsc.le hs2 hx1 (hx2 _ hs1)).trans hs3

/-- Four scenarios, one binary item: it fits in scenarios 0 and 1 only. -/
def exSort : Inst :=
  { n := 1, N := 4, m := 1, A := fun s _ _ => s + 1, b := fun _ _ => 2, c := fun _ => 1,
    proba := fun _ => 1 / 4, eps := 1 / 4, cont := false }

theorem exSort_det (l : List ℕ) (v : ℚ) (h : v = if ∀ s ∈ l, s ≤ 1 then 1 else 0) :
    DetOpt exSort l v (fun _ => v) := by
  have hv : v = 0 ∨ v = 1 := by rw [h]; split <;> simp
  have hsat : ∀ s (y : Vec), Sat exSort s y ↔ ((s : ℚ) + 1) * y 0 ≤ 2 := by
    intro s y
    simp [Sat, exSort, dot]
  refine ⟨⟨?_, ?_, ?_⟩, ?_⟩
  · intro j hj
    simpa [exSort] using hv
  · intro s hs
    rw [hsat]
    rw [h]
    split
    · next hle =>
      have : (s : ℚ) ≤ 1 := by exact_mod_cast hle s hs
      linarith
    · simp
  · simp [obj, dot, exSort]
  · intro y hy hys
    have hy0 := hy 0 (by decide)
    simp only [exSort, Bool.false_eq_true, if_false] at hy0
    have hobj : obj exSort y = y 0 := by simp [obj, dot, exSort]
    rw [hobj]
    rcases hy0 with h0 | h1
    · rw [h0]; rcases hv with h | h <;> rw [h] <;> norm_num
    · rw [h1, h, if_pos]
      intro s hs
      have := (hsat s y).1 (hys s hs)
      rw [h1] at this
      have h2 : (s : ℚ) ≤ 1 := by linarith
      exact_mod_cast h2

/-- The hypotheses of C13–C15 hold together for `exSort`. -/
example : Equi exSort ∧ kmax exSort = 1 ∧ ScenarioCosts exSort [1, 1, 0, 0]
    ∧ createFirstPartition .id .default [1, 1, 0, 0] 4 2 "cost" = .ok [[0, 2], [1, 3]]
    ∧ PartCosts exSort [[0, 2], [1, 3]] [0, 0] [fun _ => 0, fun _ => 0]
    ∧ ahmedBound .default [1, 1, 0, 0] exSort.proba exSort.eps = some 0 := by
  refine ⟨⟨by decide, fun s _ => by norm_num [exSort]⟩, by decide +kernel, ⟨rfl, ?_⟩,
    by decide +kernel, ⟨rfl, rfl, ?_⟩, by decide +kernel⟩
  · intro s hs
    refine ⟨_, exSort_det [s] _ ?_⟩
    have : s < 4 := hs
    interval_cases s <;> simp
  · intro c hc
    have : c < 2 := hc
    interval_cases c
    · exact exSort_det [0, 2] 0 (by simp)
    · exact exSort_det [1, 3] 0 (by simp)

end Verif.Props
