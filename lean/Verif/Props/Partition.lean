import Verif.Lemmas.PartInst
import Mathlib.Algebra.BigOperators.Field

/-!
# C09–C12: the partitioned instance
-/

open Finset

namespace Verif.Props
open Spec Model

/-- `q` is the smallest probability of the scenarios of `p`. -/
def IsMinProba (I : Inst) (p : List ℕ) (q : ℚ) : Prop :=
  (∃ s ∈ p, I.proba s = q) ∧ ∀ s ∈ p, q ≤ I.proba s

/-- **C09.** `load_partition` on a partition without empty subsets succeeds;
`get_proba()` is a probability distribution proportional to the smallest scenario
probability of each subset, and `get_epsilon()` is rescaled by the same total; for
equiprobable scenarios the probabilities are `1/K` and `get_epsilon() * K = epsilon * N`. -/
theorem C09_partition_probabilities (I : Inst) (P : List (List ℕ)) (hN : 0 < I.N)
    (hP : IsPartition I.N P) (hpos : ∀ s < I.N, 0 < I.proba s) :
    ∃ D, loadPartition I P.length P = .ok D
      ∧ (partCI I D).nbScen = P.length
      ∧ (∀ c < P.length, 0 < (partCI I D).proba c)
      ∧ ∑ c ∈ range P.length, (partCI I D).proba c = 1
      ∧ (∃ τ > 0, (partCI I D).eps * τ = I.eps ∧
          ∀ c < P.length, IsMinProba I (P.getD c []) ((partCI I D).proba c * τ))
      ∧ (Equi I → (∀ c < P.length, (partCI I D).proba c = 1 / (P.length : ℚ))
          ∧ (partCI I D).eps * P.length = I.eps * I.N) := by
  have hne := hP.2
  have hmem : ∀ c < P.length, P.getD c [] ∈ P := fun c hc => by
    rw [List.getD_eq_getElem _ _ hc]; exact List.getElem_mem _
  have hmp : ∀ p ∈ P, 0 < minP I p := fun p hp =>
    minP_pos I (hne p hp) fun s hs => hpos s (mem_part_lt hP hp hs)
  have hτ : 0 < (P.map (minP I)).sum := sum_map_pos (isPartition_ne_nil hP hN) hmp
  refine ⟨_, loadPartition_ok I P hne, rfl, ?_, ?_, ⟨(P.map (minP I)).sum, hτ, ?_, ?_⟩, ?_⟩
  · intro c hc
    simp only [partCI]
    rw [List.getD_eq_getElem _ _ (by simpa using hc), List.getElem_map]
    exact div_pos (hmp _ (List.getElem_mem _)) hτ
  · simp only [partCI]
    have := sum_range_getD (P.map fun p => minP I p / (P.map (minP I)).sum) 0 id
    simp only [List.length_map, id] at this
    rw [this, List.map_id, sum_map_div]
    exact div_self hτ.ne'
  · simp only [partCI]
    exact div_mul_cancel₀ _ hτ.ne'
  · intro c hc
    simp only [partCI]
    rw [List.getD_eq_getElem (l := P.map _) _ (by simpa using hc), List.getElem_map,
      div_mul_cancel₀ _ hτ.ne', List.getD_eq_getElem _ _ hc]
    have hne' := hne _ (List.getElem_mem hc)
    constructor
    · have := minOf_mem (l := (P[c]).map I.proba) (by simpa using hne')
      obtain ⟨s, hs, he⟩ := List.mem_map.1 this
      exact ⟨s, hs, he⟩
    · intro s hs
      exact minOf_le (List.mem_map.2 ⟨s, hs, rfl⟩)
  · rintro ⟨_, hq⟩
    have hall : ∀ p ∈ P, minP I p = 1 / (I.N : ℚ) := fun p hp =>
      minP_equi I (hne p hp) fun s hs => hq s (mem_part_lt hP hp hs)
    have hsum : (P.map (minP I)).sum = (P.length : ℚ) * (1 / (I.N : ℚ)) := by
      rw [List.map_congr_left hall]; simp
    have hK : (0 : ℚ) < P.length := by
      exact_mod_cast List.length_pos_of_ne_nil (isPartition_ne_nil hP hN)
    have hN' : (0 : ℚ) < I.N := by exact_mod_cast hN
    refine ⟨fun c hc => ?_, ?_⟩
    · simp only [partCI]
      rw [List.getD_eq_getElem (l := P.map _) _ (by simpa using hc), List.getElem_map,
        hall _ (List.getElem_mem _), hsum]
      field_simp
    · simp only [partCI]
      rw [hsum]
      field_simp

/-- Every row of subset `c` of an instance seen through its getters holds at `x`. -/
def RowsHold (J : CI) (c : ℕ) (x : Vec) : Prop :=
  ∀ k < J.nbCon c, dot J.n (J.row c k) x ≤ J.rhs c k

instance (J : CI) (c : ℕ) (x : Vec) : Decidable (RowsHold J c x) := by
  unfold RowsHold; infer_instance

/-- **C10.** The rows returned by `get_matrix_A(c)`, `get_vector_b(c)` hold at `x` exactly when
`x` satisfies every scenario of subset `c`; their number is `get_nb_constraints(c)`. -/
theorem C10_subset_rows (I : Inst) (P : List (List ℕ)) (hne : ∀ p ∈ P, p ≠ []) (D : PartData)
    (hD : loadPartition I P.length P = .ok D) (c : ℕ) (hc : c < P.length) :
    (partCI I D).nbCon c = (P.getD c []).length * I.m
    ∧ ∀ x, RowsHold (partCI I D) c x ↔ SatAll I (P.getD c []) x := by
  rw [loadPartition_ok I P hne] at hD
  cases hD
  have hn : (P.map fun p => p.length * I.m).getD c 0 = (P.getD c []).length * I.m := by
    rw [List.getD_eq_getElem _ _ (by simpa using hc), List.getElem_map,
      List.getD_eq_getElem _ _ hc]
  refine ⟨hn, fun x => ?_⟩
  unfold RowsHold
  simp only [partCI]
  rw [hn]
  exact stacked_rows_iff I _ x

/-- **C11.** Partitioning is a relaxation, for arbitrary scenario probabilities: a point that
satisfies the chance constraint of the original instance violates subsets of total
probability at most `get_epsilon()` in the partitioned instance. -/
theorem C11_partition_relaxation (I : Inst) (P : List (List ℕ)) (hN : 0 < I.N)
    (hP : IsPartition I.N P) (hpos : ∀ s < I.N, 0 < I.proba s) (D : PartData)
    (hD : loadPartition I P.length P = .ok D) (x : Vec) (hx : Chance I x) :
    ∑ c ∈ (range P.length).filter (fun c => ¬ RowsHold (partCI I D) c x), (partCI I D).proba c
      ≤ (partCI I D).eps := by
  have hrows := fun c hc => (C10_subset_rows I P hP.2 D hD c hc).2 x
  have hτ : 0 < (P.map (minP I)).sum :=
    sum_map_pos (isPartition_ne_nil hP hN) fun p hp =>
      minP_pos I (hP.2 p hp) fun s hs => hpos s (mem_part_lt hP hp hs)
  have hD' := hD
  rw [loadPartition_ok I P hP.2] at hD'
  have hprob : ∀ c < P.length, (partCI I D).proba c
      = minP I (P.getD c []) / (P.map (minP I)).sum := by
    intro c hc
    cases hD'
    simp only [partCI]
    rw [List.getD_eq_getElem (l := P.map _) _ (by simpa using hc), List.getElem_map,
      List.getD_eq_getElem _ _ hc]
  have heps : (partCI I D).eps = I.eps / (P.map (minP I)).sum := by cases hD'; rfl
  have key : ∑ c ∈ (range P.length).filter (fun c => ¬ RowsHold (partCI I D) c x),
      (partCI I D).proba c
      = (P.map fun p => if SatAll I p x then 0 else minP I p).sum / (P.map (minP I)).sum := by
    rw [Finset.sum_filter, ← sum_range_getD P [], Finset.sum_div]
    refine Finset.sum_congr rfl fun c hc => ?_
    have hc' := Finset.mem_range.1 hc
    rw [hprob c hc']
    by_cases h : SatAll I (P.getD c []) x
    · rw [if_neg (not_not.2 ((hrows c hc').2 h)), if_pos h]; simp
    · rw [if_pos (fun h' => h ((hrows c hc').1 h')), if_neg h]
  rw [key, heps]
  refine div_le_div_of_nonneg_right ?_ hτ.le
  exact (viol_parts_le I P hP (fun s hs => (hpos s hs).le) x).trans hx

/-- **C12 (first part).** For equiprobable scenarios, indicators satisfy the chance constraint
`sum_c z_c p_c >= 1 - eps` of a partition with any number of subsets exactly when at most
`floor(epsilon * N)` of them are 0. -/
theorem C12_chance_constraint_count (I : Inst) (P : List (List ℕ)) (hE : Equi I)
    (heps : 0 ≤ I.eps) (hP : IsPartition I.N P) (D : PartData)
    (hD : loadPartition I P.length P = .ok D) (z : ℕ → ℚ)
    (hz : ∀ c < P.length, z c = 0 ∨ z c = 1) :
    ∑ c ∈ range P.length, z c * (partCI I D).proba c ≥ 1 - (partCI I D).eps
      ↔ ((range P.length).filter fun c => z c = 0).card ≤ kmax I := by
  have hpos : ∀ s < I.N, 0 < I.proba s := fun s hs => by
    rw [hE.2 s hs]
    have : (0 : ℚ) < I.N := by exact_mod_cast hE.1
    positivity
  obtain ⟨D', hD', _, _, _, _, hq⟩ := C09_partition_probabilities I P hE.1 hP hpos
  rw [hD] at hD'
  cases hD'
  obtain ⟨hq1, hq2⟩ := hq hE
  have hK : (0 : ℚ) < P.length := by
    exact_mod_cast List.length_pos_of_ne_nil (isPartition_ne_nil hP hE.1)
  set K := P.length with hKdef
  have hsum : ∑ c ∈ range K, z c * (partCI I D).proba c
      = ((K : ℚ) - ((range K).filter fun c => z c = 0).card) / K := by
    have h1 : ∑ c ∈ range K, z c * (partCI I D).proba c = (∑ c ∈ range K, z c) / K := by
      rw [Finset.sum_div]
      refine Finset.sum_congr rfl fun c hc => ?_
      rw [hq1 c (Finset.mem_range.1 hc)]; ring
    have h2 : ∑ c ∈ range K, (1 - z c) = (((range K).filter fun c => z c = 0).card : ℚ) := by
      rw [Finset.card_filter, Nat.cast_sum]
      refine Finset.sum_congr rfl fun c hc => ?_
      rcases hz c (Finset.mem_range.1 hc) with h | h <;> simp [h]
    rw [Finset.sum_sub_distrib] at h2
    simp at h2
    rw [h1, ← h2]
    congr 1; ring
  have he : (partCI I D).eps = I.eps * I.N / K := by
    rw [eq_div_iff hK.ne']; exact hq2
  rw [hsum, he, ge_iff_le, sub_le_iff_le_add, ← add_div, le_div_iff₀ hK, one_mul]
  have hfl : ∀ k : ℕ, k ≤ kmax I ↔ (k : ℚ) ≤ I.eps * I.N := fun k =>
    Nat.le_floor_iff (mul_nonneg heps (by positivity))
  rw [hfl]
  constructor <;> intro h <;> linarith

/-- For equiprobable scenarios the chance constraint counts violated scenarios. -/
theorem chance_iff_card (I : Inst) (hE : Equi I) (heps : 0 ≤ I.eps) (x : Vec) :
    Chance I x ↔ (viol I x).card ≤ kmax I := by
  have hN : (0 : ℚ) < I.N := by exact_mod_cast hE.1
  have hsum : ∑ s ∈ viol I x, I.proba s = ((viol I x).card : ℚ) * (1 / (I.N : ℚ)) := by
    rw [Finset.sum_congr rfl (g := fun _ => 1 / (I.N : ℚ)), Finset.sum_const, nsmul_eq_mul]
    intro s hs
    exact hE.2 s (Finset.mem_range.1 (Finset.mem_filter.1 hs).1)
  unfold Chance kmax
  rw [hsum, mul_one_div, div_le_iff₀ hN, Nat.le_floor_iff (mul_nonneg heps hN.le)]

/-- **C12 (second part).** With one scenario per subset the partitioned problem has the same
feasible points as the original one. -/
theorem C12_singletons (I : Inst) (hE : Equi I) (heps : 0 ≤ I.eps) (x : Vec) :
    PartFeas I ((List.range I.N).map fun s => [s]) x ↔ Feas I x := by
  unfold PartFeas Feas
  rw [chance_iff_card I hE heps]
  have : nbViolParts I ((List.range I.N).map fun s => [s]) x = (viol I x).card := by
    unfold nbViolParts viol
    rw [List.countP_map, List.countP_eq_length_filter, Finset.card_def, Finset.filter_val]
    show _ = (Multiset.filter _ (Multiset.range I.N)).card
    rw [← Multiset.coe_range, Multiset.filter_coe, Multiset.coe_card]
    congr 1
    refine List.filter_congr fun s _ => ?_
    simp [SatAll]
  rw [this]

/-- Non-trivial data for C09–C12: five equiprobable scenarios in two subsets. -/
def exPart : Inst :=
  { n := 2, N := 5, m := 2, A := fun s i j => s + i + j, b := fun _ _ => 8, c := fun _ => 1,
    proba := fun _ => 1 / 5, eps := 3 / 10, cont := false }

example : Equi exPart ∧ IsPartition exPart.N [[3, 0, 4], [1, 2]]
    ∧ (∃ D, loadPartition exPart 2 [[3, 0, 4], [1, 2]] = .ok D) ∧ kmax exPart = 1
    ∧ nbViolParts exPart [[3, 0, 4], [1, 2]] (fun _ => 1) = 1 := by
  refine ⟨⟨by decide, fun s _ => by norm_num [exPart]⟩, ⟨by decide, by decide⟩, ⟨_, rfl⟩,
    by decide +kernel, by decide +kernel⟩

end Verif.Props
