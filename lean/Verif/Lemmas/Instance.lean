import Verif.Model.Instance

open Finset

namespace Verif.Model
open Spec

theorem feasTol_pos : 0 < feasTol := by norm_num [feasTol]

theorem constraintViolation_gt {n : ℕ} {a x : Vec} {b : ℚ} :
    constraintViolation n a x b > feasTol ↔ feasTol < dot n a x - b := by
  unfold constraintViolation
  have := feasTol_pos
  rw [gt_iff_lt, lt_max_iff]
  constructor
  · rintro (h | h)
    · exact h
    · linarith
  · exact Or.inl

theorem scenarioViolations_length_pos (norm : Norm) (I : Inst) (x : Vec) (s : ℕ) :
    0 < (scenarioViolations norm I x s).length ↔ ViolBy I feasTol s x := by
  rw [List.length_pos_iff_exists_mem]
  unfold scenarioViolations ViolBy
  constructor
  · rintro ⟨v, hv⟩
    rw [List.mem_filterMap] at hv
    obtain ⟨i, hi, hv⟩ := hv
    rw [List.mem_range] at hi
    dsimp only at hv
    split at hv
    · next h => exact ⟨i, hi, constraintViolation_gt.1 h⟩
    · simp at hv
  · rintro ⟨i, hi, h⟩
    exact ⟨_, List.mem_filterMap.2 ⟨i, List.mem_range.2 hi, if_pos (constraintViolation_gt.2 h)⟩⟩

theorem scenarioViolations_pos (norm : Norm) (I : Inst) (x : Vec) (s : ℕ) :
    ∀ v ∈ scenarioViolations norm I x s, 0 < v := by
  intro v hv
  unfold scenarioViolations at hv
  rw [List.mem_filterMap] at hv
  obtain ⟨i, _, hv⟩ := hv
  dsimp only at hv
  split at hv
  · next h =>
    have hp : 0 < constraintViolation I.n (I.A s i) x (I.b s i) := lt_trans feasTol_pos h
    simp only [Option.some.injEq] at hv
    subst hv
    split
    · next h' =>
      exact div_pos hp (lt_of_le_of_ne (norm.nonneg _ _) (Ne.symm h'))
    · exact hp
  · simp at hv

theorem flags_eq (norm : Norm) (I : Inst) (x : Vec) :
    (isFeasible norm I x).flags = (List.range I.N).map fun s => decide (ViolBy I feasTol s x) := by
  simp only [isFeasible, infeasibleFlags, scenarioInfeasibility, List.map_map]
  refine List.map_congr_left fun s _ => ?_
  simp only [Function.comp, isScenarioInfeasible, gt_iff_lt]
  exact decide_eq_decide.2 (scenarioViolations_length_pos norm I x s)

theorem sum_flags (p : ℕ → Prop) [DecidablePred p] (N : ℕ) :
    (((List.range N).map fun s => decide (p s)).map fun f => if f = true then 1 else 0).sum
      = ((range N).filter p).card := by
  induction N with
  | zero => simp
  | succ N ih =>
    rw [List.range_succ, List.map_append, List.map_append, List.sum_append, ih,
      Finset.range_add_one, Finset.filter_insert]
    by_cases h : p N <;> simp [h]

theorem nbInf_eq (norm : Norm) (I : Inst) (x : Vec) :
    (isFeasible norm I x).nbInf = (violBy I feasTol x).card := by
  have h := flags_eq norm I x
  have h2 : (isFeasible norm I x).nbInf
    = ((isFeasible norm I x).flags.map fun f => if f = true then 1 else 0).sum := rfl
  rw [h2, h]
  exact sum_flags _ _

theorem zipIdx_filter_range (p : ℕ → Bool) (N : ℕ) :
    ((((List.range N).map p).zipIdx.filter fun q => q.1).map fun q => q.2)
      = (List.range N).filter p := by
  induction N with
  | zero => simp
  | succ N ih =>
    rw [List.range_succ, List.map_append, List.zipIdx_append, List.filter_append,
      List.map_append, ih, List.filter_append]
    by_cases h : p N <;> simp [h]

theorem foldl_max_ge (l : List ℚ) (a : ℚ) : a ≤ l.foldl max a := by
  induction l generalizing a with
  | nil => exact le_refl _
  | cons b l ih => exact le_trans (le_max_left a b) (ih _)

theorem npMax_pos {l : List ℚ} (hl : 0 < l.length) (h : ∀ v ∈ l, 0 < v) : 0 < npMax l := by
  cases l with
  | nil => simp at hl
  | cons a l => exact lt_of_lt_of_le (h a (by simp)) (foldl_max_ge l a)

theorem maxInf_eq (norm : Norm) (I : Inst) (x : Vec) {s : ℕ} (hs : s < I.N) :
    (scenarioInfeasibility norm I x).getD s [] = scenarioViolations norm I x s := by
  simp [scenarioInfeasibility, hs]

end Verif.Model
