import Verif.Lemmas.Parse

/-!
# C01–C05: feasibility checks and parser
-/

open Finset

namespace Verif.Props
open Spec Model

/-- **C01.** `is_feasible(x)`: the verdict, the count and the flags are those of the
scenarios with a constraint exceeded by more than `1e-6`. -/
theorem C01_is_feasible_verdict (norm : Norm) (I : Inst) (x : Vec) :
    ((isFeasible norm I x).feasible = true ↔
        ((violBy I (1 / 1000000) x).card : ℚ) ≤ I.eps * I.N)
    ∧ (isFeasible norm I x).nbInf = (violBy I (1 / 1000000) x).card
    ∧ (isFeasible norm I x).flags.length = I.N
    ∧ ∀ s < I.N, (isFeasible norm I x).flags[s]? =
        some (decide (∃ i < I.m, 1 / 1000000 < dot I.n (I.A s i) x - I.b s i)) := by
  have hf := flags_eq norm I x
  have hn := nbInf_eq norm I x
  refine ⟨?_, hn, by rw [hf]; simp, fun s hs => ?_⟩
  · have : (isFeasible norm I x).feasible
        = decide (((isFeasible norm I x).nbInf : ℚ) ≤ I.eps * I.N) := rfl
    rw [this, hn]
    exact decide_eq_true_iff
  · rw [hf]
    simp [hs, ViolBy, feasTol]

/-- **C02.** After `check_feasibility(x)`: `infeasible_scenarios` is the strictly
increasing list of violated scenarios, and `get_feasible_scenarios()` (computed from the
rescaled violations) is `True` exactly at the other scenarios. -/
theorem C02_check_feasibility_record (norm : Norm) (I : Inst) (x : Vec) :
    (checkFeasibility norm I x).feasible = (isFeasible norm I x).feasible
    ∧ (checkFeasibility norm I x).infeasibleScenarios.Pairwise (· < ·)
    ∧ (∀ s, s ∈ (checkFeasibility norm I x).infeasibleScenarios ↔
        s ∈ violBy I (1 / 1000000) x)
    ∧ (getFeasibleScenarios (checkFeasibility norm I x)).length = I.N
    ∧ ∀ s < I.N, (getFeasibleScenarios (checkFeasibility norm I x))[s]? =
        some (decide (s ∉ violBy I (1 / 1000000) x)) := by
  have hf := flags_eq norm I x
  have hi : (checkFeasibility norm I x).infeasibleScenarios
      = (List.range I.N).filter fun s => decide (ViolBy I feasTol s x) := by
    simp only [checkFeasibility]
    rw [hf, zipIdx_filter_range]
  refine ⟨rfl, ?_, ?_, ?_, ?_⟩
  · rw [hi]
    exact (List.pairwise_lt_range).filter _
  · intro s
    rw [hi]
    simp [violBy, feasTol]
  · simp [getFeasibleScenarios, checkFeasibility]
  · intro s hs
    have hv := scenarioViolations_length_pos norm I x s
    have hp := scenarioViolations_pos norm I x s
    simp only [getFeasibleScenarios, checkFeasibility, List.getElem?_map,
      List.getElem?_range hs, Option.map_some, Option.some.injEq]
    have : (isFeasible norm I x).infeasibility.getD s [] = scenarioViolations norm I x s :=
      maxInf_eq norm I x hs
    rw [this]
    apply decide_eq_decide.2
    have hmem : s ∈ violBy I (1 / 1000000) x ↔ ViolBy I feasTol s x := by
      simp [violBy, hs, feasTol]
    rw [hmem, ← hv]
    split
    · next h => exact ⟨fun h0 => absurd h0 (ne_of_gt (npMax_pos h hp)), fun h0 => absurd h h0⟩
    · next h => simp only [true_iff]; exact h

/-- Non-trivial data for C01/C02: two scenarios, the second one violated at `x = 1`. -/
def exFeas : Inst :=
  { n := 1, N := 2, m := 1, A := fun _ _ _ => 1, b := fun s _ => if s = 0 then 1 else 0,
    c := fun _ => 1, proba := fun _ => 1 / 2, eps := 1 / 2, cont := true }

example : violBy exFeas (1 / 1000000) (fun _ => 1) = {1} := by decide +kernel

/-- The Manhattan norm is an admissible rescaling, so the parameter `Norm` is inhabited. -/
def exNorm : Norm where
  val n a := ∑ j ∈ range n, |a j|
  nonneg n a := Finset.sum_nonneg fun _ _ => abs_nonneg _
  eq_zero n a := by
    rw [Finset.sum_eq_zero_iff_of_nonneg fun _ _ => abs_nonneg _]
    simp
  congr n a a' h := Finset.sum_congr rfl fun j hj => by rw [h j (Finset.mem_range.1 hj)]

/-- **C03.** On a parsed instance with binary variables the tolerance is exact: the
verdict of `is_feasible` is the chance constraint itself. -/
theorem C03_tolerance_exact (norm : Norm) (file : List (List ℚ)) (cv : Bool) (eps : ℚ) (I : Inst)
    (hI : parse file cv eps = .ok I) (x : Vec) (hx : ∀ j < I.n, x j = 0 ∨ x j = 1) :
    ((isFeasible norm I x).feasible = true ↔ ((viol I x).card : ℚ) ≤ eps * I.N)
    ∧ ((isFeasible norm I x).feasible = true ↔ Chance I x) := by
  obtain ⟨_, heps, ⟨hN, hp⟩, hA, hb, _⟩ := parse_ok hI
  have hset : violBy I (1 / 1000000) x = viol I x := by
    unfold violBy viol
    refine Finset.filter_congr fun s _ => ?_
    unfold ViolBy Sat
    push Not
    refine exists_congr fun i => and_congr_right fun _ => ?_
    rw [grid_gt_tol (dot_grid (fun j _ => hA s i j) (hb s i) hx), sub_pos]
  have h1 := (C01_is_feasible_verdict norm I x).1
  rw [hset, heps] at h1
  refine ⟨h1, h1.trans ?_⟩
  unfold Chance
  have hsum : ∑ s ∈ viol I x, I.proba s = ((viol I x).card : ℚ) * (1 / (I.N : ℚ)) := by
    rw [Finset.sum_congr rfl (g := fun _ => 1 / (I.N : ℚ)), Finset.sum_const, nsmul_eq_mul]
    intro s hs
    exact hp s (Finset.mem_range.1 (Finset.mem_filter.1 hs).1)
  rw [hsum, heps, mul_one_div, div_le_iff₀ (by exact_mod_cast hN)]

/-- **C04.** Parsing a generated file gives back the generated data, rounded to one
decimal; no exception is raised. -/
theorem C04_parse_generated (n m N : ℕ) (hN : 0 < N) (c : Vec) (A : ℕ → ℕ → ℕ → ℚ) (b : Vec)
    (cv : Bool) (eps : ℚ) :
    ∃ I, parse (generatedRows n m N c A b) cv eps = .ok I
      ∧ I.n = n ∧ I.m = m ∧ I.N = N ∧ I.cont = cv ∧ I.eps = eps ∧ Equi I
      ∧ (∀ j < n, I.c j = round1 (c j))
      ∧ (∀ s < N, ∀ i < m, ∀ j < n, I.A s i j = round1 (A s i j))
      ∧ (∀ s < N, ∀ i < m, I.b s i = round1 (b i)) := by
  obtain ⟨I, h, h1, h2, h3, h4⟩ := parse_generated n m N hN c A b cv eps
  obtain ⟨hc, he, hq, _⟩ := parse_ok h
  exact ⟨I, h, h1, h2, h3, hc, he, hq, h4⟩

/-- The hypotheses of C03 are met by every generated file. -/
example : ∃ I, parse (generatedRows 2 1 2 (fun _ => 1) (fun s _ j => s + j + 1) (fun _ => 2))
    false (1 / 2) = .ok I ∧ ∀ j < I.n, (fun _ => 1 : Vec) j = 0 ∨ (fun _ => 1 : Vec) j = 1 := by
  obtain ⟨I, h, _⟩ := C04_parse_generated 2 1 2 (by decide) (fun _ => 1)
    (fun s _ j => s + j + 1) (fun _ => 2) false (1 / 2)
  exact ⟨I, h, fun _ _ => Or.inr rfl⟩

/-- A header announcing more rows than the file has makes the parser raise
`IndexError`. -/
example : parse [[1, 1, 2], [1], [1]] false 0 = .error .indexError := by rfl

/-- **C05.** Rounding on load: nearest multiple of 1/10, idempotent on the grid,
monotone, keeps signs; halfway between two tenths it takes the even one. -/
theorem C05_round1 (x : ℚ) :
    (∃ k : ℤ, round1 x = (k : ℚ) / 10) ∧ |round1 x - x| ≤ 1 / 20
    ∧ (∀ k : ℤ, round1 ((k : ℚ) / 10) = (k : ℚ) / 10)
    ∧ (∀ y, x ≤ y → round1 x ≤ round1 y)
    ∧ (0 ≤ x → 0 ≤ round1 x)
    ∧ (∀ k : ℤ, |round1 x - x| ≤ |(k : ℚ) / 10 - x|)
    ∧ (∀ k : ℤ, x = ((k : ℚ) / 10 + (k + 1) / 10) / 2 →
        round1 x = ((if Even k then k else k + 1 : ℤ) : ℚ) / 10) := by
  have hd : |round1 x - x| ≤ 1 / 20 := by
    have h := abs_le.1 (rint_spec (x * 10))
    unfold round1
    rw [abs_le]
    constructor <;> linarith [h.1, h.2]
  have hfix : ∀ k : ℤ, round1 ((k : ℚ) / 10) = (k : ℚ) / 10 := by
    intro k
    unfold round1
    rw [div_mul_cancel₀ _ (by norm_num), rint_intCast]
  have hmono : ∀ x y, x ≤ y → round1 x ≤ round1 y := by
    intro x y h
    unfold round1
    have : rint (x * 10) ≤ rint (y * 10) := rint_mono (by linarith)
    have : (rint (x * 10) : ℚ) ≤ rint (y * 10) := by exact_mod_cast this
    linarith
  refine ⟨round1_grid x, hd, hfix, hmono x, fun h => ?_, fun k => ?_, fun k hk => ?_⟩
  · have := hmono 0 x h
    have h0 := hfix 0
    norm_num at h0
    linarith [h0]
  · by_cases hk : |(k : ℚ) / 10 - x| < 1 / 20
    · have h := abs_lt.1 hk
      have h' := abs_le.1 hd
      have hkk : (k : ℤ) = rint (x * 10) := by
        have hr := abs_le.1 (rint_spec (x * 10))
        have h1 : (k : ℚ) < rint (x * 10) + 1 := by linarith [h.1, h.2, hr.1, hr.2]
        have h2 : (rint (x * 10) : ℚ) < k + 1 := by linarith [h.1, h.2, hr.1, hr.2]
        have h1' : k < rint (x * 10) + 1 := by exact_mod_cast h1
        have h2' : rint (x * 10) < k + 1 := by exact_mod_cast h2
        omega
      unfold round1
      rw [hkk]
    · exact hd.trans (not_lt.1 hk)
  · have hx : x * 10 = (k : ℚ) + 1 / 2 := by rw [hk]; ring
    have hfl : ⌊x * 10⌋ = k := by
      rw [hx, Int.floor_eq_iff]; constructor <;> linarith
    unfold round1 rint
    simp only [hfl]
    rw [if_neg (by rw [hx]; linarith), if_neg (by rw [hx]; linarith)]
    simp only [Int.even_iff]

end Verif.Props
