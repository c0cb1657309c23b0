import Verif.Model.FloatSort
import Verif.Props.Float
import Verif.Lemmas.Violations
import Verif.Model.ViolationsMem
import Mathlib.Logic.Relation

/-!
# C93: the comparison of `violations.h` in double precision
-/

namespace Verif.Props
open Spec Model

theorem fl64_of_nonpos {q : ℚ} (h : q ≤ 0) : fl64 q = 0 := by
  unfold fl64; rw [if_pos h]

/-- Rounding keeps the order. -/
theorem fl64_mono {q r : ℚ} (h : q ≤ r) : fl64 q ≤ fl64 r := by
  rcases le_or_gt q 0 with hq | hq
  · rw [fl64_of_nonpos hq]; exact fl64_nonneg r
  have hr : 0 < r := hq.trans_le h
  unfold fl64
  rw [if_neg (not_le.2 hq), if_neg (not_le.2 hr)]
  dsimp only
  have hl : Int.log 2 q ≤ Int.log 2 r := Int.log_mono_right hq h
  rcases hl.eq_or_lt with he | hl
  · rw [he]
    have hu : (0 : ℚ) < 2 ^ (Int.log 2 r - 52) := zpow_pos (by norm_num) _
    have : rint (q / 2 ^ (Int.log 2 r - 52)) ≤ rint (r / 2 ^ (Int.log 2 r - 52)) :=
      rint_mono (by gcongr)
    have h' : ((rint (q / 2 ^ (Int.log 2 r - 52)) : ℤ) : ℚ)
      ≤ ((rint (r / 2 ^ (Int.log 2 r - 52)) : ℤ) : ℚ) := by exact_mod_cast this
    gcongr
  · have hu : (0 : ℚ) < 2 ^ (Int.log 2 q - 52) := zpow_pos (by norm_num) _
    have hv : (0 : ℚ) < 2 ^ (Int.log 2 r - 52) := zpow_pos (by norm_num) _
    have h1 : q < ((2 : ℕ) : ℚ) ^ (Int.log 2 q + 1) := Int.lt_zpow_succ_log_self (by norm_num) q
    have h2 : ((2 : ℕ) : ℚ) ^ Int.log 2 r ≤ r := Int.zpow_log_le_self (by norm_num) hr
    push_cast at h1 h2
    have k1 : ((2 ^ 53 : ℤ) : ℚ) * 2 ^ (Int.log 2 q - 52) = 2 ^ (Int.log 2 q + 1) := by
      rw [Int.cast_pow, Int.cast_ofNat, ← zpow_natCast (2 : ℚ) 53, ← zpow_add₀ (by norm_num)]
      congr 1
      push_cast
      ring
    have k2 : ((2 ^ 52 : ℤ) : ℚ) * 2 ^ (Int.log 2 r - 52) = 2 ^ Int.log 2 r := by
      rw [Int.cast_pow, Int.cast_ofNat, ← zpow_natCast (2 : ℚ) 52, ← zpow_add₀ (by norm_num)]
      congr 1
      push_cast
      ring
    have f1 := rint_mono ((div_le_iff₀ hu).2 (h1.le.trans k1.ge))
    have f2 := rint_mono ((le_div_iff₀ hv).2 (k2.le.trans h2))
    rw [rint_intCast] at f1 f2
    have f1' : ((rint (q / 2 ^ (Int.log 2 q - 52)) : ℤ) : ℚ) ≤ ((2 ^ 53 : ℤ) : ℚ) :=
      Int.cast_le.2 f1
    have f2' : ((2 ^ 52 : ℤ) : ℚ) ≤ ((rint (r / 2 ^ (Int.log 2 r - 52)) : ℤ) : ℚ) :=
      Int.cast_le.2 f2
    calc (rint (q / 2 ^ (Int.log 2 q - 52)) : ℚ) * 2 ^ (Int.log 2 q - 52)
        ≤ ((2 ^ 53 : ℤ) : ℚ) * 2 ^ (Int.log 2 q - 52) := mul_le_mul_of_nonneg_right f1' hu.le
      _ = 2 ^ (Int.log 2 q + 1) := k1
      _ ≤ 2 ^ (Int.log 2 r) := zpow_le_zpow_right₀ (by norm_num) (by omega)
      _ = ((2 ^ 52 : ℤ) : ℚ) * 2 ^ (Int.log 2 r - 52) := k2.symm
      _ ≤ _ := mul_le_mul_of_nonneg_right f2' hv.le

/-- Natural numbers below `2^53` are doubles. -/
theorem fl64_natCast {k : ℕ} (hk : k < 2 ^ 53) : fl64 (k : ℚ) = k := by
  rcases Nat.eq_zero_or_pos k with rfl | h0
  · exact fl64_of_nonpos (by simp)
  have hq : (0 : ℚ) < k := by exact_mod_cast h0
  unfold fl64
  rw [if_neg (not_le.2 hq)]
  dsimp only
  have hl : Int.log 2 (k : ℚ) ≤ 52 := by
    have : Int.log 2 (k : ℚ) < 53 := by
      rw [← Int.lt_zpow_iff_log_lt (b := 2) (by norm_num) hq]
      exact_mod_cast hk
    omega
  obtain ⟨e, he⟩ : ∃ e : ℕ, Int.log 2 (k : ℚ) - 52 = -(e : ℤ) :=
    ⟨(52 - Int.log 2 (k : ℚ)).toNat, by omega⟩
  rw [he, zpow_neg, zpow_natCast, div_inv_eq_mul,
    show (k : ℚ) * 2 ^ e = (((k : ℤ) * 2 ^ e : ℤ) : ℚ) by push_cast; ring, rint_intCast]
  push_cast
  field_simp

/-! ## No cycles -/

/-- **C93.** Rounding makes ties but turns no comparison round: on non-negative doubles, an element
that the comparison puts before another is strictly before it in exact arithmetic. -/
theorem C93_exact_order (p w : Vec) (i j : ℕ) (h : flComp p w i j = true) :
    cppComp p w i j = true := by
  unfold flComp at h
  unfold cppComp
  split at h
  · cases h
  rename_i h1
  rw [if_neg h1]
  split at h
  · rename_i h2
    rw [if_pos h2]
  rename_i h2
  rw [if_neg h2]
  simp only [gt_iff_lt, decide_eq_true_eq] at h ⊢
  by_contra hle
  exact absurd h (not_lt.2 (fl64_mono (not_lt.1 hle)))

/-- **C93.** The comparison in doubles has no cycle, of whatever length. -/
theorem C93_acyclic (p w : Vec) (n : ℕ) (hp : ∀ j < n, 0 ≤ p j) (hw : ∀ j < n, 0 ≤ w j) (i : ℕ) :
    ¬ Relation.TransGen (fun a b => a < n ∧ b < n ∧ flComp p w a b = true) i i := by
  have hS := cppComp_strictWeak p w (List.range n) (fun a ha => hp a (List.mem_range.1 ha))
    fun a ha => hw a (List.mem_range.1 ha)
  have key : ∀ {a b : ℕ}, Relation.TransGen (fun a b => a < n ∧ b < n ∧ flComp p w a b = true) a b →
      a < n ∧ b < n ∧ cppComp p w a b = true := by
    intro a b h
    induction h with
    | single h => exact ⟨h.1, h.2.1, C93_exact_order p w _ _ h.2.2⟩
    | tail _ h ih =>
      exact ⟨ih.1, h.2.1, hS.2.1 _ (List.mem_range.2 ih.1) _ (List.mem_range.2 h.1) _
        (List.mem_range.2 h.2.1) ih.2.2 (C93_exact_order p w _ _ h.2.2)⟩
  intro h
  have := key h
  rw [hS.1 _ (List.mem_range.2 this.1)] at this
  exact absurd this.2.2 (by simp)

/-! ## Integer data -/

/-- **C93.** On integers up to `2^26` the comparison is the exact one. -/
theorem C93_integer_exact (p w : Vec) (n : ℕ)
    (hp : ∀ j < n, ∃ k : ℕ, k ≤ 2 ^ 26 ∧ p j = k) (hw : ∀ j < n, ∃ k : ℕ, k ≤ 2 ^ 26 ∧ w j = k)
    (i j : ℕ) (hi : i < n) (hj : j < n) : flComp p w i j = cppComp p w i j := by
  have key : ∀ a < n, ∀ b < n, fl64 (p a * w b) = p a * w b := by
    intro a ha b hb
    obtain ⟨k, hk, e1⟩ := hp a ha
    obtain ⟨l, hl, e2⟩ := hw b hb
    rw [e1, e2, ← Nat.cast_mul]
    refine fl64_natCast ((Nat.mul_le_mul hk hl).trans_lt (by norm_num))
  unfold flComp cppComp
  rw [key i hi j hj, key j hj i hi]

/-- Full statement of **C93**: on non-negative data the comparison in doubles is a strict weak
order, as `std::sort` requires. -/
def ComparisonIsOrder (p w : Vec) (n : ℕ) : Prop :=
  StrictWeak (flComp p w) (List.range n)

/-- **C93 (partial).** It is on integers up to `2^26`; false for one-decimal data
(`C93_counterexample`). -/
theorem C93_integer_partial (p w : Vec) (n : ℕ)
    (hp : ∀ j < n, ∃ k : ℕ, k ≤ 2 ^ 26 ∧ p j = k) (hw : ∀ j < n, ∃ k : ℕ, k ≤ 2 ^ 26 ∧ w j = k) :
    ComparisonIsOrder p w n := by
  have hS := cppComp_strictWeak p w (List.range n)
    (fun a ha => by obtain ⟨k, -, e⟩ := hp a (List.mem_range.1 ha); rw [e]; positivity)
    fun a ha => by obtain ⟨k, -, e⟩ := hw a (List.mem_range.1 ha); rw [e]; positivity
  have e : ∀ a ∈ List.range n, ∀ b ∈ List.range n, flComp p w a b = cppComp p w a b :=
    fun a ha b hb => C93_integer_exact p w n hp hw a b (List.mem_range.1 ha) (List.mem_range.1 hb)
  refine ⟨fun a ha => (e a ha a ha).trans (hS.1 a ha), fun a ha b hb d hd h1 h2 => ?_,
    fun a ha b hb d hd h1 h2 => ?_⟩
  · rw [e a ha d hd]
    exact hS.2.1 a ha b hb d hd ((e a ha b hb).symm.trans h1) ((e b hb d hd).symm.trans h2)
  · rw [e a ha d hd]
    exact hS.2.2 a ha b hb d hd ((e a ha b hb).symm.trans h1) ((e b hb d hd).symm.trans h2)

/-! ## One-decimal data -/

/-- The double nearest to a multiple of a tenth. -/
def tenth (k : ℕ) : ℚ := fl64 (k / 10)

theorem tenth_eq_zero {k : ℕ} : tenth k = 0 ↔ k = 0 := by
  constructor
  · intro h
    by_contra hk
    have h0 : (1 : ℚ) ≤ k := by exact_mod_cast Nat.one_le_iff_ne_zero.2 hk
    have := le_fl64 (q := (k : ℚ) / 10) (by positivity)
    unfold tenth at h
    rw [h] at this
    norm_num at this
    linarith
  · rintro rfl
    exact fl64_of_nonpos (by simp)

theorem tenth_bounds (k : ℕ) :
    (k : ℚ) / 10 * (1 - 1 / 2 ^ 53) ≤ tenth k ∧ tenth k ≤ (k : ℚ) / 10 * (1 + 1 / 2 ^ 53) :=
  ⟨le_fl64 (by positivity), fl64_le (by positivity)⟩

/-- **C93.** On one-decimal data up to 1.6 million the comparison agrees with that of the decimal
numbers wherever these differ; only ties are decided by rounding errors. -/
theorem C93_decides_right (P W : ℕ → ℕ) (n : ℕ) (hP : ∀ j < n, P j ≤ 2 ^ 24)
    (hW : ∀ j < n, W j ≤ 2 ^ 24) (i j : ℕ) (hi : i < n) (hj : j < n)
    (hne : P i * W j ≠ P j * W i) :
    flComp (fun a => tenth (P a)) (fun a => tenth (W a)) i j
      = cppComp (fun a => (P a : ℚ) / 10) (fun a => (W a : ℚ) / 10) i j := by
  have key : ∀ a < n, ∀ b < n, ∀ c < n, ∀ d < n, P a * W b < P c * W d →
      fl64 (tenth (P a) * tenth (W b)) < fl64 (tenth (P c) * tenth (W d)) := by
    intro a ha b hb c hc d hd h
    have h' : (P a : ℚ) * W b + 1 ≤ P c * W d := by exact_mod_cast h
    have b1 : (P a : ℚ) * W b ≤ 2 ^ 48 := by
      have := Nat.mul_le_mul (hP a ha) (hW b hb)
      norm_num at this ⊢
      exact_mod_cast this
    have t1 := tenth_bounds (P a)
    have t2 := tenth_bounds (W b)
    have t3 := tenth_bounds (P c)
    have t4 := tenth_bounds (W d)
    have n1 : 0 ≤ tenth (P a) := fl64_nonneg _
    have n2 : 0 ≤ tenth (W b) := fl64_nonneg _
    have n3 : 0 ≤ tenth (P c) := fl64_nonneg _
    have n4 : 0 ≤ tenth (W d) := fl64_nonneg _
    have u1 : fl64 (tenth (P a) * tenth (W b))
        ≤ (P a : ℚ) * W b / 100 * (1 + 1 / 2 ^ 53) ^ 3 := by
      refine (fl64_le (mul_nonneg n1 n2)).trans ?_
      have := mul_le_mul t1.2 t2.2 n2 (by positivity)
      calc _ ≤ ((P a : ℚ) / 10 * (1 + 1 / 2 ^ 53)) * ((W b : ℚ) / 10 * (1 + 1 / 2 ^ 53))
            * (1 + 1 / 2 ^ 53) := by gcongr
        _ = _ := by ring
    have u2 : (P c : ℚ) * W d / 100 * (1 - 1 / 2 ^ 53) ^ 3
        ≤ fl64 (tenth (P c) * tenth (W d)) := by
      refine le_trans ?_ (le_fl64 (mul_nonneg n3 n4))
      have h1 : (0 : ℚ) ≤ 1 - 1 / 2 ^ 53 := by norm_num
      have := mul_le_mul t3.1 t4.1 (by positivity) n3
      calc _ = ((P c : ℚ) / 10 * (1 - 1 / 2 ^ 53)) * ((W d : ℚ) / 10 * (1 - 1 / 2 ^ 53))
            * (1 - 1 / 2 ^ 53) := by ring
        _ ≤ _ := by gcongr
    refine u1.trans_lt (lt_of_lt_of_le ?_ u2)
    have p0 : (0 : ℚ) ≤ (P a : ℚ) * W b := by positivity
    generalize (P a : ℚ) * W b = X at *
    generalize (P c : ℚ) * W d = Y at *
    have : (X + 1) / 100 * (1 - 1 / 2 ^ 53) ^ 3 ≤ Y / 100 * (1 - 1 / 2 ^ 53) ^ 3 := by
      gcongr
    refine lt_of_lt_of_le ?_ this
    norm_num at b1 ⊢
    linarith
  unfold flComp cppComp
  have z : ∀ a b : ℕ, (tenth a = 0 ∧ tenth b = 0) ↔ ((a : ℚ) / 10 = 0 ∧ (b : ℚ) / 10 = 0) := by
    intro a b
    rw [tenth_eq_zero, tenth_eq_zero]
    simp
  by_cases h1 : tenth (P i) = 0 ∧ tenth (W i) = 0
  · rw [if_pos h1, if_pos ((z _ _).1 h1)]
  rw [if_neg h1, if_neg (fun h => h1 ((z _ _).2 h))]
  by_cases h2 : tenth (P j) = 0 ∧ tenth (W j) = 0
  · rw [if_pos h2, if_pos ((z _ _).1 h2)]
  rw [if_neg h2, if_neg (fun h => h2 ((z _ _).2 h))]
  have e : ((P i : ℚ) / 10 * (W j / 10) > P j / 10 * (W i / 10)) ↔ P j * W i < P i * W j := by
    rw [← Nat.cast_lt (α := ℚ)]
    push_cast
    constructor <;> intro h <;> linarith
  rw [decide_eq_decide, e]
  rcases lt_or_gt_of_ne hne with h | h
  · have := key i hi j hj j hj i hi h
    exact ⟨fun h' => absurd h' (not_lt.2 this.le), fun h' => absurd h' (not_lt.2 h.le)⟩
  · exact ⟨fun _ => h, fun _ => key j hj i hi i hi j hj h⟩

/-- **C93 is false** for one-decimal data: with rows `1.1, 5.5, 3.3` and `1.0, 5.0, 3.0` of two
scenarios the first element is before the last, but neither is ordered with the one in the middle. -/
theorem C93_counterexample :
    ¬ ComparisonIsOrder (fun a => tenth ([11, 55, 33].getD a 0)) (fun a => tenth ([10, 50, 30].getD a 0)) 3
    ∧ flComp (fun a => tenth ([11, 55, 33].getD a 0)) (fun a => tenth ([10, 50, 30].getD a 0)) 0 2 = true := by
  have h : ¬ StrictWeak (flComp (fun a => tenth ([11, 55, 33].getD a 0))
      (fun a => tenth ([10, 50, 30].getD a 0))) (List.range 3) := by decide +kernel
  exact ⟨h, by decide +kernel⟩

/-- A case of C93 for integers: three items of different ratios. -/
example : ComparisonIsOrder (fun a => [3, 2, 1].getD a 0) (fun a => [1, 2, 3].getD a 0) 3
    ∧ flComp (fun a => [3, 2, 1].getD a 0) (fun a => [1, 2, 3].getD a 0) 0 2 = true := by
  refine ⟨C93_integer_partial _ _ 3 ?_ ?_, by decide +kernel⟩
  · intro j hj
    exact ⟨[3, 2, 1].getD j 0, by interval_cases j <;> norm_num, by interval_cases j <;> norm_num⟩
  · intro j hj
    exact ⟨[1, 2, 3].getD j 0, by interval_cases j <;> norm_num, by interval_cases j <;> norm_num⟩

/-- A case of `C93_decides_right`: 1.1/1.0 is before 1.2/1.1. -/
example : flComp (fun a => tenth ([11, 12].getD a 0)) (fun a => tenth ([10, 11].getD a 0)) 0 1
    = true := by
  rw [C93_decides_right (fun a => [11, 12].getD a 0) (fun a => [10, 11].getD a 0) 2
    (fun j hj => by interval_cases j <;> norm_num) (fun j hj => by interval_cases j <;> norm_num) 0 1
    (by norm_num) (by norm_num) (by norm_num)]
  decide +kernel

end Verif.Props
