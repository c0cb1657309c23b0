import Verif.Model.FloatMilp
import Verif.Lemmas.FloatOptim
import Verif.Props.FloatViolations

/-!
# Doubles are closed under the operations of the violation routine
-/

namespace Verif.Props
open Spec Model

/-- Numbers with at most 53 bits are doubles. -/
theorem fl64_scaled {k : ℕ} (hk : k < 2 ^ 53) (e : ℤ) : fl64 ((k : ℚ) * 2 ^ e) = k * 2 ^ e := by
  rcases Nat.eq_zero_or_pos k with rfl | h0
  · exact (fl64_of_nonpos (by simp)).trans (by simp)
  have he : (0 : ℚ) < 2 ^ e := zpow_pos (by norm_num) _
  have hq : (0 : ℚ) < k * 2 ^ e := mul_pos (by exact_mod_cast h0) he
  unfold fl64
  rw [if_neg (not_le.2 hq)]
  dsimp only
  have hl : Int.log 2 ((k : ℚ) * 2 ^ e) < 53 + e := by
    rw [← Int.lt_zpow_iff_log_lt (b := 2) (by norm_num) hq]
    push_cast
    rw [zpow_add₀ (by norm_num)]
    have : (k : ℚ) < 2 ^ (53 : ℤ) := by exact_mod_cast hk
    exact mul_lt_mul_of_pos_right this he
  obtain ⟨d, hd⟩ : ∃ d : ℕ, e - (Int.log 2 ((k : ℚ) * 2 ^ e) - 52) = (d : ℤ) :=
    ⟨(e - (Int.log 2 ((k : ℚ) * 2 ^ e) - 52)).toNat, by omega⟩
  set u := Int.log 2 ((k : ℚ) * 2 ^ e) - 52 with hu
  have hu0 : (2 : ℚ) ^ u ≠ 0 := zpow_ne_zero _ (by norm_num)
  have : (k : ℚ) * 2 ^ e / 2 ^ u = (((k : ℤ) * 2 ^ d : ℤ) : ℚ) := by
    rw [mul_div_assoc, ← zpow_sub₀ (by norm_num), hd]
    push_cast
    rw [zpow_natCast]
  rw [this, rint_intCast, ← this, div_mul_cancel₀ _ hu0]

/-- Rounding twice is rounding once. -/
theorem fl64_fl64 (q : ℚ) : fl64 (fl64 q) = fl64 q := by
  rcases le_or_gt q 0 with hq | hq
  · rw [fl64_of_nonpos hq, fl64_of_nonpos le_rfl]
  have h2 : q < ((2 : ℕ) : ℚ) ^ (Int.log 2 q + 1) := Int.lt_zpow_succ_log_self (by norm_num) q
  push_cast at h2
  have hu : (0 : ℚ) < 2 ^ (Int.log 2 q - 52) := zpow_pos (by norm_num) _
  have hf : fl64 q = (rint (q / 2 ^ (Int.log 2 q - 52)) : ℚ) * 2 ^ (Int.log 2 q - 52) := by
    unfold fl64; rw [if_neg (not_le.2 hq)]
  have k1 : ((2 ^ 53 : ℤ) : ℚ) * 2 ^ (Int.log 2 q - 52) = 2 ^ (Int.log 2 q + 1) := by
    rw [Int.cast_pow, Int.cast_ofNat, ← zpow_natCast (2 : ℚ) 53, ← zpow_add₀ (by norm_num)]
    congr 1
    push_cast
    ring
  have f1 := rint_mono ((div_le_iff₀ hu).2 (h2.le.trans k1.ge))
  have f0 := rint_mono (div_nonneg hq.le hu.le)
  rw [rint_intCast] at f1
  rw [show (0 : ℚ) = ((0 : ℤ) : ℚ) by simp, rint_intCast] at f0
  obtain ⟨k, hk⟩ := Int.eq_ofNat_of_zero_le f0
  rw [hk] at f1 hf
  rw [hf]
  rcases f1.eq_or_lt with h | h
  · have e : ((k : ℤ) : ℚ) * 2 ^ (Int.log 2 q - 52) = ((2 ^ 52 : ℕ) : ℚ) * 2 ^ (Int.log 2 q - 52 + 1) := by
      rw [h, zpow_add₀ (by norm_num)]
      push_cast
      ring
    rw [e]
    exact fl64_scaled (by norm_num) _
  · have h : k < 2 ^ 53 := by exact_mod_cast h
    rw [Int.cast_natCast]
    exact fl64_scaled h _

theorem rd_rd (q : ℚ) : rd (rd q) = rd q := by
  unfold rd
  by_cases h : 0 ≤ q
  · rw [if_pos h, if_pos (fl64_nonneg q), fl64_fl64]
  · rw [if_neg h]
    by_cases h' : 0 ≤ -fl64 (-q)
    · have : fl64 (-q) = 0 := le_antisymm (by linarith) (fl64_nonneg _)
      rw [this]
      simp [fl64_of_nonpos]
    · rw [if_neg h', neg_neg, fl64_fl64]

theorem isDouble_rd (q : ℚ) : IsDouble (rd q) := rd_rd q

theorem isDouble_neg (q : ℚ) : IsDouble (-fl64 q) := by
  have h0 := fl64_nonneg q
  unfold IsDouble rd
  by_cases h : 0 ≤ -fl64 q
  · have : fl64 q = 0 := le_antisymm (by linarith) h0
    rw [this]
    simp [fl64_of_nonpos]
  · rw [if_neg h, neg_neg, fl64_fl64]

theorem isDouble_flZero (p w : Vec) (l : List ℕ) (q : ℚ) : IsDouble (flZero p w l (fl64 q)) := by
  have : ∀ (l : List ℕ) (v : ℚ), IsDouble v →
      IsDouble (l.foldl (fun v i => if w i ≤ tol6 then rd (v + p i) else v) v) := by
    intro l
    induction l with
    | nil => exact fun v h => h
    | cons j l ih =>
      intro v h
      rw [List.foldl_cons]
      refine ih _ ?_
      split_ifs
      · exact isDouble_rd _
      · exact h
  exact this l _ (isDouble_neg q)

theorem isDouble_flLoop (p w : Vec) (cap : ℚ) (mn : WithTop ℚ) (l : List ℕ) (v wt : ℚ)
    (h : IsDouble v) : IsDouble (flLoop p w cap mn l v wt) := by
  induction l generalizing v wt with
  | nil => exact h
  | cons j l ih =>
    unfold flLoop
    split_ifs
    · exact ih _ _ h
    · exact isDouble_rd _
    · exact isDouble_rd _
    · exact ih _ _ (isDouble_rd _)

/-- Infinite or a double. -/
def DoubleEntry (a : WithTop ℚ) : Prop := ∀ q : ℚ, a = (q : WithTop ℚ) → IsDouble q

theorem doubleEntry_flUpdate (p w : Vec) (q cap : ℚ) (mn : WithTop ℚ) (l : List ℕ) (rev : Bool)
    (h : DoubleEntry mn) : DoubleEntry (flUpdate p (fl64 q) w cap mn l rev) := by
  unfold flUpdate
  dsimp only
  split_ifs
  · intro r hr
    have hr := WithTop.coe_injective hr
    rw [← hr]
    exact isDouble_flLoop _ _ _ _ _ _ _ (isDouble_flZero _ _ _ _)
  · exact h
  · intro r hr
    have hr := WithTop.coe_injective hr
    rw [← hr]
    exact isDouble_flLoop _ _ _ _ _ _ _ (isDouble_flZero _ _ _ _)
  · exact h

/-- All violations are doubles. -/
theorem flViolations_double {srt : CppSort} {I : Inst} {f : ℕ → ℕ → ℕ → WithTop ℚ}
    (hf : flViolations srt I = .ok f) (s t i : ℕ) : DoubleEntry (f s t i) := by
  unfold flViolations at hf
  split at hf
  · cases hf
  cases hf
  have key : ∀ (ops : List CppOp) (st : CppState), (∀ x, DoubleEntry (st.viols x)) →
      ∀ x, DoubleEntry ((ops.foldl (flCompute srt (memA (dbl I)) (memB (dbl I))) st).viols x) := by
    intro ops
    induction ops with
    | nil => exact fun _ h => h
    | cons op ops ih =>
      intro st h
      rw [List.foldl_cons]
      refine ih _ fun x => ?_
      have hb : ∀ k, ∃ q, memB (dbl I) k = fl64 q := fun k => ⟨_, rfl⟩
      obtain ⟨q1, h1⟩ := hb op.srhs
      obtain ⟨q2, h2⟩ := hb op.trhs
      unfold flCompute
      dsimp only
      rw [h1, h2]
      have a1 : ∀ x, DoubleEntry (Function.update st.viols op.sViol
          (flUpdate (fun j => memA (dbl I) (op.slhs + j)) (fl64 q1) (fun j => memA (dbl I) (op.tlhs + j))
            (fl64 q2) (st.viols op.sViol) (srt.run (flComp (fun j => memA (dbl I) (op.slhs + j))
              fun j => memA (dbl I) (op.tlhs + j)) st.indices) false) x) := by
        intro x
        rw [Function.update_apply]
        split_ifs
        · exact doubleEntry_flUpdate _ _ _ _ _ _ _ (h _)
        · exact h x
      rw [Function.update_apply]
      split_ifs
      · exact doubleEntry_flUpdate _ _ _ _ _ _ _ (a1 _)
      · exact a1 x
  refine key _ _ (fun x => ?_) _
  simp only [cppInit]
  split_ifs
  · intro q hq
    have : q = 0 := (WithTop.coe_injective hq).symm
    rw [this]
    unfold IsDouble rd
    simp [fl64_of_nonpos]
  · intro q hq; cases hq

end Verif.Props
