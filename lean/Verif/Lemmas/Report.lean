import Verif.Model.Report
import Verif.Lemmas.Parse

/-!
# Reading back what the reports print
-/

namespace Verif.Model

theorem padDigits_length (d k : ℕ) : (padDigits d k).length = d := by
  induction d generalizing k with
  | zero => rfl
  | succ d ih => simp [padDigits, ih]

theorem toDigits_isDigit (k : ℕ) : ∀ c ∈ Nat.toDigits 10 k, c.isDigit = true := fun _ hc =>
  Nat.isDigit_of_mem_toDigits (by norm_num) (by norm_num) hc

theorem padDigits_isDigit (d k : ℕ) : ∀ c ∈ padDigits d k, c.isDigit = true := by
  induction d generalizing k with
  | zero => simp [padDigits]
  | succ d ih =>
    intro c hc
    simp only [padDigits, List.mem_append, List.mem_singleton] at hc
    rcases hc with hc | rfl
    · exact ih _ _ hc
    · exact toDigits_isDigit (k % 10) _ (by
        rw [Nat.toDigits_of_lt_base (Nat.mod_lt _ (by norm_num))]; simp)

theorem padDigits_value (d k : ℕ) : Nat.ofDigitChars 10 (padDigits d k) 0 = k % 10 ^ d := by
  induction d generalizing k with
  | zero => simp [padDigits, Nat.mod_one]
  | succ d ih =>
    rw [padDigits, Nat.ofDigitChars_append, ih,
      Nat.ofDigitChars_cons_digitChar_of_lt_ten (Nat.mod_lt _ (by norm_num)),
      Nat.ofDigitChars_nil, pow_succ', Nat.mod_mul]
    omega

theorem takeWhile_all {α : Type} {p : α → Bool} {l r : List α} (h : ∀ a ∈ l, p a = true)
    (hr : ∀ a ∈ r.head?, p a = false) :
    (l ++ r).takeWhile p = l ∧ (l ++ r).dropWhile p = r := by
  induction l with
  | nil =>
    cases r with
    | nil => simp
    | cons a r =>
      have := hr a (by simp)
      simp [this]
  | cons a l ih =>
    have ha := h a (by simp)
    have := ih fun b hb => h b (by simp [hb])
    simp [ha, this]

/-- Digits are read as the number they denote. -/
theorem readUnsigned_nat (k : ℕ) : readUnsigned (Nat.toDigits 10 k) = some (k : ℚ) := by
  have h := takeWhile_all (r := []) (toDigits_isDigit k) (by simp)
  simp only [List.append_nil] at h
  unfold readUnsigned
  rw [h.1, h.2]
  have hne : Nat.toDigits 10 k ≠ [] := Nat.toDigits_ne_nil
  cases hd : Nat.toDigits 10 k with
  | nil => exact absurd hd hne
  | cons c l =>
    simp only
    rw [← hd, Nat.ofDigitChars_ten_toDigits]

/-- Digits, a point and `d` digits. -/
theorem readUnsigned_point (k d : ℕ) :
    readUnsigned (Nat.toDigits 10 (k / 10 ^ d) ++ '.' :: padDigits d k)
      = some ((k : ℚ) / 10 ^ d) := by
  have h := takeWhile_all (r := '.' :: padDigits d k) (toDigits_isDigit (k / 10 ^ d))
    (by simp)
  unfold readUnsigned
  rw [h.1, h.2]
  have hne : Nat.toDigits 10 (k / 10 ^ d) ≠ [] := Nat.toDigits_ne_nil
  have hall : (padDigits d k).all Char.isDigit = true := by
    rw [List.all_eq_true]; exact padDigits_isDigit d k
  have hval : ((k / 10 ^ d : ℕ) : ℚ) + ((k % 10 ^ d : ℕ) : ℚ) / 10 ^ d = (k : ℚ) / 10 ^ d := by
    have h10 : ((10 : ℚ) ^ d) ≠ 0 := by positivity
    have := Nat.div_add_mod k (10 ^ d)
    have hq : (k : ℚ) = (10 ^ d : ℚ) * ((k / 10 ^ d : ℕ) : ℚ) + ((k % 10 ^ d : ℕ) : ℚ) := by
      exact_mod_cast this.symm
    field_simp
    linarith
  cases hd : Nat.toDigits 10 (k / 10 ^ d) with
  | nil => exact absurd hd hne
  | cons c l =>
    simp only [hall, if_true]
    rw [← hd, Nat.ofDigitChars_ten_toDigits, padDigits_value, padDigits_length, hval]

theorem head_toDigits (k : ℕ) (r : Txt) (c : Char) (h : c.isDigit = false) (t : Txt) :
    Nat.toDigits 10 k ++ r ≠ c :: t := by
  intro e
  cases hd : Nat.toDigits 10 k with
  | nil => exact Nat.toDigits_ne_nil hd
  | cons a l =>
    have ha := toDigits_isDigit k a (by simp [hd])
    rw [hd] at e
    simp only [List.cons_append, List.cons.injEq] at e
    rw [e.1, h] at ha
    cases ha

theorem readFloat_pos (k : ℕ) (r : Txt) (q : ℚ)
    (h : readUnsigned (Nat.toDigits 10 k ++ r) = some q) :
    readFloat (Nat.toDigits 10 k ++ r) = some (.fin q) := by
  unfold readFloat
  rw [if_neg (head_toDigits k r _ (by decide) _), if_neg (head_toDigits k r _ (by decide) _),
    if_neg (head_toDigits k r _ (by decide) _)]
  split
  · next e => exact absurd e (head_toDigits k r _ (by decide) _)
  · rw [h]; rfl

theorem readFloat_neg (k : ℕ) (r : Txt) (q : ℚ)
    (h : readUnsigned (Nat.toDigits 10 k ++ r) = some q) :
    readFloat ('-' :: (Nat.toDigits 10 k ++ r)) = some (.fin (-q)) := by
  unfold readFloat
  have h2 : '-' :: (Nat.toDigits 10 k ++ r) ≠ ['-', 'i', 'n', 'f'] := by
    intro e
    exact head_toDigits k r 'i' (by decide) _ (List.cons.inj e).2
  rw [if_neg (by intro e; exact absurd (List.cons.inj e).1 (by decide)), if_neg h2,
    if_neg (by intro e; exact absurd (List.cons.inj e).1 (by decide))]
  simp only
  rw [h]; rfl

/-- The number that is read back from `d` decimals: the nearest multiple of `10⁻ᵈ`, ties to even,
sign kept. -/
def roundDec (d : ℕ) (q : ℚ) : ℚ :=
  if q < 0 then -((rint (|q| * 10 ^ d) : ℚ) / 10 ^ d) else (rint (|q| * 10 ^ d) : ℚ) / 10 ^ d

theorem rint_nonneg {x : ℚ} (h : 0 ≤ x) : 0 ≤ rint x := by
  have := rint_mono h
  have h0 := rint_intCast 0
  simp only [Int.cast_zero] at h0
  omega

theorem readFloat_fixed (d : ℕ) (q : ℚ) : readFloat (fixed d q) = some (.fin (roundDec d q)) := by
  have hk : ((rint (|q| * 10 ^ d)).toNat : ℚ) = (rint (|q| * 10 ^ d) : ℚ) := by
    have := Int.toNat_of_nonneg (rint_nonneg (x := |q| * 10 ^ d) (by positivity))
    exact_mod_cast congrArg (fun z : ℤ => (z : ℚ)) this
  have hr : readUnsigned (Nat.toDigits 10 ((rint (|q| * 10 ^ d)).toNat / 10 ^ d)
      ++ (if d = 0 then [] else '.' :: padDigits d (rint (|q| * 10 ^ d)).toNat))
      = some ((rint (|q| * 10 ^ d) : ℚ) / 10 ^ d) := by
    split
    · next h =>
      subst h
      simp only [pow_zero, Nat.div_one, List.append_nil, div_one] at hk ⊢
      rw [readUnsigned_nat, hk]
    · rw [readUnsigned_point, hk]
  unfold fixed roundDec
  simp only
  by_cases hq : q < 0
  · rw [if_pos hq, if_pos hq]
    simpa using readFloat_neg _ _ _ hr
  · rw [if_neg hq, if_neg hq]
    simpa using readFloat_pos _ _ _ hr

theorem roundDec_near (d : ℕ) (q : ℚ) : |roundDec d q - q| ≤ 1 / (2 * 10 ^ d) := by
  have h := rint_spec (|q| * 10 ^ d)
  have h10 : (0 : ℚ) < 10 ^ d := by positivity
  have key : |(rint (|q| * 10 ^ d) : ℚ) / 10 ^ d - abs q| ≤ 1 / (2 * 10 ^ d) := by
    have e : (rint (|q| * 10 ^ d) : ℚ) / 10 ^ d - abs q
        = ((rint (|q| * 10 ^ d) : ℚ) - |q| * 10 ^ d) / 10 ^ d := by field_simp
    rw [e, abs_div, abs_of_pos h10, div_le_div_iff₀ h10 (by positivity)]
    nlinarith
  unfold roundDec
  split
  · next hq =>
    rw [abs_of_neg hq] at key ⊢
    rw [abs_sub_comm]
    have e : q - -((rint (-q * 10 ^ d) : ℚ) / 10 ^ d)
      = (rint (-q * 10 ^ d) : ℚ) / 10 ^ d - -q := by ring
    rw [e]; exact key
  · next hq =>
    rw [abs_of_nonneg (not_lt.1 hq)] at key ⊢
    exact key

theorem rint_neg (x : ℚ) : rint (-x) = -rint x := by
  have h1 : (⌊x⌋ : ℚ) ≤ x := Int.floor_le x
  have h2 : x < ⌊x⌋ + 1 := Int.lt_floor_add_one x
  by_cases hx : x = ⌊x⌋
  · rw [hx, ← Int.cast_neg, rint_intCast, rint_intCast]
  · have h1' : (⌊x⌋ : ℚ) < x := lt_of_le_of_ne h1 (Ne.symm hx)
    have hf : ⌊-x⌋ = -⌊x⌋ - 1 := by
      rw [Int.floor_eq_iff]; push_cast; constructor <;> linarith
    unfold rint
    simp only [hf]
    push_cast
    split_ifs <;> first | omega | (exfalso; linarith)

theorem roundDec_eq (d : ℕ) (q : ℚ) : roundDec d q = (rint (q * 10 ^ d) : ℚ) / 10 ^ d := by
  unfold roundDec
  split
  · next hq =>
    rw [abs_of_neg hq, neg_mul, rint_neg]
    push_cast; ring
  · next hq => rw [abs_of_nonneg (not_lt.1 hq)]

/-- What is read back from a formatted float. -/
def roundGap (d : ℕ) : Gap → Gap
  | .fin q => .fin (roundDec d q)
  | g => g

theorem readFloat_fmt (d : ℕ) (g : Gap) : readFloat (fmtFloat d g) = some (roundGap d g) := by
  cases g with
  | fin q => exact readFloat_fixed d q
  | posInf => rfl
  | negInf => rfl
  | nan => rfl

theorem cellFloat_fmt (d : ℕ) (g : Gap) : cellFloat (fmtCell d g) = .ok (roundGap d g) := by
  simp [cellFloat, fmtCell, pyFloat, readFloat_fmt]

theorem cellFloat_nat (k : ℕ) : cellFloat (natCell k) = .ok (.fin k) := by
  have h : readFloat (Nat.toDigits 10 k) = some (.fin k) := by
    have := readFloat_pos k [] k (by rw [List.append_nil]; exact readUnsigned_nat k)
    simpa using this
  simp [cellFloat, natCell, pyFloat, h]

theorem cellFloat_flt (q : ℚ) : cellFloat (.flt q) = .ok (.fin q) := rfl

end Verif.Model
