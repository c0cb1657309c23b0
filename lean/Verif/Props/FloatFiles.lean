import Verif.Model.FloatFiles
import Verif.Lemmas.CsvText
import Verif.Props.FloatSort
import Verif.Props.Generator
import Verif.Props.FloatViolations
import Verif.Props.Parsing

/-!
# C98: instance files deliver the numbers of exact arithmetic
-/

namespace Verif.Props
open Spec Model

/-! ## Rounding to one decimal in double precision -/

/-- Nearer than one half: no tie. -/
theorem rint_eq_of_lt {q : ℚ} {z : ℤ} (h : |q - z| < 1 / 2) : rint q = z := by
  have h1 := rint_spec q
  have h2 : |(rint q : ℚ) - z| < 1 := by
    have := abs_add_le ((rint q : ℚ) - q) (q - z)
    rw [sub_add_sub_cancel] at this
    linarith
  have h3 : |rint q - z| < 1 := by exact_mod_cast h2
  have := Int.abs_lt_one_iff.1 h3
  omega

/-- Ties go to the even number. -/
theorem rint_even {q : ℚ} {z : ℤ} (h : |q - 2 * z| ≤ 1 / 2) : rint q = 2 * z := by
  rcases h.lt_or_eq with h | h
  · exact rint_eq_of_lt (by push_cast; exact h)
  · rcases abs_eq (by norm_num : (0 : ℚ) ≤ 1 / 2) |>.1 h with h | h
    · have e : q = ((2 * z : ℤ) : ℚ) + 1 / 2 := by push_cast; linarith
      have f : ⌊q⌋ = 2 * z := by
        rw [e, Int.floor_eq_iff]; constructor <;> linarith
      unfold rint
      rw [f, if_neg (by rw [e]; linarith), if_neg (by rw [e]; linarith), if_pos (by omega)]
    · have e : q = ((2 * z - 1 : ℤ) : ℚ) + 1 / 2 := by push_cast; linarith
      have f : ⌊q⌋ = 2 * z - 1 := by
        rw [e, Int.floor_eq_iff]; constructor <;> linarith
      unfold rint
      dsimp only
      rw [f, if_neg (by rw [e]; linarith), if_neg (by rw [e]; linarith), if_neg (by omega)]
      omega

/-- The last place of a double. -/
theorem fl64_unit {q : ℚ} (hq : 0 < q) :
    ∃ (M : ℤ) (e : ℤ), e = Int.log 2 q ∧ (2 : ℚ) ^ e ≤ q ∧ q < 2 ^ (e + 1)
      ∧ fl64 q = M * 2 ^ (e - 52) ∧ |fl64 q - q| ≤ 2 ^ (e - 52) / 2 ∧ (2 : ℚ) ^ e ≤ fl64 q
      ∧ M = rint (q / 2 ^ (e - 52)) := by
  have h1 : ((2 : ℕ) : ℚ) ^ Int.log 2 q ≤ q := Int.zpow_log_le_self (by norm_num) hq
  have h2 : q < ((2 : ℕ) : ℚ) ^ (Int.log 2 q + 1) := Int.lt_zpow_succ_log_self (by norm_num) q
  push_cast at h1 h2
  have hu : (0 : ℚ) < 2 ^ (Int.log 2 q - 52) := zpow_pos (by norm_num) _
  have hf : fl64 q = (rint (q / 2 ^ (Int.log 2 q - 52)) : ℚ) * 2 ^ (Int.log 2 q - 52) := by
    unfold fl64; rw [if_neg (not_le.2 hq)]
  have k2 : ((2 ^ 52 : ℤ) : ℚ) * 2 ^ (Int.log 2 q - 52) = 2 ^ Int.log 2 q := by
    rw [Int.cast_pow, Int.cast_ofNat, ← zpow_natCast (2 : ℚ) 52, ← zpow_add₀ (by norm_num)]
    congr 1
    push_cast
    ring
  refine ⟨_, _, rfl, h1, h2, hf, ?_, ?_, rfl⟩
  · have h3 : fl64 q - q = (rint (q / 2 ^ (Int.log 2 q - 52)) - q / 2 ^ (Int.log 2 q - 52))
        * 2 ^ (Int.log 2 q - 52) := by
      rw [hf, sub_mul, div_mul_cancel₀ _ hu.ne']
    rw [h3, abs_mul, abs_of_pos hu]
    have := rint_spec (q / 2 ^ (Int.log 2 q - 52))
    nlinarith
  · have f2 := rint_mono ((le_div_iff₀ hu).2 (k2.le.trans h1))
    rw [rint_intCast] at f2
    have f2' : ((2 ^ 52 : ℤ) : ℚ) ≤ ((rint (q / 2 ^ (Int.log 2 q - 52)) : ℤ) : ℚ) := Int.cast_le.2 f2
    rw [hf, ← k2]
    exact mul_le_mul_of_nonneg_right f2' hu.le

/-- Four decimals, not too large. -/
def FourDec (x : ℚ) : Prop := (∃ k : ℕ, x = k / 10 ^ 4) ∧ x ≤ 10 ^ 10

/-- The product with 10 of a rounded tie rounds to the tie. -/
theorem fl64_tie (i : ℕ) (hx : ((2 * i + 1 : ℕ) : ℚ) / 20 ≤ 10 ^ 10) :
    fl64 (fl64 (((2 * i + 1 : ℕ) : ℚ) / 20) * 10) = ((2 * i + 1 : ℕ) : ℚ) / 2 := by
  set c : ℕ := 2 * i + 1 with hc
  have hc1 : (1 : ℚ) ≤ c := by exact_mod_cast (by omega : 1 ≤ c)
  obtain ⟨M, e, -, a1, a2, a3, a4, a5, -⟩ := fl64_unit (q := (c : ℚ) / 20) (by positivity)
  set y := fl64 ((c : ℚ) / 20) with hy
  have hy0 : 0 < y := lt_of_lt_of_le (zpow_pos (by norm_num) _) a5
  obtain ⟨M', e', -, b1, b2, b3, -, -, b4⟩ := fl64_unit (q := y * 10) (by positivity)
  rw [b3]
  have two : ∀ z : ℤ, (0 : ℚ) < 2 ^ z := fun z => zpow_pos (by norm_num) _
  -- exponents
  have he : e < 34 := by
    by_contra h
    have : (2 : ℚ) ^ (34 : ℤ) ≤ 2 ^ e := zpow_le_zpow_right₀ (by norm_num) (by omega)
    norm_num at this hx
    linarith
  have he' : e' < 38 := by
    by_contra h
    have h1 : (2 : ℚ) ^ (38 : ℤ) ≤ 2 ^ e' := zpow_le_zpow_right₀ (by norm_num) (by omega)
    have h2 : y ≤ (c : ℚ) / 20 * (1 + 1 / 2 ^ 53) := fl64_le (by positivity)
    norm_num at h1 h2 hx
    linarith
  have hee : e + 3 ≤ e' := by
    by_contra h
    have h1 : (2 : ℚ) ^ (e' + 1) ≤ 2 ^ (e + 3) := zpow_le_zpow_right₀ (by norm_num) (by omega)
    rw [zpow_add₀ (by norm_num) e 3] at h1
    norm_num at h1
    linarith
  -- the error of the first rounding
  obtain ⟨p, hp⟩ : ∃ p : ℕ, (p : ℤ) + 2 = 52 - e := ⟨(50 - e).toNat, by omega⟩
  have hu : (2 : ℚ) ^ (e - 52) = 1 / 2 ^ (p + 2) := by
    rw [one_div, ← zpow_natCast, ← zpow_neg]; congr 1; push_cast; omega
  obtain ⟨D, hD⟩ : ∃ D : ℤ, (c : ℤ) * 2 ^ (p + 2) - 20 * M = 4 * D :=
    ⟨(c : ℤ) * 2 ^ p - 5 * M, by ring⟩
  have hDq : (c : ℚ) * 2 ^ (p + 2) - 20 * M = 4 * D := by exact_mod_cast hD
  have hP : (0 : ℚ) < 2 ^ (p + 2) := by positivity
  have hd : (c : ℚ) / 2 - y * 10 = 2 * D / 2 ^ (p + 2) := by
    rw [a3, hu]; field_simp; linarith
  have hD2 : |(D : ℚ)| < 3 := by
    rw [hu] at a4
    have : |(c : ℚ) / 2 - y * 10| ≤ 10 * (1 / 2 ^ (p + 2) / 2) := by
      rw [show (c : ℚ) / 2 - y * 10 = -10 * (y - c / 20) by ring, abs_mul]
      norm_num
      simpa using a4
    rw [hd, abs_div, abs_mul, abs_of_pos hP, div_le_iff₀ hP] at this
    have h2 : (10 : ℚ) * (1 / 2 ^ (p + 2) / 2) * 2 ^ (p + 2) = 5 := by field_simp; norm_num
    rw [h2] at this
    norm_num at this
    linarith
  have hD3 : |D| ≤ 2 := by
    have : |D| < 3 := by exact_mod_cast hD2
    omega
  have hD4 : |(D : ℚ)| ≤ 2 := by exact_mod_cast hD3
  have herr : |(c : ℚ) / 2 - y * 10| ≤ 4 * 2 ^ (e - 52) := by
    rw [hd, hu, abs_div, abs_mul, abs_of_pos hP, div_le_iff₀ hP]
    norm_num
    field_simp
    linarith
  -- the second rounding
  obtain ⟨r, hr⟩ : ∃ r : ℕ, (r : ℤ) + 2 = 52 - e' := ⟨(50 - e').toNat, by omega⟩
  have hu' : (2 : ℚ) ^ (e' - 52) = 1 / 2 ^ (r + 2) := by
    rw [one_div, ← zpow_natCast, ← zpow_neg]; congr 1; push_cast; omega
  have hR : (0 : ℚ) < 2 ^ (r + 2) := by positivity
  have h8 : 8 * (2 : ℚ) ^ (e - 52) ≤ 2 ^ (e' - 52) := by
    rw [show (8 : ℚ) = 2 ^ (3 : ℤ) by norm_num, ← zpow_add₀ (by norm_num)]
    exact zpow_le_zpow_right₀ (by norm_num) (by omega)
  have hM : M' = 2 * ((c : ℤ) * 2 ^ r) := by
    rw [b4]
    refine rint_even ?_
    have : y * 10 / 2 ^ (e' - 52) - 2 * (((c : ℤ) * 2 ^ r : ℤ) : ℚ)
        = -((c : ℚ) / 2 - y * 10) / 2 ^ (e' - 52) := by
      rw [hu']; push_cast; field_simp; ring
    rw [this, abs_div, abs_neg, abs_of_pos (two _), div_le_iff₀ (two _)]
    linarith
  rw [hM, hu']
  push_cast
  field_simp
  ring

/-- Rounding to one decimal in double precision: the products in double precision are
rounded to the same integers as the exact ones. -/
theorem rint_fl64 {x : ℚ} (h : FourDec x) : rint (fl64 (fl64 x * 10)) = rint (x * 10) := by
  obtain ⟨⟨k, rfl⟩, hx⟩ := h
  have hx0 : (0 : ℚ) ≤ (k : ℚ) / 10 ^ 4 := by positivity
  by_cases ht : ∃ i : ℕ, k = 500 * (2 * i + 1)
  · obtain ⟨i, rfl⟩ := ht
    have e : (((500 * (2 * i + 1) : ℕ)) : ℚ) / 10 ^ 4 = ((2 * i + 1 : ℕ) : ℚ) / 20 := by
      push_cast; ring
    rw [e] at hx ⊢
    rw [fl64_tie i hx]
    congr 1
    ring
  · set x : ℚ := (k : ℚ) / 10 ^ 4 with hxk
    have e1 := fl64_err hx0
    have hy0 := fl64_nonneg x
    have e2 := fl64_err (mul_nonneg hy0 (by norm_num : (0 : ℚ) ≤ 10))
    have hy : fl64 x ≤ 2 * 10 ^ 10 := by
      have := fl64_le hx0
      norm_num at this hx ⊢
      linarith
    have hz : |fl64 (fl64 x * 10) - x * 10| < 1 / 1000 := by
      have t := abs_add_le (fl64 (fl64 x * 10) - fl64 x * 10) ((fl64 x - x) * 10)
      rw [abs_mul, abs_of_pos (by norm_num : (0 : ℚ) < 10)] at t
      have : fl64 (fl64 x * 10) - fl64 x * 10 + (fl64 x - x) * 10 = fl64 (fl64 x * 10) - x * 10 := by
        ring
      rw [this] at t
      norm_num at e1 e2 hy hx ⊢
      linarith
    refine rint_eq_of_lt ?_
    have hs := rint_spec (x * 10)
    have hr0 : 0 ≤ rint (x * 10) := rint_nonneg (by positivity)
    obtain ⟨r, hr⟩ := Int.eq_ofNat_of_zero_le hr0
    have hmain : |(rint (x * 10) : ℚ) - x * 10| ≤ 1 / 2 - 1 / 1000 := by
      rw [hr] at hs ⊢
      have e : (((r : ℕ) : ℤ) : ℚ) - x * 10 = ((1000 * (r : ℤ) - k : ℤ) : ℚ) / 1000 := by
        rw [hxk]; push_cast; ring
      rw [e, abs_div, abs_of_pos (by norm_num : (0 : ℚ) < 1000), div_le_iff₀ (by norm_num)] at hs ⊢
      norm_num at hs ⊢
      have h1 : |1000 * (r : ℤ) - k| ≤ 500 := by exact_mod_cast hs
      have h2 : |1000 * (r : ℤ) - k| ≤ 499 := by
        by_contra hc
        have h3 : |1000 * (r : ℤ) - k| = 500 := by omega
        rcases (abs_eq (by norm_num : (0 : ℤ) ≤ 500)).1 h3 with h | h
        · exact ht ⟨r - 1, by omega⟩
        · exact ht ⟨r, by omega⟩
      exact_mod_cast h2
    have t := abs_add_le (fl64 (fl64 x * 10) - x * 10) (x * 10 - (rint (x * 10) : ℚ))
    rw [sub_add_sub_cancel, abs_sub_comm (x * 10)] at t
    linarith

theorem rd_eq {q : ℚ} (h : 0 ≤ q) : rd q = fl64 q := by unfold rd; rw [if_pos h]

theorem FourDec.nonneg {x : ℚ} (h : FourDec x) : 0 ≤ x := by
  obtain ⟨⟨k, rfl⟩, -⟩ := h; positivity

/-- `np.round(x, 1)` of the double next to `x` is the double next to `x` rounded. -/
theorem flRound_one {x : ℚ} (h : FourDec x) : flRound 1 (fl64 x) = fl64 (round1 x) := by
  unfold flRound round1
  rw [pow_one, rd_eq (mul_nonneg (fl64_nonneg x) (by norm_num)), rint_fl64 h, rd_eq]
  have : (0 : ℚ) ≤ (rint (x * 10) : ℚ) := by
    exact_mod_cast rint_nonneg (mul_nonneg h.nonneg (by norm_num))
  positivity

theorem floor_fl64 {x : ℚ} (h : FourDec x) : ⌊fl64 x⌋₊ = ⌊x⌋₊ := by
  have h0 := h.nonneg
  have h1 : (⌊x⌋₊ : ℚ) ≤ x := Nat.floor_le h0
  have hlt : x < ⌊x⌋₊ + 1 := Nat.lt_floor_add_one x
  have hb : ⌊x⌋₊ < 2 ^ 53 := by
    have : (⌊x⌋₊ : ℚ) < 2 ^ 53 := by
      have h3 := h1.trans h.2
      exact h3.trans_lt (by norm_num)
    exact_mod_cast this
  have h2 : (⌊x⌋₊ : ℚ) ≤ fl64 x := by
    rw [← fl64_natCast hb]; exact fl64_mono h1
  refine (Nat.floor_eq_iff (fl64_nonneg x)).2 ⟨h2, ?_⟩
  obtain ⟨⟨k, hk⟩, hx⟩ := h
  have h3 : x ≤ ⌊x⌋₊ + 1 - 1 / 10 ^ 4 := by
    have : (k : ℚ) < 10 ^ 4 * (⌊x⌋₊ + 1) := by
      rw [hk] at hlt ⊢
      rw [div_lt_iff₀ (by norm_num)] at hlt
      linarith
    have : k + 1 ≤ 10 ^ 4 * (⌊x⌋₊ + 1) := by exact_mod_cast this
    have : (k : ℚ) + 1 ≤ 10 ^ 4 * (⌊x⌋₊ + 1) := by exact_mod_cast this
    have e : (k : ℚ) = 10 ^ 4 * x := by rw [hk]; field_simp
    rw [e] at this
    norm_num at this ⊢
    linarith
  have h4 := fl64_le h0
  norm_num at h3 h4 hx ⊢
  linarith

/-! ## Parsing in double precision -/

/-- The file in double precision. -/
def flFile (file : List (List ℚ)) : List (List ℚ) := file.map fun r => r.map fl64

/-- All numbers have four decimals. -/
def FourDecFile (file : List (List ℚ)) : Prop := ∀ r ∈ file, ∀ x ∈ r, FourDec x

theorem getRow_fl (file : List (List ℚ)) (k : ℕ) :
    getRow (flFile file) k = (getRow file k).map fun r => r.map fl64 := by
  unfold getRow flFile
  rw [List.getElem?_map]
  cases file[k]? <;> rfl

theorem getRow_mem {file : List (List ℚ)} {k : ℕ} {r : List ℚ} (h : getRow file k = .ok r) : r ∈ file := by
  unfold getRow at h
  cases h1 : file[k]? with
  | none => rw [h1] at h; cases h
  | some r' =>
    rw [h1] at h
    cases h
    exact List.mem_of_getElem? h1

theorem infoAt_fl {info : List ℚ} (h : ∀ x ∈ info, FourDec x) (k : ℕ) :
    infoAt (info.map fl64) k = infoAt info k := by
  unfold infoAt
  rw [List.getElem?_map]
  cases h1 : info[k]? with
  | none => rfl
  | some x => simp [floor_fl64 (h x (List.mem_of_getElem? h1))]

theorem mapM_map_except {α β γ ε : Type} (f : α → Except ε β) (g : β → γ) (l : List α) :
    (l.mapM fun a => (f a).map g) = (l.mapM f).map fun r => r.map g := by
  induction l with
  | nil => rfl
  | cons a l ih =>
    simp only [List.mapM_cons, bind, Except.bind, pure, Except.pure, ih]
    cases f a with
    | error e => rfl
    | ok b =>
      simp only [Except.map]
      cases l.mapM f <;> rfl

theorem mapM_mem {α β ε : Type} {f : α → Except ε β} {l : List α} {r : List β}
    (h : l.mapM f = .ok r) {b : β} (hb : b ∈ r) : ∃ a ∈ l, f a = .ok b := by
  induction l generalizing r with
  | nil => cases h; cases hb
  | cons a l ih =>
    simp only [List.mapM_cons, bind, Except.bind, pure, Except.pure] at h
    cases h1 : f a with
    | error e => rw [h1] at h; cases h
    | ok c =>
      rw [h1] at h
      dsimp only at h
      cases h2 : l.mapM f with
      | error e => rw [h2] at h; cases h
      | ok rs =>
        rw [h2] at h
        cases h
        rcases List.mem_cons.1 hb with rfl | hb
        · exact ⟨a, by simp, h1⟩
        · obtain ⟨a', ha, he⟩ := ih h2 hb
          exact ⟨a', by simp [ha], he⟩

theorem rowVec_fl (r : List ℚ) (j : ℕ) : rowVec (r.map fl64) j = fl64 (rowVec r j) := by
  unfold rowVec
  rw [List.getD_eq_getElem?_getD, List.getD_eq_getElem?_getD, List.getElem?_map]
  cases r[j]? with
  | none => exact (fl64_of_nonpos le_rfl).symm
  | some x => rfl

theorem rowVec_four {r : List ℚ} (h : ∀ x ∈ r, FourDec x) (j : ℕ) : FourDec (rowVec r j) := by
  unfold rowVec
  rw [List.getD_eq_getElem?_getD]
  cases h1 : r[j]? with
  | none => exact ⟨⟨0, by simp⟩, by norm_num⟩
  | some x => exact h x (List.mem_of_getElem? h1)

theorem round_row {r : List ℚ} (h : ∀ x ∈ r, FourDec x) (j : ℕ) :
    flRound 1 (rowVec (r.map fl64) j) = fl64 (round1 (rowVec r j)) := by
  rw [rowVec_fl, flRound_one (rowVec_four h j)]

/-- **C98 (parser).**  For every file whose numbers are non-negative, have at most four decimals and do not
exceed `10^10`: `parse_data` on the doubles next to these numbers, with the double next to the risk level,
yields the instance of exact arithmetic with all its numbers rounded to doubles, or the same
exception. -/
theorem C98_parse {file : List (List ℚ)} (h : FourDecFile file) (cont : Bool) (eps : ℚ) :
    flParse (flFile file) cont (fl64 eps) = (parse file cont eps).map dbl := by
  unfold flParse parse
  have hrows : ∀ N m : ℕ, ((List.range N).mapM fun s => (List.range m).mapM fun i =>
      getRow (flFile file) (2 + s * m + i))
      = ((List.range N).mapM fun s => (List.range m).mapM fun i => getRow file (2 + s * m + i)).map
        fun rs => rs.map fun r => r.map fun a => a.map fl64 := by
    intro N m
    rw [← mapM_map_except]
    congr 1
    funext s
    rw [← mapM_map_except]
    congr 1
    funext i
    exact getRow_fl _ _
  simp only [getRow_fl file 0, getRow_fl file 1, bind, Except.bind]
  cases h0 : getRow file 0 with
  | error e => rfl
  | ok info =>
    simp only [Except.map]
    rw [infoAt_fl (h _ (getRow_mem h0)), infoAt_fl (h _ (getRow_mem h0)), infoAt_fl (h _ (getRow_mem h0))]
    cases infoAt info 0 with
    | error e => rfl
    | ok n =>
      dsimp only
      cases infoAt info 2 with
      | error e => rfl
      | ok N =>
        dsimp only
        cases infoAt info 1 with
        | error e => rfl
        | ok m =>
          dsimp only
          cases h1 : getRow file 1 with
          | error e => rfl
          | ok c =>
            dsimp only
            rw [hrows N m]
            cases h2 : ((List.range N).mapM fun s => (List.range m).mapM fun i =>
                getRow file (2 + s * m + i)) with
            | error e => rfl
            | ok rows =>
              simp only [Except.map]
              have hlen : (∀ r ∈ (rows.map fun r => r.map fun a => a.map fl64).flatten,
                  r.length = ((rows.map fun r => r.map fun a => a.map fl64).flatten.headD []).length)
                  ↔ ∀ r ∈ rows.flatten, r.length = (rows.flatten.headD []).length := by
                have e : (rows.map fun r => r.map fun a => a.map fl64).flatten
                    = rows.flatten.map fun a => a.map fl64 := by
                  rw [List.map_flatten]
                rw [e]
                cases rows.flatten with
                | nil => simp
                | cons a l => simp
              have hfour : ∀ s i, ∀ x ∈ (rows.getD s []).getD i [], FourDec x := by
                intro s i x hx
                rw [List.getD_eq_getElem?_getD, List.getD_eq_getElem?_getD] at hx
                cases h3 : rows[s]? with
                | none => rw [h3] at hx; simp at hx
                | some R =>
                  rw [h3] at hx
                  dsimp only [Option.getD_some] at hx
                  cases h4 : R[i]? with
                  | none => rw [h4] at hx; simp at hx
                  | some r =>
                    rw [h4] at hx
                    obtain ⟨a, -, ha⟩ := mapM_mem h2 (List.mem_of_getElem? h3)
                    obtain ⟨a', -, ha'⟩ := mapM_mem ha (List.mem_of_getElem? h4)
                    exact h r (getRow_mem ha') x hx
              have hget : ∀ s i, (((rows.map fun r => r.map fun a => a.map fl64).getD s []).getD i [])
                  = ((rows.getD s []).getD i []).map fl64 := by
                intro s i
                rw [List.getD_eq_getElem?_getD, List.getD_eq_getElem?_getD, List.getElem?_map,
                  List.getD_eq_getElem?_getD, List.getD_eq_getElem?_getD]
                cases rows[s]? with
                | none => simp
                | some R =>
                  simp only [Option.map_some, Option.getD_some, List.getElem?_map]
                  cases R[i]? <;> simp
              have hlast : (flFile file).getLast? = file.getLast?.map fun r => r.map fl64 := by
                unfold flFile; rw [List.getLast?_map]
              rw [hlast]
              by_cases hl : ∀ r ∈ rows.flatten, r.length = (rows.flatten.headD []).length
              · rw [if_neg (not_not.2 (hlen.2 hl)), if_neg (not_not.2 hl)]
                cases h5 : file.getLast? with
                | none => rfl
                | some last =>
                  have hlf : ∀ x ∈ last, FourDec x := h last (List.mem_of_getLast? h5)
                  simp only [Option.map_some, pure, Except.pure, List.length_map]
                  by_cases h6 : last.length = m ∨ last.length = 1
                  · rw [if_neg (not_not.2 h6), if_neg (not_not.2 h6)]
                    by_cases h7 : N = 0
                    · rw [if_pos h7, if_pos h7]; rfl
                    · rw [if_neg h7, if_neg h7]
                      simp only [dbl, hget, round_row (hfour _ _), round_row hlf,
                        round_row (h c (getRow_mem h1)), rd_eq (by positivity : (0 : ℚ) ≤ 1 / (N : ℚ))]
                  · rw [if_pos h6, if_pos h6]; rfl
              · rw [if_pos (fun hc => hl (hlen.1 hc)), if_pos hl]; rfl

/-! ## Text -/

/-- The text of a number is written without quotes and read as a number. -/
theorem shows_convert {t : Txt} {x : ℚ} (h : Shows t x) : Model.convert true t = some (.num (.fin x)) := by
  obtain ⟨h1, h2⟩ := needsQuotes_number h.1 h.2.1 h.2.2
  unfold Model.convert
  rw [if_pos ⟨rfl, h1, h2⟩, h.1]
  rfl

/-- A file of texts that show the numbers. -/
def ShowsFile (texts : List (List Txt)) (file : List (List ℚ)) : Prop :=
  List.Forall₂ (List.Forall₂ Shows) texts file

theorem mapM_forall₂ {α β γ : Type} {R : α → β → Prop} {f : α → Option γ} {g : β → γ} {l : List α}
    {r : List β} (h : List.Forall₂ R l r) (hR : ∀ a b, R a b → f a = some (g b)) :
    l.mapM f = some (r.map g) := by
  induction h with
  | nil => rfl
  | cons h1 _ ih => simp [List.mapM_cons, hR _ _ h1, ih]

theorem numbers_num (file : List (List ℚ)) :
    numbers (file.map fun r => r.map fun x => Field.num (.fin x)) = some file := by
  unfold numbers
  have h1 : ∀ r : List ℚ, (r.map fun x => Field.num (.fin x)).mapM fieldNumber = some r := by
    intro r
    induction r with
    | nil => rfl
    | cons x r ih => simp only [List.map_cons, List.mapM_cons, ih]; rfl
  induction file with
  | nil => rfl
  | cons r file ih => simp only [List.map_cons, List.mapM_cons, ih, h1]; rfl

/-- The text of a file of numbers is read as these numbers. -/
theorem read_numbers {texts : List (List Txt)} {file : List (List ℚ)} (h : ShowsFile texts file) :
    csvRead true (csvWrite texts) = .ok (file.map fun r => r.map fun x => Field.num (.fin x)) :=
  rows_written (.inl rfl) texts _ (mapM_forall₂ h fun _ _ hr => mapM_forall₂ hr fun _ _ ht => shows_convert ht)

/-- What the constructor makes of the result of the parser. -/
def asFile {α : Type} : PyM α → Except FileErr α
  | .ok a => .ok a
  | .error e => .error (.py e)

/-- **C98 (text).**  Whatever the texts of the numbers, as long as each is read as its double: writing
a file of numbers with at most four decimals with `csv.writer` and reading the text as an instance gives
the instance of exact arithmetic in double precision. -/
theorem C98_text {file : List (List ℚ)} (h : FourDecFile file) {texts : List (List Txt)}
    (ht : ShowsFile texts (flFile file)) (cont : Bool) (eps : ℚ) :
    readInstance (csvWrite texts) cont (fl64 eps) = asFile ((parse file cont eps).map dbl) := by
  unfold readInstance
  rw [read_numbers ht]
  dsimp only
  rw [numbers_num, ← C98_parse h]
  dsimp only
  cases flParse (flFile file) cont (fl64 eps) <;> rfl

/-! ## Generated files -/

/-- The number that exact arithmetic would have to round to get the result of double precision. -/
def nearDraw (x : ℚ) : ℚ := if x < 0 then x else fl64 (x * 10 ^ 4) / 10 ^ 4

theorem nearDraw_near (x : ℚ) : |nearDraw x - x| ≤ 1 / 2 ^ 53 * |x| := by
  unfold nearDraw
  split
  · rw [sub_self, abs_zero]; positivity
  · rename_i h
    have h0 : 0 ≤ x := not_lt.1 h
    have h1 := fl64_err (q := x * 10 ^ 4) (by positivity)
    rw [show fl64 (x * 10 ^ 4) / 10 ^ 4 - x = (fl64 (x * 10 ^ 4) - x * 10 ^ 4) / 10 ^ 4 by ring, abs_div,
      abs_of_pos (by norm_num : (0 : ℚ) < 10 ^ 4), div_le_iff₀ (by norm_num), abs_of_nonneg h0]
    linarith

/-- The draws that exact arithmetic would have to round. -/
def nearDraws (d : Draws) : Draws := { d with normal := fun k i j s => nearDraw (d.normal k i j s) }

theorem flGenEntry_eq (x : ℚ) (fail : Bool) : flGenEntry x fail = fl64 (genEntry (nearDraw x) fail) := by
  have z : rint 0 = 0 := by decide +kernel
  have z64 : fl64 0 = 0 := fl64_of_nonpos le_rfl
  unfold flGenEntry genEntry flRound round4 nearDraw
  cases fail with
  | true => norm_num [z, z64, rd]
  | false =>
    simp only [Bool.false_eq_true, if_false, sub_zero, mul_one]
    rcases lt_or_ge x 0 with hx | hx
    · simp only [if_pos hx]
      norm_num [z, z64, rd]
    · have h1 : (0 : ℚ) ≤ fl64 (x * 10 ^ 4) / 10 ^ 4 := div_nonneg (fl64_nonneg _) (by norm_num)
      simp only [if_neg (not_lt.2 hx)]
      rw [if_neg (not_lt.2 h1), rd_eq (by positivity : (0 : ℚ) ≤ x * 10 ^ 4), rd_eq]
      · congr 3
        congr 1
        norm_num
      · have : (0 : ℚ) ≤ (rint (fl64 (x * 10 ^ 4)) : ℚ) := by
          exact_mod_cast rint_nonneg (fl64_nonneg _)
        positivity

theorem genEntry_four {x : ℚ} (hx : x ≤ 10 ^ 9) (fail : Bool) : FourDec (genEntry (nearDraw x) fail) := by
  have hw := genEntry_written (nearDraw x) fail
  constructor
  · obtain ⟨z, hz⟩ : ∃ z : ℤ, genEntry (nearDraw x) fail = z / 10 ^ 4 := by
      unfold genEntry round4; exact ⟨_, by norm_num; rfl⟩
    have h0 := hw.1
    rw [hz] at h0
    have : (0 : ℚ) ≤ z := by
      by_contra hc
      have := div_neg_of_neg_of_pos (not_le.1 hc) (by norm_num : (0 : ℚ) < 10 ^ 4)
      linarith
    obtain ⟨k, rfl⟩ := Int.eq_ofNat_of_zero_le (by exact_mod_cast this : 0 ≤ z)
    exact ⟨k, by rw [hz]; push_cast; rfl⟩
  · have h2 := hw.2
    have h3 : nearDraw x ≤ 2 * 10 ^ 9 := by
      have h4 := (abs_le.1 (nearDraw_near x)).2
      rcases le_or_gt x 0 with h | h
      · rw [abs_of_nonpos h] at h4
        norm_num at h4 ⊢
        linarith
      · rw [abs_of_pos h] at h4
        norm_num at h4 hx ⊢
        linarith
    split at h2
    · rw [h2]; norm_num
    · have := (abs_le.1 h2).2
      norm_num at this h3 ⊢
      linarith

theorem flGenRows_eq {n m N : ℕ} (hn : n < 2 ^ 53) (hm : m < 2 ^ 53) (hN : N < 2 ^ 53) (c b : List ℚ)
    (d : Draws) (k : ℕ) : flGenRows n m N (c.map fl64) (b.map fl64) d k
      = flFile (genRows n m N c b (nearDraws d) k) := by
  unfold flGenRows genRows flFile
  simp only [List.map_append, List.map_cons, List.map_nil, fl64_natCast hn, fl64_natCast hm,
    fl64_natCast hN, List.map_flatten, List.map_map, Function.comp_def]
  simp only [flGenEntry_eq, nearDraws]

theorem four_nat {k : ℕ} (h : k ≤ 10 ^ 10) : FourDec k :=
  ⟨⟨10 ^ 4 * k, by push_cast; field_simp; norm_num⟩, by exact_mod_cast h⟩

theorem genRows_four {n m N : ℕ} (hn : n ≤ 10 ^ 10) (hm : m ≤ 10 ^ 10) (hN : N ≤ 10 ^ 10) {c b : List ℚ}
    (hc : ∀ x ∈ c, FourDec x) (hb : ∀ x ∈ b, FourDec x) {d : Draws}
    (hd : ∀ k i j s, d.normal k i j s ≤ 10 ^ 9) (k : ℕ) :
    FourDecFile (genRows n m N c b (nearDraws d) k) := by
  intro r hr x hx
  unfold genRows at hr
  simp only [List.mem_append, List.mem_cons, List.not_mem_nil, or_false, List.mem_flatten,
    List.mem_map] at hr
  rcases hr with ((rfl | rfl) | ⟨l, ⟨s, -, rfl⟩, hl⟩) | rfl
  · simp only [List.mem_cons, List.not_mem_nil, or_false] at hx
    rcases hx with rfl | rfl | rfl
    · exact four_nat hn
    · exact four_nat hm
    · exact four_nat hN
  · exact hc x hx
  · obtain ⟨i, -, rfl⟩ := List.mem_map.1 hl
    obtain ⟨j, -, rfl⟩ := List.mem_map.1 hx
    exact genEntry_four (hd k i j s) _
  · exact hb x hx

/-- **C98 (generated files).**  For all sizes, objective and capacities with at most four decimals, and
draws: the file that the generator writes with doubles, in any notation that is read back as the same
doubles, is read by `ChanceKnapInstance` as the double version `dbl I` of an instance `I` of exact
arithmetic: the one that the generator and the parser without rounding errors make of draws that differ
from the given ones by less than the precision of doubles.  `I` has data of one decimal and the
announced sizes, probabilities and risk level; its coefficients are the draws, with failures and
negative draws replaced by zero, up to `0.0501`. -/
theorem C98_generated {n m N : ℕ} (hN : 0 < N) (hn' : n ≤ 10 ^ 10) (hm' : m ≤ 10 ^ 10) (hN' : N ≤ 10 ^ 10)
    {c b : Vec} (hc : ∀ j < n, FourDec (c j)) (hb : ∀ i < m, FourDec (b i)) {d : Draws}
    (hd : ∀ k i j s, d.normal k i j s ≤ 10 ^ 9) :
    ∃ d' : Draws, d'.fails = d.fails
      ∧ (∀ k i j s, |d'.normal k i j s - d.normal k i j s| ≤ 1 / 2 ^ 53 * |d.normal k i j s|)
      ∧ ∀ (k : ℕ) (texts : List (List Txt)),
        ShowsFile texts (flGenRows n m N ((List.range n).map fun j => fl64 (c j))
          ((List.range m).map fun i => fl64 (b i)) d k) → ∀ (cont : Bool) (eps : ℚ),
        ∃ I, parse (genRows n m N ((List.range n).map c) ((List.range m).map b) d' k) cont eps = .ok I
          ∧ readInstance (csvWrite texts) cont (fl64 eps) = .ok (dbl I)
          ∧ I.n = n ∧ I.m = m ∧ I.N = N ∧ I.cont = cont ∧ I.eps = eps ∧ Equi I ∧ OneDecimal I ∧ NonnegC I
          ∧ (∀ j < n, I.c j = round1 (c j)) ∧ (∀ s < N, ∀ i < m, I.b s i = round1 (b i))
          ∧ ∀ s < N, ∀ i < m, ∀ j < n,
            (d.fails k j s = true → I.A s i j = 0)
            ∧ (d.fails k j s = false → |I.A s i j - max (d.normal k i j s) 0| ≤ 501 / 10000) := by
  refine ⟨nearDraws d, rfl, fun k i j s => nearDraw_near _, fun k texts ht cont eps => ?_⟩
  obtain ⟨I, hI, e1, e2, e3, e4, e5, e6, e7, e8, e9⟩ := C04_parse_generated n m N hN c
    (fun s i j => genEntry ((nearDraws d).normal k i j s) (d.fails k j s)) b cont eps
  have hI' : parse (genRows n m N ((List.range n).map c) ((List.range m).map b) (nearDraws d) k) cont eps
      = .ok I := hI
  have hfour : FourDecFile (genRows n m N ((List.range n).map c) ((List.range m).map b) (nearDraws d) k) :=
    genRows_four hn' hm' hN'
      (fun x hx => by
        obtain ⟨j, hj, rfl⟩ := List.mem_map.1 hx
        exact hc j (List.mem_range.1 hj))
      (fun x hx => by
        obtain ⟨j, hj, rfl⟩ := List.mem_map.1 hx
        exact hb j (List.mem_range.1 hj)) hd k
  have big : (10 : ℕ) ^ 10 < 2 ^ 53 := by norm_num
  have hsh : ShowsFile texts (flFile (genRows n m N ((List.range n).map c) ((List.range m).map b)
      (nearDraws d) k)) := by
    rw [← flGenRows_eq (hn'.trans_lt big) (hm'.trans_lt big) (hN'.trans_lt big)]
    simpa only [List.map_map, Function.comp_def] using ht
  have hA : ∀ s < N, ∀ i < m, ∀ j < n, ∃ a,
      Written (nearDraw (d.normal k i j s)) (d.fails k j s) a ∧ I.A s i j = round1 a :=
    fun s hs i hi j hj => ⟨_, genEntry_written _ _, e8 s hs i hi j hj⟩
  refine ⟨I, hI', ?_, e1, e2, e3, e4, e5, e6, ⟨fun s hs i hi => ?_, fun s hs i hi => ?_⟩, fun j hj => ?_,
    e7, e9, fun s hs i hi j hj => ?_⟩
  · rw [C98_text hfour hsh, hI']; rfl
  · rw [e3] at hs
    rw [e2] at hi
    refine ⟨?_, fun j hj => ?_⟩
    · rw [e9 s hs i hi]; exact (C05_round1 _).2.2.2.2.1 (hb i hi).nonneg
    · rw [e1] at hj
      obtain ⟨a, ha, hr⟩ := hA s hs i hi j hj
      rw [hr]; exact (C05_round1 _).2.2.2.2.1 ha.1
  · rw [e3] at hs
    rw [e2] at hi
    refine ⟨?_, fun j hj => ?_⟩
    · rw [e9 s hs i hi]; exact (C05_round1 _).1
    · rw [e1] at hj
      obtain ⟨a, ha, hr⟩ := hA s hs i hi j hj
      rw [hr]; exact (C05_round1 _).1
  · rw [e1] at hj
    rw [e7 j hj]; exact (C05_round1 _).2.2.2.2.1 (hc j hj).nonneg
  · obtain ⟨a, ha, hr⟩ := hA s hs i hi j hj
    refine ⟨fun hf => ?_, fun hf => ?_⟩
    · have : a = 0 := by simpa [hf] using ha.2
      rw [hr, this]; decide +kernel
    · have h1 := abs_le.1 (C05_round1 a).2.1
      rw [← hr] at h1
      have h2 := ha.2
      rw [hf] at h2
      set x := d.normal k i j s with hx
      have h3 := abs_le.1 (nearDraw_near x)
      rcases lt_or_ge x 0 with h | h
      · have e : nearDraw x = x := by unfold nearDraw; rw [if_pos h]
        rw [e, if_pos (.inr h)] at h2
        rw [max_eq_right h.le, abs_le]
        rw [h2] at h1
        constructor <;> linarith
      · have e : ¬ nearDraw x < 0 := by
          unfold nearDraw
          rw [if_neg (not_lt.2 h)]
          exact not_lt.2 (div_nonneg (fl64_nonneg _) (by norm_num))
        rw [if_neg (by simp [e])] at h2
        have h4 := abs_le.1 h2
        have h5 := hd k i j s
        rw [← hx] at h5
        rw [abs_of_nonneg h] at h3
        rw [max_eq_left h, abs_le]
        norm_num at h3 h5 h4 h1 ⊢
        constructor <;> linarith

/-! ## The limits of the claim -/

/-- With more decimals the claim fails: the text 0.1499999999999999999 is read as 0.15 and rounded to
0.2, while its exact value would be rounded to 0.1. -/
theorem C98_more_decimals_counterexample :
    ∃ x : ℚ, 0 ≤ x ∧ x ≤ 1 ∧ flRound 1 (fl64 x) ≠ fl64 (round1 x) :=
  ⟨1499999999999999999 / 10 ^ 19, by norm_num, by norm_num, by decide +kernel⟩

/-! ## Examples -/

/-- Draws: `2.34567` for the first item, a negative number for the second one; the first item fails in
the second scenario. -/
def drawsTwo : Draws :=
  ⟨fun _ _ j _ => if j = 0 then fl64 (234567 / 10 ^ 5) else -1, fun _ j s => j == 0 && s == 1⟩

/-- The texts of the numbers of the generated file. -/
def exTexts : List (List Txt) :=
  [[['2'], ['1'], ['2']], [['6', '0', '0', '.', '1'], ['7', '.', '0']],
    [['2', '.', '3', '4', '5', '7'], ['0', '.', '0']], [['0', '.', '0'], ['0', '.', '0']],
    [['8', '0', '.', '0']]]

/-- The hypotheses of C98, met by a file that the generator can write. -/
example : (∀ j < 2, FourDec ((fun j => if j = 0 then 6001 / 10 else 7 : Vec) j))
    ∧ (∀ i < 1, FourDec ((fun _ => 80 : Vec) i)) ∧ (∀ k i j s, drawsTwo.normal k i j s ≤ 10 ^ 9)
    ∧ ShowsFile exTexts (flGenRows 2 1 2
        ((List.range 2).map fun j => fl64 ((fun j => if j = 0 then 6001 / 10 else 7 : Vec) j))
        ((List.range 1).map fun i => fl64 ((fun _ => 80 : Vec) i)) drawsTwo 1)
    ∧ (match readInstance (csvWrite exTexts) false (fl64 (1 / 10)) with
      | .ok I => some ([I.A 0 0 0, I.A 1 0 0, I.b 1 0, I.c 0, I.proba 0], I.N)
      | .error _ => none) = some ([fl64 (23 / 10), 0, 80, fl64 (6001 / 10), 1 / 2], 2) := by
  refine ⟨?_, ?_, ?_, ?_, ?_⟩
  · intro j hj
    dsimp only
    split
    · exact ⟨⟨6001000, by norm_num⟩, by norm_num⟩
    · exact ⟨⟨70000, by norm_num⟩, by norm_num⟩
  · exact fun i _ => ⟨⟨800000, by norm_num⟩, by norm_num⟩
  · intro k i j s
    unfold drawsTwo
    dsimp only
    split
    · have : fl64 (234567 / 10 ^ 5) ≤ 10 ^ 9 := by decide +kernel
      exact this
    · norm_num
  · have e : flGenRows 2 1 2
        ((List.range 2).map fun j => fl64 ((fun j => if j = 0 then 6001 / 10 else 7 : Vec) j))
        ((List.range 1).map fun i => fl64 ((fun _ => 80 : Vec) i)) drawsTwo 1
        = [[2, 1, 2], [fl64 (6001 / 10), 7], [fl64 (23457 / 10 ^ 4), 0], [0, 0], [80]] := by
      decide +kernel
    rw [e]
    unfold exTexts
    repeat' first
      | exact List.Forall₂.nil
      | refine List.Forall₂.cons ?_ ?_
    all_goals
      exact ⟨by decide +kernel, by decide, by decide⟩
  · decide +kernel

/-- Ties between two decimals: their doubles lie below (`0.35`) or above (`0.45`) them or on them (`0.25`),
and are rounded like the ties themselves. -/
example : fl64 (35 / 100) < 35 / 100 ∧ flRound 1 (fl64 (35 / 100)) = fl64 (4 / 10)
    ∧ 45 / 100 < fl64 (45 / 100) ∧ flRound 1 (fl64 (45 / 100)) = fl64 (4 / 10)
    ∧ fl64 (25 / 100) = 25 / 100 ∧ flRound 1 (fl64 (25 / 100)) = fl64 (2 / 10) := by
  decide +kernel

end Verif.Props
