import Verif.Model.PyNumber
import Mathlib.Data.List.TakeWhile
import Mathlib.Tactic.IntervalCases

/-!
# `int` and `float` of a text
-/

namespace Verif.Spec
open Model

/-- A numeral: digits with single underscores between them, its value and number of digits. -/
inductive Numeral : Txt → ℕ → ℕ → Prop
  | one (d : ℕ) (h : d < 10) : Numeral [Nat.digitChar d] d 1
  | next {t : Txt} {v k : ℕ} (d : ℕ) (h : d < 10) (ht : Numeral t v k) :
      Numeral (t ++ [Nat.digitChar d]) (10 * v + d) (k + 1)
  | under {t : Txt} {v k : ℕ} (d : ℕ) (h : d < 10) (ht : Numeral t v k) :
      Numeral (t ++ ['_', Nat.digitChar d]) (10 * v + d) (k + 1)

/-- A numeral with an optional sign. -/
inductive SignedNumeral : Txt → ℤ → Prop
  | none {t : Txt} {v k : ℕ} (h : Numeral t v k) : SignedNumeral t v
  | plus {t : Txt} {v k : ℕ} (h : Numeral t v k) : SignedNumeral ('+' :: t) v
  | minus {t : Txt} {v k : ℕ} (h : Numeral t v k) : SignedNumeral ('-' :: t) (-v)

/-- Blanks, tabs, line ends and separators. -/
def Blanks (t : Txt) : Prop :=
  ∀ c ∈ t, c ∈ [' ', '\t', '\n', '\r', '\x0b', '\x0c', '\x1c', '\x1d', '\x1e', '\x1f']

/-- A text that Python's `int` reads as `z`. -/
def IntText (t : Txt) (z : ℤ) : Prop :=
  ∃ l u r, Blanks l ∧ Blanks r ∧ t = l ++ u ++ r ∧ SignedNumeral u z

/-- Digits with an optional point. -/
inductive Mantissa : Txt → ℚ → Prop
  | whole {a : Txt} {v k : ℕ} (h : Numeral a v k) : Mantissa a v
  | point {a : Txt} {v k : ℕ} (h : Numeral a v k) : Mantissa (a ++ ['.']) v
  | frac {f : Txt} {w j : ℕ} (h : Numeral f w j) : Mantissa ('.' :: f) (w / 10 ^ j)
  | both {a f : Txt} {v k w j : ℕ} (h : Numeral a v k) (h' : Numeral f w j) :
      Mantissa (a ++ '.' :: f) (v + w / 10 ^ j)

/-- A number without sign. -/
inductive FloatBody : Txt → Gap → Prop
  | plain {m : Txt} {q : ℚ} (h : Mantissa m q) : FloatBody m (.fin q)
  | exp {m s : Txt} {q : ℚ} {z : ℤ} {c : Char} (h : Mantissa m q) (hc : c = 'e' ∨ c = 'E')
      (h' : SignedNumeral s z) : FloatBody (m ++ c :: s) (.fin (q * 10 ^ z))
  | inf {t : Txt} (h : t.map Char.toLower = ['i', 'n', 'f']
      ∨ t.map Char.toLower = ['i', 'n', 'f', 'i', 'n', 'i', 't', 'y']) : FloatBody t .posInf
  | nan {t : Txt} (h : t.map Char.toLower = ['n', 'a', 'n']) : FloatBody t .nan

/-- The value with a minus sign. -/
def negGap : Gap → Gap
  | .fin q => .fin (-q)
  | .posInf => .negInf
  | .negInf => .posInf
  | .nan => .nan

/-- A number with an optional sign. -/
inductive SignedFloat : Txt → Gap → Prop
  | none {t : Txt} {g : Gap} (h : FloatBody t g) : SignedFloat t g
  | plus {t : Txt} {g : Gap} (h : FloatBody t g) : SignedFloat ('+' :: t) g
  | minus {t : Txt} {g : Gap} (h : FloatBody t g) : SignedFloat ('-' :: t) (negGap g)

/-- A text that stands for the number `g`, before it is rounded to a double. -/
def FloatText (t : Txt) (g : Gap) : Prop :=
  ∃ l u r, Blanks l ∧ Blanks r ∧ t = l ++ u ++ r ∧ SignedFloat u g

end Verif.Spec

namespace Verif.Model
open Spec

theorem digit_iff (c : Char) : c.isDigit = true ↔ ∃ d < 10, c = Nat.digitChar d := by
  constructor
  · intro h
    have h' : 48 ≤ c.toNat ∧ c.toNat ≤ 57 := by
      simpa [Char.isDigit, UInt32.le_iff_toNat_le] using h
    refine ⟨c.toNat - 48, by omega, ?_⟩
    obtain ⟨h1, h2⟩ := h'
    have : Char.ofNat c.toNat = c := Char.ofNat_toNat c
    generalize c.toNat = k at h1 h2 this
    subst this
    interval_cases k <;> rfl
  · rintro ⟨d, hd, rfl⟩
    interval_cases d <;> rfl

theorem digit_val {d : ℕ} (h : d < 10) : (Nat.digitChar d).toNat - 48 = d := by
  interval_cases d <;> rfl

theorem digit_isDigit {d : ℕ} (h : d < 10) : (Nat.digitChar d).isDigit = true :=
  (digit_iff _).2 ⟨d, h, rfl⟩

theorem numeralFrom_append {v k : ℕ} {t : Txt} {w j : ℕ} (h : numeralFrom v k t = some (w, j)) (s : Txt) :
    numeralFrom v k (t ++ s) = numeralFrom w j s := by
  induction t using List.twoStepInduction generalizing v k with
  | nil => rw [numeralFrom] at h; cases h; rfl
  | singleton c =>
    rw [numeralFrom] at h
    split at h
    · rename_i hc
      cases h
      cases s with
      | nil => simp [numeralFrom, hc]
      | cons d s => simp [numeralFrom, hc]
    · cases h
  | cons_cons c d t ih1 ih2 =>
    rw [numeralFrom] at h
    rw [List.cons_append, List.cons_append, numeralFrom]
    split at h
    · rename_i hc
      rw [if_pos hc]
      exact ih2 _ h
    · rename_i hc
      rw [if_neg hc]
      split at h
      · rename_i hd
        rw [if_pos hd]
        exact ih1 h
      · cases h

theorem numeral_from {s : Txt} {v k : ℕ} (hs : Numeral s v k) {t : Txt} {w j : ℕ}
    (h : numeralFrom v k t = some (w, j)) : Numeral (s ++ t) w j := by
  induction t using List.twoStepInduction generalizing s v k with
  | nil => rw [numeralFrom] at h; cases h; simpa using hs
  | singleton c =>
    rw [numeralFrom] at h
    split at h
    · rename_i hc
      obtain ⟨d, hd, rfl⟩ := (digit_iff c).1 hc
      rw [digit_val hd] at h
      cases h
      exact hs.next d hd
    · cases h
  | cons_cons c e t ih1 ih2 =>
    rw [numeralFrom] at h
    split at h
    · rename_i hc
      obtain ⟨d, hd, rfl⟩ := (digit_iff c).1 hc
      rw [digit_val hd] at h
      have := ih2 e (hs.next d hd) h
      simpa using this
    · split at h
      · rename_i hc
        obtain ⟨rfl, he⟩ := hc
        obtain ⟨d, hd, rfl⟩ := (digit_iff e).1 he
        rw [digit_val hd] at h
        have := ih1 (hs.under d hd) h
        simpa using this
      · cases h

theorem numeralOf_iff (t : Txt) (v k : ℕ) : numeralOf t = some (v, k) ↔ Numeral t v k := by
  constructor
  · intro h
    cases t with
    | nil => cases h
    | cons c t =>
      rw [numeralOf] at h
      split at h
      · rename_i hc
        obtain ⟨d, hd, rfl⟩ := (digit_iff c).1 hc
        rw [digit_val hd] at h
        exact numeral_from (Numeral.one d hd) h
      · cases h
  · intro h
    induction h with
    | one d hd =>
      rw [numeralOf, if_pos (digit_isDigit hd), digit_val hd]; rfl
    | @next t v k d hd _ ih =>
      cases t with
      | nil => cases ih
      | cons c t =>
        rw [numeralOf] at ih
        rw [List.cons_append, numeralOf]
        split at ih
        · rename_i hc
          rw [if_pos hc, numeralFrom_append ih, numeralFrom, if_pos (digit_isDigit hd), digit_val hd]
        · cases ih
    | @under t v k d hd _ ih =>
      cases t with
      | nil => cases ih
      | cons c t =>
        rw [numeralOf] at ih
        rw [List.cons_append, numeralOf]
        split at ih
        · rename_i hc
          rw [if_pos hc, numeralFrom_append ih, numeralFrom, if_neg (by decide),
            if_pos ⟨rfl, digit_isDigit hd⟩, digit_val hd]
          rfl
        · cases ih

/-- Numerals consist of digits and underscores; the first and the last character are digits. -/
theorem numeral_chars {t : Txt} {v k : ℕ} (h : Numeral t v k) :
    (∀ c ∈ t, c.isDigit = true ∨ c = '_') ∧ (∃ c u, t = c :: u ∧ c.isDigit = true)
      ∧ ∃ u c, t = u ++ [c] ∧ c.isDigit = true := by
  induction h with
  | one d hd =>
    exact ⟨fun c hc => by
      rw [List.mem_singleton] at hc; exact hc ▸ .inl (digit_isDigit hd), ⟨_, [], rfl, digit_isDigit hd⟩,
      ⟨[], _, rfl, digit_isDigit hd⟩⟩
  | @next t v k d hd _ ih =>
    obtain ⟨h1, ⟨c, u, rfl, hc⟩, _⟩ := ih
    refine ⟨fun x hx => ?_, ⟨c, u ++ [_], rfl, hc⟩, ⟨_, _, rfl, digit_isDigit hd⟩⟩
    rcases List.mem_append.1 hx with hx | hx
    · exact h1 x hx
    · simp only [List.mem_singleton] at hx
      exact hx ▸ .inl (digit_isDigit hd)
  | @under t v k d hd _ ih =>
    obtain ⟨h1, ⟨c, u, rfl, hc⟩, _⟩ := ih
    refine ⟨fun x hx => ?_, ⟨c, u ++ ['_', _], rfl, hc⟩,
      ⟨c :: u ++ ['_'], Nat.digitChar d, by simp, digit_isDigit hd⟩⟩
    rcases List.mem_append.1 hx with hx | hx
    · exact h1 x hx
    · simp only [List.mem_cons, List.not_mem_nil, or_false] at hx
      rcases hx with rfl | rfl
      · exact .inr rfl
      · exact .inl (digit_isDigit hd)

theorem signOf_digit {c : Char} {u : Txt} (h : c.isDigit = true) : signOf (c :: u) = (1, c :: u) := by
  unfold signOf
  split
  · rename_i e; cases e; cases h
  · rename_i e; cases e; cases h
  · rfl

theorem signedOf_iff (t : Txt) (z : ℤ) : signedOf t = some z ↔ SignedNumeral t z := by
  constructor
  · intro h
    obtain ⟨⟨v, k⟩, h1, h2⟩ := Option.map_eq_some_iff.1 h
    rw [numeralOf_iff] at h1
    unfold signOf at h1 h2
    split at h1
    · subst h2; simpa using SignedNumeral.minus h1
    · subst h2; simpa using SignedNumeral.plus h1
    · rename_i n1 n2
      subst h2
      simpa using SignedNumeral.none h1
  · intro h
    cases h with
    | none h =>
      obtain ⟨-, ⟨c, u, rfl, hc⟩, -⟩ := numeral_chars h
      unfold signedOf
      rw [signOf_digit hc, (numeralOf_iff _ _ _).2 h]
      simp
    | plus h => unfold signedOf; simp only [signOf]; rw [(numeralOf_iff _ _ _).2 h]; simp
    | minus h => unfold signedOf; simp only [signOf]; rw [(numeralOf_iff _ _ _).2 h]; simp

/-! ## Blanks -/

theorem blank_iff (c : Char) : isBlank c = true ↔
    c ∈ [' ', '\t', '\n', '\r', '\x0b', '\x0c', '\x1c', '\x1d', '\x1e', '\x1f'] := by
  constructor
  · intro h
    have h' : (9 ≤ c.toNat ∧ c.toNat ≤ 13) ∨ (28 ≤ c.toNat ∧ c.toNat ≤ 32) := by
      simpa [isBlank] using h
    have : Char.ofNat c.toNat = c := Char.ofNat_toNat c
    generalize c.toNat = k at h' this
    subst this
    rcases h' with ⟨h1, h2⟩ | ⟨h1, h2⟩ <;> interval_cases k <;> decide
  · intro h
    simp only [List.mem_cons, List.not_mem_nil, or_false] at h
    rcases h with rfl | rfl | rfl | rfl | rfl | rfl | rfl | rfl | rfl | rfl <;> decide

theorem strip_spec (t : Txt) : ∃ l r, Blanks l ∧ Blanks r ∧ t = l ++ strip t ++ r := by
  refine ⟨t.takeWhile isBlank, ((t.dropWhile isBlank).reverse.takeWhile isBlank).reverse, ?_, ?_, ?_⟩
  · exact fun c hc => (blank_iff c).1 (List.mem_takeWhile_imp hc)
  · exact fun c hc => (blank_iff c).1 (List.mem_takeWhile_imp (List.mem_reverse.1 hc))
  · unfold strip
    rw [List.append_assoc, ← List.reverse_append, List.takeWhile_append_dropWhile, List.reverse_reverse,
      List.takeWhile_append_dropWhile]

theorem dropWhile_blanks {l s : Txt} (hl : Blanks l) {c : Char} {u : Txt} (hs : s = c :: u)
    (hc : isBlank c = false) : (l ++ s).dropWhile isBlank = s := by
  subst hs
  induction l with
  | nil => simp [hc]
  | cons b l ih =>
    rw [List.cons_append, List.dropWhile_cons, if_pos ((blank_iff b).2 (hl b (by simp)))]
    exact ih fun x hx => hl x (by simp [hx])

theorem strip_eq {l u r : Txt} (hl : Blanks l) (hr : Blanks r) {c d : Char} {v w : Txt} (h1 : u = c :: v)
    (h2 : u = w ++ [d]) (hc : isBlank c = false) (hd : isBlank d = false) : strip (l ++ u ++ r) = u := by
  unfold strip
  rw [List.append_assoc, dropWhile_blanks (s := u ++ r) hl (by rw [h1]; rfl) hc, List.reverse_append,
    dropWhile_blanks (s := u.reverse) (c := d) (u := w.reverse) _ (by rw [h2]; simp) hd, List.reverse_reverse]
  exact fun x hx => hr x (List.mem_reverse.1 hx)

theorem digit_not_blank {c : Char} (h : c.isDigit = true) : isBlank c = false := by
  obtain ⟨d, hd, rfl⟩ := (digit_iff c).1 h
  interval_cases d <;> rfl

/-- First and last character of a signed numeral. -/
theorem signed_ends {u : Txt} {z : ℤ} (h : SignedNumeral u z) :
    (∃ c v, u = c :: v ∧ isBlank c = false) ∧ ∃ w d, u = w ++ [d] ∧ isBlank d = false := by
  cases h with
  | none h =>
    obtain ⟨-, ⟨c, v, e1, h1⟩, ⟨w, d, e2, h2⟩⟩ := numeral_chars h
    exact ⟨⟨c, v, e1, digit_not_blank h1⟩, ⟨w, d, e2, digit_not_blank h2⟩⟩
  | plus h =>
    obtain ⟨-, -, ⟨w, d, rfl, h2⟩⟩ := numeral_chars h
    exact ⟨⟨_, _, rfl, by decide⟩, ⟨'+' :: w, d, rfl, digit_not_blank h2⟩⟩
  | minus h =>
    obtain ⟨-, -, ⟨w, d, rfl, h2⟩⟩ := numeral_chars h
    exact ⟨⟨_, _, rfl, by decide⟩, ⟨'-' :: w, d, rfl, digit_not_blank h2⟩⟩

theorem intOf_iff (t : Txt) (z : ℤ) : intOf t = some z ↔ IntText t z := by
  constructor
  · intro h
    obtain ⟨l, r, hl, hr, e⟩ := strip_spec t
    exact ⟨l, strip t, r, hl, hr, e, (signedOf_iff _ _).1 h⟩
  · rintro ⟨l, u, r, hl, hr, rfl, h⟩
    obtain ⟨⟨c, v, e1, h1⟩, ⟨w, d, e2, h2⟩⟩ := signed_ends h
    unfold intOf
    rw [strip_eq hl hr e1 e2 h1 h2]
    exact (signedOf_iff _ _).2 h

/-! ## Floats -/

theorem mantissa_chars {t : Txt} {q : ℚ} (h : Mantissa t q) :
    (∀ c ∈ t, c.isDigit = true ∨ c = '_' ∨ c = '.')
      ∧ (∃ c u, t = c :: u ∧ (c.isDigit = true ∨ c = '.'))
      ∧ ∃ u c, t = u ++ [c] ∧ (c.isDigit = true ∨ c = '.') := by
  have up : ∀ {c : Char}, c.isDigit = true ∨ c = '_' → c.isDigit = true ∨ c = '_' ∨ c = '.' := by tauto
  cases h with
  | whole h =>
    obtain ⟨h1, ⟨c, u, e1, h2⟩, ⟨w, d, e2, h3⟩⟩ := numeral_chars h
    exact ⟨fun c hc => up (h1 c hc), ⟨c, u, e1, .inl h2⟩, ⟨w, d, e2, .inl h3⟩⟩
  | point h =>
    obtain ⟨h1, ⟨c, u, rfl, h2⟩, -⟩ := numeral_chars h
    refine ⟨fun x hx => ?_, ⟨c, u ++ ['.'], rfl, .inl h2⟩, ⟨_, _, rfl, .inr rfl⟩⟩
    rcases List.mem_append.1 hx with hx | hx
    · exact up (h1 x hx)
    · simp only [List.mem_singleton] at hx; exact .inr (.inr hx)
  | frac h =>
    obtain ⟨h1, -, ⟨w, d, rfl, h3⟩⟩ := numeral_chars h
    refine ⟨fun x hx => ?_, ⟨_, _, rfl, .inr rfl⟩, ⟨'.' :: w, d, rfl, .inl h3⟩⟩
    rcases List.mem_cons.1 hx with hx | hx
    · exact .inr (.inr hx)
    · exact up (h1 x hx)
  | both h h' =>
    obtain ⟨h1, ⟨c, u, rfl, h2⟩, -⟩ := numeral_chars h
    obtain ⟨h1', -, ⟨w, d, rfl, h3⟩⟩ := numeral_chars h'
    refine ⟨fun x hx => ?_, ⟨c, _, rfl, .inl h2⟩, ⟨(c :: u) ++ '.' :: w, d, by simp, .inl h3⟩⟩
    rcases List.mem_append.1 hx with hx | hx
    · exact up (h1 x hx)
    · rcases List.mem_cons.1 hx with hx | hx
      · exact .inr (.inr hx)
      · exact up (h1' x hx)

theorem takeWhile_split {p : Char → Bool} {a f : Txt} {c : Char} (ha : ∀ x ∈ a, p x = true) (hc : p c = false) :
    (a ++ c :: f).takeWhile p = a ∧ (a ++ c :: f).dropWhile p = c :: f := by
  induction a with
  | nil => simp [hc]
  | cons b a ih =>
    obtain ⟨h1, h2⟩ := ih fun x hx => ha x (by simp [hx])
    have hb := ha b (by simp)
    simp [hb, h1, h2]

theorem takeWhile_whole {p : Char → Bool} {a : Txt} (ha : ∀ x ∈ a, p x = true) :
    a.takeWhile p = a ∧ a.dropWhile p = [] := by
  induction a with
  | nil => simp
  | cons b a ih =>
    obtain ⟨h1, h2⟩ := ih fun x hx => ha x (by simp [hx])
    have hb := ha b (by simp)
    simp [hb, h1, h2]

theorem numeral_no_point {t : Txt} {v k : ℕ} (h : Numeral t v k) : ∀ x ∈ t, (x != '.') = true := by
  intro x hx
  rcases (numeral_chars h).1 x hx with h | rfl
  · simp only [bne_iff_ne, ne_eq]; rintro rfl; cases h
  · decide

theorem mantissaOf_iff (t : Txt) (q : ℚ) : mantissaOf t = some q ↔ Mantissa t q := by
  constructor
  · intro h
    have ht : t.takeWhile (· != '.') ++ t.dropWhile (· != '.') = t := List.takeWhile_append_dropWhile
    have hd : ∀ c f, t.dropWhile (· != '.') = c :: f → c = '.' := by
      intro c f e
      have := List.head_dropWhile_not (p := (· != '.')) (l := t) (by rw [e]; simp)
      simp only [e, List.head_cons] at this
      simpa using this
    unfold mantissaOf at h
    split at h
    · rename_i e
      obtain ⟨⟨v, k⟩, h1, rfl⟩ := Option.map_eq_some_iff.1 h
      rw [e, List.append_nil] at ht
      rw [ht] at h1
      exact .whole ((numeralOf_iff _ _ _).1 h1)
    · rename_i c f e1 e2
      obtain ⟨⟨v, k⟩, h1, rfl⟩ := Option.map_eq_some_iff.1 h
      obtain rfl := hd _ _ e2
      rw [e1, e2] at ht
      rw [← ht]
      exact .frac ((numeralOf_iff _ _ _).1 h1)
    · rename_i c e2 e1
      obtain ⟨⟨v, k⟩, h1, rfl⟩ := Option.map_eq_some_iff.1 h
      obtain rfl := hd _ _ e2
      rw [e2] at ht
      rw [← ht]
      exact .point ((numeralOf_iff _ _ _).1 h1)
    · rename_i c f n1 e2 n2
      obtain rfl := hd _ _ e2
      rw [e2] at ht
      split at h
      · rename_i p r h1 h2
        cases h
        rw [← ht]
        exact .both ((numeralOf_iff _ _ _).1 h1) ((numeralOf_iff _ _ _).1 h2)
      · cases h
  · intro h
    unfold mantissaOf
    cases h with
    | whole h =>
      obtain ⟨e1, e2⟩ := takeWhile_whole (numeral_no_point h)
      rw [e1, e2]
      simp only
      rw [(numeralOf_iff _ _ _).2 h]; rfl
    | point h =>
      obtain ⟨e1, e2⟩ := takeWhile_split (p := (· != '.')) (f := []) (c := '.') (numeral_no_point h) (by decide)
      rw [e1, e2]
      obtain ⟨-, ⟨c, u, rfl, -⟩, -⟩ := numeral_chars h
      simp only
      rw [(numeralOf_iff _ _ _).2 h]; rfl
    | @frac f w j h =>
      obtain ⟨e1, e2⟩ := takeWhile_split (p := (· != '.')) (a := []) (f := f) (c := '.') (by simp) (by decide)
      rw [List.nil_append] at e1 e2
      rw [e1, e2]
      simp only
      rw [(numeralOf_iff _ _ _).2 h]; rfl
    | @both a f v k w j h h' =>
      obtain ⟨e1, e2⟩ := takeWhile_split (p := (· != '.')) (f := f) (c := '.') (numeral_no_point h) (by decide)
      rw [e1, e2]
      obtain ⟨-, ⟨c, u, rfl, -⟩, -⟩ := numeral_chars h
      obtain ⟨-, ⟨c', u', rfl, -⟩, -⟩ := numeral_chars h'
      simp only
      rw [(numeralOf_iff _ _ _).2 h, (numeralOf_iff _ _ _).2 h']

theorem mantissa_no_e {t : Txt} {q : ℚ} (h : Mantissa t q) :
    ∀ x ∈ t, (fun c : Char => c != 'e' && c != 'E') x = true := by
  intro x hx
  rcases (mantissa_chars h).1 x hx with h | rfl | rfl
  · obtain ⟨d, hd, rfl⟩ := (digit_iff x).1 h
    interval_cases d <;> rfl
  · rfl
  · rfl

theorem lower_digit {c : Char} (h : c.isDigit = true ∨ c = '.') : c.toLower ≠ 'i' ∧ c.toLower ≠ 'n' := by
  rcases h with h | rfl
  · obtain ⟨d, hd, rfl⟩ := (digit_iff c).1 h
    interval_cases d <;> decide
  · decide

theorem unsignedOf_iff (t : Txt) (g : Gap) : unsignedOf t = some g ↔ FloatBody t g := by
  constructor
  · intro h
    unfold unsignedOf at h
    simp only at h
    split_ifs at h with h1 h2
    · cases h; exact .inf h1
    · cases h; exact .nan h2
    · have ht : t.takeWhile (fun c => c != 'e' && c != 'E') ++ t.dropWhile (fun c => c != 'e' && c != 'E') = t :=
        List.takeWhile_append_dropWhile
      split at h
      · rename_i e
        obtain ⟨q, hq, rfl⟩ := Option.map_eq_some_iff.1 h
        rw [e, List.append_nil] at ht
        rw [ht] at hq
        exact .plain ((mantissaOf_iff _ _).1 hq)
      · rename_i c s e
        have hc : c = 'e' ∨ c = 'E' := by
          have := List.head_dropWhile_not (p := fun c : Char => c != 'e' && c != 'E') (l := t)
            (by rw [e]; simp)
          simp only [e, List.head_cons] at this
          by_contra hn
          rw [not_or] at hn
          simp [hn.1, hn.2] at this
        rw [e] at ht
        split at h
        · rename_i q z e1 e2
          cases h
          rw [← ht]
          exact .exp ((mantissaOf_iff _ _).1 e1) hc ((signedOf_iff _ _).1 e2)
        · cases h
  · intro h
    have key : ∀ (c : Char) (u : Txt), t = c :: u → (c.isDigit = true ∨ c = '.') →
        ¬ (t.map Char.toLower = ['i', 'n', 'f'] ∨ t.map Char.toLower = ['i', 'n', 'f', 'i', 'n', 'i', 't', 'y'])
        ∧ ¬ t.map Char.toLower = ['n', 'a', 'n'] := by
      rintro c u rfl hc
      obtain ⟨n1, n2⟩ := lower_digit hc
      rw [List.map_cons]
      exact ⟨by rintro (e | e) <;> exact n1 (List.cons.inj e).1, fun e => n2 (List.cons.inj e).1⟩
    unfold unsignedOf
    simp only
    cases h with
    | plain h =>
      obtain ⟨c, u, e, hc⟩ := (mantissa_chars h).2.1
      obtain ⟨n1, n2⟩ := key c u e hc
      obtain ⟨e1, e2⟩ := takeWhile_whole (mantissa_no_e h)
      rw [if_neg n1, if_neg n2, e1, e2]
      simp only
      rw [(mantissaOf_iff _ _).2 h]; rfl
    | @exp m s q z c h hc h' =>
      obtain ⟨c', u, e, hc'⟩ := (mantissa_chars h).2.1
      obtain ⟨n1, n2⟩ := key c' (u ++ c :: s) (by rw [e]; rfl) hc'
      obtain ⟨e1, e2⟩ := takeWhile_split (p := fun c : Char => c != 'e' && c != 'E') (f := s) (c := c)
        (mantissa_no_e h) (by rcases hc with rfl | rfl <;> decide)
      rw [if_neg n1, if_neg n2, e1, e2]
      simp only
      rw [(mantissaOf_iff _ _).2 h, (signedOf_iff _ _).2 h']
    | inf h => rw [if_pos h]
    | nan h => rw [if_neg (by rw [h]; decide), if_pos h]

theorem blank_lower {c : Char} (h : isBlank c = true) : c.toLower = c ∧ ¬ c.isDigit = true ∧ c ≠ '.' := by
  have := (blank_iff c).1 h
  simp only [List.mem_cons, List.not_mem_nil, or_false] at this
  rcases this with rfl | rfl | rfl | rfl | rfl | rfl | rfl | rfl | rfl | rfl <;> decide

/-- A text that `toLower` turns into a word has no blank at its ends. -/
theorem word_ends {t w : Txt} (h : t.map Char.toLower = w) (hw : ∀ c ∈ w, isBlank c = false) {c : Char}
    (hc : c ∈ t) : isBlank c = false := by
  by_contra hb
  rw [Bool.not_eq_false] at hb
  have h1 : c.toLower ∈ w := h ▸ List.mem_map_of_mem hc
  rw [(blank_lower hb).1] at h1
  rw [hw c h1] at hb
  cases hb

theorem digitPoint_not_blank {c : Char} (h : c.isDigit = true ∨ c = '.') : isBlank c = false := by
  by_contra hb
  rw [Bool.not_eq_false] at hb
  obtain ⟨-, h1, h2⟩ := blank_lower hb
  tauto

theorem body_ends {u : Txt} {g : Gap} (h : FloatBody u g) :
    (∃ c v, u = c :: v ∧ isBlank c = false ∧ c ≠ '-' ∧ c ≠ '+') ∧ ∃ w d, u = w ++ [d] ∧ isBlank d = false := by
  have word : ∀ w : Txt, u.map Char.toLower = w → w ≠ [] → (∀ c ∈ w, isBlank c = false) →
      (∀ c ∈ w, c ≠ '-' ∧ c ≠ '+') →
      (∃ c v, u = c :: v ∧ isBlank c = false ∧ c ≠ '-' ∧ c ≠ '+') ∧ ∃ w d, u = w ++ [d] ∧ isBlank d = false := by
    intro w hw hne hb hs
    have hu : u ≠ [] := by rintro rfl; exact hne hw.symm
    obtain ⟨c, v, rfl⟩ := List.exists_cons_of_ne_nil hu
    refine ⟨⟨c, v, rfl, word_ends hw hb (by simp), ?_⟩, ?_⟩
    · have h1 : c.toLower ∈ w := hw ▸ List.mem_map_of_mem (by simp)
      have := hs _ h1
      constructor
      · rintro rfl; exact this.1 (by decide)
      · rintro rfl; exact this.2 (by decide)
    · exact ⟨_, _, (List.dropLast_append_getLast hu).symm, word_ends hw hb (List.getLast_mem hu)⟩
  have sgn : ∀ {c : Char}, c.isDigit = true ∨ c = '.' → c ≠ '-' ∧ c ≠ '+' := by
    rintro c (h | rfl)
    · constructor <;> (rintro rfl; cases h)
    · decide
  cases h with
  | plain h =>
    obtain ⟨-, ⟨c, v, e1, h1⟩, ⟨w, d, e2, h2⟩⟩ := mantissa_chars h
    exact ⟨⟨c, v, e1, digitPoint_not_blank h1, sgn h1⟩, ⟨w, d, e2, digitPoint_not_blank h2⟩⟩
  | @exp m s q z c h hc h' =>
    obtain ⟨-, ⟨c', v, rfl, h1⟩, -⟩ := mantissa_chars h
    obtain ⟨-, ⟨w, d, rfl, h2⟩⟩ := signed_ends h'
    exact ⟨⟨c', v ++ c :: (w ++ [d]), rfl, digitPoint_not_blank h1, sgn h1⟩,
      ⟨(c' :: v) ++ c :: w, d, by simp, h2⟩⟩
  | inf h =>
    rcases h with h | h
    · exact word _ h (by simp) (by decide) (by decide)
    · exact word _ h (by simp) (by decide) (by decide)
  | nan h => exact word _ h (by simp) (by decide) (by decide)

theorem body_not_negInf {t : Txt} (h : FloatBody t .negInf) : False := by
  generalize hg : Gap.negInf = g at h
  cases h <;> cases hg

theorem signOf_plain {c : Char} {v : Txt} (h1 : c ≠ '-') (h2 : c ≠ '+') : signOf (c :: v) = (1, c :: v) := by
  unfold signOf
  split
  · rename_i e; exact absurd (List.cons.inj e).1 h1
  · rename_i e; exact absurd (List.cons.inj e).1 h2
  · rfl

/-- Rounding a float to a double. -/
def roundDouble : Gap → Gap
  | .fin q => .fin (rd q)
  | g => g

theorem floatOf_iff (t : Txt) (g : Gap) : floatOf t = some g ↔ ∃ g', FloatText t g' ∧ g = roundDouble g' := by
  constructor
  · intro h
    obtain ⟨l, r, hl, hr, e⟩ := strip_spec t
    have hbody : ∃ b, FloatBody (signOf (strip t)).2 b
        ∧ g = roundDouble (if (signOf (strip t)).1 = 1 then b else negGap b)
        ∧ ((signOf (strip t)).1 = 1 ∨ (signOf (strip t)).1 = -1) := by
      have hs : (signOf (strip t)).1 = 1 ∨ (signOf (strip t)).1 = -1 := by
        unfold signOf; split <;> simp
      unfold floatOf at h
      cases hb : unsignedOf (signOf (strip t)).2 with
      | none => rw [hb] at h; cases h
      | some b =>
        rw [hb] at h
        refine ⟨b, (unsignedOf_iff _ _).1 hb, ?_, hs⟩
        cases b with
        | fin q =>
          cases h
          rcases hs with hs | hs <;> rw [hs] <;> simp [roundDouble, negGap]
        | posInf =>
          cases h
          rcases hs with hs | hs <;> rw [hs] <;> simp [roundDouble, negGap]
        | negInf =>
          exact (body_not_negInf ((unsignedOf_iff _ _).1 hb)).elim
        | nan => cases h; rcases hs with hs | hs <;> rw [hs] <;> simp [roundDouble, negGap]
    obtain ⟨b, h1, h2, h3⟩ := hbody
    refine ⟨_, ⟨l, strip t, r, hl, hr, e, ?_⟩, h2⟩
    generalize strip t = u at h1 h2
    unfold signOf at h1 ⊢
    split
    · simpa using SignedFloat.minus h1
    · simpa using SignedFloat.plus h1
    · rename_i n1 n2
      split at h1
      · exact absurd rfl (n1 _)
      · exact absurd rfl (n2 _)
      · simpa using SignedFloat.none h1
  · rintro ⟨g', ⟨l, u, r, hl, hr, rfl, h⟩, rfl⟩
    have hneg : ∀ q, rd (-q) = rd (-1 * q) := fun q => by rw [neg_one_mul]
    unfold floatOf
    cases h with
    | none h =>
      obtain ⟨⟨c, v, e1, h1, n1, n2⟩, ⟨w, d, e2, h2⟩⟩ := body_ends h
      rw [strip_eq hl hr e1 e2 h1 h2]
      have hs : signOf u = (1, u) := by rw [e1]; exact signOf_plain n1 n2
      rw [hs, (unsignedOf_iff _ _).2 h]
      cases g' with
      | fin q => simp [roundDouble]
      | posInf => simp [roundDouble]
      | negInf => exact (body_not_negInf h).elim
      | nan => simp [roundDouble]
    | @plus u g' h =>
      obtain ⟨-, ⟨w, d, rfl, h2⟩⟩ := body_ends h
      rw [strip_eq hl hr (u := '+' :: (w ++ [d])) rfl (w := '+' :: w) rfl (by decide) h2]
      simp only [signOf]
      rw [(unsignedOf_iff _ _).2 h]
      cases g' with
      | fin q => simp [roundDouble]
      | posInf => simp [roundDouble]
      | negInf => exact (body_not_negInf h).elim
      | nan => simp [roundDouble]
    | @minus u g' h =>
      obtain ⟨-, ⟨w, d, rfl, h2⟩⟩ := body_ends h
      rw [strip_eq hl hr (u := '-' :: (w ++ [d])) rfl (w := '-' :: w) rfl (by decide) h2]
      simp only [signOf]
      rw [(unsignedOf_iff _ _).2 h]
      cases g' with
      | fin q => simp [roundDouble, negGap]
      | posInf => simp [roundDouble, negGap]
      | negInf => exact (body_not_negInf h).elim
      | nan => simp [roundDouble, negGap]

end Verif.Model
