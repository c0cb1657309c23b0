import Verif.Model.FloatViolations

/-!
# Model of `int` and `float` of a text
-/

namespace Verif.Model

/-- White space that `int` and `float` ignore at both ends (main.py:18-20).  Unicode blanks and digits are
left out. -/
def isBlank (c : Char) : Bool := (9 ≤ c.toNat && c.toNat ≤ 13) || (28 ≤ c.toNat && c.toNat ≤ 32)

/-- The text without the white space at both ends (main.py:18-20). -/
def strip (t : Txt) : Txt := ((t.dropWhile isBlank).reverse.dropWhile isBlank).reverse

/-- The rest of a numeral after `k` digits with value `v`: digits, with single underscores between them
(part of `int` and `float`, main.py:18-20). -/
def numeralFrom : ℕ → ℕ → Txt → Option (ℕ × ℕ)
  | v, k, [] => some (v, k)
  | v, k, [c] => if c.isDigit then some (10 * v + (c.toNat - 48), k + 1) else none
  | v, k, c :: d :: t =>
    if c.isDigit then numeralFrom (10 * v + (c.toNat - 48)) (k + 1) (d :: t)
    else if c = '_' ∧ d.isDigit then numeralFrom (10 * v + (d.toNat - 48)) (k + 1) t
    else none

/-- Value and number of digits of a numeral (part of `int` and `float`, main.py:18-20). -/
def numeralOf : Txt → Option (ℕ × ℕ)
  | [] => none
  | c :: t => if c.isDigit then numeralFrom (c.toNat - 48) 1 t else none

/-- An optional sign: the factor and the rest (part of `int` and `float`, main.py:18-20). -/
def signOf : Txt → ℤ × Txt
  | '-' :: t => (-1, t)
  | '+' :: t => (1, t)
  | t => (1, t)

/-- A sign and a numeral (part of `int` and `float`, main.py:18-20). -/
def signedOf (t : Txt) : Option ℤ := (numeralOf (signOf t).2).map fun p => (signOf t).1 * p.1

/-- `int(t)`; `none` stands for `ValueError` (main.py:18, 20).  The limit of 4300 digits is left out. -/
def intOf (t : Txt) : Option ℤ := signedOf (strip t)

/-- Digits before and after the point; one of the two may be missing (part of `float`, main.py:19). -/
def mantissaOf (t : Txt) : Option ℚ :=
  match t.takeWhile (· != '.'), t.dropWhile (· != '.') with
  | a, [] => (numeralOf a).map fun p => (p.1 : ℚ)
  | [], _ :: f => (numeralOf f).map fun p => (p.1 : ℚ) / 10 ^ p.2
  | a, [_] => (numeralOf a).map fun p => (p.1 : ℚ)
  | a, _ :: f =>
    match numeralOf a, numeralOf f with
    | some p, some r => some (p.1 + r.1 / 10 ^ r.2)
    | _, _ => none

/-- A number without sign (part of `float`, main.py:19). -/
def unsignedOf (t : Txt) : Option Gap :=
  let l := t.map Char.toLower
  if l = ['i', 'n', 'f'] ∨ l = ['i', 'n', 'f', 'i', 'n', 'i', 't', 'y'] then some .posInf
  else if l = ['n', 'a', 'n'] then some .nan
  else match t.takeWhile (fun c => c != 'e' && c != 'E'), t.dropWhile (fun c => c != 'e' && c != 'E') with
    | u, [] => (mantissaOf u).map .fin
    | u, _ :: s =>
      match mantissaOf u, signedOf s with
      | some q, some z => some (.fin (q * 10 ^ z))
      | _, _ => none

/-- `float(t)`, rounded to the nearest double; `none` stands for `ValueError` (main.py:19,
src/export/format_results.py:27, and src/instance/ChanceInstance.py:26 through `csv.QUOTE_NONNUMERIC`).  The
sign of zero and under- and overflow are left out. -/
def floatOf (t : Txt) : Option Gap :=
  match unsignedOf (signOf (strip t)).2 with
  | some (.fin q) => some (.fin (rd ((signOf (strip t)).1 * q)))
  | some .posInf => some (if (signOf (strip t)).1 = 1 then .posInf else .negInf)
  | g => g

end Verif.Model
