import Verif.Model.Report

/-!
# Model of data/cc-instances/knapsack/instance-generator.py
-/

namespace Verif.Model

/-- `np.round(x, 4)` (data/cc-instances/knapsack/instance-generator.py:59): numpy computes
`rint(x * 10000) / 10000`. -/
def round4 (x : ℚ) : ℚ := (rint (x * 10000) : ℚ) / 10000

/-- The random draws for one run of the generator, all of them arbitrary: `normal k i j s` is the
sample of `np.random.normal` for entry `(i, j)` of scenario `s` of instance `k`
(instance-generator.py:50-57), `fails k j s` tells whether `np.random.binomial(1, p)` is 1 for item
`j` in scenario `s` (instance-generator.py:38-42).  The failure probabilities
(instance-generator.py:33-36) only change the distribution of `fails`. -/
structure Draws where
  normal : ℕ → ℕ → ℕ → ℕ → ℚ
  fails : ℕ → ℕ → ℕ → Bool

/-- One entry of a scenario's matrix: the sample times the 0/1 survival flag, negative values set
to zero, rounded (instance-generator.py:49-59 with `withFailures` and `removeNegatives`). -/
def genEntry (x : ℚ) (fail : Bool) : ℚ :=
  let sample := x * (1 - (if fail then 1 else 0))
  round4 (if sample < 0 then 0 else sample)

/-- An entry of `np.array(completeFile[0][0:2]).astype(int)` (instance-generator.py:23-25).
Simplification: a negative size raises `ValueError` here; in the code only when it is used as the
size of an array. -/
def sizeAt (row : List ℚ) (k : ℕ) : PyM ℕ :=
  match row[k]? with
  | some q => if q.den = 1 ∧ 0 ≤ q then .ok q.num.toNat else .error .valueError
  | none => .error .indexError

/-- The name of a generated file (instance-generator.py:62-64). -/
def genName (n m N k : ℕ) : Txt :=
  ['c', 'c', 'm', 'k', 'n', 'a', 'p', '-'] ++ Nat.toDigits 10 n ++ ['-'] ++ Nat.toDigits 10 m
    ++ ['-'] ++ Nat.toDigits 10 N ++ ['-'] ++ Nat.toDigits 10 k ++ ['.', 'c', 's', 'v']

/-- The rows of instance `k` (instance-generator.py:45-72). -/
def genRows (n m N : ℕ) (c b : List ℚ) (d : Draws) (k : ℕ) : List (List ℚ) :=
  [[(n : ℚ), (m : ℚ), (N : ℚ)], c]
    ++ ((List.range N).map fun s => (List.range m).map fun i => (List.range n).map fun j =>
        genEntry (d.normal k i j s) (d.fails k j s)).flatten
    ++ [b]

/-- The generator on the rows of an OR-library file: the names and the rows of the files written
(instance-generator.py:15-72).  `np.array` of rows of unequal lengths raises `ValueError`, a missing
row or a row shorter than the number of items raises `IndexError`.  Reading and writing of the text
of numbers is left out: they are written with all their digits. -/
def generate (file : List (List ℚ)) (N K : ℕ) (d : Draws) : PyM (List (Txt × List (List ℚ))) := do
  let info ← getRow file 0
  let n ← sizeAt info 0
  let m ← sizeAt info 1
  let c ← getRow file 1
  let rows := (file.drop 2).take m
  if ¬ (∀ r ∈ rows, r.length = (rows.headD []).length) then throw .valueError
  let b ← getRow file (2 + m)
  if 0 < K ∧ 0 < m ∧ (rows.headD []).length < n then throw .indexError
  pure ((List.range' 1 K).map fun k => (genName n m N k, genRows n m N c b d k))

end Verif.Model
