import Verif.Model.CsvText
import Verif.Model.Float
import Verif.Model.Generator

/-!
# Model of instance files in double precision
-/

namespace Verif.Model

/-- `np.round(x, d)` on doubles (src/instance/ChanceKnapInstance.py:42-44 with `d = 1`,
data/cc-instances/knapsack/instance-generator.py:59 with `d = 4`): numpy multiplies by `10^d`, rounds to
an integer and divides by `10^d`. -/
def flRound (d : ℕ) (x : ℚ) : ℚ := rd ((rint (rd (x * 10 ^ d)) : ℚ) / 10 ^ d)

/-- `parse_data` on doubles (src/instance/ChanceInstance.py:29-34,
src/instance/ChanceKnapInstance.py:17-59).  `epsilon` is the double passed by the caller. -/
def flParse (file : List (List ℚ)) (continuousVar : Bool) (epsilon : ℚ) : PyM Inst := do
  let info ← getRow file 0
  let n ← infoAt info 0
  let N ← infoAt info 2
  let m ← infoAt info 1
  let c ← getRow file 1
  let rows ← (List.range N).mapM fun s => (List.range m).mapM fun i =>
    getRow file (2 + s * m + i)
  if ¬ (∀ r ∈ rows.flatten, r.length = (rows.flatten.headD []).length) then
    throw .valueError
  let last ← match file.getLast? with
    | some r => pure r
    | none => throw .indexError
  if ¬ (last.length = m ∨ last.length = 1) then throw .valueError
  if N = 0 then throw .zeroDivisionError
  pure
    { n, N, m
      A := fun s i j => flRound 1 (rowVec ((rows.getD s []).getD i []) j)
      b := fun _ i => flRound 1 (rowVec last (if last.length = 1 then 0 else i))
      c := fun j => flRound 1 (rowVec c j)
      proba := fun _ => rd (1 / (N : ℚ))
      eps := epsilon
      cont := continuousVar }

/-- A field as a finite number (src/instance/ChanceKnapInstance.py:22, 31-38). -/
def fieldNumber : Field → Option ℚ
  | .num (.fin q) => some q
  | _ => none

/-- The rows as numbers (src/instance/ChanceKnapInstance.py:22, 31-38). -/
def numbers (rows : List (List Field)) : Option (List (List ℚ)) :=
  rows.mapM fun r => r.mapM fieldNumber

/-- `ChanceKnapInstance(file_location, continuous_var, epsilon)` on the text of the file
(src/instance/ChanceKnapInstance.py:9-14, src/instance/ChanceInstance.py:22-34). -/
def readInstance (t : Txt) (continuousVar : Bool) (epsilon : ℚ) : Except FileErr Inst :=
  match csvRead true t with
  | .error e => .error (.csv e)
  | .ok rows =>
    match numbers rows with
    | none => .error .other
    | some file =>
      match flParse file continuousVar epsilon with
      | .error e => .error (.py e)
      | .ok I => .ok I

/-- One entry of a scenario's matrix on doubles (instance-generator.py:49-59): the product with 0 or 1
is exact. -/
def flGenEntry (x : ℚ) (fail : Bool) : ℚ :=
  let sample := x * (1 - (if fail then 1 else 0))
  flRound 4 (if sample < 0 then 0 else sample)

/-- The rows of doubles that are written for instance `k` (instance-generator.py:45-72). -/
def flGenRows (n m N : ℕ) (c b : List ℚ) (d : Draws) (k : ℕ) : List (List ℚ) :=
  [[(n : ℚ), (m : ℚ), (N : ℚ)], c]
    ++ ((List.range N).map fun s => (List.range m).map fun i => (List.range n).map fun j =>
        flGenEntry (d.normal k i j s) (d.fails k j s)).flatten
    ++ [b]

/-- The text of a number, as `str` of a Python or numpy number gives it
(data/cc-instances/knapsack/instance-generator.py:68-72): any text without line ends that `float` reads as
this double.  Simplification: not only the shortest one. -/
def Shows (t : Txt) (x : ℚ) : Prop := floatOf t = some (.fin x) ∧ '\r' ∉ t ∧ '\n' ∉ t

end Verif.Model
