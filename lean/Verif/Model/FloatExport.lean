import Verif.Model.FloatViolations
import Verif.Model.Report
import Verif.Model.ExportTables

/-!
# Model of the exporter on doubles

`format_method` and the rows of the summary tables with sums, quotients and comparisons of doubles.  The
entries of the rows are doubles already; under- and overflow are left out, as in `fl64`.
-/

namespace Verif.Model

/-- `a + b` on doubles (src/export/format_results.py:66-73). -/
def flAdd (a b : Gap) : Gap :=
  match a.add b with
  | .fin q => .fin (rd q)
  | g => g

/-- `a/n` on doubles for a positive integer `n` (src/export/format_results.py:76-77). -/
def flMean (n : ℕ) : Gap → Gap
  | .fin q => .fin (rd (q / n))
  | g => g

/-- The first loop of `format_method` (src/export/format_results.py:46-53). -/
def flCountLoop (results : List (List Val)) (required : ℚ) : List ℕ → ℕ → Bool → PyM (ℕ × Bool)
  | [], nb, all => .ok (nb, all)
  | j :: ids, nb, all => do
    let row ← pyGet results (j - 1)
    let g ← backNum row 1
    if g.le (rd (required + fl64 (1 / 10 ^ 7))) then flCountLoop results required ids (nb + 1) all
    else flCountLoop results required ids nb false

/-- `average_table[1] += row[-6]` (src/export/format_results.py:72-73), as in `addIterations`. -/
def flAddIterations (row : List Val) (isPart : Bool) (b : Option Gap) : PyM (Option Gap) :=
  if isPart then do
    let it ← backNum row 6
    match b with
    | some x => pure (some (flAdd x it))
    | none => throw .indexError
  else .ok b

/-- The second loop (src/export/format_results.py:62-73). -/
def flSumLoop (results : List (List Val)) (allSolved isPart : Bool) :
    List ℕ → Gap → Option Gap → PyM (Gap × Option Gap)
  | [], a, b => .ok (a, b)
  | j :: ids, a, b => do
    let row ← pyGet results (j - 1)
    let g ← backNum row (if allSolved then 4 else 1)
    let b' ← flAddIterations row isPart b
    flSumLoop results allSolved isPart ids (flAdd a g) b'

/-- `format_method` on doubles (src/export/format_results.py:34-90), in the same order as
`formatMethod`. -/
def flFormatMethod (results : List (List Val)) (m : ℕ) (ids : List ℕ) (required : ℚ)
    (milp part : List ℕ) : PyM Summary := do
  let (nb, all) ← flCountLoop results required ids 0 true
  let start : Option Gap := if m ∈ milp then none else some (.fin 0)
  let (a, b) ← flSumLoop results all (decide (m ∈ part)) ids (.fin 0) start
  if ids.length = 0 then throw .zeroDivisionError
  let mean := flMean ids.length a
  let entry := fmtFloat 2 mean ++
    (if all then ['s'] else ['\\', '%', '('] ++ Nat.toDigits 10 nb ++ [')'])
  pure { time := if all then mean else .posInf
         nbSolved := nb
         gap := if all then .posInf else mean
         cells := .str entry :: (b.map fun x => Val.num (flMean ids.length x)).toList }

/-- One method of one table row (export_results.py:156-174). -/
def flMethodSummary (ids : List ℕ) (required : ℚ) (results : ℕ → List (List Val)) (method : ℕ) :
    PyM Summary :=
  if [] ∉ results method then
    flFormatMethod (results method) method ids required exportMilp exportPart
  else .ok { time := .posInf, nbSolved := 0, gap := .posInf
             cells := if method ∈ exportMilp then [.str ['-']] else [.num .nan, .num .nan] }

/-- One row of the summary table (export_results.py:149-195). -/
def flTableRow (head : List Val) (ids : List ℕ) (required : ℚ) (results : ℕ → List (List Val)) :
    PyM (List Val) := do
  let sums ← exportMethods.mapM (flMethodSummary ids required results)
  let row := head ++ (sums.map Summary.cells).flatten
  let k ← bestIndex sums
  let ind ← boldColumn k
  let v ← pyGet row ind
  pySet row ind (bold v)

/-- The loops that add up the big-M times (export_results.py:64-74, 91-100), as in `bigMSum`. -/
def flBigMSum (d : ExpDict) (inst : Txt) (scen method : ℕ) : List (ℕ × ℕ × ℚ) → Gap → PyM Gap
  | [], t => .ok t
  | (c, j, e) :: l, t => do
    let row ← assocGet d (c, inst, scen, j, e, method)
    if 0 < row.length then do
      let v ← pyGet row 10
      let x ← asNum v
      flBigMSum d inst scen method l (flAdd t x)
    else flBigMSum d inst scen method l .posInf

/-- The mean and its format (export_results.py:75-83, 101-110). -/
def flBigMEntry (t : Gap) (n : ℕ) : PyM Val := do
  if n = 0 then throw .zeroDivisionError
  let mean := flMean n t
  pure (if mean = .posInf then .str ['-'] else .str (fmtFloat 2 mean ++ ['s']))

/-- One row of the table of big-M times (export_results.py:56-110). -/
def flBigMRow (p : ExportPar) (d : ExpDict) (inst name : Txt) (scen : ℕ) : PyM (List Val) := do
  let t ← flBigMSum d inst scen 1 (bigMKeys p [1, 0]) (.fin 0)
  let song ← flBigMEntry t (p.nb * p.epsilons.length * 2)
  let t ← flBigMSum d inst scen 2 (bigMKeys p [1]) (.fin 0)
  let cont ← flBigMEntry t (p.nb * p.epsilons.length)
  let t ← flBigMSum d inst scen 2 (bigMKeys p [0]) (.fin 0)
  let bin ← flBigMEntry t (p.nb * p.epsilons.length)
  pure [.str name, .num (.fin scen), song, cont, bin]

end Verif.Model
