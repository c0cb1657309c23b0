import Verif.Model.MilpSolver
import Mathlib.Data.Int.Log

/-!
# Model of the reporting code

Result rows (`write_all_computation_details` of both solvers, `Solver._get_computation_details`,
`Informer.adaptive_details`), the dispatch of `main.py`, result-file names, and the exporter
(`src/export/format_results.py`, `export_results.py`).

A Python string is the list of its characters.  A csv file with one row is the list of its cells:
quoting and line ends of the `csv` module are left out, since its reader undoes its writer.
-/

namespace Verif.Model

/-- A Python string (e.g. main.py:48-55). -/
abbrev Txt := List Char

/-! ## Numbers as text -/

/-- The last `d` decimal digits of `k` (part of `format`, src/solver/Solver.py:45). -/
def padDigits : ℕ → ℕ → Txt
  | 0, _ => []
  | d + 1, k => padDigits d (k / 10) ++ [Nat.digitChar (k % 10)]

/-- `"{:.df}".format(q)` of a finite number: rounding to `d` decimals, ties to even
(src/solver/Solver.py:45, src/export/format_results.py:84, main.py:50). -/
def fixed (d : ℕ) (q : ℚ) : Txt :=
  let k := (rint (|q| * 10 ^ d)).toNat
  (if q < 0 then ['-'] else []) ++ Nat.toDigits 10 (k / 10 ^ d)
    ++ (if d = 0 then [] else '.' :: padDigits d k)

/-- `"{:.df}".format(g)` of a float
(src/solver/Solver.py:45-56, src/export/format_results.py:84). -/
def fmtFloat (d : ℕ) : Gap → Txt
  | .fin q => fixed d q
  | .posInf => ['i', 'n', 'f']
  | .negInf => ['-', 'i', 'n', 'f']
  | .nan => ['n', 'a', 'n']

/-- Digits, optionally followed by a point and digits
(part of `float`, src/export/format_results.py:27). -/
def readUnsigned (t : Txt) : Option ℚ :=
  match t.takeWhile Char.isDigit, t.dropWhile Char.isDigit with
  | [], _ => none
  | a, [] => some (Nat.ofDigitChars 10 a 0 : ℕ)
  | a, '.' :: f =>
    if f.all Char.isDigit then
      some ((Nat.ofDigitChars 10 a 0 : ℕ) + (Nat.ofDigitChars 10 f 0 : ℕ) / 10 ^ f.length)
    else none
  | _, _ => none

/-- `float(t)` (src/export/format_results.py:27) on the notations that `fmtFloat` and `str` of a
natural number produce; other notations that Python accepts (exponents, blanks) are left out. -/
def readFloat (t : Txt) : Option Gap :=
  if t = ['i', 'n', 'f'] then some .posInf
  else if t = ['-', 'i', 'n', 'f'] then some .negInf
  else if t = ['n', 'a', 'n'] then some .nan
  else match t with
    | '-' :: r => (readUnsigned r).map fun q => .fin (-q)
    | r => (readUnsigned r).map .fin

/-- `float(str)` or `ValueError` (src/export/format_results.py:27). -/
def pyFloat (t : Txt) : PyM Gap :=
  match readFloat t with
  | some g => .ok g
  | none => .error .valueError

/-! ## Arithmetic of floats (without rounding) -/

/-- `a + b` (src/export/format_results.py:66-73). -/
def Gap.add : Gap → Gap → Gap
  | .nan, _ => .nan
  | _, .nan => .nan
  | .fin a, .fin b => .fin (a + b)
  | .posInf, .negInf => .nan
  | .negInf, .posInf => .nan
  | .posInf, _ => .posInf
  | _, .posInf => .posInf
  | .negInf, _ => .negInf
  | _, .negInf => .negInf

/-- `g * q` for a positive `q` (src/solver/Solver.py:56, src/Informer.py:56). -/
def Gap.scale (q : ℚ) : Gap → Gap
  | .fin a => .fin (a * q)
  | g => g

/-- `a < b` (`np.argmin`, export_results.py:178-183). -/
def Gap.lt : Gap → Gap → Bool
  | .fin a, .fin b => decide (a < b)
  | .fin _, .posInf => true
  | .negInf, .fin _ => true
  | .negInf, .posInf => true
  | _, _ => false

/-- `vLB` as a float (src/Informer.py:54). -/
def ofBot : WithBot ℚ → Gap
  | ⊥ => .negInf
  | (q : ℚ) => .fin q

/-- `vUB` as a float (src/Informer.py:55). -/
def ofTop : WithTop ℚ → Gap
  | ⊤ => .posInf
  | (q : ℚ) => .fin q

/-! ## Result rows -/

/-- A cell of a csv file: a text, or the shortest notation of a float, which `float` reads back
exactly (`big_m_time`, src/solver/MilpSolver.py:79). -/
inductive Cell
  | text (t : Txt)
  | flt (q : ℚ)
  deriving DecidableEq

/-- The cell of a natural number (src/solver/Solver.py:46-50, src/Informer.py:51-57). -/
def natCell (n : ℕ) : Cell := .text (Nat.toDigits 10 n)

/-- The cell of a formatted float (src/solver/Solver.py:51-63, src/Informer.py:51-57). -/
def fmtCell (d : ℕ) (g : Gap) : Cell := .text (fmtFloat d g)

/-- `os.path.basename`: what follows the last slash (src/instance/ChanceInstance.py:40). -/
def baseName (p : Txt) : Txt := (p.reverse.takeWhile fun c => c != '/').reverse

/-- `os.path.splitext(t)[0]` of a name without slashes: the text before the last dot, if there is
one and something other than dots precedes it (src/instance/ChanceInstance.py:41). -/
def stem (t : Txt) : Txt :=
  match t.reverse.dropWhile fun c => c != '.' with
  | [] => t
  | _ :: r => if r.all (fun c => c == '.') then t else r.reverse

/-- `get_file_name` (src/instance/ChanceInstance.py:36-42). -/
def fileName (location : Txt) : Txt := stem (baseName location)

/-- `_get_computation_details` (src/solver/Solver.py:42-64).  `total` is `get_total_time`
(src/TimeManager.py:36-38), which raises `TypeError` before `set_final_time`; `vUBNone` says that
`vUB` is `None` (then the gap raises, or with `vLB = -inf` the formatting).  `get_var_type()[0]`
and `get_nb_constraints(0)` raise `IndexError` for an instance without variables or scenarios. -/
def computationDetails (name : Txt) (I : Inst) (vLB : WithBot ℚ) (vUB : WithTop ℚ)
    (vUBNone numpy : Bool) (total : Option ℚ) (d : ℕ) : PyM (List Cell × List Cell) := do
  if I.n = 0 then throw .indexError
  if I.N = 0 then throw .indexError
  match total with
  | none => throw .typeError
  | some t =>
    if vUBNone then throw .typeError
    let g ← computeGap vUB vLB numpy
    pure ([.text name, natCell I.n, natCell I.m, natCell I.N, natCell (if I.cont then 1 else 0),
           fmtCell d (.fin I.eps)],
          [fmtCell d (.fin t), fmtCell d (ofBot vLB), fmtCell d (ofTop vUB),
           fmtCell d (g.scale 100)])

/-- `MilpSolver.write_all_computation_details` (src/solver/MilpSolver.py:68-82), up to the file:
the row written.  The attribute `big_m_time` may not exist. -/
def milpRow (name : Txt) (I : Inst) (timeLimit gap : ℚ) (st : MilpSt) (total : Option ℚ) :
    PyM (List Cell) := do
  let p ← computationDetails name I (st.vLB : WithBot ℚ) (st.vUB : WithTop ℚ) false false total 3
  match st.bigMTime with
  | none => throw .attributeError
  | some t =>
    pure (p.1 ++ [fmtCell 3 (.fin timeLimit), fmtCell 3 (.fin (gap * 100)), natCell st.useBigM,
                  natCell st.bigMMethod] ++ [.flt t] ++ p.2)

/-- The dictionary of `adaptive_details` (src/Informer.py:35-38). -/
def counterDict : List (String × ℕ) := [("counter", 1), ("rescaled_max_violation", 5)]

/-- `adaptive_details` (src/Informer.py:33-42) for a dictionary. -/
def adaptiveDetails (dict : List (String × ℕ)) (cfg : Cfg) : PyM (List Cell) := do
  let a ← assocGet dict cfg.splitMethod
  let b ← assocGet dict cfg.initType
  let c ← assocGet dict cfg.projection
  pure [natCell a, natCell b, natCell c]

/-- `AdaptivePartitioner.write_all_computation_details`
(src/solver/AdaptivePartitioner.py:338-360), up to the file: the row written.  The dictionary is a
parameter. -/
def adaptiveRowWith (dict : List (String × ℕ)) (name : Txt) (I : Inst) (cfg : Cfg) (s : St)
    (total : Option ℚ) : PyM (List Cell) := do
  let a ← adaptiveDetails dict cfg
  let p ← computationDetails name I s.vLB s.vUB s.vUBNone (s.vUBNumpy || s.vLBNumpy) total 3
  pure (p.1 ++ [fmtCell 3 (.fin cfg.timeLimit), fmtCell 3 (.fin (cfg.gap * 100)),
                natCell (if cfg.useBigM then 1 else 0)] ++ a
        ++ ([natCell s.iteration, natCell s.part.nbSubsets] ++ p.2))

/-- The row of the adaptive solver as the code stands
(src/solver/AdaptivePartitioner.py:338-360). -/
def adaptiveRow (name : Txt) (I : Inst) (cfg : Cfg) (s : St) (total : Option ℚ) :
    PyM (List Cell) := adaptiveRowWith counterDict name I cfg s total

/-! ## main.py -/

/-- A Python signature without `self`: names and whether they have a default
(src/solver/MilpSolver.py:48-49, src/solver/AdaptivePartitioner.py:273-274). -/
abbrev Sig := List (String × Bool)

/-- Binding the arguments of a call with `pos` positional arguments and the given keywords:
`TypeError` for too many positional arguments, an unknown keyword, a keyword that is already bound
by position, or a missing argument (the calls of main.py:78-110). -/
def pyBind (sig : Sig) (pos : ℕ) (kws : List String) : PyM Unit :=
  if sig.length < pos then .error .typeError
  else if ∃ k ∈ kws, k ∉ sig.map Prod.fst then .error .typeError
  else if ∃ k ∈ kws, k ∈ (sig.take pos).map Prod.fst then .error .typeError
  else if ∃ p ∈ sig.drop pos, p.2 = false ∧ p.1 ∉ kws then .error .typeError
  else .ok ()

/-- `MilpSolver.solve` (src/solver/MilpSolver.py:48-49). -/
def milpSolveSig : Sig :=
  [("use_big_m", true), ("big_m_method", true), ("save_bounds", true), ("path", true)]

/-- `AdaptivePartitioner.solve` (src/solver/AdaptivePartitioner.py:273-274). -/
def adaptiveSolveSig : Sig :=
  [("bigMFinder", false), ("use_big_M", true), ("big_m_method", true), ("use_merger", true),
   ("use_lazy", true)]

/-- The keywords of the call of `solve` in main.py:78-79, 82-83, 93-95, 108-110. -/
def mainKeywords : ℕ → List String
  | 1 => ["use_big_m", "big_m_method", "save_bounds", "path"]
  | 2 => ["use_big_m", "big_m_method", "save_bounds", "path"]
  | 3 => ["use_merger", "use_big_M", "big_m_method", "use_balancing"]
  | _ => ["use_merger", "use_big_M", "big_m_method", "use_balancing", "use_lazy"]

/-- `TIME_LIMIT` (main.py:23). -/
def mainTimeLimit : ℚ := 3600

/-- `GAP` (main.py:24). -/
def mainGap : ℚ := 1 / 10000

/-- The configuration of methods 3 and 4 (main.py:84-112). -/
def mainCfg (method : ℕ) : Cfg :=
  if method = 3 then
    { splitMethod := "random", initType := "random", projection := "rescaled_max_violation"
      useAccObj := false, useBigM := true, bigMMethod := "belotti", useMerger := false
      timeLimit := mainTimeLimit, gap := mainGap }
  else
    { splitMethod := "cost", initType := "cost", projection := "rescaled_max_violation"
      useAccObj := true, useBigM := true, bigMMethod := "belotti", useMerger := true
      timeLimit := mainTimeLimit, gap := mainGap }

/-- `except KeyboardInterrupt` around the adaptive solver (main.py:92-97, 107-112): any other
exception ends the program.  The state survives. -/
def catchInterrupt (r : Except PyErr (Bool × Gap) × St) : PyM St :=
  match r.1 with
  | .ok _ => .ok r.2
  | .error .keyboardInterrupt => .ok r.2
  | .error e => .error e

/-- main.py from line 76 to line 116 with the call of `solve` bound to its signature: the row
written.  `total` is the time between construction and `set_final_time`.  Another value of
`METHOD` leaves the name `method` undefined (`NameError`).  The signature of
`AdaptivePartitioner.solve` and the dictionary of `adaptive_details` are parameters. -/
def mainRowWith (sig : Sig) (dict : List (String × ℕ)) (env : Env) (location : Txt) (I : Inst)
    (method rounds fuel : ℕ) (total : ℚ) : PyM (List Cell) :=
  if method = 1 ∨ method = 2 then do
    pyBind milpSolveSig 0 (mainKeywords method)
    let st ← milpSolve env I mainTimeLimit mainGap true
      (if method = 1 then "song" else "belotti")
    milpRow (fileName location) I mainTimeLimit mainGap st (some total)
  else if method = 3 ∨ method = 4 then do
    let s ← construct env (mainCfg method) I
    pyBind sig 1 (mainKeywords method)
    let s' ← catchInterrupt (solve env (mainCfg method) I rounds fuel s)
    adaptiveRowWith dict (fileName location) I (mainCfg method) s' (some total)
  else .error .unboundLocalError

/-- main.py as the code stands (main.py:76-116, src/solver/AdaptivePartitioner.py:273-274,
src/Informer.py:35-38). -/
def mainRow (env : Env) (location : Txt) (I : Inst) (method rounds fuel : ℕ) (total : ℚ) :
    PyM (List Cell) :=
  mainRowWith adaptiveSolveSig counterDict env location I method rounds fuel total

/-! ## The log of iterations -/

/-- `-g` (src/Informer.py:54-55). -/
def Gap.neg : Gap → Gap
  | .fin a => .fin (-a)
  | .posInf => .negInf
  | .negInf => .posInf
  | .nan => .nan

/-- A line of the log as formatted by `store_iteration_info` (src/Informer.py:44-57), `t` seconds
after the start: the bounds are printed with the opposite sign. -/
def iterRow (r : ℕ × ℕ × WithBot ℚ × WithTop ℚ × Gap) (t : ℚ) : List Cell :=
  [natCell r.1, fmtCell 3 (.fin t), fmtCell 3 (ofBot r.2.2.1).neg, fmtCell 3 (ofTop r.2.2.2.1).neg,
    fmtCell 3 (r.2.2.2.2.scale 100), natCell r.2.1]

/-- The lines written by `write_iteration_details`
(src/solver/AdaptivePartitioner.py:362-367); `times` are the times at which they were stored. -/
def iterFile (s : St) (times : List ℚ) : List (List Cell) := List.zipWith iterRow s.info times

/-! ## Names of result files -/

/-- Rounding a non-negative rational to the nearest double (53 significant bits, ties to even);
under- and overflow are left out
(the product `EPSILON*100`, main.py:50, src/export/format_results.py:21). -/
def fl64 (q : ℚ) : ℚ :=
  if q ≤ 0 then 0 else
    let u : ℚ := 2 ^ (Int.log 2 q - 52)
    (rint (q / u) : ℚ) * u

/-- The name of the result file written by main.py (main.py:47-54); `eps` is the double
`EPSILON`. -/
def mainPath (out location : Txt) (eps : ℚ) (cont : Bool) (method : ℕ) : Txt :=
  out ++ fileName location ++ ['-'] ++ fixed 0 (fl64 (eps * 100))
    ++ (if cont then ['-', '1', '-'] else ['-', '0', '-'])
    ++ Nat.toDigits 10 method ++ ['.', 'c', 's', 'v']

/-- The name of the result file that `read_single_experiment` opens
(src/export/format_results.py:18-22); `int` truncates the double `e*100`. -/
def exportPath (input i : Txt) (s j : ℕ) (e : ℚ) (useContinuous m : ℕ) : Txt :=
  input ++ i ++ ['-'] ++ Nat.toDigits 10 s ++ ['-'] ++ Nat.toDigits 10 j ++ ['-']
    ++ Nat.toDigits 10 ⌊fl64 (e * 100)⌋₊ ++ ['-'] ++ Nat.toDigits 10 useContinuous ++ ['-']
    ++ Nat.toDigits 10 m ++ ['.', 'c', 's', 'v']

/-- The instance file of an experiment (run_all_experiments.sh:24). -/
def instancePath (dir i : Txt) (s j : ℕ) : Txt :=
  dir ++ i ++ ['-'] ++ Nat.toDigits 10 s ++ ['-'] ++ Nat.toDigits 10 j ++ ['.', 'c', 's', 'v']

/-! ## Exporter -/

/-- An entry of a row that has been read, or of the summary table
(src/export/format_results.py:26-27, 84-88). -/
inductive Val
  | str (t : Txt)
  | num (g : Gap)
  deriving DecidableEq

/-- `float(entry)` of a cell (src/export/format_results.py:27). -/
def cellFloat : Cell → PyM Gap
  | .text t => pyFloat t
  | .flt q => .ok (.fin q)

/-- The first entry of the row as text (src/export/format_results.py:26). -/
def cellText : Cell → Txt
  | .text t => t
  | .flt _ => []

/-- `read_single_experiment` (src/export/format_results.py:18-31): `none` is a missing file; an
empty file raises `StopIteration`, which is left out (a result file has a row). -/
def readExperiment : Option (List Cell) → PyM (List Val)
  | none => .ok []
  | some [] => .error .indexError
  | some (c :: cs) => do
    let l ← cs.mapM fun x => (cellFloat x).map Val.num
    pure (.str (cellText c) :: l)

/-- `row[-k]` for `k ≥ 1` (src/export/format_results.py:48, 67-73). -/
def pyBack (row : List Val) (k : ℕ) : PyM Val :=
  match row.reverse[k - 1]? with
  | some v => .ok v
  | none => .error .indexError

/-- A number, or `TypeError` for a string (src/export/format_results.py:49, 67-73). -/
def asNum : Val → PyM Gap
  | .num g => .ok g
  | .str _ => .error .typeError

/-- The number `row[-k]` (src/export/format_results.py:48, 67-73). -/
def backNum (row : List Val) (k : ℕ) : PyM Gap := do
  let v ← pyBack row k
  asNum v

/-- The first loop of `format_method` (src/export/format_results.py:46-53): number of solved
instances and `all_solved`. -/
def countLoop (results : List (List Val)) (required : ℚ) : List ℕ → ℕ → Bool → PyM (ℕ × Bool)
  | [], nb, all => .ok (nb, all)
  | j :: ids, nb, all => do
    let row ← pyGet results (j - 1)
    let g ← backNum row 1
    if g.le (required + 1 / 10000000) then countLoop results required ids (nb + 1) all
    else countLoop results required ids nb false

/-- `average_table[1] += row[-6]` for an adaptive method (src/export/format_results.py:72-73):
`IndexError` if the table has no such entry. -/
def addIterations (row : List Val) (isPart : Bool) (b : Option Gap) : PyM (Option Gap) :=
  if isPart then do
    let it ← backNum row 6
    match b with
    | some x => pure (some (x.add it))
    | none => throw .indexError
  else .ok b

/-- The second loop (src/export/format_results.py:62-73); the table is its first entry and its
second entry, if any. -/
def sumLoop (results : List (List Val)) (allSolved isPart : Bool) :
    List ℕ → Gap → Option Gap → PyM (Gap × Option Gap)
  | [], a, b => .ok (a, b)
  | j :: ids, a, b => do
    let row ← pyGet results (j - 1)
    let g ← backNum row (if allSolved then 4 else 1)
    let b' ← addIterations row isPart b
    sumLoop results allSolved isPart ids (a.add g) b'

/-- What `format_method` returns (src/export/format_results.py:90). -/
structure Summary where
  time : Gap
  nbSolved : ℕ
  gap : Gap
  cells : List Val
  deriving DecidableEq

/-- `format_method` (src/export/format_results.py:34-90).  Instance ids are positive.  Without
ids the division raises `ZeroDivisionError`. -/
def formatMethod (results : List (List Val)) (m : ℕ) (ids : List ℕ) (required : ℚ)
    (milp part : List ℕ) : PyM Summary := do
  let (nb, all) ← countLoop results required ids 0 true
  let start : Option Gap := if m ∈ milp then none else some (.fin 0)
  let (a, b) ← sumLoop results all (decide (m ∈ part)) ids (.fin 0) start
  if ids.length = 0 then throw .zeroDivisionError
  let n : ℚ := 1 / (ids.length : ℚ)
  let mean := a.scale n
  let entry := fmtFloat 2 mean ++
    (if all then ['s'] else ['\\', '%', '('] ++ Nat.toDigits 10 nb ++ [')'])
  pure { time := if all then mean else .posInf
         nbSolved := nb
         gap := if all then .posInf else mean
         cells := .str entry :: (b.map fun x => Val.num (x.scale n)).toList }

/-- `np.argmin`: the first `nan` if there is one, otherwise the first least entry
(export_results.py:178-183). -/
def argminLoop : List Gap → ℕ → Gap → ℕ → ℕ
  | [], _, _, best => best
  | g :: l, k, cur, best =>
    if cur = .nan then best
    else if g = .nan ∨ g.lt cur then argminLoop l (k + 1) g k
    else argminLoop l (k + 1) cur best

/-- `np.argmin` of a non-empty array (export_results.py:178-183). -/
def npArgmin : List Gap → PyM ℕ
  | [] => .error .valueError
  | g :: l => .ok (argminLoop l 1 g 0)

/-- The methods of the exporter (export_results.py:19-21). -/
def exportMethods : List ℕ := [1, 2, 3, 4]
/-- `MILP_METHODS` (export_results.py:20). -/
def exportMilp : List ℕ := [1, 2]
/-- `PART_METHODS` (export_results.py:21). -/
def exportPart : List ℕ := [3, 4]

/-- One method of one table row (export_results.py:156-174): `format_method`, or placeholders if a
file is missing. -/
def methodSummary (ids : List ℕ) (required : ℚ) (results : ℕ → List (List Val)) (method : ℕ) :
    PyM Summary :=
  if [] ∉ results method then
    formatMethod (results method) method ids required exportMilp exportPart
  else .ok { time := .posInf, nbSolved := 0, gap := .posInf
             cells := if method ∈ exportMilp then [.str ['-']] else [.num .nan, .num .nan] }

/-- `np.isfinite` (export_results.py:179). -/
def Gap.isFinite : Gap → Bool
  | .fin _ => true
  | _ => false

/-- The index of the highlighted method (export_results.py:178-183). -/
def bestIndex (sums : List Summary) : PyM ℕ := do
  let k ← npArgmin (sums.map Summary.time)
  let t ← pyGet (sums.map Summary.time) k
  if t.isFinite then pure k
  else
    let most := (sums.map Summary.nbSolved).foldl max 0
    let valid := (List.range sums.length).filter fun i =>
      decide ((sums.map Summary.nbSolved).getD i 0 = most)
    let i ← npArgmin (valid.map fun i => (sums.map Summary.gap).getD i .nan)
    pyGet valid i

/-- The column of the highlighted method (export_results.py:184-193). -/
def boldColumn : ℕ → PyM ℕ
  | 0 => .ok 3
  | 1 => .ok 4
  | 2 => .ok 5
  | 3 => .ok 7
  | 4 => .ok 9
  | _ => .error .unboundLocalError

/-- `str` of an entry; of the numbers only `nan` can occur (export_results.py:194-195). -/
def valText : Val → Txt
  | .str t => t
  | .num _ => ['n', 'a', 'n']

/-- The cell in bold (export_results.py:194-195). -/
def bold (v : Val) : Val :=
  .str (['\\', 't', 'e', 'x', 't', 'b', 'f', '{'] ++ valText v ++ ['}'])

/-- One row of the summary table (export_results.py:149-195); `head` holds the three cells that
describe the experiment. -/
def tableRow (head : List Val) (ids : List ℕ) (required : ℚ) (results : ℕ → List (List Val)) :
    PyM (List Val) := do
  let sums ← exportMethods.mapM (methodSummary ids required results)
  let row := head ++ (sums.map Summary.cells).flatten
  let k ← bestIndex sums
  let ind ← boldColumn k
  let v ← pyGet row ind
  pySet row ind (bold v)

end Verif.Model
