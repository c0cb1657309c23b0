import Verif.Model.Report

/-!
# Model of export_results.py: the tables

`Model/Report.lean` models the reading of one result file and one row of the summary table; here are
the loops around them: the dictionary of all experiments, the table of big-M times, the positions of
the rows and the files that are written.  Printing is left out.
-/

namespace Verif.Model

/-- The parameters of the exporter (export_results.py:8-17, 25-27). -/
structure ExportPar where
  /-- `ALL_INSTANCES` -/
  instances : List Txt
  /-- `NB_INSTANCES` -/
  nb : ℕ
  /-- `ALL_SCENARIOS` -/
  scenarios : List ℕ
  /-- `ALL_EPSILONS` -/
  epsilons : List ℚ
  /-- `USE_CONTINUOUS_LIST` -/
  kinds : List ℕ
  /-- `REQUIRED_GAP` -/
  required : ℚ
  /-- `path_to_read_files` -/
  input : Txt
  /-- `path_to_save_files` -/
  output : Txt

/-- `all_instance_ids` (export_results.py:13). -/
def ExportPar.ids (p : ExportPar) : List ℕ := List.range' 1 p.nb

/-- The key of an experiment: kind of variables, instance, number of scenarios, id, risk level,
method (export_results.py:38). -/
abbrev ExpKey := ℕ × Txt × ℕ × ℕ × ℚ × ℕ

/-- `experiment_dict` (export_results.py:31). -/
abbrev ExpDict := List (ExpKey × List Val)

/-- The file system: the row of the csv file with a given name, if there is such a file
(src/export/format_results.py:5-9). -/
abbrev Files := Txt → Option (List Cell)

/-- The keys in the order of the loops (export_results.py:32-37). -/
def expKeys (p : ExportPar) : List ExpKey :=
  p.kinds.flatMap fun c => p.instances.flatMap fun i => p.scenarios.flatMap fun s =>
    p.ids.flatMap fun j => p.epsilons.flatMap fun e => exportMethods.map fun m => (c, i, s, j, e, m)

/-- `read_single_experiment` of a key (export_results.py:39-40). -/
def readKey (fs : Files) (input : Txt) (k : ExpKey) : PyM (List Val) :=
  readExperiment (fs (exportPath input k.2.1 k.2.2.1 k.2.2.2.1 k.2.2.2.2.1 k.1 k.2.2.2.2.2))

/-- The loops that read all files (export_results.py:31-40). -/
def readAll (fs : Files) (input : Txt) : List ExpKey → ExpDict → PyM ExpDict
  | [], d => .ok d
  | k :: ks, d => do
    let r ← readKey fs input k
    readAll fs input ks (assocSet d k r)

/-- `t.replace(old, new)` for a non-empty `old` (export_results.py:51, 137-139): from left to right;
the first argument bounds the length of the text. -/
def replaceTxt (old new : Txt) : ℕ → Txt → Txt
  | 0, t => t
  | _ + 1, [] => []
  | k + 1, c :: t =>
    if old.isPrefixOf (c :: t) then new ++ replaceTxt old new k ((c :: t).drop old.length)
    else c :: replaceTxt old new k t

/-- The printed name of an instance (export_results.py:51, 137-139). -/
def printInstance (i : Txt) : Txt :=
  ['\\', 't', 'e', 'x', 't', 's', 'f', '{']
    ++ replaceTxt ['c', 'c', 'm', 'k', 'n', 'a', 'p'] ['m', 'k'] i.length i ++ ['}']

/-! ## The table of big-M times -/

/-- The loops that add up the big-M times (export_results.py:64-74, 91-100); the list has the kinds,
ids and risk levels in the order of the loops. -/
def bigMSum (d : ExpDict) (inst : Txt) (scen method : ℕ) : List (ℕ × ℕ × ℚ) → Gap → PyM Gap
  | [], t => .ok t
  | (c, j, e) :: l, t => do
    let row ← assocGet d (c, inst, scen, j, e, method)
    if 0 < row.length then do
      let v ← pyGet row 10
      let x ← asNum v
      bigMSum d inst scen method l (t.add x)
    else bigMSum d inst scen method l .posInf

/-- The mean and its format (export_results.py:75-83, 101-110). -/
def bigMEntry (t : Gap) (n : ℕ) : PyM Val := do
  if n = 0 then throw .zeroDivisionError
  let mean := t.scale (1 / (n : ℚ))
  pure (if mean = .posInf then .str ['-'] else .str (fmtFloat 2 mean ++ ['s']))

/-- The experiments of the given kinds (export_results.py:64-66, 88-92). -/
def bigMKeys (p : ExportPar) (kinds : List ℕ) : List (ℕ × ℕ × ℚ) :=
  kinds.flatMap fun c => p.ids.flatMap fun j => p.epsilons.map fun e => (c, j, e)

/-- One row of the table (export_results.py:56-110); `name` is the first cell. -/
def bigMRow (p : ExportPar) (d : ExpDict) (inst name : Txt) (scen : ℕ) : PyM (List Val) := do
  let t ← bigMSum d inst scen 1 (bigMKeys p [1, 0]) (.fin 0)
  let song ← bigMEntry t (p.nb * p.epsilons.length * 2)
  let t ← bigMSum d inst scen 2 (bigMKeys p [1]) (.fin 0)
  let cont ← bigMEntry t (p.nb * p.epsilons.length)
  let t ← bigMSum d inst scen 2 (bigMKeys p [0]) (.fin 0)
  let bin ← bigMEntry t (p.nb * p.epsilons.length)
  pure [.str name, .num (.fin scen), song, cont, bin]

/-- The loop over the numbers of scenarios (export_results.py:48-110); `first` is
`first_time_instance`, `i` the number of the instance. -/
def bigMScen (p : ExportPar) (d : ExpDict) (inst : Txt) (i : ℕ) :
    List (ℕ × ℕ) → Bool → List (List Val) → PyM (List (List Val))
  | [], _, tables => .ok tables
  | (scen, s) :: l, first, tables => do
    let row ← bigMRow p d inst (if first then printInstance inst else []) scen
    let tables ← pySet tables (s + i * p.scenarios.length) row
    bigMScen p d inst i l false tables

/-- The loop over the instances (export_results.py:46-110). -/
def bigMInst (p : ExportPar) (d : ExpDict) :
    List (Txt × ℕ) → List (List Val) → PyM (List (List Val))
  | [], tables => .ok tables
  | (inst, i) :: l, tables => do
    let tables ← bigMScen p d inst i p.scenarios.zipIdx true tables
    bigMInst p d l tables

/-- The slice `l[a:b]` (export_results.py:119, 206). -/
def pySlice {α : Type} (l : List α) (a b : ℕ) : List α := (l.drop a).take (b - a)

/-- The files with the parts of a table (export_results.py:115-123, 202-209). -/
def writeParts (p : ExportPar) (suffix : Txt) (offset : ℕ) (tables : List (List Val)) :
    PyM (List (Txt × List (List Val))) :=
  (List.range p.instances.length).mapM fun i => do
    let inst ← pyGet p.instances i
    pure (p.output ++ inst ++ suffix, pySlice tables (offset * i) (offset * (1 + i)))

/-- The tables of big-M times (export_results.py:45-123). -/
def bigMFiles (p : ExportPar) (d : ExpDict) : PyM (List (Txt × List (List Val))) := do
  let tables ← bigMInst p d p.instances.zipIdx
    (List.replicate (p.instances.length * p.scenarios.length) [])
  writeParts p "-big-m-times.csv".toList p.scenarios.length tables

/-! ## The summary tables -/

/-- The results of the methods (export_results.py:158-160). -/
def methodResults (p : ExportPar) (d : ExpDict) (c : ℕ) (inst : Txt) (scen : ℕ) (e : ℚ) (m : ℕ) :
    PyM (List (List Val)) :=
  p.ids.mapM fun j => assocGet d (c, inst, scen, j, e, m)

/-- One row (export_results.py:149-195).  All results are looked up before they are formatted; in
the code method by method. -/
def summaryRow (p : ExportPar) (d : ExpDict) (c : ℕ) (inst : Txt) (scen : ℕ) (e : ℚ)
    (head : List Val) : PyM (List Val) := do
  let results ← exportMethods.mapM fun m => methodResults p d c inst scen e m
  tableRow head p.ids p.required fun m => results.getD (m - 1) []

/-- The loop over the numbers of scenarios (export_results.py:134-195); the flags are
`first_time_instance` and `first_time_epsilon`.  Returns the first flag and the table. -/
def summaryScen (p : ExportPar) (d : ExpDict) (c : ℕ) (inst : Txt) (i : ℕ) (eps : ℚ) (e : ℕ) :
    List (ℕ × ℕ) → Bool → Bool → List (List Val) → PyM (Bool × List (List Val))
  | [], first, _, tables => .ok (first, tables)
  | (scen, s) :: l, first, firstEps, tables => do
    let head : List Val := [.str (if first then printInstance inst else []),
      if firstEps then .num (.fin eps) else .str [], .num (.fin scen)]
    let row ← summaryRow p d c inst scen eps head
    let tables ← pySet tables
      (s + e * p.scenarios.length + i * p.scenarios.length * p.epsilons.length) row
    summaryScen p d c inst i eps e l false false tables

/-- The loop over the risk levels (export_results.py:132-195). -/
def summaryEps (p : ExportPar) (d : ExpDict) (c : ℕ) (inst : Txt) (i : ℕ) :
    List (ℚ × ℕ) → Bool → List (List Val) → PyM (List (List Val))
  | [], _, tables => .ok tables
  | (eps, e) :: l, first, tables => do
    let r ← summaryScen p d c inst i eps e p.scenarios.zipIdx first true tables
    summaryEps p d c inst i l r.1 r.2

/-- The loop over the instances (export_results.py:130-195). -/
def summaryInst (p : ExportPar) (d : ExpDict) (c : ℕ) :
    List (Txt × ℕ) → List (List Val) → PyM (List (List Val))
  | [], tables => .ok tables
  | (inst, i) :: l, tables => do
    let tables ← summaryEps p d c inst i p.epsilons.zipIdx true tables
    summaryInst p d c l tables

/-- The summary tables of one kind of variables (export_results.py:127-209). -/
def summaryFiles (p : ExportPar) (d : ExpDict) (c : ℕ) : PyM (List (Txt × List (List Val))) := do
  let tables ← summaryInst p d c p.instances.zipIdx
    (List.replicate (p.instances.length * p.epsilons.length * p.scenarios.length) [])
  writeParts p (['-'] ++ Nat.toDigits 10 c ++ "-result-table.csv".toList)
    (p.scenarios.length * p.epsilons.length) tables

/-- The whole script: the files it writes, in this order (export_results.py:29-209).  Files written
before an exception are left out. -/
def exportAll (fs : Files) (p : ExportPar) : PyM (List (Txt × List (List Val))) := do
  let d ← readAll fs p.input (expKeys p) []
  let big ← bigMFiles p d
  let sums ← p.kinds.mapM fun c => summaryFiles p d c
  pure (big ++ sums.flatten)

end Verif.Model
