import Verif.Model.ExportTables
import Verif.Model.Generator
import Verif.Model.OrLibFiles

/-!
# Model of the two shell scripts

`generate-all-instances.sh` calls the generator for every OR-library file and number of scenarios,
`run_all_experiments.sh` calls main.py for every experiment.  A folder maps file names to contents.
-/

namespace Verif.Model

/-- A folder of instance files: the rows of the csv file with a given name
(data/cc-instances/knapsack/instance-generator.py:66-72, src/instance/ChanceInstance.py:29-34). -/
abbrev InstFiles := Txt → Option (List (List ℚ))

/-- `open(path, 'w')` and writing (instance-generator.py:66, src/solver/MilpSolver.py:80,
src/solver/AdaptivePartitioner.py:357): an earlier file of that name is replaced. -/
def writeFile {α : Type} (fs : Txt → Option α) (path : Txt) (a : α) : Txt → Option α :=
  fun q => if q = path then some a else fs q

/-- One call of the generator in the folder `dir`
(data/cc-instances/knapsack/generate-all-instances.sh:12, instance-generator.py:66-72).  The
generator raises its exceptions before it writes the first file; the script then goes on. -/
def runGenerator (dir : Txt) (file : List (List ℚ)) (N K : ℕ) (d : Draws) (fs : InstFiles) :
    InstFiles :=
  match generate file N K d with
  | .error _ => fs
  | .ok l => l.foldl (fun fs f => writeFile fs (dir ++ f.1) f.2) fs

/-- The loops of generate-all-instances.sh (lines 8-14); `d` are the draws in each call. -/
def generateAll (dir : Txt) (orlib : List (List (List ℚ))) (scenarios : List ℕ) (K : ℕ)
    (d : ℕ → ℕ → Draws) (fs : InstFiles) : InstFiles :=
  orlib.zipIdx.foldl (fun fs f =>
    scenarios.zipIdx.foldl (fun fs N => runGenerator dir f.1 N.1 K (d f.2 N.2) fs) fs) fs

/-- The arguments of a call of main.py: instance name, number of scenarios and index (from which the
script makes the file name), flag for continuous variables, risk level as the double that `float`
reads, method (run_all_experiments.sh:24-25, main.py:17-22). -/
structure Exp where
  name : Txt
  scen : ℕ
  id : ℕ
  cont : ℕ
  eps : ℚ
  method : ℕ

/-- The constants of run_all_experiments.sh (lines 1-6). -/
structure RunPar where
  files : List Txt
  scenarios : List ℕ
  indexes : ℕ
  conts : List ℕ
  epsilons : List ℚ
  methods : List ℕ

/-- The experiments in the order of the loops (run_all_experiments.sh:12-33). -/
def allExps (p : RunPar) : List Exp :=
  p.files.flatMap fun i => p.scenarios.flatMap fun s => (List.range' 1 p.indexes).flatMap fun j =>
    p.conts.flatMap fun c => p.epsilons.flatMap fun e => p.methods.map fun m => ⟨i, s, j, c, e, m⟩

/-- What is not fixed by the arguments of a call of main.py: Gurobi, clock and random choices, the
bounds on the loops of the model, the total time (main.py:113). -/
structure Circ where
  env : Env
  rounds : ℕ
  fuel : ℕ
  total : ℚ

/-- main.py on an experiment: the row it writes, or `none` if it ends with an exception, for
example because there is no instance file (main.py:17-22, 43-45, 76-114).  The bounds history and
the iteration log are written to other files (main.py:55) and left out. -/
def mainWrites (dir : Txt) (inst : InstFiles) (ω : Exp → Circ) (e : Exp) : Option (List Cell) :=
  match inst (instancePath dir e.name e.scen e.id) with
  | none => none
  | some rows =>
    match parse rows (decide (e.cont = 1)) e.eps with
    | .error _ => none
    | .ok I =>
      match mainRow (ω e).env (instancePath dir e.name e.scen e.id) I e.method (ω e).rounds
          (ω e).fuel (ω e).total with
      | .error _ => none
      | .ok row => some row

/-- The folder of results after a call of main.py (run_all_experiments.sh:25, main.py:47-54, 114). -/
def runExp (dir out : Txt) (inst : InstFiles) (ω : Exp → Circ) (fs : Files) (e : Exp) : Files :=
  match mainWrites dir inst ω e with
  | none => fs
  | some row => writeFile fs (mainPath out (instancePath dir e.name e.scen e.id) e.eps
      (decide (e.cont = 1)) e.method) row

/-- run_all_experiments.sh (lines 12-34). -/
def runAll (dir out : Txt) (inst : InstFiles) (ω : Exp → Circ) (p : RunPar) (fs : Files) : Files :=
  (allExps p).foldl (runExp dir out inst ω) fs

/-- The name of the file for the bounds history or the iteration log (main.py:48-55). -/
def iterPath (out location : Txt) (eps : ℚ) (cont : Bool) (method : ℕ) : Txt :=
  out ++ fileName location ++ ['-'] ++ fixed 0 (fl64 (eps * 100))
    ++ (if cont then ['-', '1', '-'] else ['-', '0', '-'])
    ++ Nat.toDigits 10 method ++ ['-', 'i', 't', 'e', 'r', '.', 'c', 's', 'v']

/-! ## The constants of the scripts -/

/-- `scenarios` of generate-all-instances.sh (line 5). -/
def genScenarios : List ℕ := [500, 1000, 3000, 5000]

/-- `instanceQty` (data/cc-instances/knapsack/generate-all-instances.sh:6). -/
def genQty : ℕ := 5

/-- The constants of run_all_experiments.sh (lines 1-6); the risk levels are the doubles that `float`
makes of the texts `0.1` and `0.2` (main.py:19). -/
def scriptPar : RunPar :=
  { files := [['c', 'c', 'm', 'k', 'n', 'a', 'p', '-', '1', '0', '-', '1', '0'],
      ['c', 'c', 'm', 'k', 'n', 'a', 'p', '-', '2', '0', '-', '1', '0'],
      ['c', 'c', 'm', 'k', 'n', 'a', 'p', '-', '4', '0', '-', '3', '0']]
    scenarios := [500, 1000, 3000, 5000], indexes := 5, conts := [0, 1]
    epsilons := [fl64 (1 / 10), fl64 (2 / 10)], methods := [1, 2, 3, 4] }

/-- The folder of instances: `input_path` of run_all_experiments.sh (line 9), relative to the folder
`root` of the repository in which the script is started (README.md). -/
def scriptIn (root : Txt) : Txt :=
  root ++ ['/', 'd', 'a', 't', 'a', '/', 'c', 'c', '-', 'i', 'n', 's', 't', 'a', 'n', 'c', 'e', 's',
    '/', 'k', 'n', 'a', 'p', 's', 'a', 'c', 'k', '/']

/-- The folder of results: `output_path` of run_all_experiments.sh (line 10), relative to `root`. -/
def scriptOut (root : Txt) : Txt :=
  root ++ ['/', 'r', 'e', 's', 'u', 'l', 't', 's', '/', 't', 'a', 'b', 'l', 'e', 's', '/']

/-- The folder to which the generator writes: the one of generate-all-instances.sh, in which that
script is started (its line 3 and instance-generator.py:66). -/
def genDir (root : Txt) : Txt :=
  root ++ ['/', 'd', 'a', 't', 'a', '/', 'c', 'c', '-', 'i', 'n', 's', 't', 'a', 'n', 'c', 'e', 's',
    '/', 'k', 'n', 'a', 'p', 's', 'a', 'c', 'k', '/']

/-- The constants of export_results.py (lines 8-17, 24-27); `root` is the folder of the script. -/
def exporterPar (root : Txt) : ExportPar :=
  { instances := [['c', 'c', 'm', 'k', 'n', 'a', 'p', '-', '1', '0', '-', '1', '0'],
      ['c', 'c', 'm', 'k', 'n', 'a', 'p', '-', '2', '0', '-', '1', '0'],
      ['c', 'c', 'm', 'k', 'n', 'a', 'p', '-', '4', '0', '-', '3', '0']]
    nb := 5, scenarios := [500, 1000, 3000, 5000], epsilons := [fl64 (1 / 10), fl64 (2 / 10)]
    kinds := [0, 1], required := fl64 (fl64 (1 / 10000) * 100)
    input := root ++ ['/', 'r', 'e', 's', 'u', 'l', 't', 's', '/', 't', 'a', 'b', 'l', 'e', 's', '/']
    output := root ++ ['/', 'r', 'e', 's', 'u', 'l', 't', 's', '/'] }

end Verif.Model
