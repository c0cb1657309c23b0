import Verif.Model.FloatFiles
import Verif.Model.Workflow

/-!
# Model of a call of main.py

From the arguments on the command line to the files on the disk.  A path is a text: two notations of the
same path count as different.
-/

namespace Verif.Model

/-! ## The arguments -/

/-- The parameters of an experiment (main.py:17-21). -/
structure CmdLine where
  location : Txt
  cont : Bool
  eps : Gap
  method : ℤ
  out : Txt
  deriving DecidableEq

/-- `int(t)` or `ValueError` (main.py:18, 20). -/
def pyIntArg (t : Txt) : PyM ℤ :=
  match intOf t with
  | some z => .ok z
  | none => .error .valueError

/-- `float(t)` or `ValueError` (main.py:19). -/
def pyFloatArg (t : Txt) : PyM Gap :=
  match floatOf t with
  | some g => .ok g
  | none => .error .valueError

/-- Reading the arguments, in the order of the code (main.py:16-21). -/
def parseArgs (args : List Txt) : PyM CmdLine := do
  let location ← pyGet args 0
  let kind ← pyIntArg (← pyGet args 1)
  let eps ← pyFloatArg (← pyGet args 2)
  let method ← pyIntArg (← pyGet args 3)
  let out ← pyGet args 4
  pure ⟨location, decide (kind = 1), eps, method, out⟩

/-! ## The disk -/

/-- Files with their texts, and folders (main.py:38-45, 114-118). -/
structure Disk where
  files : Txt → Option Txt
  folders : List Txt

/-- The folders that contain `p` (`os.makedirs` creates them too, main.py:40). -/
def parents (p : Txt) : List Txt := p.inits.filter fun q => (p.drop q.length).head? == some '/'

/-- Lines 39-40 of main.py: create the folder for the results unless the path exists; the path of no
characters raises `FileNotFoundError`.  Other failures of `makedirs` are left out. -/
def makeFolder (out : Txt) (d : Disk) : Option Disk :=
  if out ∈ d.folders ∨ (d.files out).isSome then some d
  else if out = [] then none
  else some { d with folders := d.folders ++ parents out ++ [out] }

/-- Exceptions of main.py: of the code, of reading the instance, `FileNotFoundError`. -/
inductive CallErr
  | py (e : PyErr)
  | file (e : FileErr)
  | notFound

/-- `str(METHOD)` (main.py:53). -/
def intText (z : ℤ) : Txt := (if z < 0 then ['-'] else []) ++ Nat.toDigits 10 z.natAbs

/-- `output_file_name` (main.py:47-53). -/
def callStem (out location : Txt) (eps : ℚ) (cont : Bool) (method : ℤ) : Txt :=
  out ++ fileName location ++ ['-'] ++ fixed 0 (rd (eps * 100))
    ++ (if cont then ['-', '1', '-'] else ['-', '0', '-']) ++ intText method

/-- `computation_output_file_name` (main.py:54). -/
def callPath (out location : Txt) (eps : ℚ) (cont : Bool) (method : ℤ) : Txt :=
  callStem out location eps cont method ++ ['.', 'c', 's', 'v']

/-- `iteration_output_file_name` (main.py:55). -/
def callIterPath (out location : Txt) (eps : ℚ) (cont : Bool) (method : ℤ) : Txt :=
  callStem out location eps cont method ++ ['-', 'i', 't', 'e', 'r', '.', 'c', 's', 'v']

/-- `open(path, 'w')` and writing (src/solver/MilpSolver.py:80-82,
src/solver/AdaptivePartitioner.py:357-367).  Simplification: the file can be opened. -/
def Disk.write (d : Disk) (path t : Txt) : Disk := { d with files := writeFile d.files path t }

/-- Lines 76-118 of main.py on the instance.  `sh` is the text of a cell; `iter` is the text written to the
file of the bounds history, which methods 1 and 2 write inside `solve` (none if they do not get there), or of
the iteration log, which methods 3 and 4 write after the row. -/
def callMethod (sh : Cell → Txt) (ω : Circ) (iter : Option Txt) (c : CmdLine) (eps : ℚ) (I : Inst)
    (d : Disk) : Except CallErr Unit × Disk :=
  let path := callPath c.out c.location eps c.cont c.method
  let log := fun d : Disk => match iter with
    | some t => d.write (callIterPath c.out c.location eps c.cont c.method) t
    | none => d
  let milp := c.method = 1 ∨ c.method = 2
  match mainRow ω.env c.location I c.method.toNat ω.rounds ω.fuel ω.total with
  | .error e => (.error (.py e), if milp then log d else d)
  | .ok row =>
    let t := csvWrite [row.map sh]
    (.ok (), if milp then (log d).write path t else log (d.write path t))

/-- A call `python main.py args` (main.py:1-118): how it ends, and the disk.  An infinite or undefined risk level
is left out (error `other`). -/
def callMain (sh : Cell → Txt) (ω : Circ) (iter : Option Txt) (args : List Txt) (d : Disk) :
    Except CallErr Unit × Disk :=
  match parseArgs args with
  | .error e => (.error (.py e), d)
  | .ok c =>
    match makeFolder c.out d with
    | none => (.error .notFound, d)
    | some d' =>
      match d'.files c.location, c.eps with
      | none, _ => (.error .notFound, d')
      | some t, .fin eps =>
        match readInstance t c.cont eps with
        | .error e => (.error (.file e), d')
        | .ok I => callMethod sh ω iter c eps I d'
      | some _, _ => (.error (.file .other), d')

/-- The arguments of a call in run_all_experiments.sh (lines 24-25); `e.eps` is given by the text `eps`. -/
def scriptArgs (dir out eps : Txt) (e : Exp) : List Txt :=
  [instancePath dir e.name e.scen e.id, Nat.toDigits 10 e.cont, eps, Nat.toDigits 10 e.method, out]

end Verif.Model
