import Verif.Model.MilpSolver
import Verif.Model.Report

/-!
# Model of the history of bounds (`save_bounds`)

`OptiModel.solve` with `save_bounds=True` (src/optim/OptiModel.py:157-205), as `MilpSolver.solve`
uses it (src/solver/MilpSolver.py:48-66, main.py:75-83).  Rows are numbers; their text in the csv
file is left out.
-/

namespace Verif.Model

/-- One call of the callback by Gurobi: `MIP_OBJBST` and `MIP_OBJBND` if `where` is `MIP`, otherwise
`none` (src/optim/OptiModel.py:166-168). -/
abbrev CbCall := Option (ℚ × ℚ)

/-- The attributes `_obj`, `_bd` and `_data` (src/optim/OptiModel.py:186-188). -/
structure BoundsSt where
  obj : Option ℚ
  bd : Option ℚ
  data : List (ℚ × ℚ × ℚ)

/-- `_save_bounds_callback` (src/optim/OptiModel.py:157-175).  `start` is the reading of the clock
for `start_time` (line 189); the clock is read once for every row. -/
def saveBoundsCallback (clock : ℕ → ℚ) (start : ℕ) (elapsed : ℚ) (s : BoundsSt) :
    CbCall → BoundsSt
  | none => s
  | some (obj, bd) =>
    if s.obj ≠ some obj ∨ s.bd ≠ some bd then
      { obj := some obj, bd := some bd
        data := s.data ++ [(clock (start + 1 + s.data.length) - clock start + elapsed, -obj, -bd)] }
    else s

/-- The rows after the calls of the callback (src/optim/OptiModel.py:186-194). -/
def boundsRows (clock : ℕ → ℚ) (start : ℕ) (elapsed : ℚ) (calls : List CbCall) :
    List (ℚ × ℚ × ℚ) :=
  (calls.foldl (saveBoundsCallback clock start elapsed) ⟨none, none, []⟩).data

/-- `OptiModel.solve` (src/optim/OptiModel.py:183-205) with the file it writes: also if the status is
11, before the `KeyboardInterrupt`. -/
def optiSolve (save : Bool) (path : Option Txt) (rows : List (ℚ × ℚ × ℚ)) (r : GResult) :
    PyM GResult × Option (Txt × List (ℚ × ℚ × ℚ)) :=
  if save then
    match path with
    | none => (.error (.assertion "OptiModel.py:185"), none)
    | some p => (optimize r, some (p, rows))
  else (optimize r, none)

/-- The argument `elapsed_time` (src/solver/MilpSolver.py:58). -/
def milpElapsed (clock : ℕ → ℚ) (timeLimit : ℚ) (useBigM : Bool) : ℚ :=
  timeLimit - remaining clock timeLimit (milpReads useBigM + 2)

/-- The rows that `MilpSolver.solve` saves: `start_time` is the reading after those of `time_limit`,
`elapsed_time` and of the time to build the model (src/solver/MilpSolver.py:55-60,
src/solver/Solver.py:90-117). -/
def milpRows (env : Env) (timeLimit : ℚ) (useBigM : Bool) (calls : List CbCall) :
    List (ℚ × ℚ × ℚ) :=
  boundsRows env.clock (milpReads useBigM + 5) (milpElapsed env.clock timeLimit useBigM) calls

/-- `MilpSolver.solve` with `save_bounds` and `path` (src/solver/MilpSolver.py:48-66,
src/solver/Solver.py:90-123): what it leaves or raises, and the file of bounds.  `calls` are the
calls of the callback during the optimization of a model. -/
def milpSolveSaving (env : Env) (I : Inst) (timeLimit gap : ℚ) (useBigM : Bool) (method : String)
    (save : Bool) (path : Option Txt) (calls : GModel → List CbCall) :
    PyM MilpSt × Option (Txt × List (ℚ × ℚ × ℚ)) :=
  match (do
      let bigM ← milpBigMOpt env I useBigM method
      let g ← buildCCLP (instCI I) bigM [] [] gap
      setTimeLimit (remaining env.clock timeLimit (milpReads useBigM + 1)
        - (env.clock (milpReads useBigM + 4) - env.clock (milpReads useBigM + 3)))
      pure g : PyM GModel) with
  | .error e => (.error e, none)
  | .ok g =>
    let out := optiSolve save path (milpRows env timeLimit useBigM (calls g)) (env.cc 0 g)
    ((do
      let r ← out.1
      let ρ ← getSol r
      let v ← getObjVal r
      pure { vUB := r.objBnd, vLB := v, xLB := fun j => ρ (.x j)
             zLB := (List.range (instCI I).nbScen).map fun s => ρ (.z s)
             useBigM := if useBigM then 1 else 0
             bigMMethod := milpMethodCode method
             bigMTime := if useBigM then some (timeLimit - remaining env.clock timeLimit 1)
               else none }), out.2)

end Verif.Model
