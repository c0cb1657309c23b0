import Verif.Model.Solve

/-!
# Model of `MilpSolver` (src/solver/MilpSolver.py)

The extended formulation with one indicator per scenario.  Printing is left out; the optional saving
of the bound history is in `Model/SaveBounds.lean`.
-/

namespace Verif.Model

/-- The attributes that `solve` leaves on the solver (src/solver/MilpSolver.py:48-66);
`bigMTime = none` means that the attribute does not exist. -/
structure MilpSt where
  vUB : ℚ
  vLB : ℚ
  xLB : Vec
  zLB : List ℚ
  useBigM : ℕ
  bigMMethod : ℕ
  bigMTime : Option ℚ

/-- `_compute_big_m` (src/solver/MilpSolver.py:19-38) without the time; `sub` answers the
single-scenario problems, `big` the big-M problems.  With the bound `None` Gurobi and the greedy
knapsack raise. -/
def milpBigM (argsort : Argsort) (srt : CppSort) (sub : ℕ → GModel → GResult)
    (big : GModel → GResult) (I : Inst) (method : String) : PyM (List (List ℚ)) :=
  if method = "belotti" then do
    let costs ← allScenarioCosts I sub
    match ahmedBound argsort costs I.proba I.eps with
    | some v => runBelotti argsort big (instCI I) I.N v
    | none => .error .typeError
  else if method = "song" then do
    let viols ← cppViolations srt I
    runSong (instCI I) false I.N I viols none
  else if method = "naive" then .ok (naiveAll (instCI I) I.N)
  else .error .valueError

/-- Line 52 of src/solver/MilpSolver.py: the big-Ms, `none` for indicator constraints. -/
def milpBigMOpt (env : Env) (I : Inst) (useBigM : Bool) (method : String) :
    PyM (Option (List (List ℚ))) :=
  if useBigM then (milpBigM env.argsort env.srt (env.sub 0) (env.big 0) I method).map some
  else .ok none

/-- `_save_computation_parameters` (src/solver/MilpSolver.py:41-45). -/
def milpMethodCode (method : String) : ℕ :=
  (if method = "naive" then 1 else 0) + 2 * (if method = "ahmed_belotti" then 1 else 0)
    + 3 * (if method = "qiu_et_al" then 1 else 0)

/-- The readings of the clock before the extended formulation is built: one for `big_m_time`
(src/solver/MilpSolver.py:39) if there are big-Ms. -/
def milpReads (useBigM : Bool) : ℕ := if useBigM then 1 else 0

/-- The call of `solve_cclp_model` (src/solver/MilpSolver.py:55-60).  The first two readings of the
clock (lines 57, 58) give `time_limit` and `elapsed_time`, the two after that the time to build the
model. -/
def milpCall (env : Env) (I : Inst) (timeLimit gap : ℚ) (useBigM : Bool)
    (bigM : Option (List (List ℚ))) : PyM UBOut :=
  solveCclp (instCI I) bigM [] [] gap (remaining env.clock timeLimit (milpReads useBigM + 1))
    (env.clock (milpReads useBigM + 4) - env.clock (milpReads useBigM + 3)) (env.cc 0)

/-- `MilpSolver.solve` (src/solver/MilpSolver.py:48-66); `big_m_time` (line 39) is computed from
the first reading of the clock after the start. -/
def milpSolve (env : Env) (I : Inst) (timeLimit gap : ℚ) (useBigM : Bool) (method : String) :
    PyM MilpSt := do
  let bigM ← milpBigMOpt env I useBigM method
  let out ← milpCall env I timeLimit gap useBigM bigM
  pure { vUB := out.vBnd, vLB := out.vObj, xLB := out.x, zLB := out.z
         useBigM := if useBigM then 1 else 0
         bigMMethod := milpMethodCode method
         bigMTime := if useBigM then some (timeLimit - remaining env.clock timeLimit 1) else none }

end Verif.Model
