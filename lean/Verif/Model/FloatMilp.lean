import Verif.Model.FloatOptim
import Verif.Model.MilpSolver
import Verif.Model.FloatKnapsack

/-!
# Method 1 of main.py on doubles

`MilpSolver.solve` with big-Ms of Song et al. (src/solver/MilpSolver.py:48-66): violations, quantiles,
right-hand sides and data are doubles.  The answer of Gurobi is a parameter; clock readings are exact.
-/

namespace Verif.Model

/-- `run_song_et_al_big_m` on an instance that is not partitioned (src/BigMFinder.py:156-205): one big-M
for every row, from the violations in doubles. -/
def flSongBigMs (I : Inst) (viols : ℕ → ℕ → ℕ → WithTop ℚ) : PyM (List (List ℚ)) :=
  (List.range I.N).mapM fun s => (List.range I.m).mapM fun i => flSongBigM I viols s i

/-- `solve_cclp_model` on doubles (src/solver/Solver.py:71-123), in the same order as `solveCclp`. -/
def flSolveCclp (J : CI) (bigM : Option (List (List ℚ))) (zStart prune : List ℕ) (gap limit build : ℚ)
    (solve : GModel → GResult) : PyM UBOut := do
  let g ← flBuildCCLP J bigM zStart prune gap
  setTimeLimit (limit - build)
  let r ← optimize (solve g)
  let ρ ← getSol r
  let v ← getObjVal r
  pure { x := fun j => ρ (.x j), z := (List.range J.nbScen).map fun s => ρ (.z s), vObj := v
         vBnd := r.objBnd }

/-- `MilpSolver.solve(use_big_m=True, big_m_method='song')` on doubles (src/solver/MilpSolver.py:19-66,
main.py:77-79). -/
def flMilpSong (env : Env) (I : Inst) (timeLimit gap : ℚ) : PyM MilpSt := do
  let viols ← flViolations env.srt I
  let Ms ← flSongBigMs I viols
  let out ← flSolveCclp (instCI (dbl I)) (some Ms) [] [] gap
    (remaining env.clock timeLimit (milpReads true + 1))
    (env.clock (milpReads true + 4) - env.clock (milpReads true + 3)) (env.cc 0)
  pure { vUB := out.vBnd, vLB := out.vObj, xLB := out.x, zLB := out.z
         useBigM := 1
         bigMMethod := milpMethodCode "song"
         bigMTime := some (timeLimit - remaining env.clock timeLimit 1) }

/-! ## Method 2 -/

/-- Contract of an answer without time limit to a problem with rounded coefficients, within the tolerances
`t` and the model's `MIPGap`; the reported bound is a double (assumption on `optimize`,
src/optim/OptiModel.py:183-205). -/
structure GResult.FlAnswers (t : Tols) (d : ℚ) (g : GModel) (r : GResult) : Prop extends
    GResult.FlValid t d g r where
  notInterrupted : r.status ≠ 11
  status : (∃ ρ, g.NearFeas ⟨0, d⟩ ρ) → r.status = 2
  gap : r.status = 2 → |r.objBnd - r.objVal| ≤ g.mipGap * |r.objVal|
  double : rd r.objBnd = r.objBnd

/-- `run_belotti_et_al_big_M` on doubles (src/BigMFinder.py:102-141): binary variables are left to Gurobi,
for continuous ones the big-Ms are computed in Python. -/
def flRunBelotti (env : Env) (I : Inst) (vUB : ℚ) : PyM (List (List ℚ)) :=
  if I.cont = false ∧ 0 < I.n then belottiMip (env.big 0) (instCI (dbl I)) I.N vUB (1 / 10 ^ 8)
  else flBelottiContinuous env.argsort (instCI (dbl I)) I.N vUB

/-- `MilpSolver.solve(use_big_m=True, big_m_method='belotti')` on doubles
(src/solver/MilpSolver.py:19-66, src/BigMFinder.py:102-141, src/UpperBounder.py:42-63, main.py:80-83): the
problems of the scenarios are handed to Gurobi as they are, the probabilities are added up in doubles. -/
def flMilpBelotti (env : Env) (I : Inst) (timeLimit gap : ℚ) : PyM MilpSt := do
  let costs ← allScenarioCosts (dbl I) (env.sub 0)
  match flQuantile (dbl I) (env.argsort.run costs) with
  | none => .error .typeError
  | some s =>
    let Ms ← flRunBelotti env I (costs.getD s 0)
    let out ← flSolveCclp (instCI (dbl I)) (some Ms) [] [] gap
      (remaining env.clock timeLimit (milpReads true + 1))
      (env.clock (milpReads true + 4) - env.clock (milpReads true + 3)) (env.cc 0)
    pure { vUB := out.vBnd, vLB := out.vObj, xLB := out.x, zLB := out.z
           useBigM := 1
           bigMMethod := milpMethodCode "belotti"
           bigMTime := some (timeLimit - remaining env.clock timeLimit 1) }

end Verif.Model
