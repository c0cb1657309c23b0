import Verif.Model.FloatMilp
import Verif.Model.Report

/-!
# The result row of methods 1 and 2 on doubles

The gap and the percentages are computed in doubles; `"{:.3f}".format` prints the exact value of a double
with three decimals, so that `fmtCell` is as before.  Under- and overflow are left out, as in `fl64`.
-/

namespace Verif.Model

/-- `_compute_gap` on doubles (src/solver/Solver.py:26-36): the difference and the quotient are rounded.
The cases are those of `computeGap`. -/
def flComputeGap (vUB : WithTop ℚ) (vLB : WithBot ℚ) (numpy : Bool) : PyM Gap :=
  match vLB, vUB with
  | ⊥, _ => .ok .posInf
  | _, ⊤ => .ok .posInf
  | (l : ℚ), (u : ℚ) =>
    if l = 0 then
      if numpy then .ok (if 0 < u then .posInf else if u < 0 then .negInf else .nan)
      else .error .zeroDivisionError
    else .ok (.fin (rd (rd (u - l) / l)))

/-- `gap*100` (src/solver/Solver.py:56, src/solver/MilpSolver.py:74). -/
def flPercent : Gap → Gap
  | .fin g => .fin (rd (g * 100))
  | g => g

/-- `_get_computation_details` on doubles (src/solver/Solver.py:42-64), in the same order as
`computationDetails`; the entries of the instance are doubles already. -/
def flComputationDetails (name : Txt) (J : Inst) (vLB : WithBot ℚ) (vUB : WithTop ℚ)
    (vUBNone numpy : Bool) (total : Option ℚ) (d : ℕ) : PyM (List Cell × List Cell) := do
  if J.n = 0 then throw .indexError
  if J.N = 0 then throw .indexError
  match total with
  | none => throw .typeError
  | some t =>
    if vUBNone then throw .typeError
    let g ← flComputeGap vUB vLB numpy
    pure ([.text name, natCell J.n, natCell J.m, natCell J.N, natCell (if J.cont then 1 else 0),
           fmtCell d (.fin J.eps)],
          [fmtCell d (.fin t), fmtCell d (ofBot vLB), fmtCell d (ofTop vUB),
           fmtCell d (flPercent g)])

/-- `MilpSolver.write_all_computation_details` on doubles (src/solver/MilpSolver.py:68-82), up to the
file. -/
def flMilpRow (name : Txt) (J : Inst) (timeLimit gap : ℚ) (st : MilpSt) (total : Option ℚ) :
    PyM (List Cell) := do
  let p ← flComputationDetails name J (st.vLB : WithBot ℚ) (st.vUB : WithTop ℚ) false false total 3
  match st.bigMTime with
  | none => throw .attributeError
  | some t =>
    pure (p.1 ++ [fmtCell 3 (.fin timeLimit), fmtCell 3 (flPercent (.fin gap)), natCell st.useBigM,
                  natCell st.bigMMethod] ++ [.flt t] ++ p.2)

/-- `MilpSolver.solve` on doubles as main.py calls it for methods 1 and 2 (main.py:76-83). -/
def flMilp (env : Env) (J : Inst) (method : ℕ) : PyM MilpSt :=
  if method = 1 then flMilpSong env J mainTimeLimit (fl64 mainGap)
  else flMilpBelotti env J mainTimeLimit (fl64 mainGap)

/-- main.py from line 76 to line 116 for methods 1 and 2 on doubles: the row written.  The calls bind to
their signatures (`mainRowWith`); `GAP` is the double `1e-4`. -/
def flMainRow (env : Env) (location : Txt) (J : Inst) (method : ℕ) (total : ℚ) : PyM (List Cell) := do
  let st ← flMilp env J method
  flMilpRow (fileName location) J mainTimeLimit (fl64 mainGap) st (some total)

end Verif.Model
