import Verif.Model.Float
import Verif.Model.FloatSort
import Verif.Model.BigM

/-!
# The compiled violation routine in double precision

`violations.h` once more, on the doubles of the data and with every operation rounded to the nearest
double (ties to even).  Overflow, underflow and `nan` are left out; a fused multiply-add is not
possible in these expressions.
-/

namespace Verif.Model

/-- Rounding to the nearest double, for both signs (violations.h:37-83). -/
def rd (q : ℚ) : ℚ := if 0 ≤ q then fl64 q else -fl64 (-q)

/-- The literal `1e-6` (violations.h:51, 63, 68, 76). -/
def tol6 : ℚ := fl64 (1 / 10 ^ 6)

/-- First loop of `update` (violations.h:48-54). -/
def flZero (profits weights : Vec) (indices : List ℕ) (loss : ℚ) : ℚ :=
  indices.foldl (fun v i => if weights i ≤ tol6 then rd (v + profits i) else v) (-loss)

/-- `*minViolPtr + 1e-6` (violations.h:76). -/
def flMin : WithTop ℚ → WithTop ℚ
  | ⊤ => ⊤
  | some q => ((rd (q + tol6) : ℚ) : WithTop ℚ)

/-- Second loop of `update` (violations.h:56-78); `mn` is `*minViolPtr`. -/
def flLoop (profits weights : Vec) (cap : ℚ) (mn : WithTop ℚ) : List ℕ → ℚ → ℚ → ℚ
  | [], v, _ => v
  | j :: js, v, wt =>
    if weights j ≤ tol6 then flLoop profits weights cap mn js v wt
    else if rd (wt + weights j) ≥ rd (cap - tol6) then
      rd (v + rd (rd (profits j * rd (cap - rd (rd (wt + weights j) - weights j))) / weights j))
    else if flMin mn ≤ ((rd (v + profits j) : ℚ) : WithTop ℚ) then rd (v + profits j)
    else flLoop profits weights cap mn js (rd (v + profits j)) (rd (wt + weights j))

/-- `update` (violations.h:37-83): the new value of `*minViolPtr`. -/
def flUpdate (profits : Vec) (loss : ℚ) (weights : Vec) (cap : ℚ) (mn : WithTop ℚ)
    (indices : List ℕ) (reverse : Bool) : WithTop ℚ :=
  let v := flLoop profits weights cap mn (if reverse then indices.reverse else indices)
    (flZero profits weights indices loss) 0
  if ((v : ℚ) : WithTop ℚ) < mn then ((v : ℚ) : WithTop ℚ) else mn

/-- `compute` (violations.h:85-98). -/
def flCompute (srt : CppSort) (lhs rhs : Vec) (st : CppState) (op : CppOp) : CppState :=
  let p : Vec := fun j => lhs (op.slhs + j)
  let w : Vec := fun j => lhs (op.tlhs + j)
  let indices := srt.run (flComp p w) st.indices
  let v1 := Function.update st.viols op.sViol
    (flUpdate p (rhs op.srhs) w (rhs op.trhs) (st.viols op.sViol) indices false)
  let v2 := Function.update v1 op.tViol
    (flUpdate w (rhs op.trhs) p (rhs op.srhs) (v1 op.tViol) indices true)
  { viols := v2, indices }

/-- `computeAllViolations` (violations.h:100-146). -/
def flComputeAll (srt : CppSort) (lhs rhs : Vec) (k n m : ℕ) (viols : ℕ → WithTop ℚ) :
    ℕ → WithTop ℚ :=
  ((cppOps1 k n m ++ cppOps2 k n m).foldl (flCompute srt lhs rhs)
    { viols, indices := List.range n }).viols

/-- `compute_all_violations` (violations.pyx:7-21) on the doubles of the data; entry `(s, t, i)` of
the returned array of shape `(N, N, m)`. -/
def flViolations (srt : CppSort) (I : Inst) : PyM (ℕ → ℕ → ℕ → WithTop ℚ) :=
  if I.N = 0 ∨ I.m = 0 ∨ I.n = 0 then .error .indexError
  else .ok fun s t i =>
    flComputeAll srt (memA (dbl I)) (memB (dbl I)) I.N I.n I.m (cppInit I.N I.m)
      (s * (I.N * I.m) + t * I.m + i)

/-- `_quantile_big_m` for row `i` of scenario `s` of an instance that is not partitioned
(src/BigMFinder.py:94-99, 188-205): sorting makes no rounding errors, the index is computed in
doubles. -/
def flSongBigM (I : Inst) (viols : ℕ → ℕ → ℕ → WithTop ℚ) (s i : ℕ) : PyM ℚ := do
  let v ← npGet (((List.range I.N).map fun t => viols s t i).insertionSort (· ≤ ·))
    (flFloor (dbl I) + 1)
  match v with
  | some q => pure q
  | none => throw .gurobiError

end Verif.Model
