import Verif.Model.Optim
import Verif.Model.Instance

/-!
# Model of `LowerBounder` (src/LowerBounder.py)

Printing, thread numbers and `feasible_scenarios_UB` (never read) are left out.
-/

namespace Verif.Model

/-- `_get_scenarios_violation_index` (src/LowerBounder.py:29-53). -/
def violationIndex (norm : Norm) (I : Inst) (x : Vec) : List ℚ :=
  (List.range I.N).map fun s =>
    (List.range I.m).foldl (fun best i =>
      let violation := max (dot I.n (I.A s i) x - I.b s i) 0
      let violation := if violation < 1 / 10 ^ 3 then 0 else violation
      let rescaling := norm.val I.n (I.A s i)
      let violation := if rescaling ≠ 0 then violation / rescaling else violation
      max best violation) 0

/-- `_get_index_scenarios` (src/LowerBounder.py:55-68).  `xUB` is `None` if no upper-bound
solution was stored: `A.dot(None)` raises `TypeError`.  An unknown method leaves
`index_scenarios` unassigned. -/
def indexScenarios (norm : Norm) (I : Inst) (projection : String) (counter : List ℚ)
    (xUB : Option Vec) : PyM (List ℚ) :=
  if projection = "counter" then .ok (counter.map fun v => -v)
  else if projection = "rescaled_max_violation" then
    match xUB with
    | some x => .ok (violationIndex norm I x)
    | none => .error .typeError
  else .error .unboundLocalError

/-- The loop of `_get_selected_scenarios` (src/LowerBounder.py:88-94): the number of selected
scenarios; falling off the end returns `None`. -/
def selectLoop (proba : ℕ → ℚ) (eps : ℚ) : List ℕ → ℕ → ℚ → Option ℕ
  | [], _, _ => none
  | s :: ss, k, total =>
    let total := total + proba s
    if total ≥ 1 - eps - 1 / 10 ^ 7 then some (k + 1) else selectLoop proba eps ss (k + 1) total

/-- `_get_selected_scenarios` (src/LowerBounder.py:70-94). -/
def selectedScenarios (argsort : Argsort) (I : Inst) (index : List ℚ) : PyM (Option (List ℕ)) :=
  if index.length < I.N then .error .valueError
  else
    let sorted := argsort.run index
    .ok ((selectLoop I.proba I.eps sorted 0 0).map fun k => sorted.take k)

/-- `isImproving[i]` (src/LowerBounder.py:106-108). -/
def isImproving (vUB : WithTop ℚ) (vLB : WithBot ℚ) (v : ℚ) : Bool :=
  decide ((v : WithTop ℚ) ≤ vUB) &&
    match vLB with
    | ⊥ => true
    | (l : ℚ) => decide (v ≥ l + 1 / 10 ^ 8)

/-- The loop of `_find_best_incumbent` (src/LowerBounder.py:109-119). -/
def incumbentLoop (norm : Norm) (I : Inst) (incumbents : List Vec) (vUB : WithTop ℚ)
    (vLB : WithBot ℚ) : List ℕ → Option (Vec × ℚ)
  | [] => none
  | i :: l =>
    let x := incumbents.getD i fun _ => 0
    let obj := dot I.n x I.c
    if isImproving vUB vLB obj && (isFeasible norm I x).feasible then some (x, obj)
    else incumbentLoop norm I incumbents vUB vLB l

/-- `incumbent_bound` with `_find_best_incumbent` (src/LowerBounder.py:96-119, 154-179): the
improving solution and its objective, or `none` for `(False, None, None)`. -/
def incumbentBound (norm : Norm) (argsort : Argsort) (I : Inst) (candidates : List Vec)
    (vUB : WithTop ℚ) (vLB : WithBot ℚ) : Option (Vec × ℚ) :=
  if candidates = [] then none
  else
    let objList := candidates.map fun x => dot I.n x I.c
    incumbentLoop norm I candidates vUB vLB (argsort.run (objList.map fun v => -v))

/-- The attributes of a `LowerBounder` that change: `scenarios`, `previous_vLB`,
`deter_model`, `feasibility_counter` (src/LowerBounder.py:15-26). -/
structure LBState where
  scenarios : List ℕ
  prevVLB : WithBot ℚ
  deter : Deter
  counter : List ℚ

/-- `__init__` (src/LowerBounder.py:12-26). -/
def LBState.init (I : Inst) : LBState :=
  let d := Deter.build (instCI I) [0]
  { scenarios := [0], prevVLB := ((-(10 ^ 6) : ℚ) : WithBot ℚ)
    deter := { d with g := d.g.setMIPGap (1 / 10 ^ 4) }
    counter := List.replicate I.N 0 }

/-- `save_feasible_scenarios` (src/LowerBounder.py:145-152). -/
def LBState.saveFeasible (st : LBState) (feasible : List Bool) : LBState :=
  { st with counter := List.zipWith (fun a b => a + if b then 1 else 0) st.counter feasible }

/-- The cut `objective >= vLB` (src/LowerBounder.py:130-133).  Simplification: a cut with
right-hand side `-inf` holds for every point and is left out. -/
def addCut (J : CI) (d : Deter) (vLB : WithBot ℚ) : Deter :=
  match vLB with
  | ⊥ => d
  | (v : ℚ) => { d with g := d.g.addConstr (.lin ⟨objExpr J, .ge, LinExpr.ofConst v⟩) }

/-- What `_solve_deter_model` returns: `x` (`None` for an infeasible model) and `v`
(src/LowerBounder.py:137-142). -/
structure LBOut where
  x : Option Vec
  v : ℚ

/-- Reading the answer (src/LowerBounder.py:137-142). -/
def readDeter (r : GResult) : PyM LBOut :=
  if r.status = 3 then .ok { x := none, v := -(10 ^ 6) }
  else do
    let x ← getX r
    let v ← getObjVal r
    pure { x := some x, v }

/-- Update of the deterministic model (src/LowerBounder.py:121-134). -/
def updateDeter (I : Inst) (st : LBState) (vLB : WithBot ℚ) (scenarios : List ℕ) :
    PyM LBState := do
  let d ← st.deter.remove (instCI I) (st.scenarios.filter fun s => s ∉ scenarios)
  let d := d.add (instCI I) (scenarios.filter fun s => s ∉ st.scenarios)
  let d := if st.prevVLB ≤ vLB then addCut (instCI I) d vLB else d
  pure { st with scenarios, deter := d, prevVLB := vLB }

/-- `_solve_deter_model` (src/LowerBounder.py:121-142). -/
def solveDeter (I : Inst) (solve : GModel → GResult) (st : LBState) (vLB : WithBot ℚ)
    (scenarios : List ℕ) : PyM (LBState × LBOut) := do
  let st ← updateDeter I st vLB scenarios
  let r ← optimize (solve st.deter.g)
  let out ← readDeter r
  pure (st, out)

/-- `deterministic_bound` (src/LowerBounder.py:181-191); `vLB` is the attribute set by the
caller (src/solver/AdaptivePartitioner.py:162).  Membership tests on a selection `None` raise
`TypeError`. -/
def deterministicBound (norm : Norm) (argsort : Argsort) (I : Inst) (projection : String)
    (solve : GModel → GResult) (st : LBState) (vLB : WithBot ℚ) (xUB : Option Vec) :
    PyM (LBState × LBOut) := do
  let index ← indexScenarios norm I projection st.counter xUB
  let sel ← selectedScenarios argsort I index
  match sel with
  | none => .error .typeError
  | some scenarios => solveDeter I solve st vLB scenarios

end Verif.Model
