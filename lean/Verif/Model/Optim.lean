import Verif.Model.Gurobi
import Verif.Model.PartInst

/-!
# Model of src/optim: OptiModel, CCLPModel, DeterModel, BigMKnapsackModel, AccObjModel

Each builder returns the `GModel` that the code hands to Gurobi.  Printing, thread numbers,
time limits, `Lazy` and `start` attributes do not change the set of solutions and are left out;
feasibility tolerances are treated in `Model/Tolerances.lean`.
-/

namespace Verif.Model
open LinExpr

/-- `_initialize_var_x` (src/optim/OptiModel.py:21-33): continuous variables are bounded by 0
and 1, binary ones have infinite bounds (src/instance/ChanceKnapInstance.py:54-59). -/
def varX (J : CI) : List VarDecl :=
  (List.range J.n).map fun j =>
    if J.cont then { v := .x j, binary := false, lb := some 0, ub := some 1 }
    else { v := .x j, binary := true, lb := none, ub := none }

/-- `_initialize_obj` (src/optim/OptiModel.py:144-155). -/
def objExpr (J : CI) : LinExpr := quicksum (List.range J.n) J.c .x

/-- `_lhs_constraint` (src/optim/OptiModel.py:128-142). -/
def lhsExpr (J : CI) (s i : ℕ) : LinExpr := quicksum (List.range J.n) (J.row s i) .x

/-- `_add_single_bigM_constraint` (src/optim/OptiModel.py:48-53). -/
def bigMConstr (J : CI) (s i : ℕ) (M : ℚ) : Constr :=
  .lin ⟨lhsExpr J s i, .le, add (ofConst (J.rhs s i)) (smul M (sub (ofConst 1) (var (.z s))))⟩

/-- `_add_single_fixed_bigM_constraint` (src/optim/OptiModel.py:55-61). -/
def fixedConstr (J : CI) (s i : ℕ) (M : ℚ) : Constr :=
  .lin ⟨lhsExpr J s i, .le, ofConst (J.rhs s i + M)⟩

/-- `_add_bigM_constraint` (src/optim/OptiModel.py:63-86) for constraint `i`: a constraint with
big-M below -1e-6 is skipped for continuous variables and fixed for binary ones. -/
def bigMConstrs (J : CI) (s i : ℕ) (M : ℚ) : List Constr :=
  if M ≥ -(1 / 10 ^ 6) then [bigMConstr J s i M]
  else if J.cont then [] else [fixedConstr J s i M]

/-- `_add_all_bigM_constraints` (src/optim/OptiModel.py:88-105); `bigM` is
`bigMFinder.bigM`, reading past its end raises `IndexError`. -/
def allBigM (J : CI) (bigM : List (List ℚ)) : PyM (List Constr) := do
  let css ← (List.range J.nbScen).mapM fun s => do
    let b ← pyGet bigM s
    let cs ← (List.range (J.nbCon s)).mapM fun i => do
      let M ← pyGet b i
      pure (bigMConstrs J s i M)
    pure cs.flatten
  pure css.flatten

/-- `_add_all_indicator_constraints` (src/optim/CCLPModel.py:29-47). -/
def allIndicators (J : CI) : List Constr :=
  ((List.range J.nbScen).map fun s =>
    (List.range (J.nbCon s)).map fun i =>
      Constr.ind (.z s) true ⟨lhsExpr J s i, .le, ofConst (J.rhs s i)⟩).flatten

/-- `_initialize_binary_var_z` (src/optim/OptiModel.py:117-126). -/
def varZ (J : CI) : List VarDecl :=
  (List.range J.nbScen).map fun s => { v := .z s, binary := true, lb := some 0, ub := some 1 }

/-- `_add_chance_constraint` (src/optim/OptiModel.py:107-115). -/
def chanceConstr (J : CI) : Constr :=
  .lin ⟨quicksum (List.range J.nbScen) J.proba .z, .ge, ofConst (1 - J.eps)⟩

/-- `fix_z_to_zero` (src/optim/CCLPModel.py:57-62). -/
def fixZero (s : ℕ) : Constr := .lin ⟨var (.z s), .eq, ofConst 0⟩

/-- `CCLPModel.build` (src/optim/CCLPModel.py:64-90), the pruning loop and the `MIPGap` of
`solve_cclp_model` (src/solver/Solver.py:91-107).  `bigM = none` means indicator
constraints; `zStart` are the keys of the warm start; keys and pruned indices outside the
model raise `KeyError`. -/
def buildCCLP (J : CI) (bigM : Option (List (List ℚ))) (zStart prune : List ℕ) (gap : ℚ) :
    PyM GModel := do
  let g := (GModel.empty.addVars (varX J)).setObjective (objExpr J) true
  let g := g.addVars (varZ J)
  if ∃ s ∈ zStart, ¬ s < J.nbScen then throw .keyError
  let cs ← match bigM with
    | some M => allBigM J M
    | none => pure (allIndicators J)
  let g := (g.addConstrs cs).addConstr (chanceConstr J)
  if ∃ s ∈ prune, ¬ s < J.nbScen then throw .keyError
  pure ((g.addConstrs (prune.map fixZero)).setMIPGap gap)

/-- `DeterModel`: the Gurobi model and `feasibility_constraint`, the dict from scenario to the
handles of its constraints (src/optim/DeterModel.py) (src/optim/DeterModel.py:5-63). -/
structure Deter where
  g : GModel
  handles : List (ℕ × List ℕ)

/-- `_add_constraints` and `add` for one scenario (src/optim/DeterModel.py:11-20, 45-55). -/
def Deter.add1 (J : CI) (d : Deter) (s : ℕ) : Deter :=
  { g := d.g.addConstrs ((List.range (J.nbCon s)).map fun i =>
      .lin ⟨lhsExpr J s i, .le, ofConst (J.rhs s i)⟩)
    handles := assocSet d.handles s ((List.range (J.nbCon s)).map fun i => d.g.next + i) }

/-- `add` for a list of scenarios (src/optim/DeterModel.py:45-55). -/
def Deter.add (J : CI) (d : Deter) (ss : List ℕ) : Deter := ss.foldl (Deter.add1 J) d

/-- One round of `_remove_feasibility_constraints` (src/optim/DeterModel.py:30-32). -/
def Deter.removeRow (handles : List (ℕ × List ℕ)) (s : ℕ) (g : GModel) (i : ℕ) : PyM GModel := do
  let hs ← assocGet handles s
  match hs[i]? with
  | some h => g.remove h
  | none => throw .keyError

/-- `_remove_feasibility_constraints` (src/optim/DeterModel.py:22-32). -/
def Deter.remove1 (J : CI) (d : Deter) (s : ℕ) : PyM Deter := do
  let g ← (List.range (J.nbCon s)).foldlM (Deter.removeRow d.handles s) d.g
  pure { d with g }

/-- `remove` (src/optim/DeterModel.py:57-63). -/
def Deter.remove (J : CI) (d : Deter) (ss : List ℕ) : PyM Deter := ss.foldlM (Deter.remove1 J) d

/-- `DeterModel.build` (src/optim/DeterModel.py:35-43); a single scenario index is passed as a
one-element list. -/
def Deter.build (J : CI) (ss : List ℕ) : Deter :=
  Deter.add J
    { g := (GModel.empty.addVars (varX J)).setObjective (objExpr J) true, handles := [] } ss

/-- `BigMKnapsackModel.build` and `initialize_violation_objective`
(src/optim/BigMKnapsackModel.py:28-54) for constraint `(s, i)`, with the `MIPGap` of
`_set_gurobi_params` (src/BigMFinder.py:63-69).  The code reuses one Gurobi model and only
replaces the objective. -/
def buildBigMKnapsack (J : CI) (vUB : ℚ) (s i : ℕ) (gap : ℚ) : GModel :=
  (((GModel.empty.addVars (varX J)).addConstr
    (.lin ⟨quicksum (List.range J.n) J.c .x, .le, ofConst vUB⟩)).setMIPGap gap).setObjective
      (sub (quicksum (List.range J.n) (J.row s i) .x) (ofConst (J.rhs s i))) true

/-- `_initialize_var_pi`, `_initialize_var_lambda`, `_initialize_var_eta` and alpha
(src/optim/AccObjModel.py:20-62). -/
def accVars (J : CI) (scenarios : List ℕ) : List VarDecl :=
  [{ v := .alpha, binary := false, lb := none, ub := none }]
  ++ (List.range scenarios.length).map (fun s =>
      { v := .pi false s, binary := true, lb := some 0, ub := some 1 })
  ++ (List.range scenarios.length).map (fun s =>
      { v := .pi true s, binary := true, lb := some 0, ub := some 1 })
  ++ (List.range (2 * J.n)).map (fun k =>
      { v := .lam false k, binary := false, lb := some 0, ub := none })
  ++ (List.range (2 * J.n)).map (fun k =>
      { v := .lam true k, binary := false, lb := some 0, ub := none })
  ++ ((List.range scenarios.length).map fun s =>
      (List.range (J.nbCon (scenarios.getD s 0))).map (fun i =>
        ({ v := .eta false s i, binary := false, lb := some 0, ub := none } : VarDecl))
      ++ (List.range (J.nbCon (scenarios.getD s 0))).map (fun i =>
        ({ v := .eta true s i, binary := false, lb := some 0, ub := none } : VarDecl))).flatten

/-- Sum of a list of expressions (`+=` in a loop) (src/optim/AccObjModel.py:69-79). -/
def sumExpr (es : List LinExpr) : LinExpr := es.foldl LinExpr.add (ofConst 0)

/-- `_add_dual_cost_b_vectors_constraints` (src/optim/AccObjModel.py:64-80). -/
def accDualCost (J : CI) (scenarios : List ℕ) (right : Bool) : Constr :=
  let bX : ℕ → ℚ := fun k => if k < J.n then 0 else 1
  .lin ⟨var .alpha, .ge, sumExpr
    (quicksum (List.range (2 * J.n)) bX (.lam right) ::
      (List.range scenarios.length).map fun s =>
        quicksum (List.range (J.nbCon (scenarios.getD s 0)))
          (fun i => J.rhs (scenarios.getD s 0) i) (.eta right s))⟩

/-- `_add_primal_cost_A_matrices_constraints` (src/optim/AccObjModel.py:82-96), variable `j`. -/
def accPrimalCost (J : CI) (scenarios : List ℕ) (right : Bool) (j : ℕ) : Constr :=
  .lin ⟨sumExpr
    (add (smul (-1) (var (.lam right j))) (var (.lam right (j + J.n))) ::
      (List.range scenarios.length).map fun s =>
        quicksum (List.range (J.nbCon (scenarios.getD s 0)))
          (fun i => J.row (scenarios.getD s 0) i j) (.eta right s)), .eq, ofConst (J.c j)⟩

/-- `_add_scenario_feasibility_constraints` (src/optim/AccObjModel.py:110-123). -/
def accIndicators (J : CI) (scenarios : List ℕ) : List Constr :=
  ((List.range scenarios.length).map fun s =>
    ((List.range (J.nbCon (scenarios.getD s 0))).map fun i =>
      [Constr.ind (.pi false s) false ⟨var (.eta false s i), .eq, ofConst 0⟩,
       Constr.ind (.pi true s) false ⟨var (.eta true s i), .eq, ofConst 0⟩]).flatten).flatten

/-- `_add_assignment_constraints` (src/optim/AccObjModel.py:125-140), after the indicators. -/
def accAssignment (scenarios infeasible : List ℕ) : List Constr :=
  ((List.range scenarios.length).map fun s =>
    Constr.lin ⟨add (var (.pi false s)) (var (.pi true s)), .eq, ofConst 1⟩)
  ++ [false, true].map fun right =>
    .lin ⟨quicksum ((List.range scenarios.length).filter fun s =>
      scenarios.getD s 0 ∈ infeasible) (fun _ => 1) (.pi right), .ge, ofConst 1⟩

/-- `AccObjModel.build` (src/optim/AccObjModel.py:143-156). -/
def buildAccObj (J : CI) (scenarios infeasible : List ℕ) : GModel :=
  ((GModel.empty.addVars (accVars J scenarios)).setObjective (var .alpha) false).addConstrs
    ([accDualCost J scenarios false, accDualCost J scenarios true]
      ++ (List.range J.n).map (accPrimalCost J scenarios false)
      ++ (List.range J.n).map (accPrimalCost J scenarios true)
      ++ accIndicators J scenarios
      ++ accAssignment scenarios infeasible)

/-- `get_subsets` (src/optim/AccObjModel.py:158-168). -/
def accSubsets (scenarios : List ℕ) (ρ : V → ℚ) : List ℕ × List ℕ :=
  let isLeft := fun s => 9 / 10 ≤ ρ (.pi false s) ∧ ρ (.pi false s) ≤ 11 / 10
  (((List.range scenarios.length).filter fun s => isLeft s).map fun s => scenarios.getD s 0,
   ((List.range scenarios.length).filter fun s => ¬ isLeft s).map fun s => scenarios.getD s 0)

end Verif.Model
