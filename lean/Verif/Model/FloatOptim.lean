import Verif.Model.FloatViolations
import Verif.Model.Tolerances

/-!
# The partitioned problems in double precision

The numbers that Gurobi receives are doubles: the data, the normalised probabilities, the risk level
of the partition and the right-hand sides.  Sums may be computed in any order.
-/

namespace Verif.Model
open LinExpr

/-- `load_partition` (src/instance/PartitionChanceKnapInstance.py:14-29) on the doubles of the data:
`D` is a possible result.  `np.sum` may add in any order; taking the minimum makes no error. -/
def FlLoadPartition (I : Inst) (P : List (List ℕ)) (D : PartData) : Prop :=
  ∃ (mins : List ℚ) (total : ℚ),
    (P.mapM fun p => npMin (p.map (dbl I).proba)) = .ok mins ∧ FlSum mins total
    ∧ D = { nbSubsets := P.length, partition := P
            nbConPart := P.map fun p => (p.map fun _ => I.m).sum
            probaPart := mins.map fun q => rd (q / total)
            epsPart := rd ((dbl I).eps / total) }

/-- `_add_chance_constraint` (src/optim/OptiModel.py:107-115): `1-epsilon` is rounded. -/
def flChanceConstr (J : CI) : Constr :=
  .lin ⟨quicksum (List.range J.nbScen) J.proba .z, .ge, ofConst (rd (1 - J.eps))⟩

/-- `_add_single_bigM_constraint` (src/optim/OptiModel.py:48-53): the constant of
`b_i + bigM_i*(1 - z)` is rounded. -/
def flBigMConstr (J : CI) (s i : ℕ) (M : ℚ) : Constr :=
  .lin ⟨lhsExpr J s i, .le, ⟨rd (J.rhs s i + M), [(-M, .z s)]⟩⟩

/-- `_add_single_fixed_bigM_constraint` (src/optim/OptiModel.py:55-61). -/
def flFixedConstr (J : CI) (s i : ℕ) (M : ℚ) : Constr :=
  .lin ⟨lhsExpr J s i, .le, ofConst (rd (J.rhs s i + M))⟩

/-- `_add_bigM_constraint` (src/optim/OptiModel.py:63-86); the literal `1e-6` is the nearest double. -/
def flBigMConstrs (J : CI) (s i : ℕ) (M : ℚ) : List Constr :=
  if M ≥ -tol6 then [flBigMConstr J s i M]
  else if J.cont then [] else [flFixedConstr J s i M]

/-- `_add_all_bigM_constraints` (src/optim/OptiModel.py:88-105). -/
def flAllBigM (J : CI) (bigM : List (List ℚ)) : PyM (List Constr) := do
  let css ← (List.range J.nbScen).mapM fun s => do
    let b ← pyGet bigM s
    let cs ← (List.range (J.nbCon s)).mapM fun i => do
      let M ← pyGet b i
      pure (flBigMConstrs J s i M)
    pure cs.flatten
  pure css.flatten

/-- `CCLPModel.build` and `solve_cclp_model` (src/optim/CCLPModel.py:64-90, src/solver/Solver.py:91-107)
with rounded right-hand sides; `J` holds doubles. -/
def flBuildCCLP (J : CI) (bigM : Option (List (List ℚ))) (zStart prune : List ℕ) (gap : ℚ) :
    PyM GModel := do
  let g := (GModel.empty.addVars (varX J)).setObjective (objExpr J) true
  let g := g.addVars (varZ J)
  if ∃ s ∈ zStart, ¬ s < J.nbScen then throw .keyError
  let cs ← match bigM with
    | some M => flAllBigM J M
    | none => pure (allIndicators J)
  let g := (g.addConstrs cs).addConstr (flChanceConstr J)
  if ∃ s ∈ prune, ¬ s < J.nbScen then throw .keyError
  pure ((g.addConstrs (prune.map fixZero)).setMIPGap gap)

/-- Contract of an answer to a problem with rounded coefficients: points are accepted within `t`, and
bounds and infeasibility hold for all points that violate no constraint by more than `d` (assumption on
`optimize`, src/optim/OptiModel.py:183-205).  The rounding of `objVal` and `objBnd` is ignored. -/
structure GResult.FlValid (t : Tols) (d : ℚ) (g : GModel) (r : GResult) : Prop where
  feas : ∀ ρ, r.sol = some ρ → g.NearFeas t ρ ∧ g.obj.eval ρ = r.objVal
  bound : ∀ ρ, g.NearFeas ⟨0, d⟩ ρ → g.obj.eval ρ ≤ r.objBnd
  infeasible : r.status = 3 → r.sol = none ∧ ∀ ρ, ¬ g.NearFeas ⟨0, d⟩ ρ
  optimal : r.status = 2 → r.sol.isSome

end Verif.Model
