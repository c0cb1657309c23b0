import Verif.Model.Optim

/-!
# Gurobi's tolerances

Gurobi accepts points that violate the constraints by at most `FeasibilityTol` and whose integer
variables are within `IntFeasTol` of an integer.  The code lowers both for the partitioned problems and
the extended formulation, and leaves the defaults for all other models.  Here an answer is a point that
is feasible within these tolerances; the bound still holds for all feasible points.
-/

namespace Verif.Model

/-- `IntFeasTol` and `FeasibilityTol` (src/solver/Solver.py:105-106). -/
structure Tols where
  int : ℚ
  feas : ℚ

/-- The tolerances of the partitioned problems and of the extended formulation
(src/solver/Solver.py:105-106). -/
def cclpTols : Tols := ⟨1 / 10 ^ 9, 1 / 10 ^ 9⟩

/-- The tolerances that the proofs allow for these problems: `FeasibilityTol` (src/solver/Solver.py:106)
is doubled, which leaves room for coefficients rounded to doubles (`Verif/Model/FloatOptim.lean`). -/
def wideTols : Tols := ⟨1 / 10 ^ 9, 2 / 10 ^ 9⟩

/-- Gurobi's defaults, which hold for the subset problems, the lower-bound problem and the split
problem (src/Evaluator.py:22-38, src/LowerBounder.py:22-26, src/refiner/CostRefiner.py:118-126: no
tolerance is set there). -/
def defaultTols : Tols := ⟨1 / 10 ^ 5, 1 / 10 ^ 6⟩

/-- The tolerances of the problems that compute Belotti's big-Ms (src/BigMFinder.py:63-69). -/
def bigTols : Tols := ⟨1 / 10 ^ 9, 1 / 10 ^ 8⟩

/-- A linear constraint up to a tolerance (`FeasibilityTol`, src/solver/Solver.py:106). -/
def Lin.Near (τ : ℚ) (ρ : V → ℚ) (l : Lin) : Prop :=
  match l.rel with
  | .le => l.lhs.eval ρ ≤ l.rhs.eval ρ + τ
  | .ge => l.rhs.eval ρ - τ ≤ l.lhs.eval ρ
  | .eq => |l.lhs.eval ρ - l.rhs.eval ρ| ≤ τ

/-- A constraint up to tolerances: an indicator counts as set if it is within `IntFeasTol`
(src/solver/Solver.py:105-106, src/optim/CCLPModel.py:29-47). -/
def Constr.Near (t : Tols) (ρ : V → ℚ) : Constr → Prop
  | .lin l => l.Near t.feas ρ
  | .ind v val l => |ρ v - (if val then 1 else 0)| ≤ t.int → l.Near t.feas ρ

/-- A value that respects the declaration up to tolerances; binary variables also keep the bounds
0 and 1 up to `FeasibilityTol` (src/solver/Solver.py:105-106, src/optim/OptiModel.py:21-33, 117-126). -/
def VarDecl.Near (t : Tols) (ρ : V → ℚ) (d : VarDecl) : Prop :=
  (d.binary = true → (|ρ d.v| ≤ t.int ∨ |ρ d.v - 1| ≤ t.int)
    ∧ -t.feas ≤ ρ d.v ∧ ρ d.v ≤ 1 + t.feas)
  ∧ (∀ l, d.lb = some l → l - t.feas ≤ ρ d.v) ∧ ∀ u, d.ub = some u → ρ d.v ≤ u + t.feas

/-- Points that Gurobi accepts (src/solver/Solver.py:105-106; meaning of `optimize`,
src/optim/OptiModel.py:183-205). -/
def GModel.NearFeas (t : Tols) (g : GModel) (ρ : V → ℚ) : Prop :=
  (∀ d ∈ g.vars, d.Near t ρ) ∧ ∀ c ∈ g.constrs, c.2.Near t ρ

/-- Contract of any answer within tolerances: as `GResult.Valid`, but the point may be `NearFeas` only
(assumption on `optimize`, src/optim/OptiModel.py:183-205). -/
structure GResult.NearValid (t : Tols) (g : GModel) (r : GResult) : Prop where
  feas : ∀ ρ, r.sol = some ρ → (g.Feas ρ ∨ g.NearFeas t ρ) ∧ g.obj.eval ρ = r.objVal
  bound : g.Bounded → ∀ ρ, g.Feas ρ →
    if g.maximize then g.obj.eval ρ ≤ r.objBnd else r.objBnd ≤ g.obj.eval ρ
  infeasible : r.status = 3 → r.sol = none ∧ ∀ ρ, ¬ g.Feas ρ
  optimal : r.status = 2 → r.sol.isSome

/-- Contract of a call without time limit within tolerances (assumption on `optimize`,
src/optim/OptiModel.py:183-205). -/
structure GResult.NearSolved (t : Tols) (g : GModel) (r : GResult) : Prop where
  valid : GResult.NearValid t g r
  notInterrupted : r.status ≠ 11
  solved : g.Bounded → (∃ ρ, g.Feas ρ) → r.sol.isSome

/-- Contract of a call without time limit within tolerances and within the model's `MIPGap`
(assumption on `optimize`, src/optim/OptiModel.py:183-205). -/
structure GResult.NearAnswers (t : Tols) (g : GModel) (r : GResult) : Prop extends
    GResult.NearSolved t g r where
  status : (∃ ρ, g.Optimal ρ) → r.status = 2
  gap : 0 ≤ g.mipGap → GResult.WithinGap g r

end Verif.Model
