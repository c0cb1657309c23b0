import Verif.Py
import Verif.Spec

/-!
# Optimisation models as data, and the contract of the solver

The code builds Gurobi models through `addVars`, `addConstr`, `setObjective`, ...; here the
model is a value (`GModel`) and the solver is an unknown that answers a `GResult`.  Nothing
about Gurobi is assumed except the contracts `GResult.Valid`, `GResult.Exact` and
`GResult.WithinGap` where a theorem lists them.
-/

namespace Verif.Model

/-- The decision variables that occur in the models of src/optim
(src/optim/OptiModel.py:32, 122-125, src/optim/AccObjModel.py:20-62). -/
inductive V
  | x (j : ℕ)
  | z (s : ℕ)
  | alpha
  | pi (right : Bool) (s : ℕ)
  | lam (right : Bool) (k : ℕ)
  | eta (right : Bool) (s i : ℕ)
  deriving DecidableEq

/-- A linear expression (`gp.LinExpr`) (src/optim/OptiModel.py:139-142). -/
structure LinExpr where
  const : ℚ
  terms : List (ℚ × V)

namespace LinExpr

/-- Value of the expression at an assignment (the expressions of src/optim/OptiModel.py:128-155). -/
def eval (ρ : V → ℚ) (e : LinExpr) : ℚ := e.const + (e.terms.map fun t => t.1 * ρ t.2).sum

/-- A constant in an expression (src/optim/OptiModel.py:53). -/
def ofConst (q : ℚ) : LinExpr := ⟨q, []⟩
/-- A variable as an expression (src/optim/AccObjModel.py:80). -/
def var (v : V) : LinExpr := ⟨0, [(1, v)]⟩
/-- `+` (src/optim/OptiModel.py:53, src/optim/AccObjModel.py:77). -/
def add (a b : LinExpr) : LinExpr := ⟨a.const + b.const, a.terms ++ b.terms⟩
/-- `*` with a number (src/optim/OptiModel.py:53). -/
def smul (q : ℚ) (a : LinExpr) : LinExpr := ⟨q * a.const, a.terms.map fun t => (q * t.1, t.2)⟩
/-- `-` (src/optim/OptiModel.py:53). -/
def sub (a b : LinExpr) : LinExpr := add a (smul (-1) b)

/-- `gp.quicksum(f(j) * v(j) for j in l)` (src/optim/OptiModel.py:114, 141, 151). -/
def quicksum {ι : Type} (l : List ι) (f : ι → ℚ) (v : ι → V) : LinExpr :=
  ⟨0, l.map fun j => (f j, v j)⟩

end LinExpr

/-- The sense of a linear constraint
(src/optim/OptiModel.py:53, 113, src/optim/AccObjModel.py:96). -/
inductive Rel
  | le | ge | eq
  deriving DecidableEq

/-- A linear constraint (src/optim/OptiModel.py:53, 61, 113). -/
structure Lin where
  lhs : LinExpr
  rel : Rel
  rhs : LinExpr

/-- When a linear constraint holds (src/optim/OptiModel.py:53, 61, 113). -/
def Lin.Holds (ρ : V → ℚ) (l : Lin) : Prop :=
  match l.rel with
  | .le => l.lhs.eval ρ ≤ l.rhs.eval ρ
  | .ge => l.lhs.eval ρ ≥ l.rhs.eval ρ
  | .eq => l.lhs.eval ρ = l.rhs.eval ρ

instance (ρ : V → ℚ) (l : Lin) : Decidable (l.Holds ρ) := by
  unfold Lin.Holds; cases l.rel <;> infer_instance

/-- A constraint of the model: linear, or an indicator constraint `v == val >> l`
(src/optim/CCLPModel.py:29-47, src/optim/AccObjModel.py:110-123). -/
inductive Constr
  | lin (l : Lin)
  | ind (v : V) (val : Bool) (l : Lin)

/-- When a constraint holds (src/optim/CCLPModel.py:29-47). -/
def Constr.Holds (ρ : V → ℚ) : Constr → Prop
  | .lin l => l.Holds ρ
  | .ind v val l => ρ v = (if val then 1 else 0) → l.Holds ρ

instance (ρ : V → ℚ) (c : Constr) : Decidable (c.Holds ρ) := by
  cases c <;> unfold Constr.Holds <;> infer_instance

/-- A declared variable: bounds (`none` is infinite) and whether it is binary
(src/optim/OptiModel.py:21-33, 117-126). -/
structure VarDecl where
  v : V
  binary : Bool
  lb : Option ℚ
  ub : Option ℚ

/-- When a value respects the declaration (src/optim/OptiModel.py:21-33, 117-126). -/
def VarDecl.Ok (ρ : V → ℚ) (d : VarDecl) : Prop :=
  (d.binary = true → ρ d.v = 0 ∨ ρ d.v = 1) ∧ (∀ l, d.lb = some l → l ≤ ρ d.v)
    ∧ (∀ u, d.ub = some u → ρ d.v ≤ u)

instance (ρ : V → ℚ) (d : VarDecl) : Decidable (d.Ok ρ) :=
  decidable_of_iff ((d.binary = true → ρ d.v = 0 ∨ ρ d.v = 1)
    ∧ (d.lb.all fun l => decide (l ≤ ρ d.v)) = true ∧ (d.ub.all fun u => decide (ρ d.v ≤ u)) = true)
    (by unfold VarDecl.Ok; cases d.lb <;> cases d.ub <;> simp)

/-- A Gurobi model.  Constraints carry the handle returned by `addConstr`; `next` is the next
fresh handle.  Only the parameter `MIPGap` is kept (default 1e-4) (src/optim/OptiModel.py:14-19). -/
structure GModel where
  vars : List VarDecl
  constrs : List (ℕ × Constr)
  next : ℕ
  obj : LinExpr
  maximize : Bool
  mipGap : ℚ

namespace GModel

/-- `gp.Model(..)` (src/optim/OptiModel.py:18). -/
def empty : GModel :=
  { vars := [], constrs := [], next := 0, obj := .ofConst 0, maximize := false,
    mipGap := 1 / 10 ^ 4 }

/-- `addVars` (src/optim/OptiModel.py:32, 122-125). -/
def addVars (g : GModel) (ds : List VarDecl) : GModel := { g with vars := g.vars ++ ds }

/-- `addConstr`: the new constraint gets the next handle (src/optim/OptiModel.py:53, 61, 113). -/
def addConstr (g : GModel) (c : Constr) : GModel :=
  { g with constrs := g.constrs ++ [(g.next, c)], next := g.next + 1 }

/-- Repeated `addConstr` (src/optim/OptiModel.py:88-105). -/
def addConstrs (g : GModel) (cs : List Constr) : GModel := cs.foldl addConstr g

/-- `remove`: a handle that is not in the model raises `GurobiError`
(src/optim/DeterModel.py:32). -/
def remove (g : GModel) (h : ℕ) : PyM GModel :=
  if h ∈ g.constrs.map Prod.fst then
    .ok { g with constrs := g.constrs.filter fun c => c.1 ≠ h }
  else .error .gurobiError

/-- `setObjective` (src/optim/OptiModel.py:154, src/optim/AccObjModel.py:25). -/
def setObjective (g : GModel) (e : LinExpr) (maximize : Bool) : GModel :=
  { g with obj := e, maximize }

/-- `setParam(GRB.Param.MIPGap, ..)` (src/solver/Solver.py:107, src/LowerBounder.py:24, src/BigMFinder.py:65). -/
def setMIPGap (g : GModel) (gap : ℚ) : GModel := { g with mipGap := gap }

/-- Feasible assignments of the model
(the models of src/optim/*.py; meaning of `optimize`, src/optim/OptiModel.py:183-205). -/
def Feas (g : GModel) (ρ : V → ℚ) : Prop :=
  (∀ d ∈ g.vars, d.Ok ρ) ∧ ∀ c ∈ g.constrs, c.2.Holds ρ

instance (g : GModel) (ρ : V → ℚ) : Decidable (g.Feas ρ) := by unfold Feas; infer_instance

end GModel

/-- The objective does not improve without limit on the feasible assignments
(meaning of `optimize`, src/optim/OptiModel.py:183-205). -/
def GModel.Bounded (g : GModel) : Prop :=
  ∃ B : ℚ, ∀ ρ, g.Feas ρ → if g.maximize then g.obj.eval ρ ≤ B else B ≤ g.obj.eval ρ

/-- `ρ` is an optimal assignment (meaning of `optimize`, src/optim/OptiModel.py:183-205). -/
def GModel.Optimal (g : GModel) (ρ : V → ℚ) : Prop :=
  g.Feas ρ ∧ ∀ ρ', g.Feas ρ' →
    if g.maximize then g.obj.eval ρ' ≤ g.obj.eval ρ else g.obj.eval ρ ≤ g.obj.eval ρ'

/-- What the code reads after `optimize()`: `Status`, `X`, `ObjVal`, `ObjBound`
(src/optim/OptiModel.py:200, 207-217, src/optim/CCLPModel.py:49-55). -/
structure GResult where
  status : ℕ
  sol : Option (V → ℚ)
  objVal : ℚ
  objBnd : ℚ

namespace GResult

/-- Contract of any answer: the solution is feasible and `ObjVal` is its value, `ObjBound` is a
valid bound if the model is bounded, status `INFEASIBLE` (3) only without feasible point, status
`OPTIMAL` (2) only with a solution (assumption on `optimize`, src/optim/OptiModel.py:183-205). -/
structure Valid (g : GModel) (r : GResult) : Prop where
  feas : ∀ ρ, r.sol = some ρ → g.Feas ρ ∧ g.obj.eval ρ = r.objVal
  bound : g.Bounded → ∀ ρ, g.Feas ρ →
    if g.maximize then g.obj.eval ρ ≤ r.objBnd else r.objBnd ≤ g.obj.eval ρ
  infeasible : r.status = 3 → r.sol = none ∧ ∀ ρ, ¬ g.Feas ρ
  optimal : r.status = 2 → r.sol.isSome

/-- Contract of a call without time limit: the answer is valid, not interrupted, and there is
a solution if the model is bounded and has one
(assumption on `optimize`, src/optim/OptiModel.py:183-205). -/
structure Answers (g : GModel) (r : GResult) : Prop where
  valid : Valid g r
  notInterrupted : r.status ≠ 11
  solved : g.Bounded → (∃ ρ, g.Feas ρ) → r.sol.isSome

/-- Contract of an exact call without time limit: moreover a model with an optimal solution is
solved to optimality with no gap, and a model without feasible point is reported infeasible
(assumption on `optimize`, src/optim/OptiModel.py:183-205). -/
structure Exact (g : GModel) (r : GResult) : Prop where
  answers : Answers g r
  optimum : (∃ ρ, g.Optimal ρ) → r.status = 2 ∧ r.objVal = r.objBnd
  noPoint : (∀ ρ, ¬ g.Feas ρ) → r.status = 3

/-- Solved to optimality within the model's relative `MIPGap`
(assumption on `optimize`, src/optim/OptiModel.py:183-205). -/
def WithinGap (g : GModel) (r : GResult) : Prop :=
  r.status = 2 → |r.objBnd - r.objVal| ≤ g.mipGap * |r.objVal|

/-- The exact contract can be met on every model. -/
theorem exists_exact : ∃ solve : GModel → GResult, ∀ g, Exact g (solve g) := by
  classical
  have : ∀ g : GModel, ∃ r, Exact g r := by
    intro g
    by_cases hf : ∃ ρ, g.Feas ρ
    · by_cases ho : ∃ ρ, g.Optimal ρ
      · obtain ⟨ρ, h1, h2⟩ := ho
        refine ⟨⟨2, some ρ, g.obj.eval ρ, g.obj.eval ρ⟩, ⟨⟨?_, ?_, ?_, ?_⟩, ?_, ?_⟩, ?_, ?_⟩
        · rintro ρ' h; cases h; exact ⟨h1, rfl⟩
        · intro _ ρ' h; exact h2 ρ' h
        · intro h; cases h
        · intro _; rfl
        · simp
        · intro _ _; rfl
        · intro _; exact ⟨rfl, rfl⟩
        · intro h; exact absurd h1 (h ρ)
      · obtain ⟨ρ, h1⟩ := hf
        by_cases hb : g.Bounded
        · obtain ⟨B, hB⟩ := hb
          refine ⟨⟨13, some ρ, g.obj.eval ρ, B⟩, ⟨⟨?_, ?_, ?_, ?_⟩, ?_, ?_⟩, ?_, ?_⟩
          · rintro ρ' h; cases h; exact ⟨h1, rfl⟩
          · intro _ ρ' h; exact hB ρ' h
          · intro h; cases h
          · intro _; rfl
          · simp
          · intro _ _; rfl
          · intro h; exact absurd h ho
          · intro h; exact absurd h1 (h ρ)
        · refine ⟨⟨5, none, 0, 0⟩, ⟨⟨?_, ?_, ?_, ?_⟩, ?_, ?_⟩, ?_, ?_⟩
          · rintro ρ' h; cases h
          · intro h; exact absurd h hb
          · intro h; cases h
          · intro h; cases h
          · simp
          · intro h; exact absurd h hb
          · intro h; exact absurd h ho
          · intro h; exact absurd h1 (h ρ)
    · have hf' : ∀ ρ, ¬ g.Feas ρ := fun ρ h => hf ⟨ρ, h⟩
      refine ⟨⟨3, none, 0, 0⟩, ⟨⟨?_, ?_, ?_, ?_⟩, ?_, ?_⟩, ?_, ?_⟩
      · rintro ρ' h; cases h
      · intro _ ρ h; exact absurd h (hf' ρ)
      · intro _; exact ⟨rfl, hf'⟩
      · intro h; cases h
      · decide
      · intro _ h; exact absurd h hf
      · rintro ⟨ρ, h, _⟩; exact absurd h (hf' ρ)
      · intro _; rfl
  choose f hf using this
  exact ⟨f, hf⟩

end GResult

/-- `OptiModel.solve` (src/optim/OptiModel.py:183-205) followed by reading the model: status 11
(interrupted) is turned into `KeyboardInterrupt`.  Saving the bound history is modelled in
`Model/SaveBounds.lean`. -/
def optimize (r : GResult) : PyM GResult :=
  if r.status = 11 then .error .keyboardInterrupt else .ok r

/-- `getAttr(X)` of the whole solution: Gurobi raises `AttributeError` without solution
(src/optim/OptiModel.py:213-217, src/optim/CCLPModel.py:49-55). -/
def getSol (r : GResult) : PyM (V → ℚ) :=
  match r.sol with
  | some ρ => .ok ρ
  | none => .error .attributeError

/-- `get_obj_val` (src/optim/OptiModel.py:207-208): `AttributeError` without solution. -/
def getObjVal (r : GResult) : PyM ℚ :=
  match r.sol with
  | some _ => .ok r.objVal
  | none => .error .attributeError

/-- `get_var_x_val` (src/optim/OptiModel.py:213-217). -/
def getX (r : GResult) : PyM Vec := do
  let ρ ← getSol r
  pure fun j => ρ (.x j)

end Verif.Model
