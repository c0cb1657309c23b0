import Verif.Model.Solve
import Verif.Props.Bounding
import Verif.Props.Refine

/-!
# What is assumed about the instance and the solver in theorems about whole runs
-/

namespace Verif.Model
open Spec Props

/-- Every violated scenario is violated by more than the tolerance of `is_feasible`.  It holds for
all binary points if the data have one decimal digit (`sharp_of_grid`). -/
def Sharp (I : Inst) (x : Vec) : Prop := ∀ s < I.N, ¬ Sat I s x → ViolBy I tol s x

/-- What is assumed about the instance and the answers of the solver: equiprobable scenarios, a
tolerance that does not reach the next scenario, non-negative data, exact subset costs with sharp
solutions, valid answers to the other problems. -/
structure Contract (env : Env) (I : Inst) : Prop where
  equi : Equi I
  eps : 0 ≤ I.eps
  tolOk : TolOk I
  ab : NonnegAb I
  c : NonnegC I
  m : 0 < I.m
  n : 0 < I.n
  sub : ∀ t k g, GResult.Exact g (env.sub t k g)
  sharp : ∀ t k l v x, subsetCost I (env.sub t k) l = .ok (v, x) → Sharp I x
  cc : ∀ t g, GResult.Valid g (env.cc t g)
  lb : ∀ t g, GResult.Valid g (env.lb t g)
  acc : ∀ t k g, GResult.Answers g (env.acc t k g)
  big : ∀ t g, GResult.Answers g (env.big t g)

/-- What is assumed in addition for runs without exceptions: calls are not cut off and report
infeasible models, the clock does not run backwards, the configuration is one of those accepted
by the components. -/
structure Strong (env : Env) (cfg : Cfg) (I : Inst) (rounds : ℕ) : Prop where
  cc : ∀ t g, GResult.Answers g (env.cc t g)
  lb : ∀ t g, GResult.Answers g (env.lb t g)
  lbInf : ∀ t g, (∀ ρ, ¬ GModel.Feas g ρ) → (env.lb t g).status = 3
  clock : Monotone env.clock
  method : (cfg.splitMethod = "random" ∧ cfg.useAccObj = false)
    ∨ (cfg.splitMethod = "cost" ∧ cfg.useAccObj = true)
  init : cfg.initType = "random" ∨ cfg.initType = "cost"
  proj : cfg.projection = "counter" ∨ cfg.projection = "rescaled_max_violation"
  bigM : cfg.useBigM = true → cfg.bigMMethod = "naive" ∨ cfg.bigMMethod = "belotti" ∨ cfg.bigMMethod = "song"
  rounds : kmax I + 1 ≤ rounds

/-- The exceptions that remain: the division by a lower bound of 0, a check that is only made
with continuous variables, and a negative time limit for Gurobi when the time is up. -/
def Allowed (env : Env) (cfg : Cfg) (I : Inst) (s : St) (e : PyErr) : Prop :=
  (e = .zeroDivisionError ∧ s.vLB = ((0 : ℚ) : WithBot ℚ))
  ∨ (e = .assertion "UpperBounder.py:27" ∧ I.cont = true)
  ∨ (e = .gurobiErrorAt "Solver.py:113" ∧ remaining env.clock cfg.timeLimit s.reads = 0)

/-- The solver closes the gap of the partitioned problems. -/
def Tight (env : Env) : Prop :=
  ∀ t g ρ, (env.cc t g).sol = some ρ → (env.cc t g).objVal = (env.cc t g).objBnd

/-- The solver stops within the relative gap 1e-8 that the code sets for the partitioned problems,
not because of the time limit. -/
def NearTight (env : Env) : Prop :=
  ∀ t g ρ, g.mipGap = 1 / 10 ^ 8 → (env.cc t g).sol = some ρ →
    (env.cc t g).status = 2 ∧ GResult.WithinGap g (env.cc t g)

end Verif.Model
