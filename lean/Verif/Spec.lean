import Verif.Data

/-!
# Specification vocabulary

The mathematical problem a user has in mind: linear constraints, satisfied
scenarios, chance constraint, objective, optimal value, partition of the
scenarios.  Nothing here refers to the model of the code.
-/

open Finset

namespace Verif

/-- `a · x` over the first `n` entries. -/
def dot (n : ℕ) (a x : Vec) : ℚ := ∑ j ∈ range n, a j * x j

namespace Spec

variable (I : Inst)

/-- The variable domain: `[0,1]^n` or `{0,1}^n`. -/
def InX (x : Vec) : Prop :=
  ∀ j < I.n, if I.cont then 0 ≤ x j ∧ x j ≤ 1 else x j = 0 ∨ x j = 1

/-- The unit box, whatever the variable type. -/
def InBox (n : ℕ) (x : Vec) : Prop := ∀ j < n, 0 ≤ x j ∧ x j ≤ 1

/-- `x` satisfies all constraints of scenario `s`. -/
def Sat (s : ℕ) (x : Vec) : Prop := ∀ i < I.m, dot I.n (I.A s i) x ≤ I.b s i

/-- Some constraint of scenario `s` is exceeded by more than `tol`. -/
def ViolBy (tol : ℚ) (s : ℕ) (x : Vec) : Prop :=
  ∃ i < I.m, tol < dot I.n (I.A s i) x - I.b s i

instance (s : ℕ) (x : Vec) : Decidable (Sat I s x) := by unfold Sat; infer_instance
instance (tol : ℚ) (s : ℕ) (x : Vec) : Decidable (ViolBy I tol s x) := by
  unfold ViolBy; infer_instance

/-- The violated scenarios. -/
def viol (x : Vec) : Finset ℕ := (range I.N).filter fun s => ¬ Sat I s x

/-- The scenarios violated by more than `tol`. -/
def violBy (tol : ℚ) (x : Vec) : Finset ℕ := (range I.N).filter fun s => ViolBy I tol s x

/-- The chance constraint: total probability of the violated scenarios at most `eps`. -/
def Chance (x : Vec) : Prop := ∑ s ∈ viol I x, I.proba s ≤ I.eps

/-- Feasible points of the chance-constrained problem. -/
def Feas (x : Vec) : Prop := InX I x ∧ Chance I x

/-- Objective value. -/
def obj (x : Vec) : ℚ := dot I.n I.c x

/-- All scenarios of the list are satisfied. -/
def SatAll (l : List ℕ) (x : Vec) : Prop := ∀ s ∈ l, Sat I s x

instance (l : List ℕ) (x : Vec) : Decidable (SatAll I l x) := by unfold SatAll; infer_instance

/-- Scenarios are equiprobable (what the parser produces). -/
def Equi : Prop := 0 < I.N ∧ ∀ s < I.N, I.proba s = 1 / (I.N : ℚ)

/-- Number of scenarios that may be violated. -/
def kmax : ℕ := ⌊I.eps * (I.N : ℚ)⌋₊

/-- `P` is a partition of the scenarios `0..N-1` into non-empty parts. -/
def IsPartition (N : ℕ) (P : List (List ℕ)) : Prop :=
  P.flatten.Perm (List.range N) ∧ ∀ p ∈ P, p ≠ []

/-- Number of parts of `P` with a scenario violated at `x`. -/
def nbViolParts (P : List (List ℕ)) (x : Vec) : ℕ := P.countP fun p => ¬ SatAll I p x

/-- Number of parts of `P` with a scenario violated at `x` by more than `tol`. -/
def nbViolPartsBy (tol : ℚ) (P : List (List ℕ)) (x : Vec) : ℕ :=
  P.countP fun p => ∃ s ∈ p, ViolBy I tol s x

/-- Feasible points of the partitioned problem for equiprobable scenarios: at most
`kmax` parts contain a violated scenario. -/
def PartFeas (P : List (List ℕ)) (x : Vec) : Prop := InX I x ∧ nbViolParts I P x ≤ kmax I

/-- Non-negative constraint data and capacities. -/
def NonnegAb : Prop := ∀ s < I.N, ∀ i < I.m, 0 ≤ I.b s i ∧ ∀ j < I.n, 0 ≤ I.A s i j

/-- Non-negative objective. -/
def NonnegC : Prop := ∀ j < I.n, 0 ≤ I.c j

/-- `x` is an optimal solution, of value `v`, of the deterministic problem that satisfies all
scenarios of the list. -/
def DetOpt (l : List ℕ) (v : ℚ) (x : Vec) : Prop :=
  (InX I x ∧ SatAll I l x ∧ obj I x = v) ∧ ∀ y, InX I y → SatAll I l y → obj I y ≤ v

/-- `x` is an optimal solution of the chance-constrained problem. -/
def IsOptimal (x : Vec) : Prop := Feas I x ∧ ∀ y, Feas I y → obj I y ≤ obj I x

end Spec
end Verif
