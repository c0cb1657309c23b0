import Verif.Model.Report
import Mathlib.Data.List.Perm.Basic

/-!
# Decisions of the code in double precision

The other modules compute with exact rationals.  Here the places where a number is turned into a
yes/no or an integer are modelled with the rounding errors of doubles.  Overflow, underflow and
`nan` are left out.
-/

namespace Verif.Model

/-- `v` is a possible result of a double operation with the exact result `q`: relative error at most
`2^-53` (the additions, products and differences of src/instance/ChanceKnapInstance.py:62-69). -/
def Rounds (q v : ℚ) : Prop := |v - q| ≤ 1 / 2 ^ 53 * |q|

/-- `v` is a possible result of summing the list in double precision, in any order and with any
bracketing, as BLAS may do it (src/instance/ChanceKnapInstance.py:69).  Adding to an empty sum makes
no error. -/
inductive FlSum : List ℚ → ℚ → Prop
  | nil : FlSum [] 0
  | single (a : ℚ) : FlSum [a] a
  | add {l l' : List ℚ} {v v' w : ℚ} : l ≠ [] → l' ≠ [] → FlSum l v → FlSum l' v' →
      Rounds (v + v') w → FlSum (l ++ l') w
  | perm {l l' : List ℚ} {v : ℚ} : l.Perm l' → FlSum l v → FlSum l' v

/-- `A_si.dot(var_x)` (src/instance/ChanceKnapInstance.py:69); a fused multiply-add rounds the
product without error. -/
def FlDot (n : ℕ) (a x : Vec) (v : ℚ) : Prop :=
  ∃ p : Vec, (∀ j < n, Rounds (a j * x j) (p j)) ∧ FlSum ((List.range n).map p) v

/-- `_get_constraint_violation` (src/instance/ChanceKnapInstance.py:61-69). -/
def FlViolation (n : ℕ) (a x : Vec) (b w : ℚ) : Prop :=
  ∃ v d, FlDot n a x v ∧ Rounds (v - b) d ∧ w = max d 0

/-- The flags of `_get_scenario_infeasibility` and `_get_infeasible_scenarios`
(src/instance/ChanceKnapInstance.py:82-106); the literal `1e-6` is the nearest double. -/
def FlFlags (I : Inst) (x : Vec) (flags : List Bool) : Prop :=
  ∃ w : ℕ → ℕ → ℚ, (∀ s < I.N, ∀ i < I.m, FlViolation I.n (I.A s i) x (I.b s i) (w s i)) ∧
    flags = (List.range I.N).map fun s => decide (∃ i < I.m, fl64 (1 / 10 ^ 6) < w s i)

/-- `nb_infeasible_scenarios` (src/instance/ChanceKnapInstance.py:119). -/
def flCount (flags : List Bool) : ℕ := (flags.map fun f => if f then 1 else 0).sum

/-- `sol_is_feasible` (src/instance/ChanceKnapInstance.py:120-121). -/
def flVerdict (I : Inst) (flags : List Bool) : Bool :=
  decide ((flCount flags : ℚ) ≤ fl64 (I.eps * I.N))

/-- `math.floor(epsilon*nb_scenarios)` (src/solver/AdaptivePartitioner.py:86-87,
src/refiner/Refiner.py:88, src/BigMFinder.py:98). -/
def flFloor (I : Inst) : ℤ := ⌊fl64 (I.eps * I.N)⌋

/-- The loop of `ahmed_et_al_bound` (src/UpperBounder.py:55-63): the scenario at which it stops;
`thr` is `epsilon + 1e-7`. -/
def flQuantileLoop (proba : ℕ → ℚ) (thr : ℚ) : List ℕ → ℚ → Option ℕ
  | [], _ => none
  | s :: ss, total =>
    if fl64 (total + proba s) ≥ thr then some s
    else flQuantileLoop proba thr ss (fl64 (total + proba s))

/-- `bounding_scenario` of `ahmed_et_al_bound` (src/UpperBounder.py:52-63) for scenarios sorted as
in the list. -/
def flQuantile (I : Inst) (sorted : List ℕ) : Option ℕ :=
  flQuantileLoop I.proba (fl64 (I.eps + fl64 (1 / 10 ^ 7))) sorted 0

/-- The loop of `_get_selected_scenarios` (src/LowerBounder.py:85-94): `index_counter` when it
stops; `thr` is `1 - epsilon - TOL`. -/
def flSelectLoop (proba : ℕ → ℚ) (thr : ℚ) : List ℕ → ℕ → ℚ → Option ℕ
  | [], _, _ => none
  | s :: ss, k, total =>
    if fl64 (total + proba s) ≥ thr then some (k + 1)
    else flSelectLoop proba thr ss (k + 1) (fl64 (total + proba s))

/-- `_get_selected_scenarios` (src/LowerBounder.py:77-94) for scenarios sorted as in the list.  A
negative threshold is replaced by zero, which changes nothing since the total is never negative. -/
def flSelected (I : Inst) (sorted : List ℕ) : Option (List ℕ) :=
  (flSelectLoop I.proba (fl64 (fl64 (1 - I.eps) - fl64 (1 / 10 ^ 7))) sorted 0 0).map
    fun k => sorted.take k

/-- The instance as the program holds it: the nearest doubles of the data, of `1/nb_scenarios` and
of the risk level (main.py:19, src/instance/ChanceKnapInstance.py:31-45).  `np.round` divides the
integer `rint(10 x)` by ten, so a number with one decimal digit becomes the nearest double. -/
def dbl (I : Inst) : Inst :=
  { I with A := fun s i j => fl64 (I.A s i j), b := fun s i => fl64 (I.b s i),
           c := fun j => fl64 (I.c j), proba := fun s => fl64 (I.proba s), eps := fl64 I.eps }

end Verif.Model
