import Mathlib.Algebra.BigOperators.Intervals
import Mathlib.Algebra.Order.BigOperators.Group.Finset
import Mathlib.Algebra.Order.Ring.Rat
import Mathlib.Algebra.Order.Field.Basic
import Mathlib.Data.Rat.Floor
import Mathlib.Algebra.Order.Floor.Ring
import Mathlib.Data.List.Perm.Basic
import Mathlib.Data.List.Nodup
import Mathlib.Data.List.Range
import Mathlib.Order.WithBot
import Mathlib.Tactic.Linarith
import Mathlib.Tactic.Ring
import Mathlib.Tactic.FieldSimp
import Mathlib.Tactic.NormNum
import Mathlib.Tactic.Positivity
import Mathlib.Tactic.Push

/-!
# Common imports and the Python exception type
-/

namespace Verif

/-- A numeric vector (`np.array` of floats, `gp.tupledict` of variables): only the
entries below the instance's `nb_vars` are ever read
(e.g. src/instance/ChanceKnapInstance.py:31). -/
abbrev Vec := ℕ → ℚ

/-- Python exceptions as values.  `assertion` carries the place of the failing
`assert`, and three other exceptions also exist with their place; `fuel` is not a Python
exception: it marks a `while` loop that did not stop within the given number of rounds (e.g. src/solver/AdaptivePartitioner.py:239). -/
inductive PyErr
  | assertion (site : String)
  | keyError
  | indexError
  | valueError
  | typeError
  | attributeError
  | notImplementedError
  | zeroDivisionError
  | unboundLocalError
  | valueErrorAt (site : String)
  | unboundLocalErrorAt (site : String)
  | gurobiError
  | gurobiErrorAt (site : String)
  | keyboardInterrupt
  | fuel
  deriving DecidableEq, Repr

/-- Result of a Python call that may raise (e.g. src/solver/AdaptivePartitioner.py:239). -/
abbrev PyM (α : Type) := Except PyErr α

/-- Python `assert cond` tagged with its source position (e.g. src/UpperBounder.py:27). -/
def pyAssert (site : String) (p : Prop) [Decidable p] : PyM Unit :=
  if p then .ok () else .error (.assertion site)

@[simp] theorem pyAssert_true {site : String} {p : Prop} [Decidable p] (h : p) :
    pyAssert site p = .ok () := by simp [pyAssert, h]

@[simp] theorem pyAssert_false {site : String} {p : Prop} [Decidable p] (h : ¬ p) :
    pyAssert site p = .error (.assertion site) := by simp [pyAssert, h]

theorem pyAssert_eq_ok {site : String} {p : Prop} [Decidable p] {u : Unit} :
    pyAssert site p = .ok u ↔ p := by
  by_cases h : p <;> simp [pyAssert, h]

end Verif
