import Verif.Model.Report
import Verif.Model.Violations

/-!
# The comparison of `violations.h` in double precision
-/

namespace Verif.Model

/-- `Comp::operator()` (violations.h:17-25) on non-negative doubles: the two products are rounded to
the nearest double. -/
def flComp (profits weights : Vec) (i j : ℕ) : Bool :=
  if profits i = 0 ∧ weights i = 0 then false
  else if profits j = 0 ∧ weights j = 0 then true
  else decide (fl64 (profits i * weights j) > fl64 (profits j * weights i))

end Verif.Model
