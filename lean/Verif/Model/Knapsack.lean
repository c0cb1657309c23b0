import Verif.Py
import Verif.Spec

/-!
# Model of `solve_continuous_knapsack` (src/song_big_m.py:4-31)
-/

namespace Verif.Model

/-- The loop over `ordered_values_index` (src/song_big_m.py:20-29): `rev`, `w` are the arrays
after removal of the zero-weight items, `kw` is `knapsack_weight`. -/
def knapLoop (rev w : List ℚ) (capacity : ℚ) : List ℕ → ℚ → ℚ → PyM ℚ
  | [], profit, _ => .ok profit
  | i :: is, profit, kw => do
    let available := capacity - kw
    if 0 < available then
      let quantity := min (available / w.getD i 0) 1
      pyAssert "song_big_m.py:24" (0 ≤ quantity)
      if 0 < rev.getD i 0 then
        knapLoop rev w capacity is (profit + rev.getD i 0 * quantity)
          (kw + w.getD i 0 * quantity)
      else knapLoop rev w capacity is profit kw
    else .ok profit

/-- `solve_continuous_knapsack` (src/song_big_m.py:4-31) on arrays of length `n`. -/
def solveContinuousKnapsack (argsort : Argsort) (n : ℕ) (revenue : Vec) (objConstant : ℚ)
    (weights : Vec) (capacity : ℚ) : PyM ℚ :=
  let zero := (List.range n).filter fun i => weights i = 0
  let profit := zero.foldl (fun p i => p + revenue i) (-objConstant)
  let keep := (List.range n).filter fun i => weights i ≠ 0
  let rev := keep.map revenue
  let w := keep.map weights
  let values := List.zipWith (fun r q => r / q) rev w
  knapLoop rev w capacity (argsort.run (values.map fun v => -v)) profit 0

end Verif.Model
