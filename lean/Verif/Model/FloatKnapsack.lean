import Verif.Model.FloatViolations

/-!
# `solve_continuous_knapsack` in double precision (src/song_big_m.py:4-31)

Every operation is rounded to the nearest double (ties to even).  Overflow, underflow and `nan` are left
out.
-/

namespace Verif.Model

/-- The loop over `ordered_values_index` on doubles (src/song_big_m.py:20-29). -/
def flKnapLoop (rev w : List ℚ) (capacity : ℚ) : List ℕ → ℚ → ℚ → PyM ℚ
  | [], profit, _ => .ok profit
  | i :: is, profit, kw => do
    let available := rd (capacity - kw)
    if 0 < available then
      let quantity := min (rd (available / w.getD i 0)) 1
      pyAssert "song_big_m.py:24" (0 ≤ quantity)
      if 0 < rev.getD i 0 then
        flKnapLoop rev w capacity is (rd (profit + rd (rev.getD i 0 * quantity)))
          (rd (kw + rd (w.getD i 0 * quantity)))
      else flKnapLoop rev w capacity is profit kw
    else .ok profit

/-- `solve_continuous_knapsack` on arrays of `n` doubles (src/song_big_m.py:4-31). -/
def flKnapsack (argsort : Argsort) (n : ℕ) (revenue : Vec) (objConstant : ℚ) (weights : Vec)
    (capacity : ℚ) : PyM ℚ :=
  let zero := (List.range n).filter fun i => weights i = 0
  let profit := zero.foldl (fun p i => rd (p + revenue i)) (-objConstant)
  let keep := (List.range n).filter fun i => weights i ≠ 0
  let rev := keep.map revenue
  let w := keep.map weights
  let values := List.zipWith (fun r q => rd (r / q)) rev w
  flKnapLoop rev w capacity (argsort.run (values.map fun v => -v)) profit 0

/-- `run_belotti_et_al_big_M` with continuous variables on doubles (src/BigMFinder.py:40-61, 134-141). -/
def flBelottiContinuous (argsort : Argsort) (J : CI) (nb : ℕ) (vUB : ℚ) : PyM (List (List ℚ)) :=
  (List.range nb).mapM fun s => (List.range (J.nbCon s)).mapM fun i =>
    flKnapsack argsort J.n (J.row s i) (J.rhs s i) J.c vUB

end Verif.Model
