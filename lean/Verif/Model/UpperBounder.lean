import Verif.Py
import Verif.Spec

/-!
# Model of the sorting bounds of `UpperBounder` (src/UpperBounder.py:42-78)
-/

namespace Verif.Model

/-- The loop of `ahmed_et_al_bound` (src/UpperBounder.py:55-63); falling off the end returns
`None`. -/
def quantileLoop (costs : List ℚ) (proba : ℕ → ℚ) (eps : ℚ) : List ℕ → ℚ → Option ℚ
  | [], _ => none
  | s :: ss, total =>
    let total := total + proba s
    if total ≥ eps + 1 / 10 ^ 7 then some (costs.getD s 0)
    else quantileLoop costs proba eps ss total

/-- `ahmed_et_al_bound` (src/UpperBounder.py:42-63). -/
def ahmedBound (argsort : Argsort) (costs : List ℚ) (proba : ℕ → ℚ) (eps : ℚ) : Option ℚ :=
  quantileLoop costs proba eps (argsort.run costs) 0

/-- Index of the first maximum of `a :: l`, whose elements have indices `i, i+1, ..`; `best`
is the best index so far with value `v` (src/UpperBounder.py:70). -/
def argmaxLoop : List ℚ → ℕ → ℕ → ℚ → ℕ
  | [], _, best, _ => best
  | a :: l, i, best, v => if v < a then argmaxLoop l (i + 1) i a else argmaxLoop l (i + 1) best v

/-- `np.argmax`: the first index of the maximum, `ValueError` on an empty array
(src/UpperBounder.py:70). -/
def npArgmax : List ℚ → PyM ℕ
  | [] => .error .valueError
  | a :: l => .ok (argmaxLoop l 1 0 a)

/-- What the upper-bound step hands back: `x, z, v_obj, v_bnd`
(src/UpperBounder.py:65-78, src/solver/Solver.py:118-123). -/
structure UBOut where
  x : Vec
  z : List ℚ
  vObj : ℚ
  vBnd : ℚ

/-- `first_iteration_bound` (src/UpperBounder.py:65-78). -/
def firstIterationBound (costs : List ℚ) (sols : List Vec) : PyM UBOut := do
  let c ← npArgmax costs
  let x ← pyGet sols c
  let z ← pySet (List.replicate costs.length 0) c 1
  let v ← pyGet costs c
  pure { x, z, vObj := v, vBnd := v }

end Verif.Model
