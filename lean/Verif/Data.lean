import Verif.Basic

/-!
# Problem data

`src/instance/ChanceInstance.py`, `ChanceKnapInstance.py` (attributes set in
`_parse_indices`, `_parse_additional_parameters`, `_parse_model_data`).
-/

namespace Verif

/-- The data held by a `ChanceKnapInstance`
(src/instance/ChanceKnapInstance.py:17-59).

* `n` = `nb_vars`, `N` = `nb_scenarios`, `m` = the common value of `nb_constraints[s]`
  (the parser fills `nb_constraints` with one number, lines 52-53);
* `A s i j` = `matrices_A[s, i, j]`, `b s i` = `vectors_b[s, i]`, `c j` = `vector_c[j]`;
* `proba s` = `proba[s]`, `eps` = `epsilon`;
* `cont` = `continuous_var`: `True` gives variables in `[0,1]`, `False` binary variables
  (lines 51-59; the infinite bounds of the binary case are irrelevant for binary
  variables).

Simplification: floats are exact rationals. -/
structure Inst where
  n : ℕ
  N : ℕ
  m : ℕ
  A : ℕ → ℕ → ℕ → ℚ
  b : ℕ → ℕ → ℚ
  c : ℕ → ℚ
  proba : ℕ → ℚ
  eps : ℚ
  cont : Bool

end Verif
