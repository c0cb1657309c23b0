import Verif.Py
import Verif.Spec

/-!
# Model of `PartitionChanceKnapInstance` and of the instance interface

The optimisation models only use the getters of `ChanceInstance`
(src/instance/ChanceInstance.py:44-122); `PartitionChanceKnapInstance` overrides some of
them.  `CI` is that interface.
-/

namespace Verif.Model

/-- The getters used by the optimisation models: `get_nb_vars`, `get_nb_scenarios`,
`get_nb_constraints`, `get_matrix_A`, `get_vector_b`, `get_proba`, `get_epsilon`,
`get_vector_c`, `get_var_type` (src/instance/ChanceInstance.py:44-122). -/
structure CI where
  n : ℕ
  nbScen : ℕ
  nbCon : ℕ → ℕ
  row : ℕ → ℕ → ℕ → ℚ
  rhs : ℕ → ℕ → ℚ
  proba : ℕ → ℚ
  eps : ℚ
  c : ℕ → ℚ
  cont : Bool

/-- A `ChanceKnapInstance` seen through its getters
(src/instance/ChanceInstance.py:44-122). -/
def instCI (I : Inst) : CI :=
  { n := I.n, nbScen := I.N, nbCon := fun _ => I.m, row := I.A, rhs := I.b, proba := I.proba,
    eps := I.eps, c := I.c, cont := I.cont }

/-- The attributes set by `load_partition`
(src/instance/PartitionChanceKnapInstance.py:14-29). -/
structure PartData where
  nbSubsets : ℕ
  partition : List (List ℕ)
  nbConPart : List ℕ
  probaPart : List ℚ
  epsPart : ℚ

/-- `np.array.min()`: `ValueError` on an empty array
(src/instance/PartitionChanceKnapInstance.py:24). -/
def npMin : List ℚ → PyM ℚ
  | [] => .error .valueError
  | a :: l => .ok (l.foldl min a)

/-- `load_partition` (src/instance/PartitionChanceKnapInstance.py:14-29).
`self.nb_constraints[partition[subset]].sum()` is `m` per scenario of the subset.
Division by a zero total probability is left as `x / 0 = 0` (numpy would warn); it
cannot happen for positive probabilities. -/
def loadPartition (I : Inst) (nbSubsets : ℕ) (partition : List (List ℕ)) : PyM PartData := do
  let nbConPart ← (List.range nbSubsets).mapM fun c => do
    let p ← pyGet partition c
    pure ((p.map fun _ => I.m).sum)
  let minProba ← (List.range nbSubsets).mapM fun c => do
    let p ← pyGet partition c
    npMin (p.map I.proba)
  let totalProba := minProba.sum
  pure { nbSubsets, partition, nbConPart
         probaPart := minProba.map fun q => q / totalProba
         epsPart := I.eps / totalProba }

/-- Row-major entry `k` of the array `matrices_A[partition[c], :, :]`, which has shape
`(len(partition[c]), m, n)` (src/instance/PartitionChanceKnapInstance.py:37-39). -/
def stackedA (I : Inst) (p : List ℕ) (k : ℕ) : ℚ :=
  I.A (p.getD (k / (I.m * I.n)) 0) (k / I.n % I.m) (k % I.n)

/-- Row-major entry `k` of the array `vectors_b[partition[c], :]`, of shape
`(len(partition[c]), m)` (src/instance/PartitionChanceKnapInstance.py:47-48). -/
def stackedB (I : Inst) (p : List ℕ) (k : ℕ) : ℚ := I.b (p.getD (k / I.m) 0) (k % I.m)

/-- The partitioned instance seen through its getters
(src/instance/PartitionChanceKnapInstance.py:31-72).  `get_matrix_A` reshapes the stacked
array to `(nb_constraints_part[c], nb_vars)` in row-major order: entry `(k, j)` is entry
`k * nb_vars + j` of the stacked array. -/
def partCI (I : Inst) (D : PartData) : CI :=
  { n := I.n, nbScen := D.nbSubsets
    nbCon := fun c => D.nbConPart.getD c 0
    row := fun c k j => stackedA I (D.partition.getD c []) (k * I.n + j)
    rhs := fun c k => stackedB I (D.partition.getD c []) k
    proba := fun c => D.probaPart.getD c 0
    eps := D.epsPart, c := I.c, cont := I.cont }

end Verif.Model
