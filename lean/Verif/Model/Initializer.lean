import Verif.Py
import Verif.Spec

/-!
# Model of `Initializer` (src/Initializer.py)
-/

namespace Verif.Model

/-- `_random_partition` (src/Initializer.py:16-24). -/
def randomPartition (sample : Shuffle) (scenarios : List ℕ) (n : ℕ) : List (List ℕ) :=
  let scenarios := sample.run scenarios
  (List.range n).map fun i => sliceStep scenarios i n

/-- `_single_scenario_cost_partition` (src/Initializer.py:26-47); the list of
single-scenario costs (line 36) is an argument.  Indexing `sorted_indices[j]`,
`scenarios[..]` is always in range because `np.argsort` is a permutation of the
indices. -/
def costPartition (argsort : Argsort) (N : ℕ) (scenarios : List ℕ) (nbClusters : ℕ)
    (scenarioCosts : List ℚ) : List (List ℕ) :=
  let sortedIndices := argsort.run (scenarioCosts.map fun v => -v)
  (List.range nbClusters).map fun i =>
    (pyRange i N nbClusters).map fun j => scenarios.getD (sortedIndices.getD j 0) 0

/-- `_check_partitions` (src/Initializer.py:49-56). -/
def checkPartitions (N : ℕ) (partitions : List (List ℕ)) (nbClusters : ℕ) : PyM Unit := do
  pyAssert "Initializer.py:54" (partitions.flatten.length = N)
  pyAssert "Initializer.py:55" (partitions.flatten.dedup.length = N)
  pyAssert "Initializer.py:56" (partitions.length = nbClusters)

/-- `create_first_partition` (src/Initializer.py:58-76); `costs` are the single-scenario
costs computed by the evaluator when the type is `'cost'`. -/
def createFirstPartition (sample : Shuffle) (argsort : Argsort) (costs : List ℚ) (N : ℕ)
    (nbClusters : ℕ) (partitionType : String) : PyM (List (List ℕ)) := do
  pyAssert "Initializer.py:60" (nbClusters ≤ N)
  let scenarios := List.range N
  let partitions ←
    if partitionType = "random" then pure (randomPartition sample scenarios nbClusters)
    else if partitionType = "cost" then
      pure (costPartition argsort N scenarios nbClusters costs)
    else throw .notImplementedError
  checkPartitions N partitions nbClusters
  pure partitions

end Verif.Model
