import Verif.Model.Optim

/-!
# Model of `Evaluator` (src/Evaluator.py) and of the pruning of `UpperBounder`

Progress printing is left out.
-/

namespace Verif.Model

/-- `subset_cost` (src/Evaluator.py:22-38): objective and solution of the deterministic model of
the given scenarios. -/
def subsetCost (I : Inst) (solve : GModel → GResult) (subset : List ℕ) : PyM (ℚ × Vec) := do
  let r ← optimize (solve (Deter.build (instCI I) subset).g)
  let v ← getObjVal r
  let x ← getX r
  pure (v, x)

/-- `scenario_costs` (src/Evaluator.py:40-50); `solve k` answers the `k`-th call. -/
def scenarioCosts (I : Inst) (solve : ℕ → GModel → GResult) (scenarios : List ℕ) :
    PyM (List ℚ) :=
  scenarios.zipIdx.mapM fun p => do
    let r ← subsetCost I (solve p.2) [p.1]
    pure r.1

/-- `get_all_single_scenario_costs` (src/Evaluator.py:52-60). -/
def allScenarioCosts (I : Inst) (solve : ℕ → GModel → GResult) : PyM (List ℚ) :=
  scenarioCosts I solve (List.range I.N)

/-- `partition_cost` (src/Evaluator.py:62-80): costs and solutions of all subsets. -/
def partitionCost (I : Inst) (solve : ℕ → GModel → GResult) (P : List (List ℕ)) :
    PyM (List ℚ × List Vec) := do
  let rs ← P.zipIdx.mapM fun p => subsetCost I (solve p.2) p.1
  pure (rs.map Prod.fst, rs.map Prod.snd)

/-- `prune_indices` of `partition_bound` (src/UpperBounder.py:110-112):
`np.where(np.array(subset_costs) <= (vLB - TOL))[0]`; `⊥` is `-np.inf`. -/
def pruneIndices (costs : List ℚ) (vLB : WithBot ℚ) : List ℕ :=
  match vLB with
  | ⊥ => []
  | (v : ℚ) => (List.range costs.length).filter fun c => costs.getD c 0 ≤ v - 1 / 10 ^ 3

end Verif.Model
