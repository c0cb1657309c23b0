import Verif.Model.PartInst
import Verif.Model.Instance

/-!
# Model of `Merger` (src/Merger.py)

Printing is left out.  The lists `partition` are changed in place by the code; here they are
returned.
-/

namespace Verif.Model

/-- `partition`, `target_subsets` and `deleted_subsets` during a merge
(src/Merger.py:38-50, 92-121). -/
structure MState where
  partition : List (List ℕ)
  targets : List ℕ
  deleted : List ℕ
  deriving DecidableEq

/-- `_merge_two_subsets_in_partition` (src/Merger.py:38-50). -/
def mergeTwo (st : MState) (c1 c2 : ℕ) : PyM MState := do
  let target := min c1 c2
  let del := max c1 c2
  let targets := if target ∈ st.targets then st.targets else st.targets ++ [target]
  let pT ← pyGet st.partition target
  let pD ← pyGet st.partition del
  let P ← pySet st.partition target (pT ++ pD)
  pure { partition := P, targets, deleted := st.deleted ++ [del] }

/-- Loop `for c in sorted_subsets: del l[c]` (src/Merger.py:34-35,
src/solver/AdaptivePartitioner.py:210-212). -/
def delAll {α : Type} : List ℕ → List α → PyM (List α)
  | [], l => .ok l
  | c :: cs, l => do
    let l ← pyDel l c
    delAll cs l

/-- `np.sort(l)[::-1]` (src/Merger.py:33). -/
def sortDesc (l : List ℕ) : List ℕ := l.insertionSort (· ≥ ·)

/-- `_delete_subsets` (src/Merger.py:31-36). -/
def deleteSubsets (st : MState) : PyM MState := do
  let P ← delAll (sortDesc st.deleted) st.partition
  pure { st with partition := P }

/-- `min(l)` of a list of integers: `ValueError` if empty (src/Merger.py:97). -/
def pyMin : List ℕ → PyM ℕ
  | [] => .error .valueError
  | a :: l => .ok (l.foldl min a)

/-- The loop of `merge_all` (src/Merger.py:98-101). -/
def mergeAllLoop (mn : ℕ) : List ℕ → MState → PyM MState
  | [], st => .ok st
  | s :: l, st =>
    if ¬ s = mn then do
      let st ← mergeTwo st mn s
      mergeAllLoop mn l st
    else mergeAllLoop mn l st

/-- `merge_all` (src/Merger.py:92-106). -/
def mergeAll (P : List (List ℕ)) (candidates : List ℕ) : PyM MState := do
  let mn ← pyMin candidates
  let st ← mergeAllLoop mn candidates { partition := P, targets := [], deleted := [] }
  let st ← deleteSubsets st
  pyAssert "Merger.py:105" (st.partition.length + st.deleted.length = P.length)
  pure st

/-- The loop of `merge` (src/Merger.py:114-116): pair `i` is `infeasible[i]`, `candidates[i]`. -/
def mergeLoop : List ℕ → List ℕ → MState → PyM MState
  | [], _, st => .ok st
  | _ :: _, [], _ => .error .indexError
  | c :: cs, d :: ds, st => do
    let st ← mergeTwo st d c
    mergeLoop cs ds st

/-- `merge` (src/Merger.py:108-121). -/
def mergePairs (P : List (List ℕ)) (candidates infeasible : List ℕ) : PyM MState := do
  let st ← mergeLoop candidates infeasible { partition := P, targets := [], deleted := [] }
  let st ← deleteSubsets st
  pyAssert "Merger.py:120" (st.partition.length + st.deleted.length = P.length)
  pure st

/-- `_single_subset_margin` (src/Merger.py:12-29); `⊤` is `np.inf`. -/
def subsetMargin (norm : Norm) (J : CI) (x : Vec) (c : ℕ) : WithTop ℚ :=
  (List.range (J.nbCon c)).foldl (fun (m : WithTop ℚ) i =>
    let margin := J.rhs c i - dot J.n (J.row c i) x
    let rescaling := norm.val J.n (J.row c i)
    let margin := if rescaling ≠ 0 then margin / rescaling else margin
    min (margin : WithTop ℚ) m) ⊤

/-- `merge_feasible` (src/Merger.py:123-146).  The keys of the dictionary `margins` are the
distinct candidates in order of first occurrence; `sorted(.., reverse=True)` is stable. -/
def mergeFeasible (norm : Norm) (J : CI) (P : List (List ℕ)) (x : Vec) (candidates : List ℕ)
    (mu : ℕ) : PyM MState := do
  let keys := candidates.foldl (fun ks c => if c ∈ ks then ks else ks ++ [c]) []
  let top := (keys.insertionSort fun a b =>
    subsetMargin norm J x b ≤ subsetMargin norm J x a).take (mu + 1)
  pyAssert "Merger.py:137" (top.length = mu + 1)
  let st ← mergeAll P top
  pyAssert "Merger.py:145" (st.partition.length + st.deleted.length = P.length)
  pure st

/-- `sort_subset_costs` (src/Merger.py:53-56): the pairs are compared lexicographically. -/
def sortSubsetCosts (candidates : List ℕ) (costs : List ℚ) : List ℕ :=
  ((costs.zip candidates).insertionSort fun a b => b.1 < a.1 ∨ (b.1 = a.1 ∧ b.2 ≤ a.2)).map
    Prod.snd

/-- `find_inf_candidate` (src/Merger.py:78-90). -/
def findInfCandidate (infeasible : List ℕ) (costs : List ℚ) (vUB : WithTop ℚ) :
    PyM (List ℕ) := do
  let cand ← pyFilter (fun c => do
    let v ← pyGet costs c
    pure (decide ((v : WithTop ℚ) ≤ vUB))) infeasible
  pure (sortSubsetCosts cand costs)

/-- `can_merge_feasible` (src/Merger.py:58-76) for a finite `vUB`: `max` of an empty list raises
`ValueError`. -/
def canMergeFeasible (newCosts : List ℚ) (vUB : ℚ) (nbFeasible : ℕ) (mergeTol : ℚ) :
    PyM Bool := do
  pyAssert "Merger.py:75" (1 ≤ mergeTol)
  match newCosts with
  | [] => .error .valueError
  | a :: l => pure (decide (l.foldl max a ≤ mergeTol * vUB) && decide (2 ≤ nbFeasible))

end Verif.Model
