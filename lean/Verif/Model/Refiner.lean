import Verif.Model.Instance
import Verif.Model.Optim

/-!
# Model of the refiners (src/refiner)

Printing is left out.  `self.*` attributes are fields of a state record.
-/

namespace Verif.Model

/-- `_count_infeasible_scenarios` (src/refiner/Refiner.py:39-60).  The early return for an
empty list of infeasible scenarios gives the same zeros. -/
def countInfeasible (P : List (List ℕ)) (inf : List ℕ) : List ℕ :=
  P.map fun p => p.countP fun s => s ∈ inf

/-- `_find_infeasible_subsets` (src/refiner/Refiner.py:62-75): indices of the feasible and of
the infeasible subsets. -/
def findInfeasibleSubsets (P : List (List ℕ)) (inf : List ℕ) : List ℕ × List ℕ :=
  let nb := countInfeasible P inf
  ((List.range P.length).filter fun c => nb.getD c 0 = 0,
   (List.range P.length).filter fun c => ¬ nb.getD c 0 = 0)

/-- `_find_number_of_splits_to_perform` (src/refiner/Refiner.py:77-98). -/
def numberOfSplits (I : Inst) (nbInfeasibleSubsets : ℕ) : PyM ℕ := do
  let mu : ℤ := ⌊I.eps * (I.N : ℚ)⌋ + 1 - (nbInfeasibleSubsets : ℤ)
  pyAssert "Refiner.py:92" (1 ≤ mu)
  pure mu.toNat

/-- `_split_sorted_subset` (src/refiner/Refiner.py:108-122). -/
def splitSortedSubset (l : List ℕ) : PyM (List ℕ × List ℕ) := do
  pyAssert "Refiner.py:118" (2 ≤ l.length)
  pure (sliceStep l 0 2, sliceStep l 1 2)

/-- `_split_scenarios` (src/refiner/Refiner.py:124-131). -/
def splitScenarios (l : List ℕ) : PyM (List ℕ × List ℕ) :=
  if 2 ≤ l.length then splitSortedSubset l else .ok (l, [])

/-- `_split_scenarios_subset` (src/refiner/Refiner.py:133-150); `flags` is
`is_scenario_infeasible`. -/
def splitScenariosSubset (flags : List Bool) (P : List (List ℕ)) (scenarios : List ℕ) (c : ℕ) :
    PyM (List (List ℕ)) := do
  let p ← pyGet P c
  pyAssert "Refiner.py:135" (p.length = scenarios.length)
  pyAssert "Refiner.py:136" (p.toFinset = scenarios.toFinset)
  let infeas ← pyFilter (fun s => pyGet flags s) scenarios
  let feas ← pyFilter (fun s => do let b ← pyGet flags s; pure (!b)) scenarios
  pyAssert "Refiner.py:143" (2 ≤ infeas.length)
  let i ← splitScenarios infeas
  let f ← splitScenarios feas
  pure (P.set c (i.1 ++ f.1) ++ [i.2 ++ f.2])

/-- The attributes of a refiner that change during one call of `refine`: `partition`,
`mu_counter`, `splitted_subsets`, `new_subsets`; `calls` counts the calls of `random`
(src/refiner/Refiner.py:16-27, 152-183). -/
structure RState where
  partition : List (List ℕ)
  muCounter : ℕ
  splitted : List ℕ
  newSubsets : List ℕ
  calls : ℕ

/-- Bookkeeping after subset `c` was split (src/refiner/Refiner.py:163-168,
src/refiner/CostRefiner.py:108-115): `P` is the new partition. -/
def RState.record (st : RState) (P : List (List ℕ)) (c : ℕ) : RState :=
  { st with
    partition := P
    muCounter := st.muCounter + 1
    splitted := if c ∈ st.splitted then st.splitted else st.splitted ++ [c]
    newSubsets := (if c ∈ st.newSubsets then st.newSubsets else st.newSubsets ++ [c])
      ++ [P.length - 1] }

/-- The loop of `_traverse_subsets_and_split` (src/refiner/Refiner.py:155-168) with
`RandomRefiner._get_sorted_scenarios` (src/refiner/RandomRefiner.py:12-14); `nb` are the
counts computed before the loop (lines 153-154). -/
def traverse (flags : List Bool) (mu : ℕ) (sh : ℕ → Shuffle) (nb : List ℕ) :
    List ℕ → RState → PyM RState
  | [], st => .ok st
  | c :: cs, st =>
    if st.muCounter < mu then do
      let k ← pyGet nb c
      if 2 ≤ k then do
        let p ← pyGet st.partition c
        let scenarios := (sh st.calls).run p
        let P ← splitScenariosSubset flags st.partition scenarios c
        traverse flags mu sh nb cs ({ st with calls := st.calls + 1 }.record P c)
      else traverse flags mu sh nb cs st
    else traverse flags mu sh nb cs st

/-- The `while` loop of `_split_top_mu_subset` for the random refiner
(src/refiner/Refiner.py:177-182, src/refiner/RandomRefiner.py:16-24). -/
def randomLoop (F : CheckOut) (mu : ℕ) (sh : ℕ → Shuffle) : ℕ → RState → PyM RState
  | fuel, st =>
    if st.muCounter < mu then
      match fuel with
      | 0 => .error .fuel
      | fuel + 1 => do
        let sorted := (sh st.calls).run (List.range st.partition.length)
        let st := { st with calls := st.calls + 1 }
        let nb := countInfeasible st.partition F.infeasibleScenarios
        let st ← traverse F.isScenarioInfeasible mu sh nb sorted st
        randomLoop F mu sh fuel st
    else .ok st

/-- `_check_final_partition` (src/refiner/Refiner.py:221-230). -/
def checkFinalPartition (N : ℕ) (P old : List (List ℕ)) (mu : ℕ) : PyM Unit := do
  pyAssert "Refiner.py:222" (P ≠ old)
  pyAssert "Refiner.py:224" (∀ c ∈ P, c ≠ [])
  pyAssert "Refiner.py:225" (∀ c ∈ old, c ≠ [])
  pyAssert "Refiner.py:210" (P.length = old.length + mu)
  pyAssert "Refiner.py:218" (P.flatten.toFinset = (List.range N).toFinset)
  pyAssert "Refiner.py:219" (P.flatten.length = N)
  pyAssert "Refiner.py:213" (P.length > old.length)

/-- What the rest of the code reads after `refine`: the returned partition and the attributes
`mu`, `new_subsets`, `splitted_subsets`, `feasible_subsets`, `infeasible_subsets`
(src/solver/AdaptivePartitioner.py:229-239, 244-264). -/
structure RefineOut where
  partition : List (List ℕ)
  mu : ℕ
  newSubsets : List ℕ
  splitted : List ℕ
  feasibleSubsets : List ℕ
  infeasibleSubsets : List ℕ
  deriving DecidableEq

/-- State at the start of `refine` (`_initialize_refinement`,
src/refiner/Refiner.py:16-27, and line 172). -/
def RState.init (P : List (List ℕ)) : RState :=
  { partition := P, muCounter := 0, splitted := [], newSubsets := [], calls := 0 }

/-- End of `refine` (src/refiner/Refiner.py:183 and 247-251). -/
def finishRefine (I : Inst) (F : CheckOut) (P : List (List ℕ)) (mu : ℕ) (st : RState) :
    PyM RefineOut := do
  pyAssert "Refiner.py:183" (st.muCounter = mu)
  checkFinalPartition I.N st.partition P mu
  let fi := findInfeasibleSubsets st.partition F.infeasibleScenarios
  pure { partition := st.partition, mu, newSubsets := st.newSubsets, splitted := st.splitted
         feasibleSubsets := fi.1, infeasibleSubsets := fi.2 }

/-- `refine` (src/refiner/Refiner.py:233-251) of a `RandomRefiner`.  `F` holds the attributes
written by the last `check_feasibility` of the instance
(`_read_infeasible_scenarios_from_chance_instance`, lines 29-37).  With `use_acc_obj` the
refiner lacks the method `_evaluate_accurate_splits` (line 175): `AttributeError`. -/
def refineRandom (I : Inst) (F : CheckOut) (sh : ℕ → Shuffle) (useAccObj : Bool) (fuel : ℕ)
    (P : List (List ℕ)) : PyM RefineOut := do
  let fi := findInfeasibleSubsets P F.infeasibleScenarios
  let mu ← numberOfSplits I fi.2.length
  if useAccObj then throw .attributeError
  let st ← randomLoop F mu sh fuel (RState.init P)
  finishRefine I F P mu st

/-! ## CostRefiner -/

/-- A stored split: cost, left subset, right subset (src/refiner/CostRefiner.py:118-126). -/
structure Split where
  cost : ℚ
  left : List ℕ
  right : List ℕ

/-- The memory of a `CostRefiner` (src/refiner/CostRefiner.py:13-15): the three dictionaries
`memory_costs`, `memory_left_subset`, `memory_right_subset` always have the same keys and are
one association list here. -/
abbrev Memory := List ((Finset ℕ × Finset ℕ) × Split)

/-- State of a `CostRefiner` during `refine`: the attributes of `Refiner`, the memory, the
dictionaries `post_split_costs`, `left_subsets`, `right_subsets`, and the number of solver
calls (src/refiner/CostRefiner.py:11-15, 54-78). -/
structure CState where
  base : RState
  memory : Memory
  post : List (ℕ × ℚ)
  left : List (ℕ × List ℕ)
  right : List (ℕ × List ℕ)

/-- `accurate_obj_split` (src/refiner/CostRefiner.py:118-126). -/
def accurateObjSplit (I : Inst) (solve : GModel → GResult) (scenarios inf : List ℕ) :
    PyM Split := do
  let r ← optimize (solve (buildAccObj (instCI I) scenarios inf))
  let cost ← getObjVal r
  let ρ ← getSol r
  let s := accSubsets scenarios ρ
  pure { cost, left := s.1, right := s.2 }

/-- `_evaluate_single_accurate_split` (src/refiner/CostRefiner.py:29-52). -/
def evaluateSplit (I : Inst) (F : CheckOut) (solve : ℕ → GModel → GResult) (st : CState)
    (c : ℕ) : PyM CState := do
  let scenarios ← pyGet st.base.partition c
  let inf := scenarios.filter fun s => s ∈ F.infeasibleScenarios
  let key := (scenarios.toFinset, inf.toFinset)
  match st.memory.find? fun p => p.1 = key with
  | none => do
    let sp ← accurateObjSplit I (solve st.base.calls) scenarios inf
    pure { base := { st.base with calls := st.base.calls + 1 }
           memory := assocSet st.memory key sp
           post := assocSet st.post c sp.cost
           left := assocSet st.left c sp.left
           right := assocSet st.right c sp.right }
  | some p =>
    pure { st with
           post := assocSet st.post c p.2.cost
           left := assocSet st.left c p.2.left
           right := assocSet st.right c p.2.right }

/-- `_evaluate_accurate_splits` (src/refiner/CostRefiner.py:54-78) with `nb_top = None`. -/
def evaluateSplits (I : Inst) (F : CheckOut) (solve : ℕ → GModel → GResult) (sorted : List ℕ)
    (st : CState) : PyM CState := do
  let nb := countInfeasible st.base.partition F.infeasibleScenarios
  let candidates ← pyFilter (fun c => do let k ← pyGet nb c; pure (decide (2 ≤ k))) sorted
  candidates.foldlM (evaluateSplit I F solve) { st with post := [], left := [], right := [] }

/-- The loop over `free_mergers` (src/refiner/CostRefiner.py:86-91): `none` stands for
`split_c = -1`. -/
def bestFree : List (ℕ × ℚ) → Option ℕ → ℚ → Option ℕ
  | [], best, _ => best
  | (c, w) :: l, best, v => if w ≥ v then bestFree l (some c) w else bestFree l best v

/-- `min(d, key=d.get)`: the first key of smallest value, `ValueError` on an empty dict
(src/refiner/CostRefiner.py:93). -/
def argminKey : List (ℕ × ℚ) → PyM ℕ
  | [] => .error .valueError
  | (c, v) :: l => .ok (l.foldl (fun (b : ℕ × ℚ) p => if p.2 < b.2 then p else b) (c, v)).1

/-- Choice of the subset to split (src/refiner/CostRefiner.py:83-93).  `split_c = -1` is not a
key of `left_subsets`, so reading it (line 96) raises `KeyError`. -/
def chooseSplit (vUB : WithTop ℚ) (post : List (ℕ × ℚ)) : PyM ℕ :=
  let free := post.filter fun p => ((p.2 : ℚ) : WithTop ℚ) ≤ vUB
  if free.length > 0 then
    match bestFree free none (-(10 ^ 6)) with
    | some c => .ok c
    | none => .error .keyError
  else argminKey post

/-- Update of the split of the old subset (src/refiner/CostRefiner.py:101-104). -/
def updateOld (I : Inst) (F : CheckOut) (solve : ℕ → GModel → GResult) (nb : List ℕ) (st : CState)
    (c : ℕ) : PyM CState :=
  if 2 ≤ nb.getD c 0 then evaluateSplit I F solve st c
  else do
    let post ← assocPop st.post c
    pure { st with post }

/-- Evaluation of the new subset (src/refiner/CostRefiner.py:105-107). -/
def updateNew (I : Inst) (F : CheckOut) (solve : ℕ → GModel → GResult) (nb : List ℕ) (st : CState)
    (c : ℕ) : PyM CState :=
  if 2 ≤ nb.getD c 0 then evaluateSplit I F solve st c else pure st

/-- `_perform_accurate_split` (src/refiner/CostRefiner.py:80-115). -/
def performSplit (I : Inst) (F : CheckOut) (solve : ℕ → GModel → GResult) (vUB : WithTop ℚ)
    (st : CState) : PyM CState := do
  let c ← chooseSplit vUB st.post
  let l ← assocGet st.left c
  let P ← pySet st.base.partition c l
  let r ← assocGet st.right c
  let P := P ++ [r]
  let nb := countInfeasible P F.infeasibleScenarios
  let st := { st with base := { st.base with partition := P } }
  let st ← updateOld I F solve nb st c
  let st ← updateNew I F solve nb st (P.length - 1)
  pure { st with base := st.base.record P c }

/-- The `while` loop of `_split_top_mu_subset` with accurate splits
(src/refiner/Refiner.py:177-179). -/
def costLoop (I : Inst) (F : CheckOut) (solve : ℕ → GModel → GResult) (vUB : WithTop ℚ)
    (mu : ℕ) : ℕ → CState → PyM CState
  | fuel, st =>
    if st.base.muCounter < mu then
      match fuel with
      | 0 => .error .fuel
      | fuel + 1 => do
        let st ← performSplit I F solve vUB st
        costLoop I F solve vUB mu fuel st
    else .ok st

/-- `refine` (src/refiner/Refiner.py:233-251) of a `CostRefiner` with `use_acc_obj=True`, the
only value `_init_refiner` accepts (src/solver/AdaptivePartitioner.py:49-53).  `subsetCosts`
and `vUB` are the attributes set by `_split`; the memory is returned for the next call. -/
def refineCost (I : Inst) (F : CheckOut) (solve : ℕ → GModel → GResult) (argsort : Argsort)
    (subsetCosts : List ℚ) (vUB : WithTop ℚ) (memory : Memory) (fuel : ℕ)
    (P : List (List ℕ)) : PyM (RefineOut × Memory) := do
  let fi := findInfeasibleSubsets P F.infeasibleScenarios
  let mu ← numberOfSplits I fi.2.length
  pyAssert "CostRefiner.py:24" (subsetCosts.length = P.length)
  let sorted := argsort.run subsetCosts
  let st ← evaluateSplits I F solve sorted
    { base := RState.init P, memory, post := [], left := [], right := [] }
  let st ← costLoop I F solve vUB mu fuel st
  let out ← finishRefine I F P mu st.base
  pure (out, st.memory)

end Verif.Model
