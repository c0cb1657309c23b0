import Verif.Model.Initializer
import Verif.Model.UpperBounder
import Verif.Model.LowerBounder
import Verif.Model.Evaluator
import Verif.Model.Refiner
import Verif.Model.Merger
import Verif.Model.BigM

/-!
# Model of `AdaptivePartitioner`, `Solver`, `Warmstarter`, `TimeManager` and of
`UpperBounder.partition_bound`

The solver object is a state (`St`); a method is a state transformer that may raise, and the
state survives the exception (`SM`).  The unknowns of a run (answers of Gurobi, random choices,
clock) are functions in `Env`, indexed by counters of the state, so that every use may have a
different outcome.  Printing is left out, except that the gap is computed before it is printed.
-/

namespace Verif.Model

/-! ## Gap -/

/-- A Python float as far as the gap needs it (src/solver/Solver.py:26-36). -/
inductive Gap
  | fin (q : ℚ)
  | posInf
  | negInf
  | nan
  deriving DecidableEq

/-- `gap <= q` (src/solver/AdaptivePartitioner.py:309-330). -/
def Gap.le : Gap → ℚ → Bool
  | .fin g, q => decide (g ≤ q)
  | .negInf, _ => true
  | _, _ => false

/-- `_compute_gap` (src/solver/Solver.py:26-36).  The division by zero raises if both bounds
are Python floats and gives an infinity or `nan` if one of them is a numpy float (`numpy`). -/
def computeGap (vUB : WithTop ℚ) (vLB : WithBot ℚ) (numpy : Bool) : PyM Gap :=
  match vLB, vUB with
  | ⊥, _ => .ok .posInf
  | _, ⊤ => .ok .posInf
  | (l : ℚ), (u : ℚ) =>
    if l = 0 then
      if numpy then .ok (if 0 < u then .posInf else if u < 0 then .negInf else .nan)
      else .error .zeroDivisionError
    else .ok (.fin ((u - l) / l))

/-! ## Warm start and upper-bound problem -/

/-- The loop of `_set_all_previous_feasible_subsets_to_one` (src/Warmstarter.py:7-21): the keys
of `z_start`; `i` is the index in `zUB`, `count` the counter. -/
def zStartLoop (deleted : List ℕ) : List ℚ → ℕ → ℕ → List ℕ
  | [], _, _ => []
  | z :: l, i, count =>
    if i ∉ deleted then
      (if z = 1 then [count] else []) ++ zStartLoop deleted l (i + 1) (count + 1)
    else zStartLoop deleted l (i + 1) count

/-- `get_z_start` (src/Warmstarter.py:24-29): `enumerate(None)` raises `TypeError`. -/
def getZStart (zUB : Option (List ℚ)) (deleted : List ℕ) : PyM (List ℕ) :=
  match zUB with
  | some z => .ok (zStartLoop deleted z 0 0)
  | none => .error .typeError

/-- `setParam(GRB.Param.TimeLimit, t)` (src/solver/Solver.py:113): Gurobi refuses a negative
limit. -/
def setTimeLimit (t : ℚ) : PyM Unit :=
  if 0 ≤ t then .ok () else .error (.gurobiErrorAt "Solver.py:113")

/-- `solve_cclp_model` (src/solver/Solver.py:71-123): values are read in the order `x`, `z`,
`ObjVal`, `ObjBound`.  `limit` is the argument `time_limit`, `build` the time between the two
readings of the clock around the construction of the model (lines 90, 110).  How the limit cuts
off Gurobi is part of the unknown answer. -/
def solveCclp (J : CI) (bigM : Option (List (List ℚ))) (zStart prune : List ℕ) (gap limit build : ℚ)
    (solve : GModel → GResult) : PyM UBOut := do
  let g ← buildCCLP J bigM zStart prune gap
  setTimeLimit (limit - build)
  let r ← optimize (solve g)
  let ρ ← getSol r
  let v ← getObjVal r
  pure { x := fun j => ρ (.x j), z := (List.range J.nbScen).map fun s => ρ (.z s), vObj := v
         vBnd := r.objBnd }

/-- `v <= vUB + 1e-8` (src/solver/AdaptivePartitioner.py:147-148, src/UpperBounder.py:34-35). -/
def leTol (v : ℚ) (vUB : WithTop ℚ) : Bool :=
  decide ((v : WithTop ℚ) ≤ vUB + ((1 / 10 ^ 8 : ℚ) : WithTop ℚ))

/-- `np.allclose(x, y)`: `|x - y| <= 1e-8 + 1e-5 * |y|` in every entry (src/UpperBounder.py:27). -/
def allClose (n : ℕ) (x y : Vec) : Bool :=
  decide (∀ j < n, |x j - y j| ≤ 1 / 10 ^ 8 + 1 / 10 ^ 5 * |y j|)

/-- The first check of `_check_results` (src/UpperBounder.py:23-32): `MERGE_TOL` is 1, so it
only depends on `did_merge`; comparing with `None` raises `TypeError`. -/
def checkSame (n : ℕ) (didMerge : Bool) (x : Vec) (xUB : Option Vec) : PyM Unit :=
  if didMerge then .ok ()
  else
    match xUB with
    | none => .error .typeError
    | some y => pyAssert "UpperBounder.py:27" (allClose n x y = false)

/-- `_check_results` (src/UpperBounder.py:21-39). -/
def checkResults (n : ℕ) (cont didMerge : Bool) (x : Vec) (vObj : ℚ) (xUB : Option Vec)
    (vUB : WithTop ℚ) : PyM Unit :=
  if cont then do
    checkSame n didMerge x xUB
    pyAssert "UpperBounder.py:34" (leTol vObj vUB = true)
  else .ok ()

/-! ## Configuration, unknowns, state -/

/-- The arguments of the constructor (src/solver/AdaptivePartitioner.py:23-29) and of `solve`
(273-274).  `use_lazy` does not change the solutions. -/
structure Cfg where
  splitMethod : String
  initType : String
  projection : String
  useAccObj : Bool
  useBigM : Bool
  bigMMethod : String
  useMerger : Bool
  timeLimit : ℚ
  gap : ℚ

/-- What a run depends on: norm, sorting routines, random choices, answers of Gurobi for each
kind of model, readings of the clock (used by src/solver/AdaptivePartitioner.py:23-336). -/
structure Env where
  norm : Norm
  argsort : Argsort
  srt : CppSort
  shuffle : ℕ → ℕ → Shuffle
  /-- deterministic problems of subsets (src/Evaluator.py) -/
  sub : ℕ → ℕ → GModel → GResult
  /-- partitioned problems (src/solver/Solver.py:71-123) -/
  cc : ℕ → GModel → GResult
  /-- lower-bound problems (src/LowerBounder.py:121-142) -/
  lb : ℕ → GModel → GResult
  /-- split-selection problems (src/refiner/CostRefiner.py:118-126) -/
  acc : ℕ → ℕ → GModel → GResult
  /-- big-M problems (src/BigMFinder.py:123-133) -/
  big : ℕ → GModel → GResult
  clock : ℕ → ℚ

/-- The attributes of the solver and of its components that change during a run.  The last
seven are counters and ghosts: `tick` and `reads` count uses of the unknowns, `lastRem` is the
last remaining time that was read, `trace` the bounds after every assignment to one of them,
`steps` the value of `lastRem` at the start of every bounding step, `points` the solutions of the
upper-bound problems that were stored, `chosen` for every lower-bound problem the point handed
over, the points stored so far and the selected scenarios
(src/solver/AdaptivePartitioner.py:23-336, src/solver/Solver.py:16-23). -/
structure St where
  partition : List (List ℕ)
  nbSubsets : ℕ
  part : PartData
  costs : List ℚ
  sols : List Vec
  vUB : WithTop ℚ
  vUBNone : Bool
  vUBNumpy : Bool
  vLB : WithBot ℚ
  vLBNumpy : Bool
  xUB : Option Vec
  zUB : Option (List ℚ)
  xLB : Option Vec
  didMerge : Bool
  iteration : ℕ
  lb : LBState
  feas : Option CheckOut
  deleted : List ℕ
  memory : Memory
  info : List (ℕ × ℕ × WithBot ℚ × WithTop ℚ × Gap)
  tick : ℕ
  reads : ℕ
  lastRem : ℚ
  trace : List (WithTop ℚ × WithBot ℚ)
  steps : List ℚ
  points : List Vec
  chosen : List (Option Vec × List Vec × List ℕ)

/-- A method of the solver (src/solver/AdaptivePartitioner.py:100-336). -/
def SM (α : Type) := St → Except PyErr α × St

namespace SM

/-- Return a value (the methods of src/solver/AdaptivePartitioner.py:100-336). -/
def ret {α : Type} (a : α) : SM α := fun s => (.ok a, s)

/-- Sequencing; an exception ends the method (src/solver/AdaptivePartitioner.py:100-336). -/
def andThen {α β : Type} (m : SM α) (f : α → SM β) : SM β := fun s =>
  match m s with
  | (.ok a, s') => f a s'
  | (.error e, s') => (.error e, s')

instance : Monad SM where
  pure := SM.ret
  bind := SM.andThen

/-- Read the attributes (src/solver/AdaptivePartitioner.py:100-336). -/
def get : SM St := fun s => (.ok s, s)
/-- Write attributes (src/solver/AdaptivePartitioner.py:100-336). -/
def modify (f : St → St) : SM Unit := fun s => (.ok (), f s)
/-- `raise` (src/solver/AdaptivePartitioner.py:239). -/
def throw {α : Type} (e : PyErr) : SM α := fun s => (.error e, s)
/-- A call that may raise but changes no attribute of the solver (src/solver/AdaptivePartitioner.py:100-336). -/
def lift {α : Type} (m : PyM α) : SM α := fun s => (m, s)

end SM

open SM

/-- A fresh index into the unknowns
(one use of Gurobi or `random` in src/solver/AdaptivePartitioner.py:100-336). -/
def nextTick : SM ℕ := fun s => (.ok s.tick, { s with tick := s.tick + 1 })

/-- `get_remaining_time` (src/TimeManager.py:23-34) at the `k`-th reading of the clock; reading 0
is the one of `set_limit_and_start_time` (src/solver/Solver.py:21). -/
def remaining (clock : ℕ → ℚ) (limit : ℚ) (k : ℕ) : ℚ := max (limit - (clock k - clock 0)) 0

/-- `_available_time` (src/solver/Solver.py:38-40). -/
def availableTime (env : Env) (cfg : Cfg) : SM ℚ := fun s =>
  let r := remaining env.clock cfg.timeLimit (s.reads + 1)
  (.ok r, { s with reads := s.reads + 1, lastRem := r })

/-- The two readings of the clock around the construction of a model
(src/solver/Solver.py:90, 110); the time between them. -/
def buildTime (env : Env) : SM ℚ := fun s =>
  (.ok (env.clock (s.reads + 2) - env.clock (s.reads + 1)), { s with reads := s.reads + 2 })

/-- Ghost: a bounding step starts (src/solver/AdaptivePartitioner.py:296, 309). -/
def markStep : SM Unit := modify fun s => { s with steps := s.steps ++ [s.lastRem] }

/-- `self.vLB = v` (src/solver/AdaptivePartitioner.py:107, 167). -/
def writeLB (v : ℚ) (numpy : Bool) : SM Unit := modify fun s =>
  { s with vLB := (v : WithBot ℚ), vLBNumpy := numpy
           trace := s.trace ++ [(s.vUB, (v : WithBot ℚ))] }

/-- `self.vUB = v` (src/solver/AdaptivePartitioner.py:150). -/
def writeUB (v : ℚ) : SM Unit := modify fun s =>
  { s with vUB := (v : WithTop ℚ), vUBNumpy := false
           trace := s.trace ++ [((v : WithTop ℚ), s.vLB)] }

/-- `self._compute_gap()` on the current bounds
(src/solver/AdaptivePartitioner.py:156, 172, 295). -/
def currentGap : SM Gap := do
  let s ← get
  lift (computeGap s.vUB s.vLB (s.vUBNumpy || s.vLBNumpy))

/-- `store_iteration_info` (src/Informer.py:44-57), numbers before formatting. -/
def storeInfo (g : Gap) : SM Unit := modify fun s =>
  { s with info := s.info ++ [(s.iteration, s.nbSubsets, s.vLB, s.vUB, g)] }

/-- `minimum_partition_size` (src/solver/AdaptivePartitioner.py:86); a negative value of
`floor(epsilon * N) + 1` is replaced by 0. -/
def minSize (I : Inst) : ℕ := (⌊I.eps * (I.N : ℚ)⌋ + 1).toNat

/-! ## Methods -/

/-- `_improve_vlb_with_candidate_sols` (src/solver/AdaptivePartitioner.py:100-107).  The
objective is a numpy float. -/
def improve (env : Env) (I : Inst) (candidates : List Vec) : SM Unit := do
  let s ← get
  match incumbentBound env.norm env.argsort I candidates s.vUB s.vLB with
  | none => pure ()
  | some r => do
    modify fun s => { s with xLB := some r.1 }
    writeLB r.2 true

/-- `_big_M` (src/solver/AdaptivePartitioner.py:109-117): the big-Ms used in this iteration;
`none` if they are not used (indicator constraints, or a partition of minimum size, for which no
partitioned problem is solved).  An infinite `vUB` cannot occur here, because the first
iteration has set it. -/
def bigMStep (env : Env) (cfg : Cfg) (I : Inst) : SM (Option (List (List ℚ))) := do
  let s ← get
  if cfg.useBigM = true ∧ minSize I < s.nbSubsets then do
    let t ← nextTick
    let M ← lift (updateBigM env.argsort env.srt (env.big t) (partCI I s.part) true s.nbSubsets
      s.vUB cfg.bigMMethod (some I) (some s.partition))
    pure (some M)
  else pure none

/-- `partition_bound` (src/UpperBounder.py:80-127), called at
src/solver/AdaptivePartitioner.py:135-138. -/
def partitionBound (env : Env) (cfg : Cfg) (I : Inst) (bigM : Option (List (List ℚ))) :
    SM UBOut := do
  let left ← availableTime env cfg
  let s ← get
  let zs ← lift (getZStart s.zUB s.deleted)
  let t ← nextTick
  let build ← buildTime env
  let out ← lift (solveCclp (partCI I s.part) bigM zs (pruneIndices s.costs s.vLB) (1 / 10 ^ 8)
    left build (env.cc t))
  lift (checkResults I.n I.cont s.didMerge out.x out.vObj s.xUB s.vUB)
  pure out

/-- Choice of the bound (src/solver/AdaptivePartitioner.py:129-138). -/
def computeUB (env : Env) (cfg : Cfg) (I : Inst) (bigM : Option (List (List ℚ))) : SM UBOut := do
  let s ← get
  if s.nbSubsets = minSize I then lift (firstIterationBound s.costs s.sols)
  else partitionBound env cfg I bigM

/-- Storing the bound (src/solver/AdaptivePartitioner.py:147-150). -/
def updateUB (out : UBOut) : SM Unit := do
  let s ← get
  if leTol out.vBnd s.vUB then do
    modify fun s => { s with xUB := if leTol out.vObj s.vUB then some out.x else s.xUB }
    writeUB out.vBnd
  else pure ()

/-- Storing the results (src/solver/AdaptivePartitioner.py:143-157). -/
def storeUB (env : Env) (I : Inst) (out : UBOut) : SM (Option Vec × Bool) := do
  let F := checkFeasibility env.norm I out.x
  modify fun s => { s with feas := some F, zUB := some out.z }
  updateUB out
  modify fun s =>
    { s with lb := s.lb.saveFeasible (getFeasibleScenarios F), points := s.points ++ [out.x] }
  let g ← currentGap
  storeInfo g
  pure (some out.x, F.feasible)

/-- `_upper_bound` (src/solver/AdaptivePartitioner.py:119-157). -/
def upperBound (env : Env) (cfg : Cfg) (I : Inst) (bigM : Option (List (List ℚ))) :
    SM (Option Vec × Bool) := do
  let out ← computeUB env cfg I bigM
  let t ← availableTime env cfg
  if t ≤ 0 then do
    let s ← get
    pure (s.xUB, false)
  else storeUB env I out

/-- Storing the lower bound (src/solver/AdaptivePartitioner.py:165-170). -/
def storeLB (out : LBOut) : SM Unit := do
  let s ← get
  if s.vLB < (out.v : WithBot ℚ) then do
    writeLB out.v false
    modify fun s => { s with xLB := out.x }
  else pure ()

/-- `_lower_bound` (src/solver/AdaptivePartitioner.py:159-176). -/
def lowerBound (env : Env) (cfg : Cfg) (I : Inst) (x : Option Vec) : SM Gap := do
  let s ← get
  let t ← nextTick
  let r ← lift (deterministicBound env.norm env.argsort I cfg.projection (env.lb t) s.lb s.vLB x)
  modify fun s =>
    { s with lb := r.1, chosen := s.chosen ++ [(x, s.points, r.1.scenarios)] }
  storeLB r.2
  let g ← currentGap
  storeInfo g
  pure g

/-- `refiner.refine` of the configured refiner (src/solver/AdaptivePartitioner.py:45-58,
243-247); the attributes of a check that never happened are missing. -/
def refineStep (env : Env) (cfg : Cfg) (I : Inst) (rounds t : ℕ) (s : St) :
    PyM (RefineOut × Memory) :=
  match s.feas with
  | none => .error .attributeError
  | some F =>
    if cfg.splitMethod = "random" then do
      let out ← refineRandom I F (env.shuffle t) cfg.useAccObj rounds s.partition
      pure (out, s.memory)
    else refineCost I F (env.acc t) env.argsort s.costs s.vUB s.memory rounds s.partition

/-- Lines 259-264 of src/solver/AdaptivePartitioner.py. -/
def setCost (c : ℕ) (r : ℚ × Vec) : SM Unit := do
  let s ← get
  if c < s.costs.length then do
    let sols ← lift (pySet s.sols c r.2)
    modify fun s => { s with costs := s.costs.set c r.1, sols }
  else modify fun s => { s with costs := s.costs ++ [r.1], sols := s.sols ++ [r.2] }

/-- The loop over the new subsets (src/solver/AdaptivePartitioner.py:254-264). -/
def evalNew (env : Env) (I : Inst) (t : ℕ) : List ℕ → ℕ → SM (List (ℚ × Vec))
  | [], _ => pure []
  | c :: cs, k => do
    let s ← get
    let p ← lift (pyGet s.partition c)
    let r ← lift (subsetCost I (env.sub t k) p)
    setCost c r
    let rs ← evalNew env I t cs (k + 1)
    pure (r :: rs)

/-- `self.chance_instance_part.load_partition(self.nb_subsets, self.partition)`
(src/solver/AdaptivePartitioner.py:206-207, 248-249). -/
def reload (I : Inst) : SM Unit := do
  let s ← get
  let D ← lift (loadPartition I s.nbSubsets s.partition)
  modify fun s => { s with part := D }

/-- `_split` (src/solver/AdaptivePartitioner.py:241-270): also returns what `_merge` reads from
the refiner. -/
def split (env : Env) (cfg : Cfg) (I : Inst) (rounds : ℕ) : SM (RefineOut × List ℚ) := do
  let t ← nextTick
  let s ← get
  let r ← lift (refineStep env cfg I rounds t s)
  modify fun s => { s with partition := r.1.partition, nbSubsets := r.1.partition.length
                           memory := r.2 }
  reload I
  let rs ← evalNew env I t r.1.newSubsets 0
  improve env I (rs.map Prod.snd)
  pure (r.1, rs.map Prod.fst)

/-- The loop over the merged subsets (src/solver/AdaptivePartitioner.py:215-219). -/
def evalTargets (env : Env) (I : Inst) (t : ℕ) : List ℕ → ℕ → SM (List Vec)
  | [], _ => pure []
  | c :: cs, k => do
    let s ← get
    let p ← lift (pyGet s.partition c)
    let r ← lift (subsetCost I (env.sub t k) p)
    let costs ← lift (pySet s.costs c r.1)
    let sols ← lift (pySet s.sols c r.2)
    modify fun s => { s with costs, sols }
    let xs ← evalTargets env I t cs (k + 1)
    pure (r.2 :: xs)

/-- Storing a merge (src/solver/AdaptivePartitioner.py:190-191, 199-200) and
`_post_merge_processing` (204-224).  The code deletes a cost and a solution in turn; here first
all costs. -/
def applyMerge (env : Env) (I : Inst) (m : MState) : SM Unit := do
  modify fun s => { s with partition := m.partition, nbSubsets := m.partition.length
                           deleted := m.deleted }
  reload I
  let s ← get
  let costs ← lift (delAll (sortDesc m.deleted) s.costs)
  let sols ← lift (delAll (sortDesc m.deleted) s.sols)
  modify fun s => { s with costs, sols }
  let t ← nextTick
  let xs ← evalTargets env I t m.targets 0
  improve env I xs

/-- `_merge_all_feasible_subsets` (src/solver/AdaptivePartitioner.py:178-194). -/
def mergeAllFeasible (env : Env) (I : Inst) (feasible : List ℕ) : SM Unit := do
  let s ← get
  match (sortSubsetCosts (List.range s.nbSubsets) s.costs).find? fun c => c ∉ feasible with
  | none => throw (.unboundLocalErrorAt "AdaptivePartitioner.py:188")
  | some t => do
    let m ← lift (mergeAll s.partition (feasible ++ [t]))
    applyMerge env I m
    let s ← get
    lift (pyAssert "AdaptivePartitioner.py:193" (s.nbSubsets = minSize I))
    modify fun s => { s with didMerge := true }

/-- `_merge_mu_plus_one_feasible` (src/solver/AdaptivePartitioner.py:196-202). -/
def mergeMuPlusOne (env : Env) (I : Inst) (feasible : List ℕ) (mu : ℕ) (x : Option Vec) :
    SM Unit := do
  let s ← get
  match x with
  | none => throw .typeError
  | some x => do
    let m ← lift (mergeFeasible env.norm (partCI I s.part) s.partition x feasible mu)
    applyMerge env I m
    modify fun s => { s with didMerge := true }

/-- Dispatch of `_merge` (src/solver/AdaptivePartitioner.py:230-239). -/
def mergeDispatch (env : Env) (I : Inst) (out : RefineOut) (x : Option Vec) : SM Unit :=
  if out.feasibleSubsets.length = out.mu then mergeAllFeasible env I out.feasibleSubsets
  else if out.mu + 1 ≤ out.feasibleSubsets.length then
    mergeMuPlusOne env I out.feasibleSubsets out.mu x
  else throw (.valueErrorAt "AdaptivePartitioner.py:239")

/-- `max(new_subset_costs)` (src/solver/AdaptivePartitioner.py:229). -/
def pyMax : List ℚ → PyM ℚ
  | [] => .error .valueError
  | a :: l => .ok (l.foldl max a)

/-- `_merge` (src/solver/AdaptivePartitioner.py:226-239). -/
def merge (env : Env) (cfg : Cfg) (I : Inst) (x : Option Vec) (out : RefineOut)
    (newCosts : List ℚ) : SM Unit := do
  modify fun s => { s with didMerge := false }
  if cfg.useMerger then do
    let v ← lift (pyMax newCosts)
    let s ← get
    if (v : WithTop ℚ) ≤ s.vUB then mergeDispatch env I out x else pure ()
  else pure ()

/-- How an iteration ends: `break` with the current values of `is_feasible` and `real_gap`, or
the next iteration with `real_gap` and `real_time_left`
(src/solver/AdaptivePartitioner.py:291-328). -/
inductive Step
  | stop (isFeasible : Bool) (gap : Gap)
  | next (gap : Gap) (timeLeft : ℚ)

/-- Lines 318-328 of src/solver/AdaptivePartitioner.py. -/
def splitMergeStep (env : Env) (cfg : Cfg) (I : Inst) (rounds : ℕ) (x : Option Vec) (gap : Gap) :
    SM Step := do
  let r ← split env cfg I rounds
  merge env cfg I x r.1 r.2
  let t ← availableTime env cfg
  if t ≤ 0 then pure (.stop false gap)
  else do
    modify fun s => { s with iteration := s.iteration + 1 }
    let t ← availableTime env cfg
    pure (.next gap t)

/-- Lines 309-328 of src/solver/AdaptivePartitioner.py. -/
def lowerStep (env : Env) (cfg : Cfg) (I : Inst) (rounds : ℕ) (x : Option Vec) : SM Step := do
  markStep
  let gap ← lowerBound env cfg I x
  if gap.le cfg.gap then pure (.stop false gap)
  else do
    let t ← availableTime env cfg
    if t ≤ 0 then pure (.stop false gap) else splitMergeStep env cfg I rounds x gap

/-- The body of the main loop (src/solver/AdaptivePartitioner.py:291-328). -/
def iterate (env : Env) (cfg : Cfg) (I : Inst) (rounds : ℕ) (gap : Gap) : SM Step := do
  let _ ← currentGap
  markStep
  let bigM ← bigMStep env cfg I
  let r ← upperBound env cfg I bigM
  if r.2 then pure (.stop true gap)
  else do
    let t ← availableTime env cfg
    if t ≤ 0 then pure (.stop false gap) else lowerStep env cfg I rounds r.1

/-- The main loop (src/solver/AdaptivePartitioner.py:291-328): the final `is_feasible` and
`real_gap`. -/
def mainLoop (env : Env) (cfg : Cfg) (I : Inst) (rounds : ℕ) : ℕ → Gap → ℚ → SM (Bool × Gap)
  | fuel, gap, timeLeft =>
    if 0 < timeLeft then
      match fuel with
      | 0 => throw .fuel
      | fuel + 1 => do
        let r ← iterate env cfg I rounds gap
        match r with
        | .stop b g => pure (b, g)
        | .next g t => mainLoop env cfg I rounds fuel g t
    else pure (false, gap)

/-- The final report (src/solver/AdaptivePartitioner.py:330-336).  `vUB` is finite after an
iteration. -/
def report (isFeasible : Bool) : SM Unit :=
  if isFeasible then modify fun s =>
    { s with vLB := (match s.vUB with
                     | (u : ℚ) => (u : WithBot ℚ)
                     | ⊤ => s.vLB)
             vLBNumpy := s.vUBNumpy
             xLB := s.xUB }
  else pure ()

/-- What `solve` prints as the optimal solution and its objective at the end
(src/solver/AdaptivePartitioner.py:330-336), given the final `is_feasible` and `real_gap`. -/
def announced (cfg : Cfg) (r : Bool × Gap) (s : St) : Option (Option Vec × WithTop ℚ) :=
  if r.1 = true ∨ r.2.le cfg.gap = true then some (s.xUB, s.vUB) else none

/-- Line 284 of src/solver/AdaptivePartitioner.py: with `vUB = None` the comparison with the
candidates' objectives raises `TypeError`. -/
def improveFirst (env : Env) (I : Inst) (candidates : List Vec) : SM Unit := do
  let s ← get
  if s.vUBNone then throw .typeError else improve env I candidates

/-- Start of `solve` (src/solver/AdaptivePartitioner.py:279-290). -/
def startSolve (env : Env) (I : Inst) : SM Unit := do
  let t ← nextTick
  let s ← get
  let r ← lift (partitionCost I (env.sub t) s.partition)
  modify fun s => { s with costs := r.1, sols := r.2 }
  improveFirst env I r.2
  modify fun s => { s with iteration := 1 }

/-- `solve` (src/solver/AdaptivePartitioner.py:273-336); returns `is_feasible` and `real_gap`.
`rounds` and `fuel` bound the number of rounds of the refiner's loop and of the main loop. -/
def solve (env : Env) (cfg : Cfg) (I : Inst) (rounds fuel : ℕ) : SM (Bool × Gap) := do
  startSolve env I
  let t ← availableTime env cfg
  let r ← mainLoop env cfg I rounds fuel (.fin 1) t
  report r.1
  pure r

/-- `_init_refiner` (src/solver/AdaptivePartitioner.py:45-58). -/
def initRefiner (cfg : Cfg) : PyM Unit :=
  if cfg.splitMethod = "random" then .ok ()
  else if cfg.splitMethod = "cost" then
    pyAssert "AdaptivePartitioner.py:51" (cfg.useAccObj = true)
  else .error .valueError

/-- The single-scenario costs, computed for the initial type `'cost'` after the assertion of
`create_first_partition` (src/Initializer.py:36, 60). -/
def initCosts (env : Env) (cfg : Cfg) (I : Inst) : PyM (List ℚ) :=
  if cfg.initType = "cost" ∧ minSize I ≤ I.N then allScenarioCosts I (env.sub 0) else .ok []

/-- The constructor (src/solver/AdaptivePartitioner.py:23-98, src/solver/Solver.py:16-23). -/
def construct (env : Env) (cfg : Cfg) (I : Inst) : PyM St := do
  initRefiner cfg
  let scen ← initCosts env cfg I
  let P ← createFirstPartition (env.shuffle 0 0) env.argsort scen I.N (minSize I) cfg.initType
  let D ← loadPartition I (minSize I) P
  let quantile := if cfg.initType = "cost" then
    (ahmedBound env.argsort scen I.proba I.eps).map fun (q : ℚ) => (q : WithTop ℚ)
    else some ⊤
  pure
    { partition := P, nbSubsets := minSize I, part := D, costs := [], sols := []
      vUB := quantile.getD ⊤, vUBNone := quantile.isNone
      vUBNumpy := decide (cfg.initType = "cost"), vLB := ⊥, vLBNumpy := false
      xUB := none, zUB := none, xLB := none, didMerge := false, iteration := 0
      lb := LBState.init I, feas := none, deleted := [], memory := [], info := []
      tick := 1, reads := 0, lastRem := cfg.timeLimit, trace := [(quantile.getD ⊤, ⊥)]
      steps := [], points := [], chosen := [] }

/-- Construction followed by `solve` (main.py:86-95, 100-110). -/
def run (env : Env) (cfg : Cfg) (I : Inst) (rounds fuel : ℕ) : PyM (Except PyErr (Bool × Gap) × St)
    := do
  let s ← construct env cfg I
  pure (solve env cfg I rounds fuel s)

end Verif.Model
