import Verif.Props.Trajectory
import Verif.Lemmas.ExactSolver

/-!
# C82: which of the unknowns a run depends on
-/

namespace Verif.Props
open Spec Model Finset SM

/-- The two environments agree, up to what the configuration does not use: the random choices if
the first partition and the splits are chosen by cost, the answers to the split-selection problems
with random splits, the answers to the big-M problems and the C++ sort without big-Ms. -/
structure SameUnknowns (cfg : Cfg) (env env' : Env) : Prop where
  norm : env.norm = env'.norm
  argsort : env.argsort = env'.argsort
  sub : env.sub = env'.sub
  cc : env.cc = env'.cc
  lb : env.lb = env'.lb
  clock : env.clock = env'.clock
  first : cfg.initType = "random" → env.shuffle 0 0 = env'.shuffle 0 0
  splits : cfg.splitMethod = "random" → env.shuffle = env'.shuffle
  acc : cfg.splitMethod ≠ "random" → env.acc = env'.acc
  big : cfg.useBigM = true → env.big = env'.big
  srt : cfg.useBigM = true → env.srt = env'.srt

variable {cfg : Cfg} {env env' : Env} {I : Inst} {rounds : ℕ}

theorem evalNew_same (h : SameUnknowns cfg env env') (t : ℕ) : ∀ (l : List ℕ) (k : ℕ),
    evalNew env I t l k = evalNew env' I t l k
  | [], _ => rfl
  | c :: cs, k => by
    unfold evalNew
    rw [h.sub]
    simp only [evalNew_same h t cs (k + 1)]

theorem evalTargets_same (h : SameUnknowns cfg env env') (t : ℕ) : ∀ (l : List ℕ) (k : ℕ),
    evalTargets env I t l k = evalTargets env' I t l k
  | [], _ => rfl
  | c :: cs, k => by
    unfold evalTargets
    rw [h.sub]
    simp only [evalTargets_same h t cs (k + 1)]

theorem improve_same (h : SameUnknowns cfg env env') : improve env I = improve env' I := by
  funext l
  unfold improve
  rw [h.norm, h.argsort]

theorem refineStep_same (h : SameUnknowns cfg env env') (t : ℕ) (s : St) :
    refineStep env cfg I rounds t s = refineStep env' cfg I rounds t s := by
  unfold refineStep
  by_cases hm : cfg.splitMethod = "random"
  · simp only [if_pos hm, h.splits hm]
  · simp only [if_neg hm, h.acc hm, h.argsort]

theorem split_same (h : SameUnknowns cfg env env') :
    split env cfg I rounds = split env' cfg I rounds := by
  unfold split
  simp only [refineStep_same h, evalNew_same h, improve_same h]

theorem availableTime_same (h : SameUnknowns cfg env env') :
    availableTime env cfg = availableTime env' cfg := by
  unfold availableTime
  rw [h.clock]

theorem merge_same (h : SameUnknowns cfg env env') : merge env cfg I = merge env' cfg I := by
  funext x out l
  unfold merge mergeDispatch mergeAllFeasible mergeMuPlusOne applyMerge
  simp only [evalTargets_same h, improve_same h, h.norm]

theorem bigMStep_same (h : SameUnknowns cfg env env') :
    bigMStep env cfg I = bigMStep env' cfg I := by
  unfold bigMStep
  by_cases hm : cfg.useBigM = true
  · rw [h.argsort, h.big hm, h.srt hm]
  · simp only [hm, false_and, if_false]
    rfl

theorem upperBound_same (h : SameUnknowns cfg env env') (M : Option (List (List ℚ))) :
    upperBound env cfg I M = upperBound env' cfg I M := by
  unfold upperBound computeUB partitionBound storeUB buildTime
  simp only [availableTime_same h, h.norm, h.cc, h.clock]

theorem iterate_same (h : SameUnknowns cfg env env') (g : Gap) :
    iterate env cfg I rounds g = iterate env' cfg I rounds g := by
  unfold iterate lowerStep splitMergeStep lowerBound
  simp only [bigMStep_same h, upperBound_same h, availableTime_same h, split_same h, merge_same h,
    h.norm, h.argsort, h.lb]

theorem mainLoop_same (h : SameUnknowns cfg env env') : ∀ (fuel : ℕ) (g : Gap) (t : ℚ),
    mainLoop env cfg I rounds fuel g t = mainLoop env' cfg I rounds fuel g t
  | 0, g, t => by
    unfold mainLoop
    rfl
  | fuel + 1, g, t => by
    unfold mainLoop
    rw [iterate_same h]
    simp only [mainLoop_same h fuel]

theorem construct_same (h : SameUnknowns cfg env env') :
    construct env cfg I = construct env' cfg I := by
  unfold construct initCosts createFirstPartition
  rw [h.sub, h.argsort]
  by_cases hi : cfg.initType = "random"
  · rw [h.first hi]
  · simp only [if_neg hi]

/-- **C82.** Two runs on the same instance that see the same answers of Gurobi to the problems of
subsets, to the partitioned problems and to the lower-bound problems, and the same clock, end in
the same way and in the same state.  The random choices only matter for a random first partition
and for random splits, so a run with costs for both does not depend on the seed; the answers to
the split-selection problems only matter with splits by cost; the big-M problems only matter with
big-Ms. -/
theorem C82_reproducible (env env' : Env) (cfg : Cfg) (I : Inst) (rounds fuel : ℕ)
    (h : SameUnknowns cfg env env') : run env cfg I rounds fuel = run env' cfg I rounds fuel := by
  unfold run
  rw [construct_same h]
  congr 1
  funext s
  unfold solve startSolve improveFirst
  simp only [h.sub, improve_same h, availableTime_same h, mainLoop_same h]

/-- A shuffle that is not the identity. -/
def reverseShuffle : Shuffle := ⟨List.reverse, fun l => List.reverse_perm l⟩

/-- Splits and first partition chosen by cost: environments with different random choices. -/
example : SameUnknowns { exCfg with splitMethod := "cost", initType := "cost", useAccObj := true }
    (exactEnv exNorm 1) { exactEnv exNorm 1 with shuffle := fun _ _ => reverseShuffle } := by
  refine ⟨rfl, rfl, rfl, rfl, rfl, rfl, ?_, ?_, fun _ => rfl, fun _ => rfl, fun _ => rfl⟩ <;>
    intro h <;> exact absurd h (by decide)

/-- With random ones the choices matter. -/
example : (outcome (run (exactEnv exNorm 1) exCfg exPairs 10 0)).map (·.partition)
    ≠ (outcome (run { exactEnv exNorm 1 with shuffle := fun _ _ => reverseShuffle } exCfg exPairs
      10 0)).map (·.partition) := by
  decide +kernel

end Verif.Props
