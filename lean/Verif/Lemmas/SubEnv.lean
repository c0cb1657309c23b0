import Verif.Model.MilpSolver

/-!
# Runs read only the costs and solutions of the subset problems

Two environments whose answers to the subset problems give the same costs and solutions run alike,
in `AdaptivePartitioner` and in `MilpSolver`: status and bound of these answers are not read.
-/

namespace Verif.Model

variable {I : Inst}

theorem partitionCost_congr {f f' : ℕ → GModel → GResult}
    (h : ∀ k l, subsetCost I (f' k) l = subsetCost I (f k) l) (P : List (List ℕ)) :
    partitionCost I f' P = partitionCost I f P := by
  unfold partitionCost
  simp only [h]

theorem allScenarioCosts_congr {f f' : ℕ → GModel → GResult}
    (h : ∀ k l, subsetCost I (f' k) l = subsetCost I (f k) l) :
    allScenarioCosts I f' = allScenarioCosts I f := by
  unfold allScenarioCosts scenarioCosts
  simp only [h]

/-- The environment with other answers to the subset problems. -/
def Env.withSub (env : Env) (f : ℕ → ℕ → GModel → GResult) : Env := { env with sub := f }

variable {env : Env} {f : ℕ → ℕ → GModel → GResult}
  (h : ∀ t k l, subsetCost I (f t k) l = subsetCost I (env.sub t k) l)
include h

theorem evalNew_withSub (t : ℕ) (cs : List ℕ) (k : ℕ) :
    evalNew (env.withSub f) I t cs k = evalNew env I t cs k := by
  induction cs generalizing k with
  | nil => rfl
  | cons c cs ih =>
    simp only [evalNew, ih]
    simp only [Env.withSub, h]

theorem evalTargets_withSub (t : ℕ) (cs : List ℕ) (k : ℕ) :
    evalTargets (env.withSub f) I t cs k = evalTargets env I t cs k := by
  induction cs generalizing k with
  | nil => rfl
  | cons c cs ih =>
    simp only [evalTargets, ih]
    simp only [Env.withSub, h]

theorem split_withSub (cfg : Cfg) (rounds : ℕ) :
    split (env.withSub f) cfg I rounds = split env cfg I rounds := by
  unfold split
  simp only [evalNew_withSub h]
  rfl

theorem applyMerge_withSub (m : MState) :
    applyMerge (env.withSub f) I m = applyMerge env I m := by
  unfold applyMerge
  simp only [evalTargets_withSub h]
  rfl

theorem mergeDispatch_withSub (out : RefineOut) (x : Option Vec) :
    mergeDispatch (env.withSub f) I out x = mergeDispatch env I out x := by
  unfold mergeDispatch mergeAllFeasible mergeMuPlusOne
  simp only [applyMerge_withSub h]
  rfl

theorem splitMergeStep_withSub (cfg : Cfg) (rounds : ℕ) (x : Option Vec) (gap : Gap) :
    splitMergeStep (env.withSub f) cfg I rounds x gap = splitMergeStep env cfg I rounds x gap := by
  unfold splitMergeStep merge
  simp only [split_withSub h, mergeDispatch_withSub h]
  rfl

theorem iterate_withSub (cfg : Cfg) (rounds : ℕ) (gap : Gap) :
    iterate (env.withSub f) cfg I rounds gap = iterate env cfg I rounds gap := by
  unfold iterate lowerStep
  simp only [splitMergeStep_withSub h]
  rfl

theorem mainLoop_withSub (cfg : Cfg) (rounds fuel : ℕ) (gap : Gap) (t : ℚ) :
    mainLoop (env.withSub f) cfg I rounds fuel gap t = mainLoop env cfg I rounds fuel gap t := by
  induction fuel generalizing gap t with
  | zero => unfold mainLoop; rfl
  | succ n ih =>
    unfold mainLoop
    simp only [iterate_withSub h, ih]

theorem solve_withSub (cfg : Cfg) (rounds fuel : ℕ) :
    solve (env.withSub f) cfg I rounds fuel = solve env cfg I rounds fuel := by
  unfold solve startSolve
  simp only [mainLoop_withSub h]
  simp only [show ∀ t P, partitionCost I ((env.withSub f).sub t) P = partitionCost I (env.sub t) P
    from fun t P => partitionCost_congr (h t) P]
  rfl

theorem construct_withSub (cfg : Cfg) : construct (env.withSub f) cfg I = construct env cfg I := by
  unfold construct initCosts
  simp only [show allScenarioCosts I ((env.withSub f).sub 0) = allScenarioCosts I (env.sub 0)
    from allScenarioCosts_congr (h 0)]
  rfl

/-- The adaptive algorithm does not tell the two environments apart. -/
theorem run_withSub (cfg : Cfg) (rounds fuel : ℕ) :
    run (env.withSub f) cfg I rounds fuel = run env cfg I rounds fuel := by
  unfold run
  simp only [construct_withSub h, solve_withSub h]

/-- Nor does `MilpSolver`. -/
theorem milpSolve_withSub (limit gap : ℚ) (useBigM : Bool) (method : String) :
    milpSolve (env.withSub f) I limit gap useBigM method
      = milpSolve env I limit gap useBigM method := by
  unfold milpSolve milpBigMOpt milpBigM
  simp only [show allScenarioCosts I ((env.withSub f).sub 0) = allScenarioCosts I (env.sub 0)
    from allScenarioCosts_congr (h 0)]
  rfl

end Verif.Model
