import Verif.Lemmas.MergeSites
import Verif.Lemmas.Bounds

/-!
# Gurobi's error about a negative time limit during a run, for arbitrary answers of the solver
-/

namespace Verif.Model
open Spec Props

variable {env : Env} {cfg : Cfg} {I : Inst} {rounds : ℕ} {α β : Type}

/-- `m` raises the error only after the deadline. -/
def Er (env : Env) (cfg : Cfg) {α : Type} (m : SM α) : Prop :=
  ∀ s, wp m (fun _ _ => True)
    (fun e s' => TimeErr e → remaining env.clock cfg.timeLimit s'.reads = 0) s

theorem er_pure (a : α) : Er env cfg (Pure.pure a) := fun _ => trivial
theorem er_get : Er env cfg SM.get := fun _ => trivial
theorem er_nextTick : Er env cfg nextTick := fun _ => trivial
theorem er_time : Er env cfg (availableTime env cfg) := fun _ => trivial
theorem er_mark : Er env cfg markStep := fun _ => trivial
theorem er_modify (f : St → St) : Er env cfg (SM.modify f) := fun _ => trivial

theorem er_throw {e : PyErr} (he : ¬ TimeErr e) : Er env cfg (α := α) (SM.throw e) :=
  fun _ h => absurd h he

theorem er_lift {m : PyM α} (h : NF TimeErr m) : Er env cfg (SM.lift m) := fun s => by
  rw [wp_lift]
  exact ⟨fun _ _ => trivial, fun e he h' => absurd h' (h.no e he)⟩

theorem er_fr {m : SM α} (h : Fr TimeErr m) : Er env cfg m := fun s =>
  wp_mono (h s) (fun _ _ _ => trivial) fun _ _ h h' => absurd h' h.2

theorem er_bind {m : SM β} {f : β → SM α} (h : Er env cfg m) (h' : ∀ b, Er env cfg (f b)) :
    Er env cfg (m >>= f) := fun s => by
  rw [wp_bind]
  exact wp_mono (h s) (fun b s' _ => h' b s') fun _ _ h => h

theorem er_ite {c : Prop} [Decidable c] {m m' : SM α} (h : Er env cfg m) (h' : Er env cfg m') :
    Er env cfg (if c then m else m') := by
  split
  · exact h
  · exact h'

/-- The error of the call itself. -/
theorem cclp_timeErr {J : CI} {M : Option (List (List ℚ))} {zs pr : List ℕ} {gap l b : ℚ}
    {solve : GModel → GResult} {e : PyErr} (h : solveCclp J M zs pr gap l b solve = .error e)
    (he : TimeErr e) : l < b := by
  by_contra hle
  push Not at hle
  have : NF TimeErr (solveCclp J M zs pr gap l b solve) := by
    unfold solveCclp
    rw [setTimeLimit, if_pos (by linarith)]
    exact nf_bind (nf_buildCCLP _ _ _ _ _) fun _ => nf_bind (nf_ok _) fun _ => by nf
  exact this.no e h he

theorem er_computeUB (hm : Monotone env.clock) (M : Option (List (List ℚ))) :
    Er env cfg (computeUB env cfg I M) := by
  refine er_bind er_get fun s => er_ite (er_lift (nf_firstIterationBound _ _)) fun s => ?_
  unfold partitionBound
  rw [wp_bind, wp_availableTime, wp_bind, wp_get, wp_bind, wp_lift]
  refine ⟨fun zs _ => ?_, fun e he h' => absurd h' ((nf_getZStart _ _).no e he)⟩
  rw [wp_bind, wp_nextTick, wp_bind, wp_buildTime, wp_bind, wp_lift]
  refine ⟨fun out _ => ?_, fun e he h' => late_build hm (cclp_timeErr he h')⟩
  exact er_bind (er_lift (nf_checkResults _ _ _ _ _ _ _)) (fun _ => er_pure _) _

theorem er_upperBound (hm : Monotone env.clock) (M : Option (List (List ℚ))) :
    Er env cfg (upperBound env cfg I M) :=
  er_bind (er_computeUB hm M) fun _ => er_bind er_time fun _ =>
    er_ite (er_bind er_get fun _ => er_pure _)
      (er_bind (er_modify _) fun _ => er_bind (er_fr (fr_updateUB _)) fun _ =>
        er_bind (er_modify _) fun _ => er_bind (er_fr fr_gap) fun _ =>
          er_bind (er_fr (fr_info _)) fun _ => er_pure _)

theorem er_reload : Er env cfg (reload I) :=
  er_bind er_get fun _ => er_bind (er_lift (nf_loadPartition _ _)) fun _ => er_modify _

theorem er_setCost (c : ℕ) (r : ℚ × Vec) : Er env cfg (setCost c r) :=
  er_bind er_get fun _ => er_ite (er_bind (er_lift (nf_set _ _ _)) fun _ => er_modify _)
    (er_modify _)

theorem er_evalNew (t : ℕ) : ∀ (l : List ℕ) (k : ℕ), Er env cfg (evalNew env I t l k)
  | [], _ => er_pure _
  | _ :: l, k => er_bind er_get fun _ => er_bind (er_lift (nf_get _ _)) fun _ =>
      er_bind (er_lift (nf_subsetCost _ _)) fun _ => er_bind (er_setCost _ _) fun _ =>
        er_bind (er_evalNew t l (k + 1)) fun _ => er_pure _

theorem er_evalTargets (t : ℕ) : ∀ (l : List ℕ) (k : ℕ), Er env cfg (evalTargets env I t l k)
  | [], _ => er_pure _
  | _ :: l, k => er_bind er_get fun _ => er_bind (er_lift (nf_get _ _)) fun _ =>
      er_bind (er_lift (nf_subsetCost _ _)) fun _ => er_bind (er_lift (nf_set _ _ _)) fun _ =>
        er_bind (er_lift (nf_set _ _ _)) fun _ => er_bind (er_modify _) fun _ =>
          er_bind (er_evalTargets t l (k + 1)) fun _ => er_pure _

theorem er_split : Er env cfg (split env cfg I rounds) :=
  er_bind er_nextTick fun _ => er_bind er_get fun _ =>
    er_bind (er_lift (nm_refineStep (by unfold TimeErr; simp))) fun _ =>
      er_bind (er_modify _) fun _ => er_bind er_reload fun _ => er_bind (er_evalNew _ _ _) fun _ =>
        er_bind (er_fr (fr_improve _)) fun _ => er_pure _

theorem er_applyMerge (m : MState) : Er env cfg (applyMerge env I m) :=
  er_bind (er_modify _) fun _ => er_bind er_reload fun _ => er_bind er_get fun _ =>
    er_bind (er_lift (nf_delAll _ _)) fun _ => er_bind (er_lift (nf_delAll _ _)) fun _ =>
      er_bind (er_modify _) fun _ => er_bind er_nextTick fun _ =>
        er_bind (er_evalTargets _ _ _) fun _ => er_fr (fr_improve _)

theorem er_merge (x : Option Vec) (out : RefineOut) (c : List ℚ) :
    Er env cfg (merge env cfg I x out c) := by
  refine er_bind (er_modify _) fun _ => er_ite (er_bind (er_lift (nf_pyMax _)) fun _ =>
    er_bind er_get fun _ => er_ite (er_ite (er_bind er_get fun s => ?_) (er_ite
      (er_bind er_get fun s => ?_) (er_throw (by unfold TimeErr; simp)))) (er_pure _)) (er_pure _)
  · split
    · exact er_throw (by unfold TimeErr; simp)
    · refine er_bind (er_lift (nf_mergeAll _ _)) fun _ => er_bind (er_applyMerge _) fun _ =>
        er_bind er_get fun _ => er_bind (er_lift ⟨?_⟩) fun _ => er_modify _
      intro e he h'
      unfold pyAssert at he
      split at he
      · cases he
      · cases he; cases h'
  · cases x with
    | none => exact er_throw (by unfold TimeErr; simp)
    | some x =>
      exact er_bind (er_lift (nf_mergeFeasible _ _ _ _ _ _)) fun _ =>
        er_bind (er_applyMerge _) fun _ => er_modify _

theorem er_iterate (hm : Monotone env.clock) (gap : Gap) : Er env cfg (iterate env cfg I rounds gap) :=
  er_bind (er_fr fr_gap) fun _ => er_bind er_mark fun _ => er_bind (er_fr fr_bigM) fun M =>
    er_bind (er_upperBound hm M) fun _ => er_ite (er_pure _) (er_bind er_time fun _ =>
      er_ite (er_pure _) (er_bind er_mark fun _ => er_bind (er_fr (fr_lowerBound _)) fun _ =>
        er_ite (er_pure _) (er_bind er_time fun _ => er_ite (er_pure _)
          (er_bind er_split fun _ => er_bind (er_merge _ _ _) fun _ => er_bind er_time fun _ =>
            er_ite (er_pure _) (er_bind (er_modify _) fun _ => er_bind er_time fun _ =>
              er_pure _)))))

theorem er_mainLoop (hm : Monotone env.clock) : ∀ (fuel : ℕ) (gap : Gap) (t : ℚ),
    Er env cfg (mainLoop env cfg I rounds fuel gap t)
  | fuel, gap, t => by
    unfold mainLoop
    refine er_ite ?_ (er_pure _)
    cases fuel with
    | zero => exact er_throw (by unfold TimeErr; simp)
    | succ fuel =>
      refine er_bind (er_iterate hm gap) fun r => ?_
      cases r with
      | stop b g => exact er_pure _
      | next g t => exact er_mainLoop hm fuel g t

theorem er_solve (hm : Monotone env.clock) (fuel : ℕ) : Er env cfg (solve env cfg I rounds fuel) :=
  er_bind (er_bind er_nextTick fun _ => er_bind er_get fun _ =>
      er_bind (er_lift (nf_partitionCost _ _)) fun _ => er_bind (er_modify _) fun _ =>
        er_bind (er_bind er_get fun _ => er_ite (er_throw (by unfold TimeErr; simp))
          (er_fr (fr_improve _))) fun _ => er_modify _) fun _ =>
    er_bind er_time fun _ => er_bind (er_mainLoop hm fuel _ _) fun _ =>
      er_bind (er_ite (er_modify _) (er_pure _)) fun _ => er_pure _

end Verif.Model
