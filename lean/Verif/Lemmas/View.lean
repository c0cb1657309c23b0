import Verif.Lemmas.Wp
import Verif.Props.Bounding

/-!
# Invariants of the bounds and of the clock

Properties of the bounds, their history and the clock that are kept by every single assignment
are kept by a whole run, whatever the answers of the solver, including at exceptions.
-/

namespace Verif.Model
open Props

/-- The part of the state that the invariants of this file talk about. -/
structure View where
  vUB : WithTop ℚ
  vLB : WithBot ℚ
  trace : List (WithTop ℚ × WithBot ℚ)
  steps : List ℚ
  lastRem : ℚ
  reads : ℕ
  info : List (ℕ × ℕ × WithBot ℚ × WithTop ℚ × Gap)
  iteration : ℕ

def view (s : St) : View :=
  ⟨s.vUB, s.vLB, s.trace, s.steps, s.lastRem, s.reads, s.info, s.iteration⟩

/-- `J` is kept by assignments to the bounds. -/
structure Closed0 (J : View → Prop) : Prop where
  lb : ∀ w (v : ℚ), J w → w.vLB < (v : WithBot ℚ) →
    J { w with vLB := (v : WithBot ℚ), trace := w.trace ++ [(w.vUB, (v : WithBot ℚ))] }
  ub : ∀ w (v : ℚ), J w → leTol v w.vUB = true →
    J { w with vUB := (v : WithTop ℚ), trace := w.trace ++ [((v : WithTop ℚ), w.vLB)] }

/-- `J` is kept by assignments to the bounds and by new rows of the log of iterations. -/
structure ClosedS (J : View → Prop) : Prop extends Closed0 J where
  store : ∀ w nb flag g, J w → computeGap w.vUB w.vLB flag = .ok g →
    J { w with info := w.info ++ [(w.iteration, nb, w.vLB, w.vUB, g)] }

/-- `J` is kept by readings of the clock. -/
structure TimeClosed (env : Env) (cfg : Cfg) (J : View → Prop) : Prop where
  read : ∀ w, J w → J { w with reads := w.reads + 1
                               lastRem := remaining env.clock cfg.timeLimit (w.reads + 1) }
  build : ∀ w, J w → J { w with reads := w.reads + 2 }

/-- `J` is kept by assignments to the bounds, rows of the log, readings of the clock, starts of
steps and of iterations. -/
structure Closed (env : Env) (cfg : Cfg) (J : View → Prop) : Prop extends ClosedS J where
  time : TimeClosed env cfg J
  mark : ∀ w, J w → 0 < w.lastRem → J { w with steps := w.steps ++ [w.lastRem] }
  next : ∀ w, J w → J { w with iteration := w.iteration + 1 }

/-- `m` keeps `J`, also when it raises. -/
def Keeps {α : Type} (J : View → Prop) (m : SM α) : Prop :=
  ∀ s, J (view s) → wp m (fun _ s' => J (view s')) (fun _ s' => J (view s')) s

variable {α β : Type} {J : View → Prop} {env : Env} {cfg : Cfg} {I : Inst}

theorem keeps_pure (a : α) : Keeps J (Pure.pure a) := fun _ h => h
theorem keeps_throw (e : PyErr) : Keeps (α := α) J (SM.throw e) := fun _ h => h
theorem keeps_get : Keeps J SM.get := fun _ h => h
theorem keeps_nextTick : Keeps J nextTick := fun _ h => h

theorem keeps_modify (f : St → St) (hf : ∀ s, view (f s) = view s) : Keeps J (SM.modify f) :=
  fun s h => by rw [wp_modify, hf]; exact h

theorem keeps_lift (m : PyM α) : Keeps J (SM.lift m) := fun s h => by
  rw [wp_lift]; exact ⟨fun _ _ => h, fun _ _ => h⟩

theorem keeps_bind {m : SM β} {f : β → SM α} (h : Keeps J m) (h' : ∀ b, Keeps J (f b)) :
    Keeps J (m >>= f) := fun s hs => by
  rw [wp_bind]
  exact wp_mono (h s hs) (fun b s' hs' => h' b s' hs') fun _ _ h => h

theorem keeps_ite {c : Prop} [Decidable c] {m m' : SM α} (h : Keeps J m) (h' : Keeps J m') :
    Keeps J (if c then m else m') := by
  split
  · exact h
  · exact h'

theorem keeps_time (hJ : TimeClosed env cfg J) : Keeps J (availableTime env cfg) := fun s h => by
  rw [wp_availableTime]; exact hJ.read _ h

theorem keeps_buildTime (hJ : TimeClosed env cfg J) : Keeps J (buildTime env) := fun s h => by
  rw [wp_buildTime]; exact hJ.build _ h

theorem keeps_currentGap : Keeps J currentGap :=
  keeps_bind keeps_get fun _ => keeps_lift _

/-- A new row of the log: the current bounds and their gap. -/
theorem keeps_storeInfo (hJ : ClosedS J) {f : Gap → SM α} (hf : ∀ g, Keeps J (f g)) :
    Keeps J (currentGap >>= fun g => storeInfo g >>= fun _ => f g) := fun s h => by
  unfold currentGap storeInfo
  rw [wp_bind, wp_bind, wp_get, wp_lift]
  refine ⟨fun g hg => ?_, fun _ _ => h⟩
  rw [wp_bind, wp_modify]
  exact hf g _ (hJ.store (view s) s.nbSubsets _ g h hg)

/-- A new incumbent is better. -/
theorem incumbent_lt {norm : Norm} {argsort : Argsort} {cands : List Vec} {vUB : WithTop ℚ}
    {vLB : WithBot ℚ} {x : Vec} {v : ℚ}
    (h : incumbentBound norm argsort I cands vUB vLB = some (x, v)) :
    vLB < (v : WithBot ℚ) ∧ (v : WithTop ℚ) ≤ vUB := by
  obtain ⟨h1, h2, h3, -⟩ := (C19_best_incumbent norm argsort I cands vUB vLB).1 x v h
  rw [← incumbent_test norm, Bool.and_eq_true] at h3
  have h4 := h3.1
  unfold isImproving at h4
  rw [Bool.and_eq_true] at h4
  have hobj : dot I.n x I.c = v := by
    rw [h2]; unfold Spec.obj dot
    exact Finset.sum_congr rfl fun j _ => mul_comm _ _
  rw [hobj] at h4
  refine ⟨?_, by simpa using h4.1⟩
  cases vLB with
  | bot => exact WithBot.bot_lt_coe _
  | coe l =>
    have := h4.2
    simp only [decide_eq_true_eq, ge_iff_le] at this
    exact WithBot.coe_lt_coe.2 (by linarith)

theorem keeps_improve (hJ : Closed0 J) (cands : List Vec) :
    Keeps J (improve env I cands) := fun s h => by
  unfold improve
  rw [wp_bind, wp_get]
  split
  · exact h
  · next r hr =>
    rw [wp_bind, wp_modify, wp_writeLB]
    exact hJ.lb _ _ h (incumbent_lt hr).1

theorem keeps_bigM : Keeps J (bigMStep env cfg I) :=
  keeps_bind keeps_get fun s => keeps_ite
    (keeps_bind keeps_nextTick fun t => keeps_bind (keeps_lift _) fun M => keeps_pure _)
    (keeps_pure _)

theorem keeps_partitionBound (hJ : TimeClosed env cfg J) (bigM : Option (List (List ℚ))) :
    Keeps J (partitionBound env cfg I bigM) :=
  keeps_bind (keeps_time hJ) fun _ => keeps_bind keeps_get fun s =>
    keeps_bind (keeps_lift _) fun zs => keeps_bind keeps_nextTick fun t =>
      keeps_bind (keeps_buildTime hJ) fun b =>
        keeps_bind (keeps_lift _) fun out => keeps_bind (keeps_lift _) fun _ => keeps_pure _

theorem keeps_computeUB (hJ : TimeClosed env cfg J) (bigM : Option (List (List ℚ))) :
    Keeps J (computeUB env cfg I bigM) :=
  keeps_bind keeps_get fun s => keeps_ite (keeps_lift _) (keeps_partitionBound hJ bigM)

theorem keeps_updateUB (hJ : Closed0 J) (out : UBOut) : Keeps J (updateUB out) :=
  fun s h => by
  unfold updateUB
  wp_simp
  exact ⟨fun hv => hJ.ub _ _ h hv, fun _ => h⟩

theorem keeps_storeUB (hJ : ClosedS J) (out : UBOut) : Keeps J (storeUB env I out) :=
  keeps_bind (keeps_modify _ fun _ => rfl) fun _ =>
    keeps_bind (keeps_updateUB hJ.toClosed0 out) fun _ =>
      keeps_bind (keeps_modify _ fun _ => rfl) fun _ => keeps_storeInfo hJ fun _ => keeps_pure _

theorem keeps_upperBound (hJ : Closed env cfg J) (bigM : Option (List (List ℚ))) :
    Keeps J (upperBound env cfg I bigM) :=
  keeps_bind (keeps_computeUB hJ.time bigM) fun out => keeps_bind (keeps_time hJ.time) fun t =>
    keeps_ite (keeps_bind keeps_get fun s => keeps_pure _) (keeps_storeUB hJ.toClosedS out)

theorem keeps_storeLB (hJ : Closed0 J) (out : LBOut) : Keeps J (storeLB out) :=
  fun s h => by
  unfold storeLB
  wp_simp
  exact ⟨fun hv => hJ.lb _ _ h hv, fun _ => h⟩

theorem keeps_lowerBound (hJ : ClosedS J) (x : Option Vec) :
    Keeps J (lowerBound env cfg I x) :=
  keeps_bind keeps_get fun s => keeps_bind keeps_nextTick fun t =>
    keeps_bind (keeps_lift _) fun r => keeps_bind (keeps_modify _ fun _ => rfl) fun _ =>
      keeps_bind (keeps_storeLB hJ.toClosed0 _) fun _ => keeps_storeInfo hJ fun _ => keeps_pure _

theorem keeps_setCost (c : ℕ) (r : ℚ × Vec) : Keeps J (setCost c r) :=
  keeps_bind keeps_get fun s => keeps_ite
    (keeps_bind (keeps_lift _) fun _ => keeps_modify _ fun _ => rfl)
    (keeps_modify _ fun _ => rfl)

theorem keeps_evalNew (t : ℕ) : ∀ (cs : List ℕ) (k : ℕ), Keeps J (evalNew env I t cs k)
  | [], _ => keeps_pure _
  | _ :: cs, k => keeps_bind keeps_get fun s => keeps_bind (keeps_lift _) fun p =>
      keeps_bind (keeps_lift _) fun r => keeps_bind (keeps_setCost _ r) fun _ =>
        keeps_bind (keeps_evalNew t cs (k + 1)) fun rs => keeps_pure _

theorem keeps_reload : Keeps J (reload I) :=
  keeps_bind keeps_get fun s => keeps_bind (keeps_lift _) fun D => keeps_modify _ fun _ => rfl

theorem keeps_split (hJ : Closed0 J) (rounds : ℕ) : Keeps J (split env cfg I rounds) :=
  keeps_bind keeps_nextTick fun t => keeps_bind keeps_get fun s =>
    keeps_bind (keeps_lift _) fun r => keeps_bind (keeps_modify _ fun _ => rfl) fun _ =>
      keeps_bind keeps_reload fun _ => keeps_bind (keeps_evalNew t _ _) fun rs =>
        keeps_bind (keeps_improve hJ _) fun _ => keeps_pure _

theorem keeps_evalTargets (t : ℕ) : ∀ (cs : List ℕ) (k : ℕ), Keeps J (evalTargets env I t cs k)
  | [], _ => keeps_pure _
  | _ :: cs, k => keeps_bind keeps_get fun s => keeps_bind (keeps_lift _) fun p =>
      keeps_bind (keeps_lift _) fun r => keeps_bind (keeps_lift _) fun _ =>
        keeps_bind (keeps_lift _) fun _ => keeps_bind (keeps_modify _ fun _ => rfl) fun _ =>
        keeps_bind (keeps_evalTargets t cs (k + 1)) fun rs => keeps_pure _

theorem keeps_applyMerge (hJ : Closed0 J) (m : MState) : Keeps J (applyMerge env I m) :=
  keeps_bind (keeps_modify _ fun _ => rfl) fun _ => keeps_bind keeps_reload fun _ =>
    keeps_bind keeps_get fun s => keeps_bind (keeps_lift _) fun _ =>
      keeps_bind (keeps_lift _) fun _ => keeps_bind (keeps_modify _ fun _ => rfl) fun _ =>
        keeps_bind keeps_nextTick fun t => keeps_bind (keeps_evalTargets t _ _) fun xs =>
          keeps_improve hJ _

theorem keeps_mergeAllFeasible (hJ : Closed0 J) (l : List ℕ) :
    Keeps J (mergeAllFeasible env I l) :=
  keeps_bind keeps_get fun s => by
    split
    · exact keeps_throw _
    · exact keeps_bind (keeps_lift _) fun m => keeps_bind (keeps_applyMerge hJ m) fun _ =>
        keeps_bind keeps_get fun s => keeps_bind (keeps_lift _) fun _ =>
          keeps_modify _ fun _ => rfl

theorem keeps_mergeMuPlusOne (hJ : Closed0 J) (l : List ℕ) (mu : ℕ) (x : Option Vec) :
    Keeps J (mergeMuPlusOne env I l mu x) :=
  keeps_bind keeps_get fun s => by
    cases x with
    | none => exact keeps_throw _
    | some x => exact keeps_bind (keeps_lift _) fun m =>
        keeps_bind (keeps_applyMerge hJ m) fun _ => keeps_modify _ fun _ => rfl

theorem keeps_merge (hJ : Closed0 J) (x : Option Vec) (out : RefineOut)
    (newCosts : List ℚ) : Keeps J (merge env cfg I x out newCosts) :=
  keeps_bind (keeps_modify _ fun _ => rfl) fun _ => keeps_ite
    (keeps_bind (keeps_lift _) fun v => keeps_bind keeps_get fun s => keeps_ite
      (keeps_ite (keeps_mergeAllFeasible hJ _)
        (keeps_ite (keeps_mergeMuPlusOne hJ _ _ _) (keeps_throw _))) (keeps_pure _))
    (keeps_pure _)

/-- After a step that goes on, the last remaining time read is the one handed to the loop. -/
def StepPost (J : View → Prop) (r : Step) (s : St) : Prop :=
  J (view s) ∧ ∀ g t, r = .next g t → s.lastRem = t

theorem wp_splitMergeStep (hJ : Closed env cfg J) (rounds : ℕ) (x : Option Vec) (gap : Gap)
    (s : St) (h : J (view s)) :
    wp (splitMergeStep env cfg I rounds x gap) (StepPost J) (fun _ s' => J (view s')) s := by
  unfold splitMergeStep
  rw [wp_bind]
  refine wp_mono (keeps_split hJ.toClosed0 rounds s h) (fun r s1 h1 => ?_) fun _ _ h => h
  rw [wp_bind]
  refine wp_mono (keeps_merge hJ.toClosed0 x r.1 r.2 s1 h1) (fun _ s2 h2 => ?_) fun _ _ h => h
  wp_simp
  refine ⟨fun _ => ⟨hJ.time.read _ h2, by intro g t h; cases h⟩,
    fun _ => ⟨hJ.time.read _ (hJ.next _ (hJ.time.read _ h2)), ?_⟩⟩
  rintro g t h; cases h; rfl

theorem wp_lowerStep (hJ : Closed env cfg J) (rounds : ℕ) (x : Option Vec)
    (s : St) (h : J (view s)) (ht : 0 < s.lastRem) :
    wp (lowerStep env cfg I rounds x) (StepPost J) (fun _ s' => J (view s')) s := by
  unfold lowerStep
  rw [wp_bind, wp_markStep, wp_bind]
  refine wp_mono (keeps_lowerBound hJ.toClosedS x _ (hJ.mark _ h ht)) (fun g s1 h1 => ?_) fun _ _ h => h
  wp_simp
  refine ⟨fun _ => ⟨h1, by intro g t h; cases h⟩, fun _ => ⟨fun _ => ⟨hJ.time.read _ h1, ?_⟩, fun _ => ?_⟩⟩
  · intro g t h; cases h
  · exact wp_splitMergeStep hJ rounds x g _ (hJ.time.read _ h1)

theorem wp_iterate (hJ : Closed env cfg J) (rounds : ℕ) (gap : Gap)
    (s : St) (h : J (view s)) (ht : 0 < s.lastRem) :
    wp (iterate env cfg I rounds gap) (StepPost J) (fun _ s' => J (view s')) s := by
  unfold iterate
  rw [wp_bind]
  unfold currentGap
  wp_simp
  refine ⟨fun _ _ => ?_, fun _ _ => h⟩
  refine wp_mono (keeps_bigM _ (hJ.mark _ h ht)) (fun M s1 h1 => ?_) fun _ _ h => h
  refine wp_mono (keeps_upperBound hJ M s1 h1) (fun r s2 h2 => ?_) fun _ _ h => h
  refine ⟨fun _ => ⟨h2, by intro g t h; cases h⟩, fun _ => ⟨fun _ => ⟨hJ.time.read _ h2, ?_⟩, fun h3 => ?_⟩⟩
  · intro g t h; cases h
  · exact wp_lowerStep hJ rounds r.1 _ (hJ.time.read _ h2) (not_le.1 h3)

theorem wp_mainLoop (hJ : Closed env cfg J) (rounds : ℕ) : ∀ (fuel : ℕ) (gap : Gap) (t : ℚ)
    (s : St), J (view s) → s.lastRem = t →
    wp (mainLoop env cfg I rounds fuel gap t) (fun _ s' => J (view s')) (fun _ s' => J (view s')) s
  | fuel, gap, t, s, h, ht => by
    unfold mainLoop
    rw [wp_ite]
    refine ⟨fun h0 => ?_, fun _ => h⟩
    cases fuel with
    | zero => exact h
    | succ fuel =>
      simp only
      rw [wp_bind]
      refine wp_mono (wp_iterate hJ rounds gap s h (ht ▸ h0)) (fun r s1 h1 => ?_) fun _ _ h => h
      cases r with
      | stop b g => exact h1.1
      | next g t' => exact wp_mainLoop hJ rounds fuel g t' s1 h1.1 (h1.2 g t' rfl)

theorem keeps_start (hJ : Closed0 J) (h1 : ∀ w, J w → J { w with iteration := 1 }) :
    Keeps J (startSolve env I) :=
  keeps_bind keeps_nextTick fun t => keeps_bind keeps_get fun s =>
    keeps_bind (keeps_lift _) fun r => keeps_bind (keeps_modify _ fun _ => rfl) fun _ =>
      keeps_bind (keeps_bind keeps_get fun s => keeps_ite (keeps_throw _) (keeps_improve hJ _))
        fun _ => fun s hs => by rw [wp_modify]; exact h1 _ hs

/-- The final report changes nothing but the lower bound. -/
def sameButLB (w w' : View) : Prop := ∃ l, w' = { w with vLB := l }

/-- The whole of `solve`. -/
theorem wp_solve (hJ : Closed env cfg J) (hit : ∀ w, J w → J { w with iteration := 1 })
    (rounds fuel : ℕ) (s : St) (h : J (view s)) :
    wp (solve env cfg I rounds fuel)
      (fun r s' => ∃ w, J w ∧ (view s' = w ∨ r.1 = true ∧ sameButLB w (view s')))
      (fun _ s' => J (view s')) s := by
  unfold solve
  rw [wp_bind]
  refine wp_mono (keeps_start hJ.toClosed0 hit s h) (fun _ s1 h1 => ?_) fun _ _ h => h
  rw [wp_bind, wp_availableTime, wp_bind]
  refine wp_mono (wp_mainLoop hJ rounds fuel _ _ _ (hJ.time.read _ h1) rfl) (fun r s2 h2 => ?_)
    fun _ _ h => h
  unfold report
  rw [wp_bind, wp_ite]
  refine ⟨fun hr => ?_, fun _ => ⟨view s2, h2, .inl rfl⟩⟩
  rw [wp_modify, wp_pure]
  exact ⟨view s2, h2, .inr ⟨hr, _, rfl⟩⟩

end Verif.Model
