import Verif.Lemmas.View

/-!
# What the lower bounder sees during a run

Frames for the attributes of the lower bounder and the ghosts `points` and `chosen`: only
`_upper_bound` and `_lower_bound` change them.
-/

namespace Verif.Model
open Props

/-- The attributes in question. -/
def lbv (s : St) : LBState × List Vec × List (Option Vec × List Vec × List ℕ) :=
  (s.lb, s.points, s.chosen)

/-- `m` leaves them alone, also when it raises. -/
def Rests {α : Type} (m : SM α) : Prop :=
  ∀ s, wp m (fun _ s' => lbv s' = lbv s) (fun _ s' => lbv s' = lbv s) s

variable {α β : Type} {env : Env} {cfg : Cfg} {I : Inst}

theorem rests_pure (a : α) : Rests (Pure.pure a) := fun _ => rfl
theorem rests_throw (e : PyErr) : Rests (α := α) (SM.throw e) := fun _ => rfl
theorem rests_get : Rests SM.get := fun _ => rfl
theorem rests_nextTick : Rests nextTick := fun _ => rfl
theorem rests_time : Rests (availableTime env cfg) := fun _ => rfl
theorem rests_writeLB (v : ℚ) (b : Bool) : Rests (writeLB v b) := fun _ => rfl
theorem rests_writeUB (v : ℚ) : Rests (writeUB v) := fun _ => rfl
theorem rests_build : Rests (buildTime env) := fun _ => rfl
theorem rests_info (g : Gap) : Rests (storeInfo g) := fun _ => rfl
theorem rests_modify (f : St → St) (hf : ∀ s, lbv (f s) = lbv s) : Rests (SM.modify f) := hf

theorem rests_lift (m : PyM α) : Rests (SM.lift m) := fun s => by
  rw [wp_lift]; exact ⟨fun _ _ => rfl, fun _ _ => rfl⟩

theorem rests_bind {m : SM β} {f : β → SM α} (h : Rests m) (h' : ∀ b, Rests (f b)) :
    Rests (m >>= f) := fun s => by
  rw [wp_bind]
  refine wp_mono (h s) (fun b s' hs' => ?_) fun _ _ h => h
  exact wp_mono (h' b s') (fun _ _ h => h.trans hs') fun _ _ h => h.trans hs'

theorem rests_ite {c : Prop} [Decidable c] {m m' : SM α} (h : Rests m) (h' : Rests m') :
    Rests (if c then m else m') := by
  split
  · exact h
  · exact h'

theorem rests_gap : Rests currentGap := rests_bind rests_get fun _ => rests_lift _

theorem rests_improve (cands : List Vec) : Rests (improve env I cands) :=
  rests_bind rests_get fun s => by
    split
    · exact rests_pure _
    · exact rests_bind (rests_modify _ fun _ => rfl) fun _ => rests_writeLB _ _

theorem rests_bigM : Rests (bigMStep env cfg I) :=
  rests_bind rests_get fun _ => rests_ite
    (rests_bind rests_nextTick fun _ => rests_bind (rests_lift _) fun _ => rests_pure _)
    (rests_pure _)

theorem rests_computeUB (M : Option (List (List ℚ))) : Rests (computeUB env cfg I M) :=
  rests_bind rests_get fun _ => rests_ite (rests_lift _)
    (rests_bind rests_time fun _ => rests_bind rests_get fun _ => rests_bind (rests_lift _) fun _ =>
      rests_bind rests_nextTick fun _ => rests_bind rests_build fun _ =>
        rests_bind (rests_lift _) fun _ => rests_bind (rests_lift _) fun _ => rests_pure _)

theorem rests_updateUB (out : UBOut) : Rests (updateUB out) :=
  rests_bind rests_get fun _ =>
    rests_ite (rests_bind (rests_modify _ fun _ => rfl) fun _ => rests_writeUB _) (rests_pure _)

theorem rests_storeLB (out : LBOut) : Rests (storeLB out) :=
  rests_bind rests_get fun _ =>
    rests_ite (rests_bind (rests_writeLB _ _) fun _ => rests_modify _ fun _ => rfl) (rests_pure _)

theorem rests_setCost (c : ℕ) (r : ℚ × Vec) : Rests (setCost c r) :=
  rests_bind rests_get fun s => rests_ite
    (rests_bind (rests_lift _) fun _ => rests_modify _ fun _ => rfl)
    (rests_modify _ fun _ => rfl)

theorem rests_evalNew (t : ℕ) : ∀ (cs : List ℕ) (k : ℕ), Rests (evalNew env I t cs k)
  | [], _ => rests_pure _
  | _ :: cs, k => rests_bind rests_get fun s => rests_bind (rests_lift _) fun p =>
      rests_bind (rests_lift _) fun r => rests_bind (rests_setCost _ r) fun _ =>
        rests_bind (rests_evalNew t cs (k + 1)) fun rs => rests_pure _

theorem rests_reload : Rests (reload I) :=
  rests_bind rests_get fun s => rests_bind (rests_lift _) fun D => rests_modify _ fun _ => rfl

theorem rests_split (rounds : ℕ) : Rests (split env cfg I rounds) :=
  rests_bind rests_nextTick fun t => rests_bind rests_get fun s =>
    rests_bind (rests_lift _) fun r => rests_bind (rests_modify _ fun _ => rfl) fun _ =>
      rests_bind rests_reload fun _ => rests_bind (rests_evalNew t _ _) fun rs =>
        rests_bind (rests_improve _) fun _ => rests_pure _

theorem rests_evalTargets (t : ℕ) : ∀ (cs : List ℕ) (k : ℕ), Rests (evalTargets env I t cs k)
  | [], _ => rests_pure _
  | _ :: cs, k => rests_bind rests_get fun s => rests_bind (rests_lift _) fun p =>
      rests_bind (rests_lift _) fun r => rests_bind (rests_lift _) fun _ =>
        rests_bind (rests_lift _) fun _ => rests_bind (rests_modify _ fun _ => rfl) fun _ =>
        rests_bind (rests_evalTargets t cs (k + 1)) fun rs => rests_pure _

theorem rests_applyMerge (m : MState) : Rests (applyMerge env I m) :=
  rests_bind (rests_modify _ fun _ => rfl) fun _ => rests_bind rests_reload fun _ =>
    rests_bind rests_get fun s => rests_bind (rests_lift _) fun _ =>
      rests_bind (rests_lift _) fun _ => rests_bind (rests_modify _ fun _ => rfl) fun _ =>
        rests_bind rests_nextTick fun t => rests_bind (rests_evalTargets t _ _) fun xs =>
          rests_improve _

theorem rests_merge (x : Option Vec) (out : RefineOut) (newCosts : List ℚ) :
    Rests (merge env cfg I x out newCosts) :=
  rests_bind (rests_modify _ fun _ => rfl) fun _ => rests_ite
    (rests_bind (rests_lift _) fun v => rests_bind rests_get fun s => rests_ite
      (rests_ite
        (rests_bind rests_get fun s => by
          split
          · exact rests_throw _
          · exact rests_bind (rests_lift _) fun m => rests_bind (rests_applyMerge m) fun _ =>
              rests_bind rests_get fun s => rests_bind (rests_lift _) fun _ =>
                rests_modify _ fun _ => rfl)
        (rests_ite
          (rests_bind rests_get fun s => by
            cases x with
            | none => exact rests_throw _
            | some x => exact rests_bind (rests_lift _) fun m =>
                rests_bind (rests_applyMerge m) fun _ => rests_modify _ fun _ => rfl)
          (rests_throw _))) (rests_pure _))
    (rests_pure _)

theorem rests_start : Rests (startSolve env I) :=
  rests_bind rests_nextTick fun t => rests_bind rests_get fun s =>
    rests_bind (rests_lift _) fun r => rests_bind (rests_modify _ fun _ => rfl) fun _ =>
      rests_bind (rests_bind rests_get fun s => rests_ite (rests_throw _) (rests_improve _))
        fun _ => rests_modify _ fun _ => rfl

/-! ## Invariants -/

/-- `J` holds before the first step and is kept by storing an upper-bound solution and by a
lower bound computed from the solution stored last. -/
structure LbClosed (env : Env) (cfg : Cfg) (I : Inst)
    (J : LBState × List Vec × List (Option Vec × List Vec × List ℕ) → Prop) : Prop where
  save : ∀ l p c x, J (l, p, c) →
    J (l.saveFeasible (getFeasibleScenarios (checkFeasibility env.norm I x)), p ++ [x], c)
  bound : ∀ l p c x v solve r, J (l, p ++ [x], c) →
    deterministicBound env.norm env.argsort I cfg.projection solve l v (some x) = .ok r →
    J (r.1, p ++ [x], c ++ [(some x, p ++ [x], r.1.scenarios)])

variable {J : LBState × List Vec × List (Option Vec × List Vec × List ℕ) → Prop}

/-- The last point stored is `x`, or the time was over at the last reading. -/
def Handed (env : Env) (cfg : Cfg) (x : Option Vec) (s : St) : Prop :=
  (∃ p q, s.points = p ++ [q] ∧ x = some q) ∨ remaining env.clock cfg.timeLimit s.reads ≤ 0

theorem wp_upperBound_log (hJ : LbClosed env cfg I J) (M : Option (List (List ℚ))) (s : St)
    (h : J (lbv s)) :
    wp (upperBound env cfg I M)
      (fun r s' => J (lbv s') ∧ Handed env cfg r.1 s') (fun _ s' => J (lbv s')) s := by
  unfold upperBound
  rw [wp_bind]
  refine wp_mono (rests_computeUB M s) (fun out s1 h1 => ?_) fun _ _ h' => h' ▸ h
  rw [wp_bind, wp_availableTime, wp_ite]
  have hJ1 : J (lbv s1) := h1 ▸ h
  refine ⟨fun ht => ⟨hJ1, .inr ht⟩, fun _ => ?_⟩
  unfold storeUB
  rw [wp_bind, wp_modify, wp_bind]
  have key : ∀ s2, lbv s2 = lbv s1 → wp (do
        SM.modify fun s =>
          { s with
            lb := s.lb.saveFeasible (getFeasibleScenarios (checkFeasibility env.norm I out.x))
            points := s.points ++ [out.x] }
        let g ← currentGap
        storeInfo g
        pure ((some out.x : Option Vec), (checkFeasibility env.norm I out.x).feasible))
      (fun r s' => J (lbv s') ∧ Handed env cfg r.1 s') (fun _ s' => J (lbv s')) s2 := by
    intro s2 h2
    have hJ2 : J (lbv s2) := h2 ▸ hJ1
    rw [wp_bind, wp_modify, wp_bind]
    have hJ3 := hJ.save _ _ _ out.x hJ2
    refine wp_mono (rests_gap _) (fun g s3 h3 => ?_) fun _ _ h' => h' ▸ hJ3
    rw [wp_bind]
    refine wp_mono (rests_info g s3) (fun _ s4 h4 => ?_) fun _ _ h' => (h'.trans h3) ▸ hJ3
    have h5 := h4.trans h3
    refine ⟨h5 ▸ hJ3, .inl ⟨s2.points, out.x, ?_, rfl⟩⟩
    exact congrArg (fun v => v.2.1) h5
  refine wp_mono (rests_updateUB out _) (fun _ s2 h2 => key s2 h2) fun _ _ h' => ?_
  exact (show _ = lbv s1 from h') ▸ hJ1

theorem wp_lowerBound_log (hJ : LbClosed env cfg I J) (x : Option Vec) (s : St)
    (h : J (lbv s)) (hx : ∃ p q, s.points = p ++ [q] ∧ x = some q) :
    wp (lowerBound env cfg I x) (fun _ s' => J (lbv s')) (fun _ s' => J (lbv s')) s := by
  obtain ⟨p, q, hp, rfl⟩ := hx
  unfold lowerBound
  rw [wp_bind, wp_get, wp_bind, wp_nextTick, wp_bind, wp_lift]
  refine ⟨fun r hr => ?_, fun _ _ => h⟩
  rw [wp_bind, wp_modify]
  have h1 : J (r.1, s.points, s.chosen ++ [(some q, s.points, r.1.scenarios)]) := by
    have := hJ.bound s.lb p s.chosen q s.vLB _ r (hp ▸ h) hr
    rwa [← hp] at this
  rw [wp_bind]
  refine wp_mono (rests_storeLB r.2 _) (fun _ s2 h2 => ?_) fun _ _ h' => h' ▸ h1
  rw [wp_bind]
  refine wp_mono (rests_gap s2) (fun g s3 h3 => ?_) fun _ _ h' => (h'.trans h2) ▸ h1
  rw [wp_bind]
  refine wp_mono (rests_info g s3) (fun _ s4 h4 => ?_) fun _ _ h' => (h'.trans (h3.trans h2)) ▸ h1
  rw [wp_pure]
  exact (h4.trans (h3.trans h2)) ▸ h1

/-- With a clock that does not run backwards, no time is left after a reading without time. -/
theorem remaining_antitone (hclock : Monotone env.clock) {j k : ℕ} (h : j ≤ k) :
    remaining env.clock cfg.timeLimit k ≤ remaining env.clock cfg.timeLimit j := by
  unfold remaining
  have := hclock h
  exact max_le_max (by linarith) le_rfl

theorem wp_iterate_log (hJ : LbClosed env cfg I J) (hclock : Monotone env.clock) (rounds : ℕ)
    (gap : Gap) (s : St) (h : J (lbv s)) :
    wp (iterate env cfg I rounds gap) (fun _ s' => J (lbv s')) (fun _ s' => J (lbv s')) s := by
  unfold iterate
  rw [wp_bind]
  refine wp_mono (rests_gap s) (fun _ s1 h1 => ?_) fun _ _ h' => h' ▸ h
  rw [wp_bind, wp_markStep, wp_bind]
  refine wp_mono (rests_bigM _) (fun M s2 h2 => ?_) fun _ _ h' => ?_
  swap
  · exact (h'.trans (show _ = lbv s from h1)) ▸ h
  have hJ2 : J (lbv s2) := (h2.trans (show _ = lbv s from h1)) ▸ h
  rw [wp_bind]
  refine wp_mono (wp_upperBound_log hJ M s2 hJ2) (fun r s3 h3 => ?_) fun _ _ h' => h'
  obtain ⟨hJ3, hx⟩ := h3
  rw [wp_ite]
  refine ⟨fun _ => hJ3, fun _ => ?_⟩
  rw [wp_bind, wp_availableTime, wp_ite]
  refine ⟨fun _ => hJ3, fun ht => ?_⟩
  have hx' : ∃ p q, s3.points = p ++ [q] ∧ r.1 = some q := by
    rcases hx with hx | hx
    · exact hx
    · exact absurd ((remaining_antitone hclock (Nat.le_succ _)).trans hx) ht
  unfold lowerStep
  rw [wp_bind, wp_markStep, wp_bind]
  refine wp_mono (wp_lowerBound_log hJ r.1 _ hJ3 hx') (fun g s4 h4 => ?_) fun _ _ h' => h'
  rw [wp_ite]
  refine ⟨fun _ => h4, fun _ => ?_⟩
  rw [wp_bind, wp_availableTime, wp_ite]
  refine ⟨fun _ => h4, fun _ => ?_⟩
  unfold splitMergeStep
  rw [wp_bind]
  refine wp_mono (rests_split rounds _) (fun r5 s5 h5 => ?_) fun _ _ h' => ?_
  swap
  · exact (show _ = lbv s4 from h') ▸ h4
  have hJ5 : J (lbv s5) := (show _ = lbv s4 from h5) ▸ h4
  rw [wp_bind]
  refine wp_mono (rests_merge r.1 r5.1 r5.2 s5) (fun _ s6 h6 => ?_) fun _ _ h' => h' ▸ hJ5
  have hJ6 : J (lbv s6) := h6 ▸ hJ5
  wp_simp
  exact ⟨fun _ => hJ6, fun _ => hJ6⟩

theorem wp_mainLoop_log (hJ : LbClosed env cfg I J) (hclock : Monotone env.clock) (rounds : ℕ) :
    ∀ (fuel : ℕ) (gap : Gap) (t : ℚ) (s : St), J (lbv s) →
    wp (mainLoop env cfg I rounds fuel gap t) (fun _ s' => J (lbv s')) (fun _ s' => J (lbv s')) s
  | fuel, gap, t, s, h => by
    unfold mainLoop
    rw [wp_ite]
    refine ⟨fun h0 => ?_, fun _ => h⟩
    cases fuel with
    | zero => exact h
    | succ fuel =>
      simp only
      rw [wp_bind]
      refine wp_mono (wp_iterate_log hJ hclock rounds gap s h) (fun r s1 h1 => ?_) fun _ _ h => h
      cases r with
      | stop b g => exact h1
      | next g t' => exact wp_mainLoop_log hJ hclock rounds fuel g t' s1 h1

/-- The whole of `solve`. -/
theorem wp_solve_log (hJ : LbClosed env cfg I J) (hclock : Monotone env.clock) (rounds fuel : ℕ)
    (s : St) (h : J (lbv s)) :
    wp (solve env cfg I rounds fuel) (fun _ s' => J (lbv s')) (fun _ s' => J (lbv s')) s := by
  unfold solve
  rw [wp_bind]
  refine wp_mono (rests_start s) (fun _ s1 h1 => ?_) fun _ _ h' => h' ▸ h
  rw [wp_bind, wp_availableTime, wp_bind]
  refine wp_mono (wp_mainLoop_log hJ hclock rounds fuel _ _ _ ?_) (fun r s2 h2 => ?_) fun _ _ h => h
  · exact (show _ = lbv s from h1) ▸ h
  · unfold report
    wp_simp
    exact ⟨fun _ => h2, fun _ => h2⟩

/-- Construction and `solve`. -/
theorem run_log (hJ : LbClosed env cfg I J) (hclock : Monotone env.clock)
    (h0 : J (LBState.init I, [], [])) (rounds fuel : ℕ) {r : Except PyErr (Bool × Gap)} {s : St}
    (h : run env cfg I rounds fuel = .ok (r, s)) : J (lbv s) := by
  unfold run at h
  cases hc : construct env cfg I with
  | error e => rw [hc] at h; cases h
  | ok s0 =>
    rw [hc] at h
    have hs : solve env cfg I rounds fuel s0 = (r, s) := by
      simpa [bind, Except.bind, pure, Except.pure] using h
    have h1 : lbv s0 = (LBState.init I, [], []) := by
      unfold construct at hc
      simp only [bind, Except.bind, pure, Except.pure] at hc
      repeat' split at hc
      all_goals first | (cases hc; rfl) | cases hc
    have := wp_solve_log hJ hclock rounds fuel s0 (h1 ▸ h0)
    cases r with
    | ok a => exact wp_ok this hs
    | error e => exact wp_error this hs

end Verif.Model
