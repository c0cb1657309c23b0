import Verif.Lemmas.LbLog
import Verif.Lemmas.Time
import Verif.Props.Certificates

/-!
# C81: why `solve` stops
-/

namespace Verif.Props
open Spec Model Finset

variable {env : Env} {cfg : Cfg} {I : Inst} {rounds fuel : ℕ}

/-- The verdict on a point. -/
def Passes (env : Env) (I : Inst) (x : Vec) : Prop := (checkFeasibility env.norm I x).feasible = true

/-- Between two iterations. -/
def Before (env : Env) (I : Inst) (s : St) : Prop :=
  (∀ p ∈ s.points, ¬ Passes env I p) ∧ s.points.length + 1 = s.iteration

/-- After the loop. -/
def Ended (env : Env) (cfg : Cfg) (I : Inst) (b : Bool) (g : Gap) (s : St) : Prop :=
  (b = true → ∃ ps x, s.points = ps ++ [x] ∧ Passes env I x ∧ (∀ p ∈ ps, ¬ Passes env I p)
    ∧ s.points.length = s.iteration)
  ∧ (b = false → (∀ p ∈ s.points, ¬ Passes env I p)
    ∧ (s.lastRem ≤ 0 ∧ (s.points.length = s.iteration ∨ s.points.length + 1 = s.iteration)
      ∨ s.points.length = s.iteration ∧ g.le cfg.gap = true
        ∧ ∃ flag, computeGap s.vUB s.vLB flag = .ok g))

theorem closed_iteration (k : ℕ) : ClosedS (fun w => w.iteration = k) :=
  ⟨⟨fun _ _ h _ => h, fun _ _ h _ => h⟩, fun _ _ _ _ h _ => h⟩

theorem timeClosed_iteration (k : ℕ) : TimeClosed env cfg (fun w => w.iteration = k) :=
  ⟨fun _ h => h, fun _ h => h⟩

/-- What a frame gives. -/
theorem wp_frame {α : Type} {m : SM α} (h1 : Rests m)
    (h2 : ∀ k, Keeps (fun w => w.iteration = k) m) (s : St) :
    wp m (fun _ s' => s'.points = s.points ∧ s'.iteration = s.iteration) (fun _ _ => True) s :=
  wp_mono (wp_and (h1 s) (h2 s.iteration s rfl))
    (fun _ _ h => ⟨congrArg (fun v => v.2.1) h.1, h.2⟩) fun _ _ _ => trivial

theorem wp_upperBound_stop (M : Option (List (List ℚ))) (s : St) :
    wp (upperBound env cfg I M)
      (fun r s' => s'.iteration = s.iteration
        ∧ (s'.points = s.points ∧ s'.lastRem ≤ 0 ∧ r.2 = false
            ∧ remaining env.clock cfg.timeLimit s'.reads ≤ 0
          ∨ ∃ x, s'.points = s.points ++ [x] ∧ (r.2 = true ↔ Passes env I x)))
      (fun _ _ => True) s := by
  unfold upperBound
  rw [wp_bind]
  refine wp_mono (wp_frame (rests_computeUB M)
    (fun k => keeps_computeUB (timeClosed_iteration k) M) s) (fun out s1 h1 => ?_) fun _ _ h => h
  rw [wp_bind, wp_availableTime, wp_ite]
  refine ⟨fun ht => ⟨h1.2, .inl ⟨h1.1, ht, rfl, ht⟩⟩, fun _ => ?_⟩
  unfold storeUB
  rw [wp_bind, wp_modify, wp_bind]
  refine wp_mono (wp_frame (rests_updateUB out)
    (fun k => keeps_updateUB (closed_iteration k).toClosed0 out) _) (fun _ s2 h2 => ?_) fun _ _ h => h
  rw [wp_bind, wp_modify, wp_bind]
  refine wp_mono (wp_frame rests_gap (fun _ => keeps_currentGap) _) (fun g s3 h3 => ?_)
    fun _ _ h => h
  unfold storeInfo
  rw [wp_bind, wp_modify, wp_pure]
  refine ⟨?_, .inr ⟨out.x, ?_, Iff.rfl⟩⟩
  · exact h3.2.trans (h2.2.trans h1.2)
  · refine h3.1.trans ?_
    show s2.points ++ [out.x] = _
    rw [h2.1]
    show s1.points ++ [out.x] = _
    rw [h1.1]

theorem wp_lowerBound_stop (x : Option Vec) (s : St) :
    wp (lowerBound env cfg I x)
      (fun g s' => s'.iteration = s.iteration ∧ s'.points = s.points
        ∧ ∃ flag, computeGap s'.vUB s'.vLB flag = .ok g) (fun _ _ => True) s := by
  unfold lowerBound
  rw [wp_bind, wp_get, wp_bind, wp_nextTick, wp_bind, wp_lift]
  refine ⟨fun r _ => ?_, fun _ _ => trivial⟩
  rw [wp_bind, wp_modify, wp_bind]
  refine wp_mono (wp_frame (rests_storeLB r.2)
    (fun k => keeps_storeLB (closed_iteration k).toClosed0 r.2) _) (fun _ s2 h2 => ?_) fun _ _ h => h
  unfold currentGap storeInfo
  rw [wp_bind, wp_bind, wp_get, wp_lift]
  refine ⟨fun g hg => ?_, fun _ _ => trivial⟩
  rw [wp_bind, wp_modify, wp_pure]
  exact ⟨h2.2, h2.1, _, hg⟩

theorem wp_iterate_stop (hclock : Monotone env.clock) (gap : Gap) (s : St) (h : Before env I s) :
    wp (iterate env cfg I rounds gap)
      (fun r s' => match r with
        | .stop b g => Ended env cfg I b g s'
        | .next _ t => Before env I s' ∧ s'.lastRem = t) (fun _ _ => True) s := by
  unfold iterate
  rw [wp_bind]
  refine wp_mono (wp_frame rests_gap (fun _ => keeps_currentGap) s) (fun _ s1 h1 => ?_)
    fun _ _ h => h
  rw [wp_bind, wp_markStep, wp_bind]
  refine wp_mono (wp_frame rests_bigM (fun _ => keeps_bigM) _) (fun M s2 h2 => ?_) fun _ _ h => h
  have hp2 : s2.points = s.points := h2.1.trans h1.1
  have hi2 : s2.iteration = s.iteration := h2.2.trans h1.2
  rw [wp_bind]
  refine wp_mono (wp_upperBound_stop M s2) (fun r s3 h3 => ?_) fun _ _ h => h
  obtain ⟨hi3, h3⟩ := h3
  rw [wp_ite]
  constructor
  · intro hr
    rcases h3 with ⟨-, -, h3, -⟩ | ⟨x, h3, h4⟩
    · rw [hr] at h3; cases h3
    · refine ⟨fun _ => ⟨s2.points, x, h3, h4.1 hr, by rw [hp2]; exact h.1, ?_⟩, by rintro ⟨⟩⟩
      rw [h3, hp2, hi3, hi2, List.length_append]
      exact h.2
  intro hr
  have hno : ∀ p ∈ s3.points, ¬ Passes env I p := by
    rcases h3 with ⟨h3, -⟩ | ⟨x, h3, h4⟩
    · rw [h3, hp2]; exact h.1
    · rw [h3, hp2]
      intro p hp
      rcases List.mem_append.1 hp with hp | hp
      · exact h.1 p hp
      · rw [List.mem_singleton] at hp
        subst hp
        exact fun h5 => hr (h4.2 h5)
  have hlen : s3.points.length = s3.iteration ∨ s3.points.length + 1 = s3.iteration
      ∧ remaining env.clock cfg.timeLimit s3.reads ≤ 0 := by
    rcases h3 with ⟨h3, h4, -, h5⟩ | ⟨x, h3, h4⟩
    · exact .inr ⟨by rw [h3, hp2, hi3, hi2]; exact h.2, h5⟩
    · left
      rw [h3, hp2, hi3, hi2, List.length_append]
      exact h.2
  rw [wp_bind, wp_availableTime, wp_ite]
  refine ⟨fun ht => ⟨by rintro ⟨⟩, fun _ => ⟨hno, .inl ⟨ht, ?_⟩⟩⟩, fun ht => ?_⟩
  · exact hlen.imp_right And.left
  have hlen : s3.points.length = s3.iteration := hlen.resolve_right fun h4 =>
    ht ((remaining_antitone hclock (Nat.le_succ _)).trans h4.2)
  unfold lowerStep
  rw [wp_bind, wp_markStep, wp_bind]
  refine wp_mono (wp_lowerBound_stop r.1 _) (fun g s4 h4 => ?_) fun _ _ h => h
  obtain ⟨hi4, hp4, hg4⟩ := h4
  have hno4 : ∀ p ∈ s4.points, ¬ Passes env I p := by rw [hp4]; exact hno
  have hlen4 : s4.points.length = s4.iteration := by rw [hp4, hi4]; exact hlen
  rw [wp_ite]
  refine ⟨fun hg => ⟨by rintro ⟨⟩, fun _ => ⟨hno4, .inr ⟨hlen4, hg, hg4⟩⟩⟩, fun _ => ?_⟩
  rw [wp_bind, wp_availableTime, wp_ite]
  refine ⟨fun ht => ⟨by rintro ⟨⟩, fun _ => ⟨hno4, .inl ⟨ht, .inl hlen4⟩⟩⟩, fun _ => ?_⟩
  unfold splitMergeStep
  rw [wp_bind]
  refine wp_mono (wp_frame (rests_split rounds)
    (fun k => keeps_split (closed_iteration k).toClosed0 rounds) _) (fun q s5 h5 => ?_)
    fun _ _ h => h
  rw [wp_bind]
  refine wp_mono (wp_frame (rests_merge r.1 q.1 q.2)
    (fun k => keeps_merge (closed_iteration k).toClosed0 r.1 q.1 q.2) _) (fun _ s6 h6 => ?_)
    fun _ _ h => h
  have hp6 : s6.points = s4.points := h6.1.trans h5.1
  have hi6 : s6.iteration = s4.iteration := h6.2.trans h5.2
  have hno6 : ∀ p ∈ s6.points, ¬ Passes env I p := by rw [hp6]; exact hno4
  have hlen6 : s6.points.length = s6.iteration := by rw [hp6, hi6]; exact hlen4
  rw [wp_bind, wp_availableTime, wp_ite]
  refine ⟨fun ht => ⟨by rintro ⟨⟩, fun _ => ⟨hno6, .inl ⟨ht, .inl hlen6⟩⟩⟩, fun _ => ?_⟩
  rw [wp_bind, wp_modify, wp_bind, wp_availableTime, wp_pure]
  exact ⟨⟨hno6, congrArg (· + 1) hlen6⟩, rfl⟩

theorem wp_mainLoop_stop (hclock : Monotone env.clock) : ∀ (fuel : ℕ) (gap : Gap) (t : ℚ) (s : St),
    Before env I s → s.lastRem = t →
    wp (mainLoop env cfg I rounds fuel gap t) (fun r s' => Ended env cfg I r.1 r.2 s')
      (fun _ _ => True) s
  | fuel, gap, t, s, h, ht => by
    unfold mainLoop
    rw [wp_ite]
    refine ⟨fun h0 => ?_, fun h0 => ?_⟩
    · cases fuel with
      | zero => exact trivial
      | succ fuel =>
        simp only
        rw [wp_bind]
        refine wp_mono (wp_iterate_stop hclock gap s h) (fun r s1 h1 => ?_) fun _ _ h => h
        cases r with
        | stop b g => exact h1
        | next g t' => exact wp_mainLoop_stop hclock fuel g t' s1 h1.1 h1.2
    · exact ⟨by rintro ⟨⟩, fun _ => ⟨h.1, .inl ⟨ht ▸ not_lt.1 h0, .inr h.2⟩⟩⟩

theorem wp_solve_stop (hclock : Monotone env.clock) (s : St) (h : s.points = []) :
    wp (solve env cfg I rounds fuel) (fun r s' => Ended env cfg I r.1 r.2 s')
      (fun _ _ => True) s := by
  unfold solve
  rw [wp_bind]
  have hstart : wp (startSolve env I) (fun _ s' => s'.points = [] ∧ s'.iteration = 1)
      (fun _ _ => True) s := by
    unfold startSolve
    rw [wp_bind, wp_nextTick, wp_bind, wp_get, wp_bind, wp_lift]
    refine ⟨fun r _ => ?_, fun _ _ => trivial⟩
    rw [wp_bind, wp_modify, wp_bind]
    refine wp_mono ((rests_bind rests_get fun _ => rests_ite (rests_throw _) (rests_improve _) :
      Rests (improveFirst env I r.2)) _) (fun _ s1 h1 => ?_) fun _ _ _ => trivial
    rw [wp_modify]
    exact ⟨(congrArg (fun v => v.2.1) h1).trans h, rfl⟩
  refine wp_mono hstart (fun _ s1 h1 => ?_) fun _ _ h => h
  rw [wp_bind, wp_availableTime, wp_bind]
  refine wp_mono (wp_mainLoop_stop hclock fuel _ _ _ ⟨?_, ?_⟩ rfl) (fun r s2 h2 => ?_) fun _ _ h => h
  · show ∀ p ∈ s1.points, _
    rw [h1.1]; simp
  · show s1.points.length + 1 = s1.iteration
    rw [h1.1, h1.2]; rfl
  · unfold report
    rw [wp_bind, wp_ite]
    refine ⟨fun hr => ?_, fun _ => h2⟩
    rw [wp_modify, wp_pure]
    exact ⟨h2.1, fun hf => by rw [hr] at hf; cases hf⟩

theorem passes_iff (x : Vec) :
    Passes env I x ↔ ((violBy I (1 / 10 ^ 6) x).card : ℚ) ≤ I.eps * I.N := by
  have := (C01_is_feasible_verdict env.norm I x).1
  rw [show (1 : ℚ) / 1000000 = 1 / 10 ^ 6 by norm_num] at this
  exact this

/-- **C81.** Whatever the answers of the solver, with a clock that does not run backwards: if `solve`
returns, it does so for one of three reasons.
Either the last upper-bound solution violates at most `epsilon * N` scenarios by more than the
tolerance, and none of the earlier ones does;
or no upper-bound solution does, and the last reading of the clock showed no time left;
or no upper-bound solution does, both bounds are known and their relative gap is at most the
required one (or `vLB = 0` and `vUB` is negative).
There is one upper-bound solution for every iteration, unless time runs out in the last one. -/
theorem C81_stop_reason (hclock : Monotone env.clock) (b : Bool) (g : Gap) (s : St)
    (h : run env cfg I rounds fuel = .ok (.ok (b, g), s)) :
    (b = true → ∃ ps x, s.points = ps ++ [x] ∧ s.points.length = s.iteration
      ∧ ((violBy I (1 / 10 ^ 6) x).card : ℚ) ≤ I.eps * I.N
      ∧ ∀ p ∈ ps, I.eps * I.N < ((violBy I (1 / 10 ^ 6) p).card : ℚ))
    ∧ (b = false → (∀ p ∈ s.points, I.eps * I.N < ((violBy I (1 / 10 ^ 6) p).card : ℚ))
      ∧ (s.lastRem ≤ 0 ∧ (s.points.length = s.iteration ∨ s.points.length + 1 = s.iteration)
        ∨ s.points.length = s.iteration ∧ ∃ u l : ℚ, s.vUB = u ∧ s.vLB = l
          ∧ (l ≠ 0 ∧ (u - l) / l ≤ cfg.gap ∨ l = 0 ∧ u < 0))) := by
  obtain ⟨s0, hc, hs⟩ := run_inv h
  have h0 : s0.points = [] := by
    unfold construct at hc
    simp only [bind, Except.bind, pure, Except.pure] at hc
    repeat' split at hc
    all_goals first | (cases hc; rfl) | cases hc
  obtain ⟨h1, h2⟩ := wp_ok (wp_solve_stop (I := I) (cfg := cfg) (rounds := rounds) (fuel := fuel)
    hclock s0 h0) hs
  refine ⟨fun hb => ?_, fun hb => ?_⟩
  · obtain ⟨ps, x, a1, a2, a3, a4⟩ := h1 hb
    exact ⟨ps, x, a1, a4, (passes_iff x).1 a2, fun p hp => not_le.1 fun h5 =>
      a3 p hp ((passes_iff p).2 h5)⟩
  · obtain ⟨a1, a2⟩ := h2 hb
    refine ⟨fun p hp => not_le.1 fun h5 => a1 p hp ((passes_iff p).2 h5), a2.imp_right ?_⟩
    rintro ⟨a3, a4, flag, a5⟩
    refine ⟨a3, ?_⟩
    dsimp only at a4 a5
    cases hl : s.vLB with
    | bot => rw [hl] at a5; cases a5; cases a4
    | coe l =>
      cases hu : s.vUB with
      | top => rw [hl, hu] at a5; cases a5; cases a4
      | coe u =>
        refine ⟨u, l, rfl, rfl, ?_⟩
        rw [hl, hu] at a5
        unfold computeGap at a5
        dsimp only at a5
        by_cases hz : l = 0
        · refine .inr ⟨hz, ?_⟩
          rw [if_pos hz] at a5
          by_contra hneg
          split at a5
          · split at a5 <;> cases a5 <;> cases a4
          · cases a5
        · rw [if_neg hz] at a5
          cases a5
          exact .inl ⟨hz, of_decide_eq_true a4⟩

/-- The three reasons: a feasible solution, the gap, the time limit. -/
example : Monotone (exactEnv exNorm 1).clock
    ∧ (outcome (run (exactEnv exNorm 1) exCfg exPairs 10 10)).map (fun o => (o.error, o.result))
      = some (none, some (true, Gap.fin 1))
    ∧ (outcome (run (exactEnv exNorm 1) { exCfg with gap := 1 / 2 }
        { exPairs with c := fun j => if j = 2 then 2 else 3 } 10 10)).map
        (fun o => (o.error, o.result)) = some (none, some (false, Gap.fin (1 / 2)))
    ∧ (outcome (run (exactEnv exNorm 1) { exCfg with timeLimit := 7 } exPairs 10 10)).map
        (fun o => (o.error, o.result)) = some (none, some (false, Gap.fin 1)) :=
  ⟨fun i j hij => by
      show (i : ℚ) * 1 ≤ j * 1
      simpa using hij, by decide +kernel, by decide +kernel, by decide +kernel⟩

end Verif.Props
