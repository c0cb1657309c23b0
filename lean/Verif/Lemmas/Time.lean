import Verif.Lemmas.View

/-!
# Readings of the clock during a run
-/

namespace Verif.Model

variable {env : Env} {cfg : Cfg} {I : Inst}

/-- All readings up to number `k` (the first is number 1) showed remaining time. -/
def PosUpTo (env : Env) (cfg : Cfg) (k : ℕ) : Prop :=
  ∀ j, 1 ≤ j → j ≤ k → 0 < remaining env.clock cfg.timeLimit j

/-- The clock is read `r` times so far and all readings showed remaining time. -/
def Running (env : Env) (cfg : Cfg) (s : St) : Prop :=
  PosUpTo env cfg s.reads

theorem closedS_reads (r : ℕ) : ClosedS fun w => w.reads = r :=
  ⟨⟨fun _ _ h _ => h, fun _ _ h _ => h⟩, fun _ _ _ _ h _ => h⟩

/-- At most four more readings after the first one without remaining time. -/
def Late (env : Env) (cfg : Cfg) (s : St) : Prop := PosUpTo env cfg (s.reads - 5)

/-- How a step ends as far as the clock goes. -/
def LatePost (env : Env) (cfg : Cfg) (r : Step) (s : St) : Prop :=
  match r with
  | .stop _ _ => Late env cfg s
  | .next _ t => PosUpTo env cfg (s.reads - 1)
      ∧ t = remaining env.clock cfg.timeLimit s.reads ∧ 1 ≤ s.reads

theorem PosUpTo.mono {k k' : ℕ} (h : PosUpTo env cfg k) (hk : k' ≤ k) : PosUpTo env cfg k' :=
  fun j h1 h2 => h j h1 (by omega)

theorem PosUpTo.succ {k : ℕ} (h : PosUpTo env cfg k)
    (hk : ¬ remaining env.clock cfg.timeLimit (k + 1) ≤ 0) : PosUpTo env cfg (k + 1) := by
  intro j h1 h2
  rcases Nat.lt_or_ge j (k + 1) with h3 | h3
  · exact h j h1 (by omega)
  · have : j = k + 1 := by omega
    rw [this]; exact not_le.1 hk

theorem Running.late {s : St} (h : Running env cfg s) : Late env cfg s := h.mono (by omega)

theorem keeps_running {α : Type} {m : SM α} (h : ∀ r, Keeps (fun w => w.reads = r) m) (s : St)
    (hs : Running env cfg s) :
    wp m (fun _ s' => Running env cfg s') (fun _ s' => Late env cfg s') s := by
  refine wp_mono (h s.reads s rfl) (fun _ s' h' => ?_) (fun _ s' h' => ?_)
  · have h'' : s'.reads = s.reads := h'
    unfold Running; rw [h'']; exact hs
  · have h'' : s'.reads = s.reads := h'
    unfold Late; rw [h'']; exact hs.late

/-- A reading made in a state whose `k` first readings are known to be fine. -/
theorem late_of {s : St} {k : ℕ} (h : PosUpTo env cfg k) (hk : s.reads ≤ k + 5) :
    Late env cfg s := h.mono (by omega)

theorem late_splitMerge (rounds : ℕ) (x : Option Vec) (gap : Gap) (s : St)
    (h : Running env cfg s) :
    wp (splitMergeStep env cfg I rounds x gap) (LatePost env cfg)
      (fun _ s' => Late env cfg s') s := by
  unfold splitMergeStep
  rw [wp_bind]
  refine wp_mono (keeps_running (fun r => keeps_split (closedS_reads r).toClosed0 rounds) s h)
    (fun r s1 h1 => ?_) fun _ _ h => h
  rw [wp_bind]
  refine wp_mono (keeps_running (fun r' => keeps_merge (closedS_reads r').toClosed0 x r.1 r.2) s1 h1)
    (fun _ s2 h2 => ?_) fun _ _ h => h
  wp_simp
  refine ⟨fun _ => late_of h2 (by show s2.reads + 1 ≤ _; omega), fun h3 => ⟨?_, rfl, by simp⟩⟩
  exact PosUpTo.succ h2 h3

theorem late_lowerStep (rounds : ℕ) (x : Option Vec) (s : St) (h : Running env cfg s) :
    wp (lowerStep env cfg I rounds x) (LatePost env cfg) (fun _ s' => Late env cfg s') s := by
  unfold lowerStep
  rw [wp_bind, wp_markStep, wp_bind]
  refine wp_mono (keeps_running (fun r => keeps_lowerBound (closedS_reads r) x) _ h)
    (fun g s1 h1 => ?_) fun _ _ h => h
  wp_simp
  refine ⟨fun _ => h1.late, fun _ => ⟨fun _ => late_of h1 (by show s1.reads + 1 ≤ _; omega),
    fun h3 => late_splitMerge rounds x g _ (PosUpTo.succ h1 h3)⟩⟩

/-- The upper bound reads the clock at most four times, the last time at its end. -/
theorem late_upperBound (bigM : Option (List (List ℚ))) (s : St) (h : Running env cfg s) :
    wp (upperBound env cfg I bigM)
      (fun _ s' => ∃ k, PosUpTo env cfg k ∧ s'.reads ≤ k + 4)
      (fun _ s' => ∃ k, PosUpTo env cfg k ∧ s'.reads ≤ k + 4) s := by
  unfold upperBound
  rw [wp_bind]
  have h1 : wp (computeUB env cfg I bigM)
      (fun _ s' => ∃ k, PosUpTo env cfg k ∧ s'.reads ≤ k + 3)
      (fun _ s' => ∃ k, PosUpTo env cfg k ∧ s'.reads ≤ k + 3) s := by
    unfold computeUB partitionBound
    wp_simp
    refine ⟨fun _ => ⟨fun _ _ => ⟨s.reads, h, by omega⟩, fun _ _ => ⟨s.reads, h, by omega⟩⟩, fun _ =>
      ⟨fun _ _ => ⟨fun _ _ => ⟨fun _ _ => ⟨s.reads, h, le_rfl⟩, fun _ _ => ⟨s.reads, h, le_rfl⟩⟩,
        fun _ _ => ⟨s.reads, h, le_rfl⟩⟩, fun _ _ => ⟨s.reads, h, by show s.reads + 1 ≤ _; omega⟩⟩⟩
  refine wp_mono h1 (fun out s1 h1 => ?_) fun _ _ ⟨k, h1, h2⟩ => ⟨k, h1, by omega⟩
  obtain ⟨k, hk, hr⟩ := h1
  rw [wp_bind, wp_availableTime, wp_ite]
  refine ⟨fun _ => ⟨k, hk, by show s1.reads + 1 ≤ _; omega⟩, fun _ => ?_⟩
  have := keeps_storeUB (J := fun w => w.reads = s1.reads + 1) (env := env) (I := I)
    (closedS_reads _) out { s1 with
      reads := s1.reads + 1
      lastRem := remaining env.clock cfg.timeLimit (s1.reads + 1) } rfl
  refine wp_mono this (fun _ s' h' => ⟨k, hk, ?_⟩) (fun _ s' h' => ⟨k, hk, ?_⟩)
  · have : s'.reads = s1.reads + 1 := h'
    omega
  · have : s'.reads = s1.reads + 1 := h'
    omega

theorem late_iterate (hmono : Monotone env.clock) (rounds : ℕ) (gap : Gap) (s : St)
    (h : Running env cfg s) :
    wp (iterate env cfg I rounds gap) (LatePost env cfg) (fun _ s' => Late env cfg s') s := by
  unfold iterate
  rw [wp_bind]
  unfold currentGap
  wp_simp
  refine ⟨fun _ _ => ?_, fun _ _ => h.late⟩
  refine wp_mono (keeps_running (fun r => keeps_bigM) { s with steps := s.steps ++ [s.lastRem] } h)
    (fun M s1 h1 => ?_) fun _ _ h => h
  refine wp_mono (late_upperBound M s1 h1) (fun r s2 h2 => ?_)
    fun _ _ ⟨k, h1, h2⟩ => h1.mono (by omega)
  obtain ⟨k, hk, hr⟩ := h2
  refine ⟨fun _ => hk.mono (by omega), fun _ => ⟨fun _ => hk.mono ?_, fun h3 => ?_⟩⟩
  · show s2.reads + 1 - 5 ≤ k; omega
  · refine late_lowerStep rounds r.1 _ ?_
    -- the last reading is positive, so all earlier ones are
    intro j h1 h2
    refine lt_of_lt_of_le (not_le.1 h3) ?_
    unfold remaining
    have := hmono (show j ≤ s2.reads + 1 from h2)
    exact max_le_max (by linarith) le_rfl

theorem late_mainLoop (hmono : Monotone env.clock) (rounds : ℕ) : ∀ (fuel : ℕ) (gap : Gap) (t : ℚ)
    (s : St), PosUpTo env cfg (s.reads - 1) →
    t = remaining env.clock cfg.timeLimit s.reads → 1 ≤ s.reads →
    wp (mainLoop env cfg I rounds fuel gap t) (fun _ s' => Late env cfg s')
      (fun _ s' => Late env cfg s') s
  | fuel, gap, t, s, h, ht, hr => by
    unfold mainLoop
    rw [wp_ite]
    refine ⟨fun h0 => ?_, fun _ => h.mono (by omega)⟩
    cases fuel with
    | zero => exact h.mono (by omega)
    | succ fuel =>
      simp only
      rw [wp_bind]
      have hrun : Running env cfg s := by
        have := PosUpTo.succ h (by rw [show s.reads - 1 + 1 = s.reads by omega, ← ht]; exact not_le.2 h0)
        exact this.mono (by omega)
      refine wp_mono (late_iterate hmono rounds gap s hrun) (fun r s1 h1 => ?_) fun _ _ h => h
      cases r with
      | stop b g => exact h1
      | next g t' => exact late_mainLoop hmono rounds fuel g t' s1 h1.1 h1.2.1 h1.2.2

theorem late_solve (hmono : Monotone env.clock) (rounds fuel : ℕ) (s : St) (h : s.reads = 0) :
    wp (solve env cfg I rounds fuel) (fun _ s' => Late env cfg s') (fun _ s' => Late env cfg s') s := by
  unfold solve
  rw [wp_bind]
  refine wp_mono (keeps_start (closedS_reads 0).toClosed0 (fun _ h => h) s h) (fun _ s1 h1 => ?_) fun _ s' h' => ?_
  · rw [wp_bind, wp_availableTime, wp_bind]
    have h1' : s1.reads = 0 := h1
    refine wp_mono (late_mainLoop hmono rounds fuel _ _ _ ?_ rfl (by simp)) (fun r s2 h2 => ?_)
      fun _ _ h => h
    · intro j h2 h3
      have : j ≤ s1.reads + 1 - 1 := h3
      omega
    · unfold report
      rw [wp_bind, wp_ite]
      exact ⟨fun _ => h2, fun _ => h2⟩
  · have h'' : s'.reads = 0 := h'
    intro j h1 h2; omega

end Verif.Model
