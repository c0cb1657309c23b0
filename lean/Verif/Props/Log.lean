import Verif.Props.Rows

/-!
# C73: the log of iterations
-/

namespace Verif.Props

open Spec Model

variable {env : Env} {cfg : Cfg} {I : Inst} {rounds fuel : ℕ}

/-- A row of the log. -/
abbrev LogRow := ℕ × ℕ × WithBot ℚ × WithTop ℚ × Gap

/-- The rows of the log follow the history of the bounds: each shows the bounds at some point of it,
in the same order. -/
def Follows (hist : List (WithTop ℚ × WithBot ℚ)) (info : List LogRow) : Prop :=
  ∃ idx : List ℕ, idx.Pairwise (· ≤ ·)
    ∧ List.Forall₂ (fun i r => hist[i]? = some (r.2.2.2.1, r.2.2.1)) idx info

/-- What holds at any time after the start. -/
structure LogInv (w : View) : Prop where
  last : w.trace.getLast? = some (w.vUB, w.vLB)
  pos : 1 ≤ w.iteration
  follows : Follows w.trace w.info
  range : ∀ r ∈ w.info, 1 ≤ r.1 ∧ r.1 ≤ w.iteration
  sorted : w.info.Pairwise fun r r' => r.1 ≤ r'.1
  gap : ∀ r ∈ w.info, PercentGap r.2.2.1 r.2.2.2.1 (r.2.2.2.2.scale 100)

theorem Follows.append {hist : List (WithTop ℚ × WithBot ℚ)} {info : List LogRow}
    (h : Follows hist info) (l : List (WithTop ℚ × WithBot ℚ)) : Follows (hist ++ l) info := by
  obtain ⟨idx, h1, h2⟩ := h
  refine ⟨idx, h1, h2.imp fun i r hr => ?_⟩
  rw [List.getElem?_append_left (List.getElem?_eq_some_iff.1 hr).1]
  exact hr

theorem Follows.store {hist : List (WithTop ℚ × WithBot ℚ)} {info : List LogRow}
    (h : Follows hist info) {r : LogRow} (hr : hist.getLast? = some (r.2.2.2.1, r.2.2.1)) :
    Follows hist (info ++ [r]) := by
  obtain ⟨idx, h1, h2⟩ := h
  have hb : ∀ i ∈ idx, i ≤ hist.length - 1 := by
    intro i hi
    obtain ⟨k, hk, rfl⟩ := List.getElem_of_mem hi
    have := h2.get hk (by rw [← h2.length_eq]; exact hk)
    have := (List.getElem?_eq_some_iff.1 this).1
    simp only [List.get_eq_getElem] at this
    omega
  refine ⟨idx ++ [hist.length - 1], ?_, ?_⟩
  · rw [List.pairwise_append]
    refine ⟨h1, by simp, fun a ha b hb' => ?_⟩
    rw [List.mem_singleton] at hb'
    rw [hb']; exact hb a ha
  · refine List.rel_append h2 (List.Forall₂.cons ?_ List.Forall₂.nil)
    rw [← hr, List.getLast?_eq_getElem?]

theorem closed_log (env : Env) (cfg : Cfg) : Closed env cfg LogInv := by
  refine ⟨⟨⟨fun w v h _ => ?_, fun w v h _ => ?_⟩, fun w nb f g h hg => ?_⟩, ⟨fun w h => ?_, fun w h => ?_⟩,
    fun w h _ => ?_, fun w h => ?_⟩
  · exact ⟨by simp, h.pos, h.follows.append _, h.range, h.sorted, h.gap⟩
  · exact ⟨by simp, h.pos, h.follows.append _, h.range, h.sorted, h.gap⟩
  · refine ⟨h.last, h.pos, h.follows.store h.last, fun r hr => ?_, ?_, fun r hr => ?_⟩
    · rcases List.mem_append.1 hr with hr | hr
      · exact h.range r hr
      · rw [List.mem_singleton] at hr
        rw [hr]; exact ⟨h.pos, le_rfl⟩
    · rw [List.pairwise_append]
      refine ⟨h.sorted, by simp, fun a ha b hb => ?_⟩
      rw [List.mem_singleton] at hb
      rw [hb]; exact (h.range a ha).2
    · rcases List.mem_append.1 hr with hr | hr
      · exact h.gap r hr
      · rw [List.mem_singleton] at hr
        rw [hr]; exact computeGap_percent hg
  · exact ⟨h.last, h.pos, h.follows, h.range, h.sorted, h.gap⟩
  · exact ⟨h.last, h.pos, h.follows, h.range, h.sorted, h.gap⟩
  · exact ⟨h.last, h.pos, h.follows, h.range, h.sorted, h.gap⟩
  · exact ⟨h.last, Nat.le_succ_of_le h.pos, h.follows,
      fun r hr => ⟨(h.range r hr).1, Nat.le_succ_of_le (h.range r hr).2⟩, h.sorted, h.gap⟩

/-! ## At most two rows per iteration -/

/-- Iteration `i` has added at most `k` rows to `pre`. -/
def Added (pre : List LogRow) (i k : ℕ) (w : View) : Prop :=
  w.iteration = i ∧ ∃ new, w.info = pre ++ new ∧ new.length ≤ k ∧ ∀ r ∈ new, r.1 = i

theorem Added.mono {pre : List LogRow} {i k k' : ℕ} {w : View} (h : Added pre i k w) (hk : k ≤ k') :
    Added pre i k' w := by
  obtain ⟨h1, new, h2, h3, h4⟩ := h
  exact ⟨h1, new, h2, by omega, h4⟩

theorem closed0_added (pre : List LogRow) (i k : ℕ) : Closed0 (Added pre i k) :=
  ⟨fun _ _ h _ => h, fun _ _ h _ => h⟩

theorem timeClosed_added (pre : List LogRow) (i k : ℕ) : TimeClosed env cfg (Added pre i k) :=
  ⟨fun _ h => h, fun _ h => h⟩

theorem Added.store {pre : List LogRow} {i k nb : ℕ} {g : Gap} {w : View} (h : Added pre i k w) :
    Added pre i (k + 1) { w with info := w.info ++ [(w.iteration, nb, w.vLB, w.vUB, g)] } := by
  obtain ⟨h1, new, h2, h3, h4⟩ := h
  refine ⟨h1, new ++ [(w.iteration, nb, w.vLB, w.vUB, g)], by simp [h2], by simp; omega, ?_⟩
  intro r hr
  rcases List.mem_append.1 hr with hr | hr
  · exact h4 r hr
  · rw [List.mem_singleton] at hr
    rw [hr]; exact h1

/-- `m` adds at most one row. -/
def AddsOne {α : Type} (m : SM α) : Prop :=
  ∀ pre i k s, Added pre i k (view s) → wp m (fun _ s' => Added pre i (k + 1) (view s'))
    (fun _ s' => Added pre i (k + 1) (view s')) s

theorem addsOne_bind {α β : Type} {m : SM β} {f : β → SM α}
    (h : ∀ pre i k, Keeps (Added pre i k) m) (h' : ∀ b, AddsOne (f b)) : AddsOne (m >>= f) :=
  fun pre i k s hs => by
    rw [wp_bind]
    exact wp_mono (h pre i k s hs) (fun b s' hs' => h' b pre i k s' hs')
      fun _ _ h => h.mono (by omega)

theorem addsOne_store {α : Type} (f : Gap → α) :
    AddsOne (currentGap >>= fun g => storeInfo g >>= fun _ => Pure.pure (f g)) :=
  fun pre i k s h => by
    unfold currentGap storeInfo
    wp_simp
    exact ⟨fun g _ => h.store, fun _ _ => h.mono (by omega)⟩

theorem addsOne_pure {α : Type} (a : α) : AddsOne (Pure.pure a) := fun _ _ _ _ h =>
  h.mono (by omega)

theorem addsOne_upperBound (bigM : Option (List (List ℚ))) :
    AddsOne (upperBound env cfg I bigM) :=
  addsOne_bind (fun pre i k => keeps_computeUB (timeClosed_added pre i k) bigM) fun out =>
    addsOne_bind (fun pre i k => keeps_time (timeClosed_added pre i k)) fun t => by
      split
      · exact addsOne_bind (fun _ _ _ => keeps_get) fun _ => addsOne_pure _
      · exact addsOne_bind (fun _ _ _ => keeps_modify _ fun _ => rfl) fun _ =>
          addsOne_bind (fun pre i k => keeps_updateUB (closed0_added pre i k) out) fun _ =>
            addsOne_bind (fun _ _ _ => keeps_modify _ fun _ => rfl) fun _ => addsOne_store _

theorem addsOne_lowerBound (x : Option Vec) : AddsOne (lowerBound env cfg I x) :=
  addsOne_bind (fun _ _ _ => keeps_get) fun _ => addsOne_bind (fun _ _ _ => keeps_nextTick) fun _ =>
    addsOne_bind (fun _ _ _ => keeps_lift _) fun _ =>
      addsOne_bind (fun _ _ _ => keeps_modify _ fun _ => rfl) fun _ =>
        addsOne_bind (fun pre i k => keeps_storeLB (closed0_added pre i k) _) fun _ =>
          addsOne_store _

/-- After an iteration: at most two new rows, and the next one has the next number. -/
def AddedPost (pre : List LogRow) (i : ℕ) (r : Step) (s : St) : Prop :=
  (∃ new, s.info = pre ++ new ∧ new.length ≤ 2 ∧ ∀ r ∈ new, r.1 = i)
  ∧ ∀ g t, r = .next g t → s.iteration = i + 1

theorem Added.stop {pre : List LogRow} {i : ℕ} {s : St} (h : Added pre i 2 (view s)) (b : Bool)
    (g : Gap) : AddedPost pre i (.stop b g) s := ⟨h.2, by rintro g t ⟨⟩⟩

theorem wp_iterate_added (pre : List LogRow) (i : ℕ) (gap : Gap) (s : St)
    (h : Added pre i 0 (view s)) :
    wp (iterate env cfg I rounds gap) (AddedPost pre i)
      (fun _ s' => Added pre i 2 (view s')) s := by
  unfold iterate
  rw [wp_bind]
  refine wp_mono (keeps_currentGap s h) (fun _ s0 h0 => ?_) fun _ _ h => h.mono (by omega)
  rw [wp_bind, wp_markStep, wp_bind]
  refine wp_mono (keeps_bigM _ (J := Added pre i 0) h0) (fun M s1 h1 => ?_)
    fun _ _ h => h.mono (by omega)
  rw [wp_bind]
  refine wp_mono (addsOne_upperBound M pre i 0 s1 h1) (fun r s2 h2 => ?_)
    fun _ _ h => h.mono (by omega)
  rw [wp_ite]
  refine ⟨fun _ => (h2.mono (by omega)).stop _ _, fun _ => ?_⟩
  rw [wp_bind, wp_availableTime, wp_ite]
  refine ⟨fun _ => Added.stop (h2.mono (by omega)) _ _, fun _ => ?_⟩
  unfold lowerStep
  rw [wp_bind, wp_markStep, wp_bind]
  refine wp_mono (addsOne_lowerBound r.1 pre i 1 _ h2) (fun g s3 h3 => ?_) fun _ _ h => h
  rw [wp_ite]
  refine ⟨fun _ => h3.stop _ _, fun _ => ?_⟩
  rw [wp_bind, wp_availableTime, wp_ite]
  refine ⟨fun _ => Added.stop h3 _ _, fun _ => ?_⟩
  unfold splitMergeStep
  rw [wp_bind]
  refine wp_mono (keeps_split (closed0_added pre i 2) rounds _ h3) (fun r4 s4 h4 => ?_)
    fun _ _ h => h
  rw [wp_bind]
  refine wp_mono (keeps_merge (closed0_added pre i 2) _ _ _ s4 h4) (fun _ s5 h5 => ?_)
    fun _ _ h => h
  wp_simp
  refine ⟨fun _ => Added.stop h5 _ _, fun _ => ⟨h5.2, fun _ _ _ => ?_⟩⟩
  show s5.iteration + 1 = i + 1
  rw [show s5.iteration = i from h5.1]

/-- The number of rows of an iteration. -/
def rowsOf (info : List LogRow) (i : ℕ) : ℕ := info.countP fun r => r.1 = i

theorem rows_added {pre new : List LogRow} {i : ℕ} (hpre : ∀ r ∈ pre, r.1 < i)
    (hnew : ∀ r ∈ new, r.1 = i) (hlen : new.length ≤ 2) (h : ∀ j, rowsOf pre j ≤ 2) (j : ℕ) :
    rowsOf (pre ++ new) j ≤ 2 := by
  unfold rowsOf at h ⊢
  rw [List.countP_append]
  by_cases hj : j = i
  · have h0 : pre.countP (fun r => r.1 = j) = 0 := by
      rw [List.countP_eq_zero]
      intro r hr
      have := hpre r hr
      simp only [decide_eq_true_eq]
      omega
    have h1 : new.countP (fun r => r.1 = j) ≤ new.length := List.countP_le_length
    omega
  · have h0 : new.countP (fun r => r.1 = j) = 0 := by
      rw [List.countP_eq_zero]
      intro r hr
      have := hnew r hr
      simp only [decide_eq_true_eq]
      omega
    have := h j
    omega

theorem wp_mainLoop_rows : ∀ (fuel : ℕ) (gap : Gap) (t : ℚ) (s : St),
    (∀ r ∈ s.info, r.1 < s.iteration) → (∀ j, rowsOf s.info j ≤ 2) →
    wp (mainLoop env cfg I rounds fuel gap t) (fun _ s' => ∀ j, rowsOf s'.info j ≤ 2)
      (fun _ s' => ∀ j, rowsOf s'.info j ≤ 2) s
  | fuel, gap, t, s, h, hc => by
    unfold mainLoop
    rw [wp_ite]
    refine ⟨fun _ => ?_, fun _ => hc⟩
    cases fuel with
    | zero => exact hc
    | succ fuel =>
      simp only
      rw [wp_bind]
      refine wp_mono (wp_iterate_added s.info s.iteration gap s
        ⟨rfl, [], by simp [view], by simp, by simp⟩) (fun r s1 h1 => ?_) fun _ s1 h1 => ?_
      · obtain ⟨⟨new, a1, a2, a3⟩, a4⟩ := h1
        have hc' : ∀ j, rowsOf s1.info j ≤ 2 := by
          rw [a1]; exact rows_added h a3 a2 hc
        cases r with
        | stop b g => exact hc'
        | next g t' =>
          refine wp_mainLoop_rows fuel g t' s1 ?_ hc'
          rw [a1, a4 g t' rfl]
          intro r hr
          rcases List.mem_append.1 hr with hr | hr
          · have := h r hr; omega
          · have := a3 r hr; omega
      · obtain ⟨-, new, a1, a2, a3⟩ := h1
        rw [show s1.info = s.info ++ new from a1]
        exact rows_added h a3 a2 hc

/-! ## C73 -/

theorem run_log {r : Except PyErr (Bool × Gap)} {s : St}
    (h : run env cfg I rounds fuel = .ok (r, s)) :
    s.info = [] ∨ (∃ l, LogInv { view s with vLB := l }) ∧ ∀ j, rowsOf s.info j ≤ 2 := by
  obtain ⟨s0, hc, hs⟩ := run_inv h
  obtain ⟨h1, -, -, -, -, -, -, -, -, -, -, -, hi⟩ := construct_start hc
  have hmain : wp (solve env cfg I rounds fuel)
      (fun _ s => (∃ l, LogInv { view s with vLB := l }) ∧ ∀ j, rowsOf s.info j ≤ 2)
      (fun _ s => s.info = [] ∨ (∃ l, LogInv { view s with vLB := l })
        ∧ ∀ j, rowsOf s.info j ≤ 2) s0 := by
    unfold solve
    rw [wp_bind]
    have hJ : Closed0 fun w => w.info = [] ∧ w.trace.getLast? = some (w.vUB, w.vLB) :=
      ⟨fun w v h _ => ⟨h.1, by simp⟩, fun w v h _ => ⟨h.1, by simp⟩⟩
    have hstart : wp (startSolve env I) (fun _ s1 => (view s1).info = []
        ∧ (view s1).trace.getLast? = some ((view s1).vUB, (view s1).vLB))
        (fun _ s1 => (view s1).info = []
        ∧ (view s1).trace.getLast? = some ((view s1).vUB, (view s1).vLB)) s0 :=
      keeps_start (I := I) hJ (fun _ h => h) s0 ⟨hi, by
        show s0.trace.getLast? = some (s0.vUB, s0.vLB)
        rw [h1]; rfl⟩
    have hone : wp (startSolve env I) (fun _ s1 => s1.iteration = 1) (fun _ _ => True) s0 := by
      have ht : ∀ {α : Type} (m : SM α) (s : St), wp m (fun _ _ => True) (fun _ _ => True) s := by
        intro α m s
        unfold wp
        split <;> trivial
      unfold startSolve
      rw [wp_bind, wp_nextTick, wp_bind, wp_get, wp_bind, wp_lift]
      refine ⟨fun p _ => ?_, fun _ _ => trivial⟩
      rw [wp_bind, wp_modify, wp_bind]
      exact wp_mono (ht _ _) (fun _ _ _ => rfl) fun _ _ _ => trivial
    refine wp_mono (wp_and hstart hone) (fun _ s1 hs1 => ?_) fun _ _ h => .inl h.1.1
    obtain ⟨⟨a1, a2⟩, a3⟩ := hs1
    rw [wp_bind, wp_availableTime, wp_bind]
    have b1 : s1.info = [] := a1
    refine wp_mono (wp_and (wp_mainLoop (closed_log env cfg) rounds fuel _ _ _
      ⟨a2, a3.symm.le, ⟨[], .nil, by
        show List.Forall₂ _ [] s1.info
        rw [b1]; exact .nil⟩, ?_, ?_, ?_⟩ rfl)
      (wp_mainLoop_rows fuel _ _ _ ?_ ?_)) (fun q s2 hs2 => ?_)
      fun _ s2 h => .inr ⟨⟨_, h.1⟩, h.2⟩
    · intro r hr
      have hr' : r ∈ s1.info := hr
      rw [b1] at hr'
      cases hr'
    · show List.Pairwise _ s1.info
      rw [b1]; exact .nil
    · intro r hr
      have hr' : r ∈ s1.info := hr
      rw [b1] at hr'
      cases hr'
    · intro r hr
      have hr' : r ∈ s1.info := hr
      rw [b1] at hr'
      cases hr'
    · intro j
      show rowsOf s1.info j ≤ 2
      rw [b1]
      exact Nat.zero_le _
    · unfold report
      wp_simp
      exact ⟨fun _ => ⟨⟨s2.vLB, hs2.1⟩, hs2.2⟩, fun _ => ⟨⟨_, hs2.1⟩, hs2.2⟩⟩
  unfold wp at hmain
  rw [hs] at hmain
  cases r with
  | error e => exact hmain
  | ok r => exact .inr hmain

/-- **C73**, full statement: the file of `write_iteration_details` lists, in the order of the
iterations and with at most two lines for each, the bounds `vLB` and `vUB` that the run had at that
time, and their relative gap.  What holds, for every run however it ends: numbers between 1 and the
current iteration in order, at most two lines for each, bounds that follow the history of the run
(`trace`, see C66 and C50), the gap of these bounds; but the bounds are written with the opposite
sign.  Missing: the sign. -/
theorem C73_partial {r : Except PyErr (Bool × Gap)} {s : St} {times : List ℚ}
    (h : run env cfg I rounds fuel = .ok (r, s)) (ht : times.length = s.info.length) :
    (iterFile s times).length = s.info.length
    ∧ (∀ (k : ℕ) (row : LogRow), s.info[k]? = some row → 1 ≤ row.1 ∧ row.1 ≤ s.iteration
        ∧ ∃ (cells : List Cell) (lb ub g g' : Gap), (iterFile s times)[k]? = some cells
          ∧ cells.length = 6 ∧ (cells[0]?).map cellFloat = some (.ok (.fin row.1))
          ∧ (cells[2]?).map cellFloat = some (.ok lb) ∧ Prints 3 lb.neg (ofBot row.2.2.1)
          ∧ (cells[3]?).map cellFloat = some (.ok ub) ∧ Prints 3 ub.neg (ofTop row.2.2.2.1)
          ∧ (cells[4]?).map cellFloat = some (.ok g) ∧ Prints 3 g g'
          ∧ PercentGap row.2.2.1 row.2.2.2.1 g'
          ∧ (cells[5]?).map cellFloat = some (.ok (.fin row.2.1)))
    ∧ s.info.Pairwise (fun a b => a.1 ≤ b.1) ∧ (∀ j, rowsOf s.info j ≤ 2)
    ∧ Follows s.trace s.info := by
  have hneg : ∀ g : Gap, Prints 3 (roundGap 3 g.neg).neg g := by
    intro g
    cases g with
    | fin q =>
      have := roundDec_near 3 (-q)
      refine .inr ⟨-roundDec 3 (-q), q, rfl, rfl, ?_⟩
      rw [abs_le] at this ⊢
      constructor <;> linarith [this.1, this.2]
    | posInf => exact .inl rfl
    | negInf => exact .inl rfl
    | nan => exact .inl rfl
  refine ⟨by simp [iterFile, ht], fun k row hk => ?_, ?_⟩
  · have hlog := run_log h
    have hne : s.info ≠ [] := by rintro e; rw [e] at hk; simp at hk
    obtain ⟨⟨l, hl⟩, -⟩ := hlog.resolve_left hne
    have hmem := List.mem_of_getElem? hk
    have h2 := hl.range row hmem
    have hkt : k < times.length := by
      rw [ht]; exact (List.getElem?_eq_some_iff.1 hk).1
    refine ⟨h2.1, h2.2, iterRow row times[k], _, _, _, _, ?_, rfl, ?_, ?_, hneg _, ?_, hneg _, ?_,
      prints_round 3 _, hl.gap row hmem, ?_⟩
    · unfold iterFile
      rw [List.getElem?_zipWith, hk, List.getElem?_eq_getElem hkt]
    all_goals simp [iterRow, cellFloat_nat, cellFloat_fmt]
  · rcases run_log h with h0 | ⟨⟨l, hl⟩, hc⟩
    · rw [h0]
      exact ⟨.nil, fun j => Nat.zero_le _, [], .nil, .nil⟩
    · exact ⟨hl.sorted, hc, hl.follows⟩

/-- **C73** fails: a run with exact answers logs the bounds 1 and 2 of its first iteration as -1 and
-2. -/
theorem C73_counterexample :
    (((run (exactEnv exNorm 1) exCfg exPairs 10 10).toOption.bind fun p => p.2.info[1]?).map
      fun r => r.2.2.1) = some ((1 : ℚ) : WithBot ℚ)
    ∧ (((run (exactEnv exNorm 1) exCfg exPairs 10 10).toOption.bind fun p => p.2.info[1]?).map
      fun r => r.2.2.2.1) = some ((2 : ℚ) : WithTop ℚ)
    ∧ ((run (exactEnv exNorm 1) exCfg exPairs 10 10).toOption.bind fun p =>
        (iterFile p.2 [1, 2, 3, 4, 5])[1]?)
      = some (["1", "2.000", "-1.000", "-2.000", "100.000", "2"].map fun t => Cell.text t.toList) := by
  refine ⟨?_, ?_, ?_⟩ <;> decide +kernel

/-- The run of the counterexample meets the hypotheses of the theorem: five rows. -/
example : ((run (exactEnv exNorm 1) exCfg exPairs 10 10).toOption.map fun p =>
      p.2.info.map fun r => r.1) = some [1, 1, 2, 2, 3] := by
  decide +kernel

end Verif.Props
