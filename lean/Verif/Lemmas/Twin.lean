import Verif.Lemmas.View
import Verif.Lemmas.LbLog

/-!
# Two runs with different time limits

The methods of the solver do not look at the last remaining time that was read, nor at the log of
steps (`Obl`).  Two runs that differ in their time limits therefore go on in parallel, until the
one with the smaller limit finds that there is no time left.
-/

namespace Verif.Model
open Props SM

/-- Replace what depends on the time limit. -/
def setT (s : St) (a : ℚ) (b : List ℚ) : St := { s with lastRem := a, steps := b }

/-- The states agree on all the rest. -/
def Tw (s1 s2 : St) : Prop := ∃ a b, s2 = setT s1 a b

/-- `m` neither reads nor writes these two. -/
def Obl {α : Type} (m : SM α) : Prop := ∀ s a b, m (setT s a b) = ((m s).1, setT (m s).2 a b)

variable {α β : Type} {env : Env} {cfg : Cfg} {I : Inst}

theorem tw_refl (s : St) : Tw s s := ⟨s.lastRem, s.steps, rfl⟩

theorem obl_pure (a : α) : Obl (Pure.pure a : SM α) := fun _ _ _ => rfl
theorem obl_throw (e : PyErr) : Obl (SM.throw e : SM α) := fun _ _ _ => rfl
theorem obl_lift (m : PyM α) : Obl (SM.lift m) := fun _ _ _ => rfl
theorem obl_nextTick : Obl nextTick := fun _ _ _ => rfl
theorem obl_buildTime : Obl (buildTime env) := fun _ _ _ => rfl

theorem obl_modify (f : St → St) (h : ∀ s a b, f (setT s a b) = setT (f s) a b) :
    Obl (SM.modify f) := fun s a b => by
  show (Except.ok (), f (setT s a b)) = (Except.ok (), setT (f s) a b)
  rw [h]

theorem sm_bind_ok {m : SM β} {f : β → SM α} {s s' : St} {b : β} (h : m s = (.ok b, s')) :
    (m >>= f) s = f b s' := by
  show SM.andThen m f s = _
  unfold SM.andThen
  rw [h]

theorem sm_bind_error {m : SM β} {f : β → SM α} {s s' : St} {e : PyErr}
    (h : m s = (.error e, s')) : (m >>= f) s = (.error e, s') := by
  show SM.andThen m f s = _
  unfold SM.andThen
  rw [h]

theorem obl_bind {m : SM β} {f : β → SM α} (h : Obl m) (h' : ∀ b, Obl (f b)) :
    Obl (m >>= f) := fun s a b => by
  have hs := h s a b
  cases hm : m s with
  | mk r s' =>
    rw [hm] at hs
    cases r with
    | ok c => rw [sm_bind_ok hm, sm_bind_ok hs, h' c]
    | error e => rw [sm_bind_error hm, sm_bind_error hs]

theorem obl_get {f : St → SM α} (hf : ∀ s a b, f (setT s a b) = f s) (h : ∀ s, Obl (f s)) :
    Obl (SM.get >>= f) := fun s a b => by
  show f (setT s a b) (setT s a b) = _
  rw [hf, h s]
  rfl

theorem obl_ite {c : Prop} [Decidable c] {m m' : SM α} (h : Obl m) (h' : Obl m') :
    Obl (if c then m else m') := by
  split
  · exact h
  · exact h'

theorem obl_writeLB (v : ℚ) (n : Bool) : Obl (writeLB v n) := fun _ _ _ => rfl
theorem obl_writeUB (v : ℚ) : Obl (writeUB v) := fun _ _ _ => rfl
theorem obl_storeInfo (g : Gap) : Obl (storeInfo g) := fun _ _ _ => rfl

theorem obl_currentGap : Obl currentGap := obl_get (fun _ _ _ => rfl) fun _ => obl_lift _

theorem obl_improve (l : List Vec) : Obl (improve env I l) :=
  obl_get (fun _ _ _ => rfl) fun s => by
    split
    · exact obl_pure _
    · exact obl_bind (obl_modify _ fun _ _ _ => rfl) fun _ => obl_writeLB _ _

theorem obl_bigM : Obl (bigMStep env cfg I) :=
  obl_get (fun _ _ _ => rfl) fun s => obl_ite
    (obl_bind obl_nextTick fun t => obl_bind (obl_lift _) fun _ => obl_pure _) (obl_pure _)

theorem obl_updateUB (out : UBOut) : Obl (updateUB out) :=
  obl_get (fun _ _ _ => rfl) fun s => obl_ite
    (obl_bind (obl_modify _ fun _ _ _ => rfl) fun _ => obl_writeUB _) (obl_pure _)

theorem obl_storeUB (out : UBOut) : Obl (storeUB env I out) :=
  obl_bind (obl_modify _ fun _ _ _ => rfl) fun _ => obl_bind (obl_updateUB _) fun _ =>
    obl_bind (obl_modify _ fun _ _ _ => rfl) fun _ => obl_bind obl_currentGap fun g =>
      obl_bind (obl_storeInfo g) fun _ => obl_pure _

theorem obl_storeLB (out : LBOut) : Obl (storeLB out) :=
  obl_get (fun _ _ _ => rfl) fun s => obl_ite
    (obl_bind (obl_writeLB _ _) fun _ => obl_modify _ fun _ _ _ => rfl) (obl_pure _)

theorem obl_lowerBound (x : Option Vec) : Obl (lowerBound env cfg I x) :=
  obl_get (fun _ _ _ => rfl) fun s => obl_bind obl_nextTick fun t => obl_bind (obl_lift _) fun r =>
    obl_bind (obl_modify _ fun _ _ _ => rfl) fun _ => obl_bind (obl_storeLB _) fun _ =>
      obl_bind obl_currentGap fun g => obl_bind (obl_storeInfo g) fun _ => obl_pure _

theorem obl_setCost (c : ℕ) (r : ℚ × Vec) : Obl (setCost c r) :=
  obl_get (fun _ _ _ => rfl) fun s => obl_ite
    (obl_bind (obl_lift _) fun _ => obl_modify _ fun _ _ _ => rfl)
    (obl_modify _ fun _ _ _ => rfl)

theorem obl_evalNew (t : ℕ) : ∀ (cs : List ℕ) (k : ℕ), Obl (evalNew env I t cs k)
  | [], _ => obl_pure _
  | _ :: cs, k => obl_get (fun _ _ _ => rfl) fun s => obl_bind (obl_lift _) fun p =>
      obl_bind (obl_lift _) fun r => obl_bind (obl_setCost _ r) fun _ =>
        obl_bind (obl_evalNew t cs (k + 1)) fun rs => obl_pure _

theorem obl_reload : Obl (reload I) :=
  obl_get (fun _ _ _ => rfl) fun s => obl_bind (obl_lift _) fun D => obl_modify _ fun _ _ _ => rfl

theorem obl_split (rounds : ℕ) : Obl (split env cfg I rounds) :=
  obl_bind obl_nextTick fun t => obl_get (fun _ _ _ => rfl) fun s =>
    obl_bind (obl_lift _) fun r => obl_bind (obl_modify _ fun _ _ _ => rfl) fun _ =>
      obl_bind obl_reload fun _ => obl_bind (obl_evalNew t _ _) fun rs =>
        obl_bind (obl_improve _) fun _ => obl_pure _

theorem obl_evalTargets (t : ℕ) : ∀ (cs : List ℕ) (k : ℕ), Obl (evalTargets env I t cs k)
  | [], _ => obl_pure _
  | _ :: cs, k => obl_get (fun _ _ _ => rfl) fun s => obl_bind (obl_lift _) fun p =>
      obl_bind (obl_lift _) fun r => obl_bind (obl_lift _) fun _ =>
        obl_bind (obl_lift _) fun _ => obl_bind (obl_modify _ fun _ _ _ => rfl) fun _ =>
        obl_bind (obl_evalTargets t cs (k + 1)) fun rs => obl_pure _

theorem obl_applyMerge (m : MState) : Obl (applyMerge env I m) :=
  obl_bind (obl_modify _ fun _ _ _ => rfl) fun _ => obl_bind obl_reload fun _ =>
    obl_get (fun _ _ _ => rfl) fun s => obl_bind (obl_lift _) fun _ =>
      obl_bind (obl_lift _) fun _ => obl_bind (obl_modify _ fun _ _ _ => rfl) fun _ =>
        obl_bind obl_nextTick fun t => obl_bind (obl_evalTargets t _ _) fun xs =>
          obl_improve _

theorem obl_mergeAllFeasible (l : List ℕ) : Obl (mergeAllFeasible env I l) :=
  obl_get (fun _ _ _ => rfl) fun s => by
    split
    · exact obl_throw _
    · exact obl_bind (obl_lift _) fun m => obl_bind (obl_applyMerge m) fun _ =>
        obl_get (fun _ _ _ => rfl) fun s => obl_bind (obl_lift _) fun _ =>
          obl_modify _ fun _ _ _ => rfl

theorem obl_mergeMuPlusOne (l : List ℕ) (mu : ℕ) (x : Option Vec) :
    Obl (mergeMuPlusOne env I l mu x) :=
  obl_get (fun _ _ _ => rfl) fun s => by
    cases x with
    | none => exact obl_throw _
    | some x => exact obl_bind (obl_lift _) fun m =>
        obl_bind (obl_applyMerge m) fun _ => obl_modify _ fun _ _ _ => rfl

theorem obl_merge (x : Option Vec) (out : RefineOut) (newCosts : List ℚ) :
    Obl (merge env cfg I x out newCosts) :=
  obl_bind (obl_modify _ fun _ _ _ => rfl) fun _ => obl_ite
    (obl_bind (obl_lift _) fun v => obl_get (fun _ _ _ => rfl) fun s => obl_ite
      (obl_ite (obl_mergeAllFeasible _)
        (obl_ite (obl_mergeMuPlusOne _ _ _) (obl_throw _))) (obl_pure _))
    (obl_pure _)

theorem obl_start : Obl (startSolve env I) :=
  obl_bind obl_nextTick fun t => obl_get (fun _ _ _ => rfl) fun s =>
    obl_bind (obl_lift _) fun r => obl_bind (obl_modify _ fun _ _ _ => rfl) fun _ =>
      obl_bind (obl_get (fun _ _ _ => rfl) fun s => obl_ite (obl_throw _) (obl_improve _))
        fun _ => obl_modify _ fun _ _ _ => rfl

theorem obl_report (b : Bool) : Obl (report b) :=
  obl_ite (obl_modify _ fun _ _ _ => rfl) (obl_pure _)

/-! ## In parallel -/

/-- The same configuration with another time limit. -/
def Cfg.withLimit (cfg : Cfg) (L : ℚ) : Cfg := { cfg with timeLimit := L }

/-- Running the same method in both states. -/
theorem rel_bind {R : Except PyErr α × St → Except PyErr α × St → Prop} {m : SM β}
    {f1 f2 : β → SM α} (hm : Obl m)
    (hR : ∀ e s1 s2, Tw s1 s2 → R (.error e, s1) (.error e, s2)) {s1 s2 : St} (h : Tw s1 s2)
    (hf : ∀ b t1 t2, m s1 = (.ok b, t1) → m s2 = (.ok b, t2) → Tw t1 t2 →
      R (f1 b t1) (f2 b t2)) : R ((m >>= f1) s1) ((m >>= f2) s2) := by
  obtain ⟨a, b, rfl⟩ := h
  have hs := hm s1 a b
  cases h1 : m s1 with
  | mk r s' =>
    rw [h1] at hs
    cases r with
    | ok c =>
      rw [sm_bind_ok h1, sm_bind_ok hs]
      exact hf c _ _ h1 hs ⟨a, b, rfl⟩
    | error e =>
      rw [sm_bind_error h1, sm_bind_error hs]
      exact hR e _ _ ⟨a, b, rfl⟩

/-- The second history continues the first one. -/
def Ext (s1 s2 : St) : Prop := s1.trace <+: s2.trace ∧ s1.info <+: s2.info

/-- The time limit has passed. -/
def Expired (env : Env) (cfg : Cfg) (s : St) : Prop :=
  cfg.timeLimit ≤ env.clock s.reads - env.clock 0

theorem remaining_nonpos {k : ℕ} : remaining env.clock cfg.timeLimit k ≤ 0
    ↔ cfg.timeLimit ≤ env.clock k - env.clock 0 := by
  unfold remaining
  rw [max_le_iff]
  constructor
  · intro h; linarith [h.1]
  · intro h; exact ⟨by linarith, le_rfl⟩

theorem remaining_limit_mono {L : ℚ} (hL : cfg.timeLimit ≤ L) (k : ℕ) :
    remaining env.clock cfg.timeLimit k ≤ remaining env.clock L k := by
  unfold remaining
  exact max_le_max (by linarith) le_rfl

/-- What a longer history keeps. -/
def Longer (s : St) (w : View) : Prop := s.trace <+: w.trace ∧ s.info <+: w.info

theorem closed_longer (env : Env) (cfg : Cfg) (s : St) : Closed env cfg (Longer s) :=
  ⟨⟨⟨fun _ _ h _ => ⟨h.1.trans (List.prefix_append _ _), h.2⟩,
      fun _ _ h _ => ⟨h.1.trans (List.prefix_append _ _), h.2⟩⟩,
      fun _ _ _ _ h _ => ⟨h.1, h.2.trans (List.prefix_append _ _)⟩⟩, ⟨fun _ h => h, fun _ h => h⟩,
      fun _ h _ => h, fun _ h => h⟩

theorem longer_of_keeps {m : SM α} {s s2 : St} (hm : Keeps (Longer s) m) (h : Ext s s2) :
    Ext s (m s2).2 := by
  have := hm s2 h
  unfold wp at this
  rcases h' : m s2 with ⟨_ | _, s3⟩ <;> rw [h'] at this <;> exact this

theorem tw_ext {s1 s2 : St} (h : Tw s1 s2) : Ext s1 s2 := by
  obtain ⟨a, b, rfl⟩ := h
  exact ⟨List.prefix_rfl, List.prefix_rfl⟩

/-- The two runs of a method go on in parallel (with results related by `Q`), or the first one has
run out of time, which its result shows (`C`). -/
def Par (env : Env) (cfg : Cfg) (Q : Except PyErr α → Except PyErr α → Prop)
    (C : Except PyErr α → Prop) (o1 o2 : Except PyErr α × St) : Prop :=
  (Q o1.1 o2.1 ∧ Tw o1.2 o2.2) ∨ (C o1.1 ∧ Expired env cfg o1.2 ∧ Ext o1.2 o2.2)

/-- The error of Gurobi for a negative time limit. -/
def RefusedCall (r : Except PyErr α) : Prop := r = .error (.gurobiErrorAt "Solver.py:113")

theorem solveCclp_limit (J : CI) (M : Option (List (List ℚ))) (z p : List ℕ) (g l1 l2 b : ℚ)
    (sv : GModel → GResult) (h : l1 ≤ l2) :
    solveCclp J M z p g l1 b sv = solveCclp J M z p g l2 b sv
    ∨ (solveCclp J M z p g l1 b sv = .error (.gurobiErrorAt "Solver.py:113") ∧ l1 < b) := by
  unfold solveCclp
  cases buildCCLP J M z p g with
  | error e => exact .inl rfl
  | ok g =>
    by_cases h1 : 0 ≤ l1 - b
    · left
      simp only [bind, Except.bind, setTimeLimit, if_pos h1, if_pos (show 0 ≤ l2 - b by linarith)]
    · right
      refine ⟨?_, by linarith⟩
      simp only [bind, Except.bind, setTimeLimit, if_neg h1]

variable {L : ℚ}

theorem par_partitionBound (hclock : Monotone env.clock) (hL : cfg.timeLimit ≤ L)
    (M : Option (List (List ℚ))) {s1 s2 : St} (h : Tw s1 s2) :
    Par env cfg (· = ·) RefusedCall (partitionBound env cfg I M s1)
      (partitionBound env (cfg.withLimit L) I M s2) := by
  obtain ⟨a, b, rfl⟩ := h
  have hrefl : ∀ (e : PyErr) (t1 t2 : St), Tw t1 t2 →
      Par env cfg (α := UBOut) (· = ·) RefusedCall (.error e, t1) (.error e, t2) :=
    fun e t1 t2 h => .inl ⟨rfl, h⟩
  unfold partitionBound
  set l1 := remaining env.clock cfg.timeLimit (s1.reads + 1) with hl1
  set l2 := remaining env.clock L (s1.reads + 1) with hl2
  set u1 : St := { s1 with reads := s1.reads + 1, lastRem := l1 } with hu1
  set u2 : St := { setT s1 a b with reads := s1.reads + 1, lastRem := l2 } with hu2
  have e1 : availableTime env cfg s1 = (.ok l1, u1) := rfl
  have e2 : availableTime env (cfg.withLimit L) (setT s1 a b) = (.ok l2, u2) := rfl
  rw [sm_bind_ok e1, sm_bind_ok e2]
  have hu : Tw u1 u2 := ⟨l2, b, rfl⟩
  have e3 : SM.get u1 = (.ok u1, u1) := rfl
  have e4 : SM.get u2 = (.ok u2, u2) := rfl
  rw [sm_bind_ok e3, sm_bind_ok e4]
  refine rel_bind (m := SM.lift (getZStart u1.zUB u1.deleted)) (obl_lift _) hrefl hu
    fun zs t1 t2 k1 k2 ht => ?_
  have : t1 = u1 := (congrArg Prod.snd k1).symm
  subst this
  have : t2 = u2 := (congrArg Prod.snd k2).symm
  subst this
  refine rel_bind obl_nextTick hrefl hu fun t v1 v2 k1 k2 hv => ?_
  have hr1 : v1.reads = s1.reads + 1 := by cases k1; rfl
  refine rel_bind obl_buildTime hrefl hv fun bt w1 w2 k3 k4 hw => ?_
  have hb : bt = env.clock (s1.reads + 3) - env.clock (s1.reads + 2)
      ∧ w1.reads = s1.reads + 3 := by
    cases k3
    rw [hr1]
    exact ⟨rfl, rfl⟩
  rcases solveCclp_limit (partCI I u1.part) M zs (pruneIndices u1.costs u1.vLB) (1 / 10 ^ 8) l1 l2 bt
    (env.cc t) (remaining_limit_mono hL _) with he | ⟨he, hlt⟩
  · show Par env cfg _ _ ((SM.lift _ >>= _) w1) ((SM.lift (solveCclp (partCI I u1.part) M zs
      (pruneIndices u1.costs u1.vLB) (1 / 10 ^ 8) l2 bt (env.cc t)) >>= _) w2)
    rw [he]
    refine rel_bind (obl_lift _) hrefl hw fun out x1 x2 _ _ hx => ?_
    refine rel_bind (m := SM.lift (checkResults I.n I.cont u1.didMerge out.x out.vObj u1.xUB u1.vUB))
      (obl_lift _) hrefl hx fun _ y1 y2 _ _ hy => .inl ⟨rfl, hy⟩
  · right
    have e5 : SM.lift (solveCclp (partCI I u1.part) M zs (pruneIndices u1.costs u1.vLB) (1 / 10 ^ 8) l1
        bt (env.cc t)) w1 = (.error (.gurobiErrorAt "Solver.py:113"), w1) := by
      rw [he]; rfl
    rw [sm_bind_error e5]
    refine ⟨rfl, ?_, ?_⟩
    · unfold Expired
      simp only [hb.2]
      have h1 : cfg.timeLimit - (env.clock (s1.reads + 1) - env.clock 0) ≤ l1 := le_max_left _ _
      have h2 : env.clock (s1.reads + 1) ≤ env.clock (s1.reads + 2) := hclock (by omega)
      rw [hb.1] at hlt
      linarith
    · refine longer_of_keeps ?_ (tw_ext hw)
      exact keeps_bind (keeps_lift _) fun _ => keeps_bind (keeps_lift _) fun _ => keeps_pure _

theorem par_computeUB (hclock : Monotone env.clock) (hL : cfg.timeLimit ≤ L)
    (M : Option (List (List ℚ))) {s1 s2 : St} (h : Tw s1 s2) :
    Par env cfg (· = ·) RefusedCall (computeUB env cfg I M s1)
      (computeUB env (cfg.withLimit L) I M s2) := by
  have h' := h
  obtain ⟨a, b, rfl⟩ := h
  unfold computeUB
  have e3 : SM.get s1 = (.ok s1, s1) := rfl
  have e4 : SM.get (setT s1 a b) = (.ok (setT s1 a b), setT s1 a b) := rfl
  rw [sm_bind_ok e3, sm_bind_ok e4]
  show Par env cfg _ _ _ ((if s1.nbSubsets = minSize I then
    lift (firstIterationBound s1.costs s1.sols) else _) _)
  split
  · exact .inl ⟨rfl, h'⟩
  · exact par_partitionBound hclock hL M h'

/-- Out of time at the upper-bound step: Gurobi refuses the limit, or the check fails. -/
def LateUB (r : Except PyErr (Option Vec × Bool)) : Prop := RefusedCall r ∨ ∃ x, r = .ok (x, false)

theorem par_upperBound (hclock : Monotone env.clock) (hL : cfg.timeLimit ≤ L)
    (M : Option (List (List ℚ))) {s1 s2 : St} (h : Tw s1 s2) :
    Par env cfg (· = ·) LateUB (upperBound env cfg I M s1)
      (upperBound env (cfg.withLimit L) I M s2) := by
  have hkeep : ∀ (s : St) (out : UBOut), Keeps (Longer s) (availableTime env (cfg.withLimit L)
      >>= fun t => if t ≤ 0 then (do let s ← SM.get; pure (s.xUB, false)) else storeUB env I out) :=
    fun s out => keeps_bind (keeps_time (closed_longer _ _ s).time) fun t =>
      keeps_ite (keeps_bind keeps_get fun s => keeps_pure _)
        (keeps_storeUB (closed_longer env (cfg.withLimit L) s).toClosedS out)
  unfold upperBound
  rcases par_computeUB (I := I) hclock hL M h with ⟨h1, h2⟩ | ⟨h1, h2, h3⟩
  · rcases hc : computeUB env cfg I M s1 with ⟨r, t1⟩
    rcases hc' : computeUB env (cfg.withLimit L) I M s2 with ⟨r', t2⟩
    rw [hc, hc'] at h1 h2
    simp only at h1 h2
    subst h1
    cases r with
    | error e =>
      rw [sm_bind_error hc, sm_bind_error hc']
      exact .inl ⟨rfl, h2⟩
    | ok out =>
      rw [sm_bind_ok hc, sm_bind_ok hc']
      obtain ⟨a, b, rfl⟩ := h2
      set l1 := remaining env.clock cfg.timeLimit (t1.reads + 1) with hl1
      set l2 := remaining env.clock L (t1.reads + 1) with hl2
      set u1 : St := { t1 with reads := t1.reads + 1, lastRem := l1 } with hu1
      set u2 : St := { setT t1 a b with reads := t1.reads + 1, lastRem := l2 } with hu2
      have e1 : availableTime env cfg t1 = (.ok l1, u1) := rfl
      have e2 : availableTime env (cfg.withLimit L) (setT t1 a b) = (.ok l2, u2) := rfl
      have hu : Tw u1 u2 := ⟨l2, b, rfl⟩
      have hle : l1 ≤ l2 := remaining_limit_mono hL _
      by_cases h0 : l1 ≤ 0
      · right
        rw [sm_bind_ok e1, if_pos h0]
        refine ⟨.inr ⟨_, rfl⟩, remaining_nonpos.1 h0, ?_⟩
        have := longer_of_keeps (hkeep t1 out) (tw_ext (s1 := t1) (s2 := setT t1 a b) ⟨a, b, rfl⟩)
        exact this
      · rw [sm_bind_ok e1, sm_bind_ok e2, if_neg h0, if_neg (fun h' => h0 (hle.trans h'))]
        left
        obtain ⟨a', b', hab⟩ := hu
        rw [hab, obl_storeUB out u1 a' b']
        exact ⟨rfl, ⟨a', b', rfl⟩⟩
  · rcases hc : computeUB env cfg I M s1 with ⟨r, t1⟩
    rw [hc] at h1 h2 h3
    simp only at h1 h2 h3
    unfold RefusedCall at h1
    subst h1
    rw [sm_bind_error hc]
    right
    refine ⟨.inl rfl, h2, ?_⟩
    rcases hc' : computeUB env (cfg.withLimit L) I M s2 with ⟨r', t2⟩
    rw [hc'] at h3
    cases r' with
    | error e => rw [sm_bind_error hc']; exact h3
    | ok out =>
      rw [sm_bind_ok hc']
      exact longer_of_keeps (hkeep t1 out) h3

/-- The same end of an iteration, except for the time left. -/
def SameStep (r1 r2 : Except PyErr Step) : Prop :=
  r1 = r2 ∨ ∃ g t1 t2, r1 = .ok (.next g t1) ∧ r2 = .ok (.next g t2) ∧ t1 ≤ t2

/-- Out of time in an iteration. -/
def LateStep (r : Except PyErr Step) : Prop := RefusedCall r ∨ ∃ g, r = .ok (.stop false g)

theorem par_splitMerge (hL : cfg.timeLimit ≤ L) (rounds : ℕ)
    (x : Option Vec) (gap : Gap) {s1 s2 : St} (h : Tw s1 s2) :
    Par env cfg SameStep LateStep (splitMergeStep env cfg I rounds x gap s1)
      (splitMergeStep env (cfg.withLimit L) I rounds x gap s2) := by
  have hrefl : ∀ (e : PyErr) (t1 t2 : St), Tw t1 t2 →
      Par env cfg SameStep LateStep (.error e, t1) (.error e, t2) :=
    fun e t1 t2 h => .inl ⟨.inl rfl, h⟩
  unfold splitMergeStep
  refine rel_bind (m := split env cfg I rounds) (obl_split rounds) hrefl h fun r t1 t2 _ _ ht => ?_
  refine rel_bind (m := merge env cfg I x r.1 r.2) (obl_merge _ _ _) hrefl ht
    fun _ v1 v2 _ _ hv => ?_
  obtain ⟨a, b, rfl⟩ := hv
  set l1 := remaining env.clock cfg.timeLimit (v1.reads + 1) with hl1
  set l2 := remaining env.clock L (v1.reads + 1) with hl2
  set u1 : St := { v1 with reads := v1.reads + 1, lastRem := l1 } with hu1
  set u2 : St := { setT v1 a b with reads := v1.reads + 1, lastRem := l2 } with hu2
  have e1 : availableTime env cfg v1 = (.ok l1, u1) := rfl
  have e2 : availableTime env (cfg.withLimit L) (setT v1 a b) = (.ok l2, u2) := rfl
  have hle : l1 ≤ l2 := remaining_limit_mono hL _
  rw [sm_bind_ok e1, sm_bind_ok e2]
  by_cases h0 : l1 ≤ 0
  · right
    rw [if_pos h0]
    refine ⟨.inr ⟨_, rfl⟩, remaining_nonpos.1 h0, ?_⟩
    split
    · exact ⟨List.prefix_rfl, List.prefix_rfl⟩
    · exact ⟨List.prefix_rfl, List.prefix_rfl⟩
  · rw [if_neg h0, if_neg (fun h' => h0 (hle.trans h'))]
    exact .inl ⟨.inr ⟨gap, _, _, rfl, rfl, remaining_limit_mono hL _⟩, ⟨_, _, rfl⟩⟩

theorem par_lowerStep (hL : cfg.timeLimit ≤ L) (rounds : ℕ) (x : Option Vec) {s1 s2 : St}
    (h : Tw s1 s2) :
    Par env cfg SameStep LateStep (lowerStep env cfg I rounds x s1)
      (lowerStep env (cfg.withLimit L) I rounds x s2) := by
  have hrefl : ∀ (e : PyErr) (t1 t2 : St), Tw t1 t2 →
      Par env cfg SameStep LateStep (.error e, t1) (.error e, t2) :=
    fun e t1 t2 h => .inl ⟨.inl rfl, h⟩
  obtain ⟨a, b, rfl⟩ := h
  unfold lowerStep
  set m1 : St := { s1 with steps := s1.steps ++ [s1.lastRem] } with hm1
  set m2 : St := { setT s1 a b with steps := b ++ [a] } with hm2
  have e1 : markStep s1 = (.ok (), m1) := rfl
  have e2 : markStep (setT s1 a b) = (.ok (), m2) := rfl
  rw [sm_bind_ok e1, sm_bind_ok e2]
  have hm : Tw m1 m2 := ⟨_, _, rfl⟩
  refine rel_bind (m := lowerBound env cfg I x) (obl_lowerBound x) hrefl hm
    fun gap v1 v2 _ _ hv => ?_
  by_cases hg : gap.le cfg.gap = true
  · rw [if_pos hg, if_pos (show gap.le (cfg.withLimit L).gap = true from hg)]
    exact .inl ⟨.inl rfl, hv⟩
  rw [if_neg hg, if_neg (show ¬ gap.le (cfg.withLimit L).gap = true from hg)]
  obtain ⟨a, b, rfl⟩ := hv
  set l1 := remaining env.clock cfg.timeLimit (v1.reads + 1) with hl1
  set l2 := remaining env.clock L (v1.reads + 1) with hl2
  set u1 : St := { v1 with reads := v1.reads + 1, lastRem := l1 } with hu1
  set u2 : St := { setT v1 a b with reads := v1.reads + 1, lastRem := l2 } with hu2
  have e1 : availableTime env cfg v1 = (.ok l1, u1) := rfl
  have e2 : availableTime env (cfg.withLimit L) (setT v1 a b) = (.ok l2, u2) := rfl
  have hle : l1 ≤ l2 := remaining_limit_mono hL _
  rw [sm_bind_ok e1, sm_bind_ok e2]
  by_cases h0 : l1 ≤ 0
  · right
    rw [if_pos h0]
    refine ⟨.inr ⟨_, rfl⟩, remaining_nonpos.1 h0, ?_⟩
    refine longer_of_keeps (s := u1) (keeps_ite (keeps_pure _) ?_) (tw_ext ⟨_, _, rfl⟩)
    have hJ := closed_longer env (cfg.withLimit L) u1
    intro s hs
    exact wp_mono (wp_splitMergeStep hJ rounds x gap s hs) (fun _ _ h => h.1) fun _ _ h => h
  · rw [if_neg h0, if_neg (fun h' => h0 (hle.trans h'))]
    exact par_splitMerge hL rounds x gap ⟨_, _, rfl⟩

/-- The rest of an iteration only makes the history longer. -/
theorem keeps_rest (s : St) (rounds : ℕ) (gap : Gap) (r : Option Vec × Bool) :
    Keeps (Longer s) (if r.2 = true then (pure (.stop true gap) : SM Step)
      else do
        let t ← availableTime env cfg
        if t ≤ 0 then pure (.stop false gap) else lowerStep env cfg I rounds r.1) := by
  have hJ := closed_longer env cfg s
  refine keeps_ite (keeps_pure _) fun s1 h1 => ?_
  rw [wp_bind, wp_availableTime, wp_ite]
  refine ⟨fun _ => h1, fun h0 => ?_⟩
  exact wp_mono (wp_lowerStep hJ rounds r.1 _ (hJ.time.read _ h1) (not_le.1 h0))
    (fun _ _ h => h.1) fun _ _ h => h

theorem par_iterate (hclock : Monotone env.clock) (hL : cfg.timeLimit ≤ L) (rounds : ℕ)
    (gap : Gap) {s1 s2 : St} (h : Tw s1 s2) :
    Par env cfg SameStep LateStep (iterate env cfg I rounds gap s1)
      (iterate env (cfg.withLimit L) I rounds gap s2) := by
  have hrefl : ∀ (e : PyErr) (t1 t2 : St), Tw t1 t2 →
      Par env cfg SameStep LateStep (.error e, t1) (.error e, t2) :=
    fun e t1 t2 h => .inl ⟨.inl rfl, h⟩
  unfold iterate
  refine rel_bind obl_currentGap hrefl h fun _ t1 t2 _ _ ht => ?_
  obtain ⟨a, b, rfl⟩ := ht
  set m1 : St := { t1 with steps := t1.steps ++ [t1.lastRem] } with hm1
  set m2 : St := { setT t1 a b with steps := b ++ [a] } with hm2
  have e1 : markStep t1 = (.ok (), m1) := rfl
  have e2 : markStep (setT t1 a b) = (.ok (), m2) := rfl
  rw [sm_bind_ok e1, sm_bind_ok e2]
  have hm : Tw m1 m2 := ⟨_, _, rfl⟩
  refine rel_bind (m := bigMStep env cfg I) obl_bigM hrefl hm fun M v1 v2 _ _ hv => ?_
  rcases hc : upperBound env cfg I M v1 with ⟨r, w1⟩
  rcases hc' : upperBound env (cfg.withLimit L) I M v2 with ⟨r', w2⟩
  have hp := par_upperBound (I := I) hclock hL M hv
  rw [hc, hc'] at hp
  rcases hp with ⟨h1, h2⟩ | ⟨h1, h2, h3⟩
  · simp only at h1 h2
    subst h1
    cases r with
    | error e => rw [sm_bind_error hc, sm_bind_error hc']; exact hrefl _ _ _ h2
    | ok r =>
      rw [sm_bind_ok hc, sm_bind_ok hc']
      by_cases hr : r.2 = true
      · rw [if_pos hr, if_pos hr]
        exact .inl ⟨.inl rfl, h2⟩
      rw [if_neg hr, if_neg hr]
      obtain ⟨a, b, rfl⟩ := h2
      set l1 := remaining env.clock cfg.timeLimit (w1.reads + 1) with hl1
      set l2 := remaining env.clock L (w1.reads + 1) with hl2
      set u1 : St := { w1 with reads := w1.reads + 1, lastRem := l1 } with hu1
      set u2 : St := { setT w1 a b with reads := w1.reads + 1, lastRem := l2 } with hu2
      have e1 : availableTime env cfg w1 = (.ok l1, u1) := rfl
      have e2 : availableTime env (cfg.withLimit L) (setT w1 a b) = (.ok l2, u2) := rfl
      have hle : l1 ≤ l2 := remaining_limit_mono hL _
      rw [sm_bind_ok e1, sm_bind_ok e2]
      by_cases h0 : l1 ≤ 0
      · right
        rw [if_pos h0]
        refine ⟨.inr ⟨_, rfl⟩, remaining_nonpos.1 h0, ?_⟩
        by_cases h0' : l2 ≤ 0
        · rw [if_pos h0']
          exact ⟨List.prefix_rfl, List.prefix_rfl⟩
        · rw [if_neg h0']
          have hJ := closed_longer env (cfg.withLimit L) u1
          have := wp_lowerStep (I := I) hJ rounds r.1 u2 ⟨List.prefix_rfl, List.prefix_rfl⟩ (not_le.1 h0')
          unfold wp at this
          rcases hq : lowerStep env (cfg.withLimit L) I rounds r.1 u2 with ⟨_ | _, s3⟩ <;>
            rw [hq] at this
          · exact this
          · exact this.1
      · rw [if_neg h0, if_neg (fun h' => h0 (hle.trans h'))]
        exact par_lowerStep hL rounds r.1 ⟨_, _, rfl⟩
  · right
    simp only at h1 h2 h3
    have hlong : Ext w1 ((upperBound env (cfg.withLimit L) I M >>= fun r =>
        if r.2 = true then (pure (.stop true gap) : SM Step)
        else do
          let t ← availableTime env (cfg.withLimit L)
          if t ≤ 0 then pure (.stop false gap) else lowerStep env (cfg.withLimit L) I rounds r.1) v2).2 := by
      cases r' with
      | error e => rw [sm_bind_error hc']; exact h3
      | ok r' => rw [sm_bind_ok hc']; exact longer_of_keeps (keeps_rest w1 rounds gap r') h3
    rcases h1 with h1 | ⟨x, h1⟩
    · unfold RefusedCall at h1
      subst h1
      rw [sm_bind_error hc]
      exact ⟨.inl rfl, h2, hlong⟩
    · subst h1
      rw [sm_bind_ok hc]
      simp only [Bool.false_eq_true, if_false]
      have e1 : availableTime env cfg w1 = (.ok (remaining env.clock cfg.timeLimit (w1.reads + 1)),
          { w1 with reads := w1.reads + 1
                    lastRem := remaining env.clock cfg.timeLimit (w1.reads + 1) }) := rfl
      have h0 : remaining env.clock cfg.timeLimit (w1.reads + 1) ≤ 0 :=
        (remaining_antitone hclock (Nat.le_succ _)).trans (remaining_nonpos.2 h2)
      rw [sm_bind_ok e1, if_pos h0]
      exact ⟨.inr ⟨_, rfl⟩, remaining_nonpos.1 h0, hlong⟩

theorem wp_any (m : SM α) (s : St) : wp m (fun _ _ => True) (fun _ _ => True) s := by
  unfold wp
  split <;> trivial

/-- The time handed to the next iteration is the one read last. -/
theorem wp_iterate_time (rounds : ℕ) (gap : Gap) (s : St) :
    wp (iterate env cfg I rounds gap) (fun r s' => ∀ g t, r = .next g t →
      t = s'.lastRem ∧ s'.lastRem = remaining env.clock cfg.timeLimit s'.reads)
      (fun _ _ => True) s := by
  unfold iterate
  rw [wp_bind]
  refine wp_mono (wp_any _ _) (fun _ s1 _ => ?_) fun _ _ h => h
  rw [wp_bind, wp_markStep, wp_bind]
  refine wp_mono (wp_any _ _) (fun M s2 _ => ?_) fun _ _ h => h
  rw [wp_bind]
  refine wp_mono (wp_any _ _) (fun r s3 _ => ?_) fun _ _ h => h
  rw [wp_ite]
  refine ⟨fun _ g t h => (by cases h), fun _ => ?_⟩
  rw [wp_bind, wp_availableTime, wp_ite]
  refine ⟨fun _ g t h => (by cases h), fun _ => ?_⟩
  unfold lowerStep
  rw [wp_bind, wp_markStep, wp_bind]
  refine wp_mono (wp_any _ _) (fun g s4 _ => ?_) fun _ _ h => h
  rw [wp_ite]
  refine ⟨fun _ g t h => (by cases h), fun _ => ?_⟩
  rw [wp_bind, wp_availableTime, wp_ite]
  refine ⟨fun _ g t h => (by cases h), fun _ => ?_⟩
  unfold splitMergeStep
  rw [wp_bind]
  refine wp_mono (wp_any _ _) (fun r s5 _ => ?_) fun _ _ h => h
  rw [wp_bind]
  refine wp_mono (wp_any _ _) (fun _ s6 _ => ?_) fun _ _ h => h
  wp_simp
  refine ⟨fun _ g t h => (by cases h), fun _ g t h => ?_⟩
  cases h
  exact ⟨rfl, trivial⟩

/-- Out of time in the main loop. -/
def LateLoop (r : Except PyErr (Bool × Gap)) : Prop := RefusedCall r ∨ ∃ g, r = .ok (false, g)

theorem par_mainLoop (hclock : Monotone env.clock) (hL : cfg.timeLimit ≤ L) (rounds : ℕ) :
    ∀ (fuel : ℕ) (gap : Gap) (s1 s2 : St), Tw s1 s2 →
    s1.lastRem = remaining env.clock cfg.timeLimit s1.reads → s1.lastRem ≤ s2.lastRem →
    Par env cfg (· = ·) LateLoop (mainLoop env cfg I rounds fuel gap s1.lastRem s1)
      (mainLoop env (cfg.withLimit L) I rounds fuel gap s2.lastRem s2)
  | fuel, gap, s1, s2, h, hr, hle => by
    have hext : ∀ (w1 w2 : St) (t : ℚ) (fuel : ℕ) (gap : Gap), Ext w1 w2 → w2.lastRem = t →
        Ext w1 (mainLoop env (cfg.withLimit L) I rounds fuel gap t w2).2 := by
      intro w1 w2 t fuel gap he ht
      have := wp_mainLoop (I := I) (closed_longer env (cfg.withLimit L) w1) rounds fuel gap t w2 he ht
      unfold wp at this
      rcases hq : mainLoop env (cfg.withLimit L) I rounds fuel gap t w2 with ⟨_ | _, s3⟩ <;>
        rw [hq] at this <;> exact this
    by_cases h0 : 0 < s1.lastRem
    · have h0' : 0 < s2.lastRem := lt_of_lt_of_le h0 hle
      unfold mainLoop
      rw [if_pos h0, if_pos h0']
      cases fuel with
      | zero => exact .inl ⟨rfl, h⟩
      | succ fuel =>
        simp only
        have hp := par_iterate (I := I) hclock hL rounds gap h
        have hw1 := wp_iterate_time (env := env) (cfg := cfg) (I := I) rounds gap s1
        have hw2 := wp_iterate (I := I) (closed_longer env (cfg.withLimit L) s1) rounds gap s2
          (tw_ext h) h0'
        rcases hc : iterate env cfg I rounds gap s1 with ⟨r, t1⟩
        rcases hc' : iterate env (cfg.withLimit L) I rounds gap s2 with ⟨r', t2⟩
        unfold wp at hw1 hw2
        rw [hc] at hw1
        rw [hc'] at hw2
        rw [hc, hc'] at hp
        rcases hp with ⟨h1, h2⟩ | ⟨h1, h2, h3⟩
        · simp only at h1 h2
          have hnext : ∀ (g : Gap) (u1 u2 : ℚ), r = .ok (.next g u1) → r' = .ok (.next g u2) →
              u1 ≤ u2 → Par env cfg (· = ·) LateLoop
                (mainLoop env cfg I rounds fuel g u1 t1)
                (mainLoop env (cfg.withLimit L) I rounds fuel g u2 t2) := by
            intro g u1 u2 k1 k2 hu
            subst k1; subst k2
            obtain ⟨k3, k4⟩ := hw1 g u1 rfl
            have k5 := hw2.2 g u2 rfl
            subst k3; subst k5
            exact par_mainLoop hclock hL rounds fuel g t1 t2 h2 k4 hu
          rcases h1 with h1 | ⟨g, u1, u2, h1, h1', hu⟩
          · subst h1
            cases r with
            | error e => rw [sm_bind_error hc, sm_bind_error hc']; exact .inl ⟨rfl, h2⟩
            | ok r =>
              rw [sm_bind_ok hc, sm_bind_ok hc']
              cases r with
              | stop b g => exact .inl ⟨rfl, h2⟩
              | next g t => exact hnext g t t rfl rfl le_rfl
          · subst h1; subst h1'
            rw [sm_bind_ok hc, sm_bind_ok hc']
            exact hnext g u1 u2 rfl rfl hu
        · right
          simp only at h1 h2 h3
          have hlong : Ext t1 ((iterate env (cfg.withLimit L) I rounds gap >>= fun r =>
              match r with
              | .stop b g => pure (b, g)
              | .next g t => mainLoop env (cfg.withLimit L) I rounds fuel g t) s2).2 := by
            cases r' with
            | error e => rw [sm_bind_error hc']; exact h3
            | ok r' =>
              rw [sm_bind_ok hc']
              cases r' with
              | stop b g => exact h3
              | next g t => exact hext _ _ _ _ _ h3 (hw2.2 g t rfl)
          rcases h1 with h1 | ⟨g, h1⟩
          · unfold RefusedCall at h1
            subst h1
            rw [sm_bind_error hc]
            exact ⟨.inl rfl, h2, hlong⟩
          · subst h1
            rw [sm_bind_ok hc]
            exact ⟨.inr ⟨g, rfl⟩, h2, hlong⟩
    · right
      have e1 : mainLoop env cfg I rounds fuel gap s1.lastRem s1 = (.ok (false, gap), s1) := by
        unfold mainLoop
        rw [if_neg h0]
        rfl
      rw [e1]
      refine ⟨.inr ⟨gap, rfl⟩, ?_, hext s1 s2 _ fuel gap (tw_ext h) rfl⟩
      rw [hr] at h0
      exact remaining_nonpos.1 (not_lt.1 h0)

theorem par_solve (hclock : Monotone env.clock) (hL : cfg.timeLimit ≤ L) (rounds fuel : ℕ)
    {s1 s2 : St} (h : Tw s1 s2) :
    Par env cfg (· = ·) LateLoop (solve env cfg I rounds fuel s1)
      (solve env (cfg.withLimit L) I rounds fuel s2) := by
  have hrefl : ∀ (e : PyErr) (t1 t2 : St), Tw t1 t2 →
      Par env cfg (α := Bool × Gap) (· = ·) LateLoop (.error e, t1) (.error e, t2) :=
    fun e t1 t2 h => .inl ⟨rfl, h⟩
  unfold solve
  refine rel_bind obl_start hrefl h fun _ v1 v2 _ _ hv => ?_
  obtain ⟨a, b, rfl⟩ := hv
  set l1 := remaining env.clock cfg.timeLimit (v1.reads + 1) with hl1
  set l2 := remaining env.clock L (v1.reads + 1) with hl2
  set u1 : St := { v1 with reads := v1.reads + 1, lastRem := l1 } with hu1
  set u2 : St := { setT v1 a b with reads := v1.reads + 1, lastRem := l2 } with hu2
  have e1 : availableTime env cfg v1 = (.ok l1, u1) := rfl
  have e2 : availableTime env (cfg.withLimit L) (setT v1 a b) = (.ok l2, u2) := rfl
  have hle : l1 ≤ l2 := remaining_limit_mono hL _
  rw [sm_bind_ok e1, sm_bind_ok e2]
  have hp := par_mainLoop (I := I) hclock hL rounds fuel (.fin 1) u1 u2 ⟨_, _, rfl⟩ rfl hle
  rcases hc : mainLoop env cfg I rounds fuel (.fin 1) l1 u1 with ⟨r, t1⟩
  rcases hc' : mainLoop env (cfg.withLimit L) I rounds fuel (.fin 1) l2 u2 with ⟨r', t2⟩
  have hp : Par env cfg (· = ·) LateLoop (r, t1) (r', t2) := by
    rw [← hc, ← hc']; exact hp
  have hrep : ∀ (w1 w2 : St) (p : Bool × Gap), Ext w1 w2 →
      Ext w1 ((report p.1 >>= fun _ => pure p : SM (Bool × Gap)) w2).2 := by
    intro w1 w2 p he
    unfold report
    split
    · exact he
    · exact he
  rcases hp with ⟨h1, h2⟩ | ⟨h1, h2, h3⟩
  · simp only at h1 h2
    subst h1
    cases r with
    | error e => rw [sm_bind_error hc, sm_bind_error hc']; exact hrefl _ _ _ h2
    | ok p =>
      rw [sm_bind_ok hc, sm_bind_ok hc']
      exact rel_bind (obl_report p.1) hrefl h2 fun _ _ _ _ _ h => .inl ⟨rfl, h⟩
  · right
    simp only at h1 h2 h3
    have hlong : Ext t1 ((mainLoop env (cfg.withLimit L) I rounds fuel (.fin 1) l2 >>= fun r =>
        report r.1 >>= fun _ => pure r) u2).2 := by
      cases r' with
      | error e => rw [sm_bind_error hc']; exact h3
      | ok p => rw [sm_bind_ok hc']; exact hrep _ _ p h3
    rcases h1 with h1 | ⟨g, h1⟩
    · unfold RefusedCall at h1
      subst h1
      rw [sm_bind_error hc]
      exact ⟨.inl rfl, h2, hlong⟩
    · subst h1
      rw [sm_bind_ok hc]
      exact ⟨.inr ⟨g, rfl⟩, h2, hlong⟩

end Verif.Model
