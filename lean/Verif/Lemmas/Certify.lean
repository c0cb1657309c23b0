import Verif.Lemmas.Bounds

/-!
# The invariant of the main loop over a whole run
-/

namespace Verif.Model
open Spec Props Finset

variable {env : Env} {cfg : Cfg} {I : Inst} {rounds : ℕ}

/-! ## One iteration -/

/-- The last upper-bound solution passed the feasibility test. -/
def FeasStop (env : Env) (I : Inst) (s : St) : Prop :=
  ∃ out, UBSpec env I s.partition out ∧ (checkFeasibility env.norm I out.x).feasible = true
    ∧ s.vUB ≠ ⊤ ∧ (Tight env → s.vUB = obj I out.x ∧ s.xUB = some out.x)
    ∧ (s.partition.length = kmax I + 1 → out.vObj = out.vBnd)
    ∧ s.vUB ≤ (out.vBnd : WithTop ℚ)

/-- The gap is the one of the bounds in `s`, or too large to stop. -/
def GapOk (cfg : Cfg) (s : St) (g : Gap) : Prop :=
  ¬ g.le cfg.gap = true ∨ ∃ b, computeGap s.vUB s.vLB b = .ok g

/-- The last partition was not merged: the split gave a subset with a cost above the bound. -/
def Refused (I : Inst) (s s' : St) : Prop :=
  UBound I s.partition s'.vUB ∧ ∃ P, IsPartition I.N P ∧ s.partition.length < P.length
    ∧ ∃ p ∈ P, ∃ v x, DetOpt I p v x ∧ s'.vUB < (v : WithTop ℚ)

/-- How an iteration ends. -/
def IterPost (env : Env) (cfg : Cfg) (I : Inst) (rounds : ℕ) (gap : Gap) (s s' : St) :
    Step → Prop
  | .stop b g => LInv env cfg I rounds s' ∧ s'.partition.length ≥ s.partition.length
    ∧ (b = true → FeasStop env I s' ∧ g = gap ∧ s'.partition = s.partition) ∧ (b = false → g = gap ∨ GapOk cfg s' g)
    ∧ (b = false → (s'.partition = s.partition ∧ g.le cfg.gap = true ∧ ∃ b, computeGap s'.vUB s'.vLB b = .ok g)
      ∨ ∃ k, remaining env.clock cfg.timeLimit k ≤ 0)
  | .next g t => LInv env cfg I rounds s' ∧ FeasInv env I s' ∧ ¬ g.le cfg.gap = true
    ∧ s'.partition.length ≥ s.partition.length
    ∧ ∃ x, s'.feas = some (checkFeasibility env.norm I x)
      ∧ nbViolPartsBy I tol s'.partition x = kmax I + 1
    ∧ (∃ k, t = remaining env.clock cfg.timeLimit k)
    ∧ (cfg.useMerger = true → s'.partition.length = s.partition.length ∨ Refused I s s')

theorem wp_splitMerge_bounds (hC : Contract env I) (s : St) (h : LInv env cfg I rounds s)
    (hf : FeasInv env I s)
    (hready : Strong env cfg I rounds → s.zUB.isSome ∧ s.xUB.isSome ∧ s.vUB ≠ ⊤)
    (x' : Option Vec) {gap g : Gap} (hg : ¬ g.le cfg.gap = true) :
    wp (splitMergeStep env cfg I rounds x' g) (fun r s' => IterPost env cfg I rounds gap s s' r)
      (fun _ s' => Bracket I s' ∧ (Strong env cfg I rounds → x'.isSome →
        ¬ ∃ x, s.feas = some (checkFeasibility env.norm I x) ∧ PartFeas I s.partition x)) s := by
  unfold splitMergeStep
  rw [wp_bind]
  refine wp_mono (wp_split_bounds hC s h hf hready) (fun r s1 h1 => ?_)
    fun _ _ h' => ⟨h'.1, fun hS _ => h'.2 hS⟩
  rw [wp_bind]
  refine wp_mono (wp_merge_bounds hC h h1 hready x') (fun _ s2 h2 => ?_)
    fun _ _ h' => ⟨h'.1, fun _ hx => by rw [h'.2] at hx; cases hx⟩
  obtain ⟨x, hx1, hx2, hx3⟩ := h1.call
  have hlen : s2.partition.length ≥ s.partition.length := by
    rcases h2.size with ⟨h3, -⟩ | h3
    · rw [h3]
      have := (length_feasible (hx3.ok hx2)).2.2
      omega
    · rw [h3.1]
  rw [wp_bind, wp_availableTime, wp_ite]
  refine ⟨fun ht => ⟨h2.inv.congr rfl, hlen, by simp, fun _ => .inr (.inl hg),
    fun _ => .inr ⟨_, ht⟩⟩, fun _ => ?_⟩
  rw [wp_bind, wp_modify, wp_bind, wp_availableTime]
  refine ⟨h2.inv.congr rfl, hf.congr (h2.feas.trans h1.feas), hg, hlen, x,
    (h2.feas.trans h1.feas).trans hx1, h2.cut x hx1 hx2 hx3, ⟨_, rfl⟩, fun hu => ?_⟩
  rcases h2.size with ⟨h3, h4⟩ | h3
  · obtain ⟨p, hp, v, xc, hd, hlt⟩ := h4 hu
    have hvUB : s2.vUB = s.vUB := h2.vUB.trans h1.vUB
    refine .inr ⟨by show UBound I _ s2.vUB; rw [hvUB]; exact h.ub, r.1.partition, ?_, ?_, p, hp, v, xc, hd, ?_⟩
    · rw [← h1.part]; exact h1.inv.shape.part
    · have := (length_feasible (hx3.ok hx2)).2.2
      have := (hx3.ok hx2).muPos
      omega
    · show s2.vUB < _
      rw [h2.vUB]; exact hlt
  · exact .inl h3.1

theorem remaining_mono {clock : ℕ → ℚ} (hc : Monotone clock) {limit : ℚ} {k l : ℕ} (h : k ≤ l) :
    remaining clock limit l ≤ remaining clock limit k := by
  unfold remaining
  exact max_le_max_right _ (by linarith [hc h])

theorem wp_iterate_bounds (hC : Contract env I) {gap : Gap} (s : St) (h : LInv env cfg I rounds s)
    (hf : FeasInv env I s) :
    wp (iterate env cfg I rounds gap) (fun r s' => IterPost env cfg I rounds gap s s' r)
      (fun e s' => Bracket I s' ∧ (Strong env cfg I rounds → Allowed env cfg I s' e)) s := by
  unfold iterate currentGap
  rw [wp_bind, wp_bind, wp_get, wp_lift]
  refine ⟨fun _ _ => ?_, fun e he => ⟨h.br, fun _ => .inl (gap_error he)⟩⟩
  rw [wp_bind, wp_markStep, wp_bind]
  refine wp_mono (wp_bigM_bounds hC _ (h.congr (s' := { s with steps := s.steps ++ [s.lastRem] }) rfl))
    (fun M s1 h1 => ?_) fun _ s' h' => ⟨h.br.congr ((key_bnds h'.1).trans rfl), fun hS => absurd hS h'.2⟩
  obtain ⟨k1, -, k3⟩ := h1
  have hl1 : LInv env cfg I rounds s1 := h.congr (k1.trans rfl)
  have hp1 : s1.partition = s.partition := (key_part k1).trans rfl
  have hd1 : s1.part = s.part := by
    simp only [key, Prod.mk.injEq] at k1
    exact k1.1.2.2.1
  have hf1 : FeasInv env I s1 := hf.congr ((key_feas k1).trans rfl)
  rw [wp_bind]
  refine wp_mono (wp_upperBound_bounds hC s1 hl1 (M := M) (by rw [hd1]; exact k3))
    (fun r s2 h2 => ?_) fun _ _ h' => h'
  obtain ⟨hl2, hp2, hrem, hcase⟩ := h2
  have hp2' : s2.partition = s.partition := hp2.trans hp1
  rw [wp_ite]
  refine ⟨fun hr => ?_, fun hr => ?_⟩
  · refine ⟨hl2, by rw [hp2'], fun _ => ⟨?_, rfl, hp2'⟩, by simp, by simp⟩
    rcases hcase with ⟨-, hr', -⟩ | ⟨out, o1, o2, o3, o4, -, -, o7, o8, o9⟩
    · rw [hr'] at hr; cases hr
    · rw [o2] at hr
      exact ⟨out, by rw [hp2]; exact o1, hr, o4, o7, by rw [hp2]; exact o8, o9⟩
  · have hf2 : FeasInv env I s2 := by
      rcases hcase with ⟨hk, -, -⟩ | ⟨out, o1, o2, o3, o4, -, -, o7⟩
      · exact hf1.congr (key_feas hk)
      · intro F hF
        rw [o3] at hF
        cases hF
        rw [o2] at hr
        exact ⟨by simpa using hr, _, rfl⟩
    rw [wp_bind, wp_availableTime, wp_ite]
    refine ⟨fun ht => ⟨hl2.congr rfl, by simp only [hp2', ge_iff_le, le_refl], by simp,
      fun _ => .inl rfl, fun _ => .inr ⟨_, ht⟩⟩, fun htime => ?_⟩
    -- with a clock that does not run backwards, the upper bound was stored
    have hstored : Strong env cfg I rounds → ∃ out, UBSpec env I s1.partition out
        ∧ r = (some out.x, (checkFeasibility env.norm I out.x).feasible)
        ∧ s2.feas = some (checkFeasibility env.norm I out.x)
        ∧ s2.vUB ≠ ⊤ ∧ s2.zUB.isSome ∧ s2.xUB.isSome := by
      intro hS
      rcases hcase with ⟨-, -, hle⟩ | ⟨out, o1, o2, o3, o4, o5, o6, -⟩
      · exfalso
        have := remaining_mono (limit := cfg.timeLimit) hS.clock (Nat.le_succ s2.reads)
        rw [hrem] at hle
        exact htime (this.trans hle)
      · exact ⟨out, o1, o2, o3, o4, o5, o6 hS⟩
    unfold lowerStep
    rw [wp_bind, wp_markStep, wp_bind]
    refine wp_mono (wp_lowerBound_bounds hC _ (hl2.congr (s' := { s2 with
      reads := s2.reads + 1
      lastRem := remaining env.clock cfg.timeLimit (s2.reads + 1)
      steps := s2.steps ++ [remaining env.clock cfg.timeLimit (s2.reads + 1)] }) rfl) r.1)
      (fun g s3 h3 => ?_) fun e s' h' => ⟨h'.1, fun hS => ?_⟩
    · obtain ⟨hl3, e1, e2, e3, e4, e5, e6, b, hgap⟩ := h3
      have hp3 : s3.partition = s.partition := e1.trans hp2'
      rw [wp_ite]
      refine ⟨fun hg => ⟨hl3, by rw [hp3], by simp, fun _ => .inr (.inr ⟨b, hgap⟩),
        fun _ => .inl ⟨hp3, hg, b, hgap⟩⟩, fun hg => ?_⟩
      rw [wp_bind, wp_availableTime, wp_ite]
      refine ⟨fun ht => ⟨hl3.congr rfl, by simp only [hp3, ge_iff_le, le_refl], by simp,
        fun _ => .inr (.inl hg), fun _ => .inr ⟨_, ht⟩⟩, fun _ => ?_⟩
      refine wp_mono (wp_splitMerge_bounds hC { s3 with
          reads := s3.reads + 1
          lastRem := remaining env.clock cfg.timeLimit (s3.reads + 1) } (hl3.congr rfl)
        (hf2.congr (s' := { s3 with
          reads := s3.reads + 1
          lastRem := remaining env.clock cfg.timeLimit (s3.reads + 1) }) e2) (fun hS => ?_) r.1
        (gap := gap) hg) (fun r' s4 h4 => ?_) fun e s' h' => ⟨h'.1, fun hS => ?_⟩
      · obtain ⟨out, -, -, -, o4, o5, o6⟩ := hstored hS
        show s3.zUB.isSome ∧ s3.xUB.isSome ∧ s3.vUB ≠ ⊤
        rw [e3, e4, e5]
        exact ⟨o5, o6, o4⟩
      · unfold IterPost Refused at h4 ⊢
        simp only [hp3] at h4
        exact h4
      · obtain ⟨out, o1, o2, o3, -⟩ := hstored hS
        refine absurd ⟨out.x, e2.trans o3, ?_⟩ (h'.2 hS (by rw [o2]; rfl))
        show PartFeas I s3.partition out.x
        rw [hp3, ← hp1]
        exact o1.point
    · obtain ⟨out, -, o2, -⟩ := hstored hS
      exact h'.2 hS (by rw [o2]; rfl)

/-! ## The main loop -/

/-- How the main loop ends. -/
def LoopPost (env : Env) (cfg : Cfg) (I : Inst) (rounds : ℕ) (gap : Gap) (s : St)
    (q : Bool × Gap) (s' : St) : Prop :=
  LInv env cfg I rounds s' ∧ s.partition.length ≤ s'.partition.length
    ∧ (q.1 = true → FeasStop env I s')
    ∧ (¬ gap.le cfg.gap = true → q.1 = false → GapOk cfg s' q.2)

theorem wp_mainLoop_bounds (hC : Contract env I) : ∀ (fuel : ℕ) (gap : Gap) (t : ℚ) (s : St),
    LInv env cfg I rounds s → FeasInv env I s →
    wp (mainLoop env cfg I rounds fuel gap t) (LoopPost env cfg I rounds gap s)
      (fun e s' => Bracket I s' ∧ (Strong env cfg I rounds →
        Allowed env cfg I s' e ∨ e = .fuel ∧ LInv env cfg I rounds s')) s
  | fuel, gap, t, s, h, hf => by
    unfold mainLoop
    rw [wp_ite]
    refine ⟨fun h0 => ?_, fun _ => ⟨h, le_rfl, by simp, fun hg _ => .inl hg⟩⟩
    cases fuel with
    | zero => exact ⟨h.br, fun _ => .inr ⟨rfl, h⟩⟩
    | succ fuel =>
      simp only
      rw [wp_bind]
      refine wp_mono (wp_iterate_bounds hC (gap := gap) s h hf) (fun r s1 h1 => ?_)
        fun _ _ h' => ⟨h'.1, fun hS => .inl (h'.2 hS)⟩
      cases r with
      | stop b g =>
        obtain ⟨a1, a2, a3, a4, -⟩ := h1
        refine ⟨a1, a2, fun hb => (a3 hb).1, fun hg hb => ?_⟩
        rcases a4 hb with h2 | h2
        · exact .inl (by simp only; rw [h2]; exact hg)
        · exact h2
      | next g t' =>
        obtain ⟨a1, a2, a3, a4, -⟩ := h1
        refine wp_mono (wp_mainLoop_bounds hC fuel g t' s1 a1 a2) (fun q s2 h2 => ?_)
          fun _ _ h' => h'
        exact ⟨h2.1, le_trans a4 h2.2.1, h2.2.2.1, fun _ => h2.2.2.2 a3⟩

/-! ## The start -/

/-- What the constructor guarantees about the bounds. -/
theorem construct_bounds (hC : Contract env I) {s : St} (h : construct env cfg I = .ok s) :
    Bracket I s ∧ s.vUBNone = false
      ∧ ∀ costs sols, PartCosts I s.partition costs sols → UBound I s.partition s.vUB := by
  have hms : minSize I = kmax I + 1 := minSize_eq hC.eps
  unfold construct at h
  cases h1 : initRefiner cfg with
  | error e => rw [h1] at h; cases h
  | ok u =>
  cases h2 : initCosts env cfg I with
  | error e => rw [h1, h2] at h; cases h
  | ok scen =>
  cases h3 : createFirstPartition (env.shuffle 0 0) env.argsort scen I.N (minSize I)
      cfg.initType with
  | error e => rw [h1, h2] at h; simp only [bind, Except.bind, h3] at h; cases h
  | ok P =>
  cases h4 : loadPartition I (minSize I) P with
  | error e => rw [h1, h2] at h; simp only [bind, Except.bind, h3, h4] at h; cases h
  | ok D =>
  rw [h1, h2] at h
  simp only [bind, Except.bind, h3, h4] at h
  cases h
  have hle : minSize I ≤ I.N := by
    by_contra hgt
    unfold createFirstPartition at h3
    rw [pyAssert_false hgt] at h3
    cases h3
  by_cases ht : cfg.initType = "cost"
  · have hsc : ScenarioCosts I scen := by
      unfold initCosts at h2
      rw [if_pos ⟨ht, hle⟩] at h2
      exact allScenarioCosts_spec (fun k g => hC.sub 0 k g) h2
    obtain ⟨q1, q2⟩ := C13_quantile_bound I env.argsort scen hC.equi.1 (equi_nonneg hC.equi) hsc
    cases hq : ahmedBound env.argsort scen I.proba I.eps with
    | none =>
      exfalso
      have h5 := q2.1 hq
      rw [equi_sum hC.equi] at h5
      have h6 := hC.tolOk
      unfold TolOk at h6
      have h7 : ((kmax I : ℕ) : ℚ) + 1 ≤ I.N := by
        rw [hms] at hle; exact_mod_cast hle
      have h8 : (I.N : ℚ) * (I.eps + 1 / 10 ^ 7) < I.N := lt_of_lt_of_le h6 h7
      have hN : (0 : ℚ) < I.N := by exact_mod_cast hC.equi.1
      nlinarith
    | some q =>
      simp only [if_pos ht, Option.map_some, Option.getD_some, Option.isNone_some]
      have hb : ∀ y, Feas I y → ((obj I y : ℚ) : WithTop ℚ) ≤ (q : WithTop ℚ) := fun y hy =>
        WithTop.coe_le_coe.2 (q1 q hq y hy)
      refine ⟨⟨hb, by rintro v ⟨⟩, fun p hp => ?_⟩, trivial, fun costs sols hpc y hy => ?_⟩
      · rw [List.mem_singleton.1 hp]
        exact ⟨hb, by rintro v ⟨⟩⟩
      · have h3' := h3
        rw [hms, ht] at h3'
        obtain ⟨R, r1, r2⟩ := C15_first_bound_improves I (env.shuffle 0 0) env.argsort env.argsort
          scen P costs sols q hC.equi hC.eps hsc h3' hpc hq
        obtain ⟨P', e1, e2, -⟩ := C07_cost_initial_partition (env.shuffle 0 0) env.argsort scen I.N
          (kmax I + 1) hsc.1 (by omega) (by omega)
        rw [h3'] at e1
        cases e1
        obtain ⟨R', s1, -, -, -, s5, -⟩ := C14_first_iteration_bound I P costs sols e2 hpc
        rw [r1] at s1
        cases s1
        exact WithTop.coe_le_coe.2 ((s5 y hy).trans r2)
  · simp only [if_neg ht, Option.getD_some, Option.isNone_some]
    refine ⟨⟨fun _ _ => le_top, by rintro v ⟨⟩, fun p hp => ?_⟩, trivial, fun _ _ _ _ _ => le_top⟩
    rw [List.mem_singleton.1 hp]
    exact ⟨fun _ _ => le_top, by rintro v ⟨⟩⟩

/-- The start of `solve` establishes the invariant. -/
theorem wp_start_bounds (hC : Contract env I) {s : St} (h : construct env cfg I = .ok s) :
    wp (startSolve env I)
      (fun _ s' => LInv env cfg I rounds s' ∧ s'.feas = none ∧ s'.partition = s.partition)
      (fun _ _ => False) s := by
  obtain ⟨p1, p2, p3, p4⟩ := construct_part h
  obtain ⟨c1, c2, c3, c4, c5, c6, c7, c8, c9, c10, c11, -⟩ := construct_start h
  obtain ⟨b1, b2, b3⟩ := construct_bounds hC h
  unfold startSolve improveFirst
  rw [wp_bind, wp_nextTick, wp_bind, wp_get, wp_bind, wp_lift]
  obtain ⟨costs, sols, hcs⟩ := partitionCost_ok (I := I) (solve := env.sub s.tick)
    (fun k g => hC.sub s.tick k g) (P := s.partition)
    fun p hp => ⟨_, zero_inX I, zero_satAll hC.ab (part_valid p1 p hp).2⟩
  refine ⟨fun r hr => ?_, fun e he => ?_⟩
  · have hal := partitionCost_aligned (env := env) hr
    have hpc := aligned_costs hC hal
    have hl : LInv env cfg I rounds { s with tick := s.tick + 1, costs := r.1, sols := r.2 } := by
      refine ⟨⟨p1, p2.trans p3.symm, p4, hal⟩, ?_, b1.congr rfl, b3 _ _ hpc, ⟨[], ?_, by simp⟩, ?_,
        ?_, ?_, fun _ => .inl ?_⟩
      · show _ ≤ s.partition.length
        rw [p3, minSize_eq hC.eps]
      · show DetInv _ s.lb.deter s.lb.scenarios []
        rw [c6]; exact lbInit_inv I
      · show s.lb.counter.length = _
        rw [c6]; simp [LBState.init]
      · show SplitHistory _ _ s.memory
        rw [c9]; exact .start
      · intro z hz
        have : s.zUB = some z := hz
        rw [c10] at this; cases this
      · show s.partition.length = _
        rw [p3, minSize_eq hC.eps]
    rw [wp_bind, wp_modify, wp_bind, wp_bind, wp_get, wp_ite]
    refine ⟨fun hn => ?_, fun _ => ?_⟩
    · have : s.vUBNone = true := hn
      rw [b2] at this; cases this
    · refine wp_mono (wp_improve_bracket hC hl.br fun y hy => ?_) (fun _ s' hs' => ?_)
        fun _ _ h => h
      · obtain ⟨c, hc, rfl⟩ := List.mem_iff_getElem.1 hy
        have hc' : c < s.partition.length := by rw [← hal.lenS]; exact hc
        have := hal.comp c hc'
        rw [List.getD_eq_getElem _ _ (hal.lenS ▸ hc')] at this
        rw [List.getD_eq_getElem _ _ hc] at this
        exact computed_inX hC this
      · rw [wp_modify]
        have hl' := hl.improved hs'
        obtain ⟨a, b, c, d, -, rfl, -⟩ := hs'
        exact ⟨hl'.congr rfl, c7, rfl⟩
  · have he' := hcs.symm.trans he
    cases he'

/-! ## Whole runs -/

/-- How a run ends.  `s` is the final state, `s'` the state before the final report. -/
structure RunPost (env : Env) (cfg : Cfg) (I : Inst) (rounds : ℕ) (q : Bool × Gap) (s : St) :
    Prop where
  before : ∃ s', (q.1 = false → s' = s) ∧ LInv env cfg I rounds s'
    ∧ (q.1 = true → FeasStop env I s' ∧ s.xLB = s'.xUB
      ∧ ∀ u : ℚ, s'.vUB = u → s.vLB = (u : WithBot ℚ))
    ∧ (cfg.gap < 1 → q.1 = false → GapOk cfg s' q.2)
    ∧ s.vUB = s'.vUB ∧ s.trace = s'.trace ∧ s.partition = s'.partition ∧ s.xUB = s'.xUB
    ∧ s.zUB = s'.zUB

theorem run_bounds (hC : Contract env I) {fuel : ℕ}
    {r : Except PyErr (Bool × Gap)} {s : St} (h : run env cfg I rounds fuel = .ok (r, s)) :
    (∀ q, r = .ok q → RunPost env cfg I rounds q s)
    ∧ ∀ e, r = .error e → Bracket I s
      ∧ (Strong env cfg I rounds → Allowed env cfg I s e ∨ e = .fuel ∧ LInv env cfg I rounds s) := by
  obtain ⟨s0, hc, hs⟩ := run_inv h
  have hmain : wp (solve env cfg I rounds fuel) (fun q s' => RunPost env cfg I rounds q s')
      (fun e s' => Bracket I s' ∧ (Strong env cfg I rounds →
        Allowed env cfg I s' e ∨ e = .fuel ∧ LInv env cfg I rounds s')) s0 := by
    unfold solve
    rw [wp_bind]
    refine wp_mono (wp_start_bounds (rounds := rounds) hC hc) (fun _ s1 h1 => ?_)
      fun _ _ h' => h'.elim
    obtain ⟨a1, a2, -⟩ := h1
    rw [wp_bind, wp_availableTime, wp_bind]
    refine wp_mono (wp_mainLoop_bounds hC fuel (.fin 1) _ _ (a1.congr rfl) ?_)
      (fun q s2 h2 => ?_) fun e s2 h' => h'
    · intro F hF
      have : s1.feas = some F := hF
      rw [a2] at this
      cases this
    · obtain ⟨b1, -, b2, b3⟩ := h2
      have hstart : cfg.gap < 1 → ¬ (Gap.fin 1).le cfg.gap = true := fun hg => by
        simp only [Gap.le, decide_eq_true_eq, not_le]
        exact hg
      unfold report
      rw [wp_bind, wp_ite]
      refine ⟨fun hq => ?_, fun hq => ?_⟩
      · rw [wp_modify]
        refine ⟨s2, by rw [hq]; simp, b1, fun _ => ⟨b2 hq, rfl, fun u hu => ?_⟩,
          by rw [hq]; simp, rfl, rfl, rfl, rfl, rfl⟩
        simp only [hu]
      · exact ⟨s2, fun _ => rfl, b1, fun hq' => absurd hq' hq, fun hg => b3 (hstart hg),
          rfl, rfl, rfl, rfl, rfl⟩
  constructor
  · rintro q rfl
    exact wp_ok hmain hs
  · rintro e rfl
    exact wp_error hmain hs

/-- The constructor accepts the configurations of `Strong`. -/
theorem construct_ok (hC : Contract env I) (hS : Strong env cfg I rounds)
    (hk : kmax I + 1 ≤ I.N) : ∃ s, construct env cfg I = .ok s := by
  have hms : minSize I = kmax I + 1 := minSize_eq hC.eps
  have h1 : initRefiner cfg = .ok () := by
    unfold initRefiner
    rcases hS.method with ⟨h, -⟩ | ⟨h, h'⟩
    · rw [if_pos h]
    · rw [if_neg (by rw [h]; decide), if_pos h, pyAssert_true h']
  have h2 : ∃ scen, initCosts env cfg I = .ok scen ∧ (cfg.initType = "cost" → scen.length = I.N)
      := by
    unfold initCosts
    by_cases ht : cfg.initType = "cost"
    · rw [if_pos ⟨ht, by omega⟩]
      obtain ⟨scen, hs⟩ := allScenarioCosts_ok (I := I) (solve := env.sub 0)
        (fun k g => hC.sub 0 k g) fun s hs => ⟨_, zero_inX I, zero_satAll hC.ab (by simpa using hs)⟩
      exact ⟨scen, hs, fun _ => (allScenarioCosts_spec (fun k g => hC.sub 0 k g) hs).1⟩
    · rw [if_neg fun h => ht h.1]
      exact ⟨[], rfl, fun h => absurd h ht⟩
  obtain ⟨scen, h2, h2'⟩ := h2
  have h3 : ∃ P, createFirstPartition (env.shuffle 0 0) env.argsort scen I.N (minSize I)
      cfg.initType = .ok P ∧ P.length = minSize I ∧ IsPartition I.N P := by
    rcases hS.init with h | h
    · obtain ⟨P, p1, p2, p3, -⟩ := C06_random_initial_partition (env.shuffle 0 0) env.argsort scen
        I.N (minSize I) (by omega) (by omega)
      exact ⟨P, by rw [h]; exact p1, p2, p3⟩
    · obtain ⟨P, p1, p2, p3, -⟩ := C07_cost_initial_partition (env.shuffle 0 0) env.argsort scen
        I.N (minSize I) (h2' h) (by omega) (by omega)
      exact ⟨P, by rw [h]; exact p1, p2, p3⟩
  obtain ⟨P, h3, hl, hp⟩ := h3
  have h4 := loadPartition_ok I P hp.2
  rw [hl] at h4
  unfold construct
  rw [h1, h2]
  simp only [bind, Except.bind, h3, h4]
  exact ⟨_, rfl⟩

end Verif.Model
