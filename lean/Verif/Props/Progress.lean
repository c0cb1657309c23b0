import Verif.Props.StopReason
import Verif.Props.NonTermination

/-!
# C84: upper-bound solutions do not come back
-/

namespace Verif.Props
open Spec Model Finset

variable {env : Env} {cfg : Cfg} {I : Inst} {rounds fuel : ℕ}

/-- The points differ in an item. -/
def Differ (I : Inst) (x y : Vec) : Prop := ∃ j < I.n, x j ≠ y j

theorem nbViolPartsBy_congr {t : ℚ} {P : List (List ℕ)} {x y : Vec} (h : ∀ j < I.n, x j = y j) :
    nbViolPartsBy I t P x = nbViolPartsBy I t P y := by
  have hd : ∀ a : Vec, dot I.n a x = dot I.n a y := fun a =>
    Finset.sum_congr rfl fun j hj => by rw [h j (Finset.mem_range.1 hj)]
  unfold nbViolPartsBy ViolBy
  simp only [hd]

/-- A point cut off by a partition differs from all points the partition allows. -/
theorem differ_of_cut {P : List (List ℕ)} {x y : Vec}
    (hx : kmax I + 1 ≤ nbViolPartsBy I tol P x) (hy : PartFeas I P y) : Differ I x y := by
  by_contra hno
  unfold Differ at hno
  push Not at hno
  have h1 := nbViolPartsBy_le (I := I) P y
  have h2 := hy.2
  rw [nbViolPartsBy_congr hno] at hx
  omega

/-- The number of violated parts can be read off the check. -/
theorem nbViolPartsBy_check {P : List (List ℕ)} (hP : IsPartition I.N P) {x y : Vec}
    (h : checkFeasibility env.norm I x = checkFeasibility env.norm I y) :
    nbViolPartsBy I tol P x = nbViolPartsBy I tol P y := by
  unfold nbViolPartsBy
  refine List.countP_congr fun p hp => ?_
  simp only [decide_eq_true_eq]
  refine exists_congr fun s => and_congr_right fun hs => ?_
  have hlt := (part_valid hP p hp).2 s hs
  have h1 := (C02_check_feasibility_record env.norm I x).2.2.1 s
  have h2 := (C02_check_feasibility_record env.norm I y).2.2.1 s
  rw [h, h2] at h1
  have ht : tol = 1 / 1000000 := rfl
  simp only [violBy, Finset.mem_filter, Finset.mem_range, hlt, true_and] at h1
  rw [ht]
  exact h1.symm

/-- The history of the upper-bound solutions. -/
def Fresh (cfg : Cfg) (I : Inst) (l : List Vec) : Prop :=
  l.IsChain (Differ I) ∧ (cfg.useMerger = false → l.Pairwise (Differ I))

/-- The partition excludes the last solution, and without merging all of them. -/
def CutOff (cfg : Cfg) (I : Inst) (s : St) : Prop :=
  (∀ x, s.points.getLast? = some x → kmax I + 1 ≤ nbViolPartsBy I tol s.partition x)
  ∧ (cfg.useMerger = false → ∀ x ∈ s.points, kmax I + 1 ≤ nbViolPartsBy I tol s.partition x)

theorem Fresh.snoc {s : St} (h : Fresh cfg I s.points) (hc : CutOff cfg I s) {x : Vec}
    (hx : PartFeas I s.partition x) : Fresh cfg I (s.points ++ [x]) := by
  refine ⟨List.isChain_append.2 ⟨h.1, by simp, ?_⟩, fun hm =>
    List.pairwise_append.2 ⟨h.2 hm, by simp, ?_⟩⟩
  · intro p hp q hq
    simp only [List.head?_cons, Option.mem_def, Option.some.injEq] at hq
    subst hq
    exact differ_of_cut (hc.1 p hp) hx
  · intro p hp q hq
    rw [List.mem_singleton] at hq
    subst hq
    exact differ_of_cut (hc.2 hm p hp) hx

/-- Either no new solution, or one that the partition allows. -/
def OneMore (I : Inst) (s s' : St) : Prop :=
  s'.points = s.points ∨ ∃ x, s'.points = s.points ++ [x] ∧ PartFeas I s.partition x

theorem rests_points {α : Type} {m : SM α} (h : Rests m) (s : St) :
    wp m (fun _ s' => s'.points = s.points) (fun _ s' => s'.points = s.points) s :=
  wp_mono (h s) (fun _ _ h => congrArg (fun v => v.2.1) h) fun _ _ h =>
    congrArg (fun v => v.2.1) h

theorem wp_upperBound_points (hC : Contract env I) (s : St) (h : LInv env cfg I rounds s)
    {M : Option (List (List ℚ))}
    (hM : ∀ Ms, M = some Ms → SameSolutions (partCI I s.part) Ms) :
    wp (upperBound env cfg I M)
      (fun _ s' => s'.points = s.points ∧ s'.feas = s.feas
        ∨ ∃ x, s'.points = s.points ++ [x] ∧ s'.feas = some (checkFeasibility env.norm I x)
          ∧ PartFeas I s.partition x)
      (fun _ s' => OneMore I s s') s := by
  unfold upperBound
  rw [wp_bind]
  refine wp_mono (wp_and (wp_computeUB_bounds hC s h hM) (rests_points (rests_computeUB M) s))
    (fun out s1 h1 => ?_) fun _ _ h' => .inl h'.2
  obtain ⟨⟨k1, k2, k3, -⟩, hp⟩ := h1
  rw [wp_bind, wp_availableTime, wp_ite]
  refine ⟨fun _ => .inl ⟨hp, key_feas k1⟩, fun _ => ?_⟩
  unfold storeUB updateUB currentGap storeInfo
  wp_simp
  refine ⟨fun _ => ⟨fun g _ => .inr ⟨out.x, ?_, rfl, k3.point⟩, fun e _ => .inr ⟨out.x, ?_, k3.point⟩⟩,
    fun _ => ⟨fun g _ => .inr ⟨out.x, ?_, rfl, k3.point⟩, fun e _ => .inr ⟨out.x, ?_, k3.point⟩⟩⟩
  all_goals
    show s1.points ++ [out.x] = _
    rw [hp]

/-- What a refinement does to the violated parts of other points. -/
theorem refine_mono {norm : Norm} {P : List (List ℕ)} {x : Vec} (hP : ToRefine I P x)
    {out : RefineOut} (hr : RefineCall norm I P x out) (y : Vec) :
    nbViolPartsBy I tol P y ≤ nbViolPartsBy I tol out.partition y := by
  obtain ⟨st, hst, -, hp, -⟩ := (hr.ok hP).inv
  have := hst.mono fun s => decide (ViolBy I feasTol s y)
  rw [← hp, countP_any_violBy, countP_any_violBy] at this
  exact this

theorem rests_lowerBound_points (x : Option Vec) (s : St) :
    wp (lowerBound env cfg I x) (fun _ s' => s'.points = s.points)
      (fun _ s' => s'.points = s.points) s := by
  unfold lowerBound
  rw [wp_bind, wp_get, wp_bind, wp_nextTick, wp_bind, wp_lift]
  refine ⟨fun r _ => ?_, fun _ _ => rfl⟩
  rw [wp_bind, wp_modify, wp_bind]
  refine wp_mono (rests_points (rests_storeLB r.2) _) (fun _ s2 h2 => ?_) fun _ _ h => h
  rw [wp_bind]
  refine wp_mono (rests_points rests_gap _) (fun _ s3 h3 => ?_) fun _ _ h => h.trans h2
  unfold storeInfo
  rw [wp_bind, wp_modify, wp_pure]
  exact h3.trans h2

/-- What an iteration does to the history of the solutions. -/
theorem wp_iterate_points (hC : Contract env I) {gap : Gap} (s : St) (h : LInv env cfg I rounds s)
    (hf : FeasInv env I s) :
    wp (iterate env cfg I rounds gap)
      (fun r s' => OneMore I s s' ∧ ∀ g t, r = .next g t →
        (s'.points = s.points ∧ s'.feas = s.feas
          ∨ ∃ x, s'.points = s.points ++ [x] ∧ s'.feas = some (checkFeasibility env.norm I x))
        ∧ (cfg.useMerger = false → ∀ y,
          nbViolPartsBy I tol s.partition y ≤ nbViolPartsBy I tol s'.partition y))
      (fun _ s' => OneMore I s s') s := by
  unfold iterate currentGap
  rw [wp_bind, wp_bind, wp_get, wp_lift]
  refine ⟨fun _ _ => ?_, fun e he => .inl rfl⟩
  rw [wp_bind, wp_markStep, wp_bind]
  refine wp_mono (wp_and (wp_bigM_bounds hC _
    (h.congr (s' := { s with steps := s.steps ++ [s.lastRem] }) rfl))
    (rests_points rests_bigM _)) (fun M s1 h1 => ?_) fun _ s' h' => .inl h'.2
  obtain ⟨⟨k1, -, k3⟩, q1⟩ := h1
  have hl1 : LInv env cfg I rounds s1 := h.congr (k1.trans rfl)
  have hp1 : s1.partition = s.partition := (key_part k1).trans rfl
  have hd1 : s1.part = s.part := by
    simp only [key, Prod.mk.injEq] at k1
    exact k1.1.2.2.1
  have hf1' : s1.feas = s.feas := (key_feas k1).trans rfl
  have hf1 : FeasInv env I s1 := hf.congr hf1'
  have hq1 : s1.points = s.points := q1.trans rfl
  have hone : ∀ s', OneMore I s1 s' → OneMore I s s' := fun s' h' => by
    unfold OneMore at h' ⊢
    rw [hq1, hp1] at h'
    exact h'
  rw [wp_bind]
  refine wp_mono (wp_and (wp_upperBound_bounds hC s1 hl1 (M := M) (by rw [hd1]; exact k3))
    (wp_upperBound_points hC s1 hl1 (by rw [hd1]; exact k3)))
    (fun r s2 h2 => ?_) fun _ s' h' => hone s' h'.2
  obtain ⟨⟨hl2, hp2, hrem, hcase⟩, hpts⟩ := h2
  have hp2' : s2.partition = s.partition := hp2.trans hp1
  have hpts' : s2.points = s.points ∧ s2.feas = s.feas
      ∨ ∃ x, s2.points = s.points ++ [x] ∧ s2.feas = some (checkFeasibility env.norm I x)
        ∧ PartFeas I s.partition x := by
    rw [hq1, hf1', hp1] at hpts
    exact hpts
  have hm2 : ∀ s' : St, s'.points = s2.points → OneMore I s s' := fun s' h' => by
    unfold OneMore
    rw [h']
    rcases hpts' with h3 | ⟨x, h3, -, h4⟩
    · exact .inl h3.1
    · exact .inr ⟨x, h3, h4⟩
  rw [wp_ite]
  refine ⟨fun hr => ⟨hm2 _ rfl, by rintro g t ⟨⟩⟩, fun hr => ?_⟩
  have hf2 : FeasInv env I s2 := by
    rcases hcase with ⟨hk, -, -⟩ | ⟨out, o1, o2, o3, o4, -, -, o7⟩
    · exact hf1.congr (key_feas hk)
    · intro F hF
      rw [o3] at hF
      cases hF
      rw [o2] at hr
      exact ⟨by simpa using hr, _, rfl⟩
  rw [wp_bind, wp_availableTime, wp_ite]
  refine ⟨fun _ => ⟨hm2 _ rfl, by rintro g t ⟨⟩⟩, fun htime => ?_⟩
  have hready : Strong env cfg I rounds → s2.zUB.isSome ∧ s2.xUB.isSome ∧ s2.vUB ≠ ⊤ := by
    intro hS
    rcases hcase with ⟨-, -, hle⟩ | ⟨out, o1, o2, o3, o4, o5, o6, -⟩
    · exfalso
      have := Model.remaining_mono (limit := cfg.timeLimit) hS.clock (Nat.le_succ s2.reads)
      rw [hrem] at hle
      exact htime (this.trans hle)
    · exact ⟨o5, o6 hS, o4⟩
  unfold lowerStep
  rw [wp_bind, wp_markStep, wp_bind]
  refine wp_mono (wp_and (wp_lowerBound_bounds hC _ (hl2.congr (s' := { s2 with
    reads := s2.reads + 1
    lastRem := remaining env.clock cfg.timeLimit (s2.reads + 1)
    steps := s2.steps ++ [remaining env.clock cfg.timeLimit (s2.reads + 1)] }) rfl) r.1)
    (rests_lowerBound_points r.1 _))
    (fun g s3 h3 => ?_) fun e s' h' => hm2 _ h'.2
  obtain ⟨⟨hl3, e1, e2, e3, e4, e5, e6, b, hgap⟩, q3⟩ := h3
  have hp3 : s3.partition = s.partition := e1.trans hp2'
  have hq3 : s3.points = s2.points := q3
  rw [wp_ite]
  refine ⟨fun _ => ⟨hm2 _ hq3, by rintro g t ⟨⟩⟩, fun _ => ?_⟩
  rw [wp_bind, wp_availableTime, wp_ite]
  refine ⟨fun _ => ⟨hm2 _ hq3, by rintro g t ⟨⟩⟩, fun _ => ?_⟩
  unfold splitMergeStep
  rw [wp_bind]
  have hready3 : Strong env cfg I rounds → s3.zUB.isSome ∧ s3.xUB.isSome ∧ s3.vUB ≠ ⊤ := by
    rw [e3, e4, e5]; exact hready
  refine wp_mono (wp_and (wp_split_bounds hC { s3 with
      reads := s3.reads + 1
      lastRem := remaining env.clock cfg.timeLimit (s3.reads + 1) } (hl3.congr rfl)
    (hf2.congr (s' := { s3 with
      reads := s3.reads + 1
      lastRem := remaining env.clock cfg.timeLimit (s3.reads + 1) }) e2) hready3)
    (rests_points (rests_split rounds) _)) (fun q s4 h4 => ?_) fun e s' h' => hm2 _ (h'.2.trans hq3)
  obtain ⟨h4, q4⟩ := h4
  have hq4 : s4.points = s2.points := q4.trans hq3
  rw [wp_bind]
  refine wp_mono (wp_and (wp_merge_bounds hC (hl3.congr (s' := { s3 with
      reads := s3.reads + 1
      lastRem := remaining env.clock cfg.timeLimit (s3.reads + 1) }) rfl) h4 hready3 r.1)
    (rests_points (rests_merge r.1 q.1 q.2) _)) (fun _ s5 h5 => ?_)
    fun e s' h' => hm2 _ (h'.2.trans hq4)
  obtain ⟨h5, q5⟩ := h5
  have hq5 : s5.points = s2.points := q5.trans hq4
  rw [wp_bind, wp_availableTime, wp_ite]
  refine ⟨fun _ => ⟨hm2 _ hq5, by rintro g t ⟨⟩⟩, fun _ => ?_⟩
  rw [wp_bind, wp_modify, wp_bind, wp_availableTime, wp_pure]
  refine ⟨hm2 _ hq5, fun _ _ _ => ⟨?_, fun hm y => ?_⟩⟩
  · have hf5 : s5.feas = s2.feas := (h5.feas.trans h4.feas).trans e2
    show s5.points = s.points ∧ s5.feas = s.feas
      ∨ ∃ x, s5.points = s.points ++ [x] ∧ s5.feas = some (checkFeasibility env.norm I x)
    rw [hq5, hf5]
    rcases hpts' with h6 | ⟨x, h6, h7, -⟩
    · exact .inl h6
    · exact .inr ⟨x, h6, h7⟩
  · obtain ⟨x, -, hx2, hx3⟩ := h4.call
    have h6 := refine_mono hx2 hx3 y
    rcases h5.size with ⟨h7, -⟩ | h7
    · show _ ≤ nbViolPartsBy I tol s5.partition y
      rw [h7]
      simp only [hp3] at h6
      exact h6
    · rw [hm] at h7; cases h7.2

theorem OneMore.fresh {s s' : St} (h : OneMore I s s') (hf : Fresh cfg I s.points)
    (hc : CutOff cfg I s) : Fresh cfg I s'.points := by
  rcases h with h | ⟨x, h, hx⟩
  · rw [h]; exact hf
  · rw [h]; exact hf.snoc hc hx

/-- The stored check belongs to the last solution. -/
def LastCheck (env : Env) (I : Inst) (s : St) : Prop :=
  (s.points = [] ∧ s.feas = none)
    ∨ ∃ ps x, s.points = ps ++ [x] ∧ s.feas = some (checkFeasibility env.norm I x)

theorem wp_mainLoop_fresh (hC : Contract env I) : ∀ (fuel : ℕ) (gap : Gap) (t : ℚ) (s : St),
    LInv env cfg I rounds s → FeasInv env I s → Fresh cfg I s.points → CutOff cfg I s →
    LastCheck env I s →
    wp (mainLoop env cfg I rounds fuel gap t) (fun _ s' => Fresh cfg I s'.points)
      (fun _ s' => Fresh cfg I s'.points) s
  | fuel, gap, t, s, h, hf, hfr, hc, hlast => by
    unfold mainLoop
    rw [wp_ite]
    refine ⟨fun h0 => ?_, fun _ => hfr⟩
    cases fuel with
    | zero => exact hfr
    | succ fuel =>
      simp only
      rw [wp_bind]
      refine wp_mono (wp_and (wp_iterate_bounds hC (gap := gap) s h hf)
        (wp_iterate_points hC (gap := gap) s h hf)) (fun r s1 h1 => ?_)
        fun _ _ h' => h'.2.fresh hfr hc
      obtain ⟨h1, h2, h3⟩ := h1
      cases r with
      | stop b g => exact h2.fresh hfr hc
      | next g t' =>
        obtain ⟨a1, a2, -, -, x, a5, a6, -⟩ := h1
        obtain ⟨b1, b2⟩ := h3 g t' rfl
        have hlast' : LastCheck env I s1 := by
          rcases b1 with ⟨c1, c2⟩ | ⟨y, c1, c2⟩
          · unfold LastCheck
            rw [c1, c2]
            exact hlast
          · exact .inr ⟨_, y, c1, c2⟩
        have hcut : ∀ y, s1.points.getLast? = some y →
            kmax I + 1 ≤ nbViolPartsBy I tol s1.partition y := by
          intro y hy
          rcases hlast' with ⟨c1, -⟩ | ⟨ps, z, c1, c2⟩
          · rw [c1] at hy; cases hy
          · rw [c1, List.getLast?_append_of_ne_nil _ (by simp)] at hy
            simp only [List.getLast?_singleton, Option.some.injEq] at hy
            subst hy
            rw [c2] at a5
            rw [nbViolPartsBy_check a1.shape.part (Option.some.inj a5), a6]
        refine wp_mainLoop_fresh hC fuel g t' s1 a1 a2 (h2.fresh hfr hc) ⟨hcut, fun hm y hy => ?_⟩
          hlast'
        rcases b1 with ⟨c1, -⟩ | ⟨z, c1, -⟩
        · rw [c1] at hy
          exact (hc.2 hm y hy).trans (b2 hm y)
        · rw [c1] at hy
          rcases List.mem_append.1 hy with hy | hy
          · exact (hc.2 hm y hy).trans (b2 hm y)
          · rw [List.mem_singleton] at hy
            subst hy
            exact hcut y (by rw [c1]; simp)

theorem construct_points {s : St} (h : construct env cfg I = .ok s) : s.points = [] := by
  unfold construct at h
  simp only [bind, Except.bind, pure, Except.pure] at h
  repeat' split at h
  all_goals first | (cases h; rfl) | cases h

theorem wp_solve_fresh (hC : Contract env I) {s : St} (h : construct env cfg I = .ok s) :
    wp (solve env cfg I rounds fuel) (fun _ s' => Fresh cfg I s'.points)
      (fun _ s' => Fresh cfg I s'.points) s := by
  have h0 := construct_points h
  have hfr : Fresh cfg I ([] : List Vec) := ⟨by simp, fun _ => by simp⟩
  unfold solve
  rw [wp_bind]
  refine wp_mono (wp_and (wp_start_bounds (rounds := rounds) hC h) (rests_points rests_start s))
    (fun _ s1 h1 => ?_) fun _ _ h' => h'.1.elim
  obtain ⟨⟨a1, a2, -⟩, a3⟩ := h1
  have hp : s1.points = [] := a3.trans h0
  rw [wp_bind, wp_availableTime, wp_bind]
  refine wp_mono (wp_mainLoop_fresh hC fuel (.fin 1) _ _ (a1.congr rfl) ?_ ?_ ⟨?_, ?_⟩ (.inl ⟨hp, a2⟩))
    (fun q s2 h2 => ?_) fun _ _ h => h
  · intro F hF
    have : s1.feas = some F := hF
    rw [a2] at this
    cases this
  · show Fresh cfg I s1.points
    rw [hp]; exact hfr
  · intro x hx
    have : s1.points.getLast? = some x := hx
    rw [hp] at this; cases this
  · intro _ x hx
    have : x ∈ s1.points := hx
    rw [hp] at this; cases this
  · unfold report
    rw [wp_bind, wp_ite]
    exact ⟨fun _ => h2, fun _ => h2⟩

/-- **C84.** In every run, however it ends, two consecutive solutions of the partitioned problems
differ; without merging all solutions of the run differ from each other: a solution that was
rejected never comes back. -/
theorem C84_no_repeat (hC : Contract env I) (r : Except PyErr (Bool × Gap)) (s : St)
    (h : run env cfg I rounds fuel = .ok (r, s)) :
    (∀ (i : ℕ) (hi : i + 1 < s.points.length), ∃ j < I.n, s.points[i] j ≠ s.points[i + 1] j)
    ∧ (cfg.useMerger = false → ∀ (i k : ℕ) (_ : i < k) (hk : k < s.points.length),
      ∃ j < I.n, s.points[i] j ≠ s.points[k] j) := by
  obtain ⟨s0, hc, hs⟩ := run_inv h
  have hfr : Fresh cfg I s.points := by
    have := wp_solve_fresh (rounds := rounds) (fuel := fuel) hC hc
    unfold wp at this
    rw [hs] at this
    cases r <;> exact this
  refine ⟨fun i hi => ?_, fun hm i k hik hk => ?_⟩
  · exact List.isChain_iff_getElem.1 hfr.1 i hi
  · exact List.pairwise_iff_getElem.1 (hfr.2 hm) i k (by omega) hk hik

/-- The solutions of a run, item by item. -/
def solutions (n : ℕ) (p : PyM (Except PyErr (Bool × Gap) × St)) : Option (List (List ℚ)) :=
  p.toOption.map fun q => q.2.points.map fun x => (List.range n).map x

/-- With merging a solution comes back in every other iteration of the run that never ends
(C54); without, the same instance is solved in two iterations. -/
theorem C84_merging_returns :
    Contract (exactEnv exNorm 0) exCycle ∧ exCfg.useMerger = true
    ∧ solutions 4 (run (exactEnv exNorm 0) exCfg exCycle 10 4)
      = some [[0, 0, 1, 0], [0, 1, 0, 0], [0, 0, 1, 0], [0, 1, 0, 0]]
    ∧ solutions 4 (run (exactEnv exNorm 0) { exCfg with useMerger := false } exCycle 10 4)
      = some [[0, 0, 1, 0], [1, 0, 0, 0]] :=
  ⟨exCycle_contract, rfl, by decide +kernel, by decide +kernel⟩

end Verif.Props
