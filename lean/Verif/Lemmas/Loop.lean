import Verif.Lemmas.NoFuel
import Verif.Props.Merge
import Verif.Props.Refine
import Verif.Props.Trajectory

/-!
# Shape of the state during a run, for arbitrary answers of the solver
-/

namespace Verif.Model
open Spec Props

variable {env : Env} {cfg : Cfg} {I : Inst}

/-! ## Methods that leave the partition alone -/

/-- The attributes that only `_split` and `_merge` (and `_upper_bound` for the last) change. -/
def core (s : St) : List (List ℕ) × ℕ × PartData × List ℚ × List Vec × Option CheckOut
    × ℕ × Memory :=
  (s.partition, s.nbSubsets, s.part, s.costs, s.sols, s.feas, s.iteration, s.memory)

/-- `m` does not change them and does not end with an outcome in `B`. -/
def Fr (B : PyErr → Prop) {α : Type} (m : SM α) : Prop :=
  ∀ s, wp m (fun _ s' => core s' = core s) (fun e s' => core s' = core s ∧ ¬ B e) s

variable {α β : Type} {B : PyErr → Prop} [Sp B]

theorem fr_pure (a : α) : Fr B (Pure.pure a) := fun _ => rfl
theorem fr_get : Fr B SM.get := fun _ => rfl
theorem fr_nextTick : Fr B nextTick := fun _ => rfl
theorem fr_time : Fr B (availableTime env cfg) := fun _ => rfl
theorem fr_build : Fr B (buildTime env) := fun _ => rfl
theorem fr_mark : Fr B markStep := fun _ => rfl
theorem fr_writeLB (v : ℚ) (b : Bool) : Fr B (writeLB v b) := fun _ => rfl
theorem fr_writeUB (v : ℚ) : Fr B (writeUB v) := fun _ => rfl
theorem fr_info (g : Gap) : Fr B (storeInfo g) := fun _ => rfl
theorem fr_modify (f : St → St) (hf : ∀ s, core (f s) = core s) : Fr B (SM.modify f) := hf

theorem fr_throw {e : PyErr} (he : ¬ Special e) : Fr B (α := α) (SM.throw e) :=
  fun _ => ⟨rfl, fun h => he (Sp.sp _ h)⟩

omit [Sp B] in
theorem fr_lift {m : PyM α} (h : NF B m) : Fr B (SM.lift m) := fun s => by
  rw [wp_lift]
  exact ⟨fun _ _ => rfl, fun e he => ⟨rfl, h.no e he⟩⟩

theorem fr_bind {m : SM β} {f : β → SM α} (h : Fr B m) (h' : ∀ b, Fr B (f b)) : Fr B (m >>= f) :=
  fun s => by
  rw [wp_bind]
  refine wp_mono (h s) (fun b s' hs' => ?_) fun _ _ h => h
  exact wp_mono (h' b s') (fun _ _ h => h.trans hs') fun _ _ h => ⟨h.1.trans hs', h.2⟩

theorem fr_ite {c : Prop} [Decidable c] {m m' : SM α} (h : Fr B m) (h' : Fr B m') :
    Fr B (if c then m else m') := by
  split
  · exact h
  · exact h'

theorem fr_gap : Fr B currentGap := fr_bind fr_get fun _ => fr_lift (nf_computeGap _ _ _)

theorem fr_improve (cands : List Vec) : Fr B (improve env I cands) := fr_bind fr_get fun s => by
  split
  · exact fr_pure _
  · exact fr_bind (fr_modify _ fun _ => rfl) fun _ => fr_writeLB _ _

theorem fr_bigM : Fr B (bigMStep env cfg I) :=
  fr_bind fr_get fun _ => fr_ite (fr_bind fr_nextTick fun _ =>
    fr_bind (fr_lift (nf_updateBigM _ _ _ _ _ _ _ _ _ _)) fun _ => fr_pure _) (fr_pure _)

theorem fr_computeUB {B : PyErr → Prop} [NT B] (M : Option (List (List ℚ))) :
    Fr B (computeUB env cfg I M) :=
  fr_bind fr_get fun _ => fr_ite (fr_lift (nf_firstIterationBound _ _))
    (fr_bind fr_time fun _ => fr_bind fr_get fun _ => fr_bind (fr_lift (nf_getZStart _ _)) fun _ =>
      fr_bind fr_nextTick fun _ => fr_bind fr_build fun _ =>
        fr_bind (fr_lift (nf_solveCclp _ _ _ _ _ _ _ _)) fun _ =>
        fr_bind (fr_lift (nf_checkResults _ _ _ _ _ _ _)) fun _ => fr_pure _)

theorem fr_updateUB (out : UBOut) : Fr B (updateUB out) :=
  fr_bind fr_get fun _ => fr_ite (fr_bind (fr_modify _ fun _ => rfl) fun _ => fr_writeUB _)
    (fr_pure _)

theorem fr_lowerBound (x : Option Vec) : Fr B (lowerBound env cfg I x) :=
  fr_bind fr_get fun _ => fr_bind fr_nextTick fun _ =>
    fr_bind (fr_lift (nf_deterministicBound _ _ _ _ _ _ _)) fun _ =>
      fr_bind (fr_modify _ fun _ => rfl) fun _ => fr_bind (fr_bind fr_get fun _ =>
        fr_ite (fr_bind (fr_writeLB _ _) fun _ => fr_modify _ fun _ => rfl) (fr_pure _)) fun _ =>
          fr_bind fr_gap fun _ => fr_bind (fr_info _) fun _ => fr_pure _

/-! ## Shape -/

/-- Partition, number of subsets, partitioned instance, costs and solutions fit together. -/
structure SShape (env : Env) (I : Inst) (s : St) : Prop where
  part : IsPartition I.N s.partition
  nb : s.nbSubsets = s.partition.length
  load : loadPartition I s.partition.length s.partition = .ok s.part
  aligned : Aligned env I s.partition s.costs s.sols

/-- The last check of a solution was negative. -/
def FeasInv (env : Env) (I : Inst) (s : St) : Prop :=
  ∀ F, s.feas = some F → F.feasible = false ∧ ∃ x, F = checkFeasibility env.norm I x

theorem SShape.congr {s s' : St} (h : SShape env I s) (hc : core s' = core s) : SShape env I s' := by
  simp only [core, Prod.mk.injEq] at hc
  obtain ⟨h1, h2, h3, h4, h5, -⟩ := hc
  exact ⟨h1 ▸ h.part, by rw [h1, h2]; exact h.nb, by rw [h1, h3]; exact h.load,
    by rw [h1, h4, h5]; exact h.aligned⟩

theorem FeasInv.congr {s s' : St} (h : FeasInv env I s) (hc : s'.feas = s.feas) :
    FeasInv env I s' := by
  unfold FeasInv; rw [hc]; exact h

theorem core_part {s s' : St} (hc : core s' = core s) : s'.partition = s.partition :=
  (Prod.mk.inj hc).1

theorem core_feas {s s' : St} (hc : core s' = core s) : s'.feas = s.feas := by
  simp only [core, Prod.mk.injEq] at hc
  exact hc.2.2.2.2.2.1

theorem core_iter {s s' : St} (hc : core s' = core s) : s'.iteration = s.iteration := by
  simp only [core, Prod.mk.injEq] at hc
  exact hc.2.2.2.2.2.2.1

theorem core_mem {s s' : St} (hc : core s' = core s) : s'.memory = s.memory := by
  simp only [core, Prod.mk.injEq] at hc
  exact hc.2.2.2.2.2.2.2

/-- The upper bound changes none of the shape; a negative verdict leaves a negative check. -/
theorem wp_upperBound_shape {B : PyErr → Prop} [NT B] (M : Option (List (List ℚ))) (s : St) (h : SShape env I s)
    (hf : FeasInv env I s) :
    wp (upperBound env cfg I M)
      (fun r s' => SShape env I s' ∧ s'.partition = s.partition ∧ s'.iteration = s.iteration
        ∧ s'.memory = s.memory ∧ (r.2 = false → FeasInv env I s'))
      (fun e s' => SShape env I s' ∧ ¬ B e) s := by
  unfold upperBound
  rw [wp_bind]
  refine wp_mono (fr_computeUB M s) (fun out s1 h1 => ?_) fun _ _ h' => ⟨h.congr h'.1, h'.2⟩
  rw [wp_bind, wp_availableTime, wp_ite]
  refine ⟨fun _ => ?_, fun _ => ?_⟩
  · exact ⟨h.congr h1, core_part h1, core_iter h1, core_mem h1,
      fun _ => hf.congr (core_feas h1)⟩
  · unfold storeUB
    rw [wp_bind, wp_modify]
    have hs : ∀ s', core s' = core { s1 with feas := some (checkFeasibility env.norm I out.x) } →
        SShape env I s' ∧ s'.partition = s.partition ∧ s'.iteration = s.iteration
          ∧ s'.memory = s.memory ∧ s'.feas = some (checkFeasibility env.norm I out.x) := by
      intro s' hs'
      have h2 : SShape env I { s1 with feas := some (checkFeasibility env.norm I out.x) } := by
        have := h.congr h1
        exact ⟨this.1, this.2, this.3, this.4⟩
      exact ⟨h2.congr hs', (core_part hs').trans (show s1.partition = s.partition from core_part h1),
        (core_iter hs').trans (show s1.iteration = s.iteration from core_iter h1),
        (core_mem hs').trans (show s1.memory = s.memory from core_mem h1),
        (core_feas hs').trans rfl⟩
    have hfr : Fr B (do
        updateUB out
        SM.modify fun s =>
          { s with
            lb := s.lb.saveFeasible (getFeasibleScenarios (checkFeasibility env.norm I out.x))
            points := s.points ++ [out.x] }
        let g ← currentGap
        storeInfo g
        pure ((some out.x : Option Vec), (checkFeasibility env.norm I out.x).feasible)) :=
      fr_bind (fr_updateUB out) fun _ => fr_bind (fr_modify _ fun _ => rfl) fun _ =>
        fr_bind fr_gap fun _ => fr_bind (fr_info _) fun _ => fr_pure _
    have hval : wp (do
        updateUB out
        SM.modify fun s =>
          { s with
            lb := s.lb.saveFeasible (getFeasibleScenarios (checkFeasibility env.norm I out.x))
            points := s.points ++ [out.x] }
        let g ← currentGap
        storeInfo g
        pure ((some out.x : Option Vec), (checkFeasibility env.norm I out.x).feasible))
        (fun r _ => r.2 = (checkFeasibility env.norm I out.x).feasible) (fun _ _ => True)
        { s1 with
          reads := s1.reads + 1
          lastRem := remaining env.clock cfg.timeLimit (s1.reads + 1)
          feas := some (checkFeasibility env.norm I out.x), zUB := some out.z } := by
      unfold updateUB currentGap storeInfo
      wp_simp
      simp
    refine wp_mono (wp_and (hfr _) hval) (fun r s2 h2 => ?_) fun _ _ h2 => ⟨(hs _ h2.1.1).1, h2.1.2⟩
    obtain ⟨a, b, b', b'', c⟩ := hs _ h2.1
    refine ⟨a, b, b', b'', fun hr F hF => ?_⟩
    rw [c] at hF
    cases hF
    exact ⟨by rw [← h2.2, hr], _, rfl⟩

theorem mem_sortSubsetCosts {cands : List ℕ} {costs : List ℚ} {t : ℕ}
    (h : t ∈ sortSubsetCosts cands costs) : t ∈ cands := by
  unfold sortSubsetCosts at h
  rw [List.mem_map] at h
  obtain ⟨p, hp, rfl⟩ := h
  rw [List.mem_insertionSort] at hp
  exact (List.of_mem_zip (show (p.1, p.2) ∈ _ from hp)).2

theorem subErr_no {e : PyErr} (h : SubErr env I e) : ¬ B e := by
  obtain ⟨t, k, p, -, -, h⟩ := h
  exact (nf_subsetCost _ _).no e h

/-- Storing a merge keeps the shape. -/
theorem wp_applyMerge_shape {cs : List ℕ} {m : MState} (s : St) (h : SShape env I s)
    (h2 : 2 ≤ cs.length) (hnd : cs.Nodup) (hlt : ∀ c ∈ cs, c < s.partition.length)
    (hm : mergeAll s.partition cs = .ok m) :
    wp (applyMerge env I m)
      (fun _ s' => SShape env I s' ∧ s'.partition = m.partition ∧ s'.feas = s.feas
        ∧ s'.iteration = s.iteration ∧ s'.memory = s.memory)
      (fun e _ => ¬ B e) s := by
  obtain ⟨mn, hmg⟩ := merging_of h2 hnd hlt hm
  refine wp_applyMerge h.aligned.lenC h.aligned.lenS h.part hm hmg
    (fun e _ _ _ he => subErr_no he) fun D v x hD hr => ?_
  refine wp_mono (fr_improve [x] _) (fun _ s' hs' => ?_) fun _ _ h' => h'.2
  refine ⟨SShape.congr ?_ hs', (core_part hs').trans rfl, (core_feas hs').trans rfl,
    (core_iter hs').trans rfl, (core_mem hs').trans rfl⟩
  exact ⟨hmg.isPartition h.part hm, rfl, hD, hmg.aligned h.aligned ⟨_, _, hr⟩⟩

/-- `_merge` keeps the shape. -/
theorem wp_merge_shape {x : Option Vec} {out : RefineOut} {newCosts : List ℚ} (s : St)
    (h : SShape env I s) (hmu : 1 ≤ out.mu)
    (hlt : ∀ c ∈ out.feasibleSubsets, c < s.partition.length) (hnd : out.feasibleSubsets.Nodup) :
    wp (merge env cfg I x out newCosts)
      (fun _ s' => SShape env I s' ∧ s'.feas = s.feas ∧ s'.iteration = s.iteration
        ∧ (cfg.useMerger = false → s'.partition = s.partition))
      (fun e _ => e ≠ .fuel) s := by
  unfold merge
  rw [wp_bind, wp_modify, wp_ite]
  have h0 : SShape env I { s with didMerge := false } := ⟨h.1, h.2, h.3, h.4⟩
  refine ⟨fun hu => ?_, fun _ => ⟨h0, rfl, rfl, fun _ => rfl⟩⟩
  have hu' : ¬ cfg.useMerger = false := by simp [hu]
  rw [wp_bind, wp_lift]
  refine ⟨fun v _ => ?_, fun e he h' => (nf_pyMax newCosts).out (h' ▸ he)⟩
  rw [wp_bind, wp_get, wp_ite]
  refine ⟨fun _ => ?_, fun _ => ⟨h0, rfl, rfl, fun _ => rfl⟩⟩
  unfold mergeDispatch
  rw [wp_ite]
  refine ⟨fun hlen => ?_, fun _ => ?_⟩
  · unfold mergeAllFeasible
    rw [wp_bind, wp_get]
    split
    · rw [wp_throw]; simp
    · next t ht =>
      have ht1 := List.mem_of_find?_eq_some ht
      have ht2 := List.find?_some ht
      simp only [decide_eq_true_eq] at ht2
      have ht3 := List.mem_range.1 (mem_sortSubsetCosts ht1)
      have ht4 : t < s.partition.length := by
        have : s.nbSubsets = s.partition.length := h.nb
        rw [← this]; exact ht3
      rw [wp_bind, wp_lift]
      refine ⟨fun m hm => ?_, fun e he h' => (nf_mergeAll _ _).out (h' ▸ he)⟩
      rw [wp_bind]
      refine wp_mono (wp_applyMerge_shape (cs := out.feasibleSubsets ++ [t]) _ h0
        (by simp; omega) ?_ ?_ hm) (fun _ s1 h1 => ?_) fun _ _ h' => h'
      · rw [List.nodup_append]
        exact ⟨hnd, by simp, fun a ha b hb => by
          rw [List.mem_singleton.1 hb]; rintro rfl; exact ht2 ha⟩
      · intro c hc
        rcases List.mem_append.1 hc with hc | hc
        · exact hlt c hc
        · rw [List.mem_singleton.1 hc]; exact ht4
      · wp_simp
        refine ⟨fun _ _ => ⟨⟨h1.1.1, h1.1.2, h1.1.3, h1.1.4⟩, h1.2.2.1, h1.2.2.2.1, fun h => absurd h hu'⟩,
          fun e he h' => by subst h'; unfold pyAssert at he; split at he <;> cases he⟩
  · rw [wp_ite]
    refine ⟨fun hlen => ?_, fun _ => by rw [wp_throw]; simp⟩
    unfold mergeMuPlusOne
    rw [wp_bind, wp_get]
    cases x with
    | none => simp only; rw [wp_throw]; simp
    | some x =>
      simp only
      rw [wp_bind, wp_lift]
      refine ⟨fun m hm => ?_, fun e he h' => (nf_mergeFeasible _ _ _ _ _ _).out (h' ▸ he)⟩
      obtain ⟨st, top, e1, e2, e3, e4, e5, -, -⟩ := C31_merge_feasible env.norm I s.partition
        h.part.2 s.part h.load x out.feasibleSubsets hlt out.mu (by rw [hnd.dedup]; exact hlen)
      have hm' : mergeFeasible env.norm (partCI I s.part) s.partition x out.feasibleSubsets out.mu
        = .ok m := hm
      rw [hm'] at e1
      cases e1
      rw [wp_bind]
      refine wp_mono (wp_applyMerge_shape (cs := top) _ h0 (by omega) e2
        (fun c hc => hlt c (e4 c hc)) e5) (fun _ s1 h1 => ?_) fun _ _ h' => h'
      exact ⟨⟨h1.1.1, h1.1.2, h1.1.3, h1.1.4⟩, h1.2.2.1, h1.2.2.2.1, fun h => absurd h hu'⟩

/-- A refinement by a point whose check is negative does not run out of rounds. -/
theorem nf_refineStep {rounds t : ℕ} {s : St} (heps : 0 ≤ I.eps) (hr : minSize I ≤ rounds)
    (h : SShape env I s) (hf : FeasInv env I s) : NF (· = .fuel) (refineStep env cfg I rounds t s) := by
  unfold refineStep
  split
  · exact nf_err (by nsp)
  · next F hF =>
    split
    · refine nf_bind ?_ fun _ => nf_pure _
      obtain ⟨hfe, x, rfl⟩ := hf F hF
      cases hacc : cfg.useAccObj with
      | true =>
        unfold refineRandom
        simp only
        refine nf_bind ?_ fun _ => ?_
        · unfold numberOfSplits; simp only; nf
        · exact nf_err (by nsp)
      | false =>
        have hm := marks_check env.norm I x
        have hlen := length_infeasible hm h.part
        rcases Nat.lt_or_ge (kmax I)
          (s.partition.countP fun p => p.any fun s => decide (ViolBy I feasTol s x)) with hk | hk
        · unfold refineRandom
          simp only
          rw [hlen, numberOfSplits_err heps hk]
          exact nf_err (by nsp)
        · have hinf : kmax I < (List.range I.N).countP fun s => decide (ViolBy I feasTol s x) := by
            rw [countP_violBy]
            have h1 := (C01_is_feasible_verdict env.norm I x).1
            have h2 : (isFeasible env.norm I x).feasible = false := hfe
            rw [h2] at h1
            have h3 : ¬ (((violBy I (1 / 1000000) x).card : ℚ) ≤ I.eps * I.N) := by
              rw [← h1]; simp
            push Not at h3
            by_contra hle
            push Not at hle
            have h4 : (((violBy I tol x).card : ℕ) : ℚ) ≤ (kmax I : ℚ) := by exact_mod_cast hle
            have h5 : ((kmax I : ℕ) : ℚ) ≤ I.eps * I.N :=
              Nat.floor_le (mul_nonneg heps (Nat.cast_nonneg _))
            exact absurd (h4.trans h5) (not_le.2 h3)
          have hmin : minSize I = kmax I + 1 := by
            unfold minSize kmax
            rw [← Int.natCast_floor_eq_floor (mul_nonneg heps (Nat.cast_nonneg _))]
            omega
          obtain ⟨out, h1, -⟩ := refineRandom_ok (sh := env.shuffle t) (fuel := rounds) heps hm
            h.part hk hinf (by omega)
          rw [h1]
          exact nf_ok _
    · exact nf_refineCost fun _ => hr

/-- `_split` keeps the shape and adds subsets. -/
theorem wp_split_shape {rounds : ℕ} (s : St) (h : SShape env I s) (hf : FeasInv env I s) :
    wp (split env cfg I rounds)
      (fun r s' => SShape env I s' ∧ s'.feas = s.feas ∧ s'.iteration = s.iteration
        ∧ s'.partition = r.1.partition
        ∧ ReShape I.N s.partition r.1)
      (fun e s' => e = .fuel → SShape env I s' ∧ ¬ (0 ≤ I.eps ∧ minSize I ≤ rounds)) s := by
  refine wp_split h.aligned.lenC h.aligned.lenS (fun e he hfu => ⟨⟨h.1, h.2, h.3, h.4⟩, ?_⟩)
    (fun e _ _ _ he hfu => absurd hfu (subErr_ne_fuel he)) fun out mem D costs sols hr hS hD hF => ?_
  · rintro ⟨heps, hrounds⟩
    exact (nf_refineStep heps hrounds h hf).out (hfu ▸ he)
  · refine wp_mono (fr_improve _ _) (fun _ s' hs' => ?_) fun _ _ h' hfu => absurd hfu h'.2
    refine ⟨SShape.congr ?_ hs', (core_feas hs').trans rfl, (core_iter hs').trans rfl,
      (core_part hs').trans rfl, hS⟩
    exact ⟨hS.part, rfl, hD, hF.aligned h.aligned hS⟩

/-- How an iteration ends as far as the shape goes. -/
def ShapePost (env : Env) (cfg : Cfg) (I : Inst) (s : St) (r : Step) (s' : St) : Prop :=
  SShape env I s'
    ∧ (cfg.useMerger = false → s.partition.length ≤ s'.partition.length)
    ∧ (∀ b g, r = .stop b g → s'.iteration = s.iteration)
    ∧ ∀ g t, r = .next g t → FeasInv env I s' ∧ s'.iteration = s.iteration + 1
      ∧ (cfg.useMerger = false → s.partition.length < s'.partition.length)

theorem wp_splitMerge_shape {rounds : ℕ} {x : Option Vec} {gap : Gap} (s : St)
    (h : SShape env I s) (hf : FeasInv env I s) :
    wp (splitMergeStep env cfg I rounds x gap) (ShapePost env cfg I s)
      (fun e s' => e = .fuel → SShape env I s' ∧ ¬ (0 ≤ I.eps ∧ minSize I ≤ rounds)) s := by
  unfold splitMergeStep
  rw [wp_bind]
  refine wp_mono (wp_split_shape s h hf) (fun r s1 h1 => ?_) fun _ _ h' => h'
  obtain ⟨a1, a2, a2', a3, a4⟩ := h1
  rw [wp_bind]
  refine wp_mono (wp_merge_shape (x := x) (out := r.1) (newCosts := r.2) s1 a1 a4.muPos
    (by rw [a3]; exact a4.feasLt) a4.feasNodup) (fun _ s2 h2 => ?_) fun _ _ h' hfu => absurd hfu h'
  obtain ⟨b1, b2, b2', b3⟩ := h2
  have hlen : cfg.useMerger = false → s.partition.length < s2.partition.length := fun hu => by
    rw [b3 hu, a3, a4.len]
    have := a4.muPos
    omega
  have hit : s2.iteration = s.iteration := b2'.trans a2'
  wp_simp
  refine ⟨fun _ => ⟨⟨b1.1, b1.2, b1.3, b1.4⟩, fun hu => (hlen hu).le, fun _ _ _ => hit,
      by rintro g t ⟨⟩⟩, fun _ => ⟨⟨b1.1, b1.2, b1.3, b1.4⟩, fun hu => (hlen hu).le,
      by rintro b g ⟨⟩, fun _ _ _ => ⟨hf.congr (b2.trans a2), ?_, hlen⟩⟩⟩
  show s2.iteration + 1 = s.iteration + 1
  rw [hit]

theorem wp_iterate_shape {rounds : ℕ} {gap : Gap} (s : St) (h : SShape env I s)
    (hf : FeasInv env I s) :
    wp (iterate env cfg I rounds gap) (ShapePost env cfg I s)
      (fun e s' => e = .fuel → SShape env I s' ∧ ¬ (0 ≤ I.eps ∧ minSize I ≤ rounds)) s := by
  unfold iterate
  rw [wp_bind]
  refine wp_mono (fr_gap s) (fun _ s1 h1 => ?_) fun _ _ h' hfu => absurd hfu h'.2
  rw [wp_bind]
  refine wp_mono (fr_mark s1) (fun _ s2 h2 => ?_) fun _ _ h' hfu => absurd hfu h'.2
  rw [wp_bind]
  refine wp_mono (fr_bigM s2) (fun M s3 h3 => ?_) fun _ _ h' hfu => absurd hfu h'.2
  have hc := h3.trans (h2.trans h1)
  rw [wp_bind]
  refine wp_mono (wp_upperBound_shape M s3 (h.congr hc) (hf.congr (core_feas hc)))
    (fun r s4 h4 => ?_) fun _ _ h' hfu => absurd hfu h'.2
  rw [wp_ite]
  obtain ⟨a1, a2, a2', -, a3⟩ := h4
  have hp4 : s4.partition = s.partition := a2.trans (core_part hc)
  have hi4 : s4.iteration = s.iteration := a2'.trans (core_iter hc)
  refine ⟨fun _ => ⟨a1, fun _ => by rw [hp4], fun _ _ _ => hi4, by rintro g t ⟨⟩⟩, fun hr => ?_⟩
  have hf4 := a3 (by simpa using hr)
  rw [wp_bind, wp_availableTime, wp_ite]
  refine ⟨fun _ => ⟨⟨a1.1, a1.2, a1.3, a1.4⟩, fun _ => by simp only [hp4, le_refl],
    fun _ _ _ => hi4, by rintro g t ⟨⟩⟩, fun _ => ?_⟩
  unfold lowerStep
  rw [wp_bind, wp_markStep, wp_bind]
  refine wp_mono (fr_lowerBound r.1 _) (fun g s5 h5 => ?_) fun _ _ h' hfu => absurd hfu h'.2
  have hs5 : SShape env I s5 := SShape.congr (s := s4) a1 h5
  have hf5 : FeasInv env I s5 := FeasInv.congr (s := s4) hf4 (core_feas h5)
  have hp5 : s5.partition = s.partition := (core_part h5).trans hp4
  have hi5 : s5.iteration = s.iteration := (core_iter h5).trans hi4
  rw [wp_ite]
  refine ⟨fun _ => ⟨hs5, fun _ => by rw [hp5], fun _ _ _ => hi5, by rintro g t ⟨⟩⟩, fun _ => ?_⟩
  rw [wp_bind, wp_availableTime, wp_ite]
  refine ⟨fun _ => ⟨⟨hs5.1, hs5.2, hs5.3, hs5.4⟩, fun _ => by simp only [hp5, le_refl],
    fun _ _ _ => hi5, by rintro g t ⟨⟩⟩, fun _ => ?_⟩
  refine wp_mono (wp_splitMerge_shape _ ⟨hs5.1, hs5.2, hs5.3, hs5.4⟩ hf5) (fun r s6 h6 => ?_)
    fun _ _ h' => h'
  unfold ShapePost at h6 ⊢
  simp only [hp5, hi5] at h6
  exact h6

theorem partition_length_le {N : ℕ} {P : List (List ℕ)} (h : IsPartition N P) : P.length ≤ N := by
  have h1 := h.1.length_eq
  rw [List.length_range] at h1
  rw [← h1, List.length_flatten]
  have : ∀ l : List (List ℕ), (∀ p ∈ l, p ≠ []) → l.length ≤ (l.map List.length).sum := by
    intro l
    induction l with
    | nil => simp
    | cons a l ih =>
      intro hl
      have h2 := ih fun p hp => hl p (by simp [hp])
      have h3 := List.length_pos_of_ne_nil (hl a (by simp))
      simp only [List.length_cons, List.map_cons, List.sum_cons]
      omega
  exact this P h.2

/-- The iterations between two states are paid by new subsets. -/
def Paid (cfg : Cfg) (s s' : St) : Prop :=
  cfg.useMerger = false →
    s'.iteration + s.partition.length ≤ s'.partition.length + s.iteration

/-- The main loop: the shape is kept; without merging it stops in at most as many rounds as the
partition can still grow, plus one. -/
theorem wp_mainLoop_shape {rounds : ℕ} : ∀ (fuel : ℕ) (gap : Gap) (t : ℚ) (s : St),
    SShape env I s → FeasInv env I s →
    wp (mainLoop env cfg I rounds fuel gap t) (fun _ s' => SShape env I s' ∧ Paid cfg s s')
      (fun e s' => e = .fuel → SShape env I s' ∧ ¬ (0 ≤ I.eps ∧ minSize I ≤ rounds
        ∧ cfg.useMerger = false ∧ I.N - s.partition.length < fuel)) s
  | fuel, gap, t, s, h, hf => by
    unfold mainLoop
    rw [wp_ite]
    refine ⟨fun h0 => ?_, fun _ => ⟨h, fun _ => by omega⟩⟩
    cases fuel with
    | zero => exact fun _ => ⟨h, by omega⟩
    | succ fuel =>
      simp only
      rw [wp_bind]
      refine wp_mono (wp_iterate_shape s h hf) (fun r s1 h1 => ?_)
        fun _ _ h' hfu => ⟨(h' hfu).1, fun hg => (h' hfu).2 ⟨hg.1, hg.2.1⟩⟩
      cases r with
      | stop b g =>
        refine ⟨h1.1, fun hu => ?_⟩
        have h2 := h1.2.1 hu
        have h3 := h1.2.2.1 b g rfl
        omega
      | next g t' =>
        obtain ⟨hf1, hit, hlen⟩ := h1.2.2.2 g t' rfl
        refine wp_mono (wp_mainLoop_shape fuel g t' s1 h1.1 hf1)
          (fun _ s2 h' => ⟨h'.1, fun hu => ?_⟩)
          fun _ _ h' hfu => ⟨(h' hfu).1, fun hg => (h' hfu).2 ⟨hg.1, hg.2.1, hg.2.2.1, ?_⟩⟩
        · have h2 := hlen hu
          have h3 := h'.2 hu
          omega
        · have h2 := hlen hg.2.2.1
          have h3 := partition_length_le h1.1.part
          have := hg.2.2.2
          omega

theorem partitionCost_aligned {t : ℕ} {P : List (List ℕ)} {r : List ℚ × List Vec}
    (h : partitionCost I (env.sub t) P = .ok r) : Aligned env I P r.1 r.2 := by
  unfold partitionCost at h
  cases hm : P.zipIdx.mapM fun p => subsetCost I (env.sub t p.2) p.1 with
  | error e => rw [hm] at h; cases h
  | ok rs =>
    rw [hm] at h; cases h
    obtain ⟨hl, hk⟩ := mapM_inv _ _ _ hm
    rw [List.length_zipIdx] at hl
    refine ⟨by simpa using hl, by simpa using hl, fun c hc => ?_⟩
    have hc' : c < rs.length := by omega
    have h1 := hk c (by simpa using hc) hc'
    rw [List.getElem_zipIdx] at h1
    refine ⟨t, 0 + c, ?_⟩
    simp only [List.getD_eq_getElem _ _ hc]
    rw [List.getD_eq_getElem _ _ (by simpa using hc'), List.getD_eq_getElem _ _ (by simpa using hc'),
      List.getElem_map, List.getElem_map]
    exact h1

theorem minSize_eq (heps : 0 ≤ I.eps) : minSize I = kmax I + 1 := by
  unfold minSize kmax
  rw [← Int.natCast_floor_eq_floor (mul_nonneg heps (Nat.cast_nonneg _))]
  omega

theorem allScenarioCosts_length {solve : ℕ → GModel → GResult} {l : List ℚ}
    (h : allScenarioCosts I solve = .ok l) : l.length = I.N := by
  unfold allScenarioCosts scenarioCosts at h
  have := (mapM_inv _ _ _ h).1
  simpa using this

/-- What the constructor guarantees about the partition. -/
theorem construct_part {s : St} (h : construct env cfg I = .ok s) :
    IsPartition I.N s.partition ∧ s.nbSubsets = minSize I ∧ s.partition.length = minSize I
      ∧ loadPartition I s.partition.length s.partition = .ok s.part := by
  unfold construct at h
  cases h1 : initRefiner cfg with
  | error e => rw [h1] at h; cases h
  | ok u =>
  cases h2 : initCosts env cfg I with
  | error e => rw [h1, h2] at h; cases h
  | ok scen =>
  cases h3 : createFirstPartition (env.shuffle 0 0) env.argsort scen I.N (minSize I)
      cfg.initType with
  | error e => rw [h1, h2] at h; simp only [bind, Except.bind, h3] at h; cases h
  | ok P =>
  cases h4 : loadPartition I (minSize I) P with
  | error e => rw [h1, h2] at h; simp only [bind, Except.bind, h3, h4] at h; cases h
  | ok D =>
  rw [h1, h2] at h
  simp only [bind, Except.bind, h3, h4] at h
  cases h
  show IsPartition I.N P ∧ minSize I = minSize I ∧ P.length = minSize I
    ∧ loadPartition I P.length P = .ok D
  suffices hs : IsPartition I.N P ∧ P.length = minSize I from
    ⟨hs.1, rfl, hs.2, by rw [hs.2]; exact h4⟩
  have hle : minSize I ≤ I.N := by
    by_contra hgt
    unfold createFirstPartition at h3
    rw [pyAssert_false hgt] at h3
    cases h3
  have hty : cfg.initType = "random" ∨ cfg.initType = "cost" := by
    by_contra hno
    push Not at hno
    unfold createFirstPartition at h3
    rw [pyAssert_true hle, if_neg hno.1, if_neg hno.2] at h3
    cases h3
  rcases Nat.eq_zero_or_pos (minSize I) with h0 | hpos
  · rw [h0] at h3 ⊢
    have hP : P = [] ∧ I.N = 0 := by
      have key : ∀ Q : List (List ℕ), Q = [] → (checkPartitions I.N Q 0 >>= fun _ => pure Q)
          = .ok P → P = [] ∧ I.N = 0 := by
        rintro Q rfl hQ
        by_cases hN : I.N = 0
        · refine ⟨?_, hN⟩
          cases hc : checkPartitions I.N [] 0 with
          | error e => rw [hc] at hQ; cases hQ
          | ok u => rw [hc] at hQ; cases hQ; rfl
        · unfold checkPartitions at hQ
          rw [pyAssert_false (p := (List.flatten ([] : List (List ℕ))).length = I.N)
            (by simpa using fun h => hN h.symm)] at hQ
          cases hQ
      unfold createFirstPartition at h3
      rw [pyAssert_true (Nat.zero_le _)] at h3
      rcases hty with ht | ht
      · rw [ht, if_pos rfl] at h3
        exact key _ rfl h3
      · rw [ht, if_neg (by decide), if_pos rfl] at h3
        exact key _ rfl h3
    rw [hP.1, hP.2]
    exact ⟨⟨by simp, by simp⟩, rfl⟩
  · rcases hty with ht | ht
    · obtain ⟨P', e1, e2, e3, -⟩ := C06_random_initial_partition (env.shuffle 0 0) env.argsort scen
        I.N (minSize I) hpos hle
      rw [ht] at h3
      rw [h3] at e1
      cases e1
      exact ⟨e3, e2⟩
    · have hl : scen.length = I.N := by
        unfold initCosts at h2
        rw [if_pos ⟨ht, hle⟩] at h2
        exact allScenarioCosts_length h2
      obtain ⟨P', e1, e2, e3, -⟩ := C07_cost_initial_partition (env.shuffle 0 0) env.argsort scen
        I.N (minSize I) hl hpos hle
      rw [ht] at h3
      rw [h3] at e1
      cases e1
      exact ⟨e3, e2⟩

/-- The start of `solve`. -/
theorem wp_start_shape (s : St) (hP : IsPartition I.N s.partition)
    (hn : s.nbSubsets = s.partition.length)
    (hl : loadPartition I s.partition.length s.partition = .ok s.part) :
    wp (startSolve env I)
      (fun _ s' => SShape env I s' ∧ s'.partition = s.partition ∧ s'.feas = s.feas
        ∧ s'.iteration = 1 ∧ s'.memory = s.memory)
      (fun e _ => ¬ B e) s := by
  unfold startSolve
  rw [wp_bind, wp_nextTick, wp_bind, wp_get, wp_bind, wp_lift]
  refine ⟨fun r hr => ?_, fun e he => (nf_partitionCost _ _).no e he⟩
  rw [wp_bind, wp_modify, wp_bind]
  have hfr : Fr B (improveFirst env I r.2) :=
    fr_bind fr_get fun _ => fr_ite (fr_throw (by nsp)) (fr_improve _)
  refine wp_mono (hfr _) (fun _ s1 h1 => ?_) fun _ _ h' => h'.2
  rw [wp_modify]
  have : SShape env I s1 := by
    refine SShape.congr ?_ h1
    exact ⟨hP, hn, hl, partitionCost_aligned hr⟩
  exact ⟨⟨this.1, this.2, this.3, this.4⟩, (core_part h1).trans rfl, (core_feas h1).trans rfl, rfl,
    (core_mem h1).trans rfl⟩

/-- The whole run: the shape at the end (also when the rounds ran out), and the number of
rounds. -/
theorem run_shape {rounds fuel : ℕ} {r : Except PyErr (Bool × Gap)} {s : St}
    (h : run env cfg I rounds fuel = .ok (r, s)) (hr : ∀ e, r = .error e → e = .fuel) :
    SShape env I s ∧ (r = .error .fuel → ¬ (0 ≤ I.eps ∧ minSize I ≤ rounds
        ∧ cfg.useMerger = false ∧ I.N - minSize I < fuel))
      ∧ ((∃ q, r = .ok q) → cfg.useMerger = false →
          s.iteration + minSize I ≤ s.partition.length + 1) := by
  obtain ⟨s0, hc, hs⟩ := run_inv h
  obtain ⟨p1, p2, p3, p4⟩ := construct_part hc
  obtain ⟨-, -, -, -, -, -, hfe, -⟩ := construct_start hc
  have hmain : wp (solve env cfg I rounds fuel) (fun _ s' => SShape env I s'
        ∧ (cfg.useMerger = false → s'.iteration + minSize I ≤ s'.partition.length + 1))
      (fun e s' => e = .fuel → SShape env I s' ∧ ¬ (0 ≤ I.eps ∧ minSize I ≤ rounds
        ∧ cfg.useMerger = false ∧ I.N - minSize I < fuel)) s0 := by
    unfold solve
    rw [wp_bind]
    refine wp_mono (wp_start_shape s0 p1 (p2.trans p3.symm) p4) (fun _ s1 h1 => ?_)
      fun _ _ h' hfu => absurd hfu h'
    obtain ⟨a1, a2, a3, a4, -⟩ := h1
    rw [wp_bind, wp_availableTime, wp_bind]
    refine wp_mono (wp_mainLoop_shape (rounds := rounds) fuel (.fin 1) _ _
      ⟨a1.1, a1.2, a1.3, a1.4⟩ ?_) (fun q s2 h2 => ?_) fun e s2 h' hfu => ?_
    · intro F hF
      have : s1.feas = some F := hF
      rw [a3, hfe] at this
      cases this
    · have hpaid : cfg.useMerger = false → s2.iteration + minSize I ≤ s2.partition.length + 1 := by
        intro hu
        have h3 : s2.iteration + s1.partition.length ≤ s2.partition.length + s1.iteration := h2.2 hu
        rw [a2, p3, a4] at h3
        exact h3
      unfold report
      rw [wp_bind, wp_ite]
      exact ⟨fun _ => ⟨⟨h2.1.1, h2.1.2, h2.1.3, h2.1.4⟩, hpaid⟩, fun _ => ⟨h2.1, hpaid⟩⟩
    · refine ⟨(h' hfu).1, fun hg => (h' hfu).2 ⟨hg.1, hg.2.1, hg.2.2.1, ?_⟩⟩
      show I.N - s1.partition.length < fuel
      rw [a2, p3]; exact hg.2.2.2
  cases r with
  | ok q =>
    have := wp_ok hmain hs
    exact ⟨this.1, by rintro ⟨⟩, fun _ => this.2⟩
  | error e =>
    obtain rfl := hr e rfl
    have := wp_error hmain hs rfl
    exact ⟨this.1, fun _ => this.2, by rintro ⟨q, ⟨⟩⟩⟩

end Verif.Model
