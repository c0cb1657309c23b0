import Verif.Lemmas.Loop
import Verif.Props.SplitMerge

/-!
# The dispatch of `_merge` during a run, for arbitrary bounds
-/

namespace Verif.Model
open Spec Props

variable {env : Env} {cfg : Cfg} {I : Inst} {rounds : ℕ}

/-- A point found infeasible violates more than `floor(epsilon * N)` scenarios. -/
theorem infeas_of_check {norm : Norm} {x : Vec} (heps : 0 ≤ I.eps)
    (h : (checkFeasibility norm I x).feasible = false) : kmax I < (violBy I tol x).card := by
  have h1 := (C01_is_feasible_verdict norm I x).1
  have h2 : (isFeasible norm I x).feasible = false := h
  rw [h2] at h1
  have h3 : ¬ (((violBy I (1 / 1000000) x).card : ℚ) ≤ I.eps * I.N) := by rw [← h1]; simp
  by_contra hle
  push Not at hle
  have h4 : (((violBy I tol x).card : ℕ) : ℚ) ≤ (kmax I : ℚ) := by exact_mod_cast hle
  have h5 : ((kmax I : ℕ) : ℚ) ≤ I.eps * I.N :=
    Nat.floor_le (mul_nonneg heps (Nat.cast_nonneg _))
  exact h3 (h4.trans h5)

theorem mem_sortSubsetCosts_range {K : ℕ} {costs : List ℚ} (hl : costs.length = K) {t : ℕ}
    (h : t < K) : t ∈ sortSubsetCosts (List.range K) costs := by
  unfold sortSubsetCosts
  rw [List.mem_map]
  refine ⟨(costs.getD t 0, t), ?_, rfl⟩
  rw [List.mem_insertionSort, List.mem_iff_getElem]
  refine ⟨t, by simp [hl, h], ?_⟩
  rw [List.getElem_zip, List.getElem_range, List.getD_eq_getElem _ _ (hl ▸ h)]

/-- What is needed of the cost refiner: answers that give valid splits. -/
def SplitsOk (env : Env) (cfg : Cfg) (I : Inst) : Prop :=
  cfg.splitMethod = "random" ∨ ∀ t, Splitter I (fun _ _ => True) (env.acc t)

/-- A refinement that returned was possible, and is one of the two calls. -/
theorem refineStep_inv (heps : 0 ≤ I.eps) (hA : SplitsOk env cfg I) {t : ℕ} {s : St}
    (h : SShape env I s) (hmem : SplitHistory env.norm I s.memory) (hf : FeasInv env I s)
    {out : RefineOut} {mem : Memory} (hr : refineStep env cfg I rounds t s = .ok (out, mem)) :
    SplitHistory env.norm I mem ∧ ∃ x, s.feas = some (checkFeasibility env.norm I x)
      ∧ ToRefine I s.partition x ∧ RefineCall env.norm I s.partition x out := by
  unfold refineStep at hr
  split at hr
  · cases hr
  · next F hF =>
    obtain ⟨hfe, x, rfl⟩ := hf F hF
    have hinf := infeas_of_check heps hfe
    have hlen := length_infeasible (marks_check env.norm I x) h.part
    have hto : nbViolPartsBy I tol s.partition x ≤ kmax I → ToRefine I s.partition x :=
      fun hk => ⟨heps, h.part, hk, hinf⟩
    by_cases hk : nbViolPartsBy I tol s.partition x ≤ kmax I
    · split at hr
      · simp only [bind, Except.bind] at hr
        split at hr
        · cases hr
        · next o ho =>
          cases hr
          have hacc : cfg.useAccObj = false := by
            cases hacc : cfg.useAccObj with
            | false => rfl
            | true =>
              exfalso
              unfold refineRandom at ho
              rw [hacc] at ho
              simp only [bind, Except.bind] at ho
              split at ho
              · cases ho
              · cases ho
          rw [hacc] at ho
          exact ⟨hmem, x, hF, hto hk, .random _ _ ho⟩
      · next hm =>
        have hacc := hA.resolve_left hm
        exact ⟨.call hmem (hto hk) (hacc t) h.aligned.lenC hr, x, hF,
          hto hk, .cost _ _ _ _ _ _ _ (hacc t) h.aligned.lenC hmem hr⟩
    · exfalso
      rw [← countP_any_violBy, not_le] at hk
      have herr := numberOfSplits_err heps hk
      split at hr
      · unfold refineRandom at hr
        simp only at hr
        rw [hlen] at hr
        rw [herr] at hr
        cases hr
      · unfold refineCost at hr
        simp only at hr
        rw [hlen] at hr
        rw [herr] at hr
        cases hr

/-- Partition, memory and last check at the start of an iteration. -/
structure MShape (env : Env) (I : Inst) (s : St) : Prop where
  shape : SShape env I s
  size : kmax I + 1 ≤ s.partition.length
  mem : SplitHistory env.norm I s.memory
  feas : FeasInv env I s

theorem MShape.congr {s s' : St} (h : MShape env I s) (hc : core s' = core s) : MShape env I s' :=
  ⟨h.shape.congr hc, by rw [core_part hc]; exact h.size, by rw [core_mem hc]; exact h.mem,
    h.feas.congr (core_feas hc)⟩

variable {B : PyErr → Prop} [Sp B]

theorem nm_split (flags : List Bool) (P : List (List ℕ)) (l : List ℕ) (c : ℕ) :
    NF B (splitScenariosSubset flags P l c) := by
  have h : ∀ l, NF B (splitScenarios l) := fun l => by
    unfold splitScenarios splitSortedSubset; nf
  unfold splitScenariosSubset
  refine nf_bind (nf_get _ _) fun _ => nf_bind (nf_assert _ _) fun _ =>
    nf_bind (nf_assert _ _) fun _ => nf_bind (by nf) fun _ => nf_bind (by nf) fun _ =>
    nf_bind (nf_assert _ _) fun _ => nf_bind (h _) fun _ => nf_bind (h _) fun _ => nf_pure _

theorem nm_traverse (flags : List Bool) (mu : ℕ) (sh : ℕ → Shuffle) (nb : List ℕ) :
    ∀ (cs : List ℕ) (st : RState), NF B (traverse flags mu sh nb cs st)
  | [], st => by rw [traverse]; exact nf_ok _
  | c :: cs, st => by
    rw [traverse]
    split
    · refine nf_bind (nf_get _ _) fun k => ?_
      split
      · exact nf_bind (nf_get _ _) fun _ => nf_bind (nm_split _ _ _ _) fun _ =>
          nm_traverse flags mu sh nb cs _
      · exact nm_traverse flags mu sh nb cs _
    · exact nm_traverse flags mu sh nb cs _

theorem nm_randomLoop (hB : ¬ B .fuel) (F : CheckOut) (mu : ℕ) (sh : ℕ → Shuffle) :
    ∀ (fuel : ℕ) (st : RState), NF B (randomLoop F mu sh fuel st)
  | 0, st => by
    rw [randomLoop]
    split
    · exact ⟨by rintro _ ⟨⟩ h; exact hB h⟩
    · exact nf_ok _
  | fuel + 1, st => by
    rw [randomLoop]
    split
    · exact nf_bind (nm_traverse _ _ _ _ _ _) fun _ => nm_randomLoop hB F mu sh fuel _
    · exact nf_ok _

theorem nm_refineStep (hB : ¬ B .fuel) {t : ℕ} {s : St} : NF B (refineStep env cfg I rounds t s) := by
  unfold refineStep
  split
  · exact nf_err (by nsp)
  · split
    · refine nf_bind ?_ fun _ => nf_pure _
      have h1 : ∀ k, NF B (numberOfSplits I k) := fun k => by
        unfold numberOfSplits; simp only; nf
      unfold refineRandom
      refine nf_bind (h1 _) fun _ => ?_
      cases cfg.useAccObj
      · exact nf_bind (nm_randomLoop hB _ _ _ _ _) fun _ => nf_finishRefine _ _ _ _
      · exact nf_err (by nsp)
    · exact nf_refineCost fun h => absurd h hB

/-- `_split` of a run. -/
theorem wp_split_sites (heps : 0 ≤ I.eps) (hA : SplitsOk env cfg I) (s : St)
    (h : MShape env I s) :
    wp (split env cfg I rounds)
      (fun r s' => MShape env I s' ∧ s'.feas = s.feas ∧ s'.partition = r.1.partition
        ∧ ∃ x, ToRefine I s.partition x ∧ RefineCall env.norm I s.partition x r.1)
      (fun e _ => ¬ MergeErr e) s := by
  refine wp_split h.shape.aligned.lenC h.shape.aligned.lenS (fun e he => (nm_refineStep (by unfold MergeErr; simp)).no e he)
    (fun e _ _ _ he => subErr_no he) fun out mem D costs sols hr hS hD hF => ?_
  obtain ⟨hmem, x, -, hto, hcall⟩ := refineStep_inv heps hA h.shape h.mem h.feas hr
  refine wp_mono (fr_improve _ _) (fun _ s' hs' => ?_) fun _ _ h' => h'.2
  refine ⟨MShape.congr ?_ hs', (core_feas hs').trans rfl, (core_part hs').trans rfl, x, hto, hcall⟩
  refine ⟨⟨hS.part, rfl, hD, hF.aligned h.shape.aligned hS⟩, ?_, hmem, h.feas⟩
  show _ ≤ out.partition.length
  have := h.size
  rw [hS.len]
  omega

/-- `_merge` after such a split raises none of its own exceptions and gives back the size. -/
theorem wp_merge_sites {P : List (List ℕ)} {x : Vec} {x' : Option Vec} {out : RefineOut}
    {newCosts : List ℚ} (heps : 0 ≤ I.eps) (s : St) (h : MShape env I s)
    (hsize : kmax I + 1 ≤ P.length) (hp : s.partition = out.partition)
    (hto : ToRefine I P x) (hcall : RefineCall env.norm I P x out) :
    wp (merge env cfg I x' out newCosts) (fun _ s' => MShape env I s')
      (fun e _ => ¬ MergeErr e) s := by
  have hok := hcall.ok hto
  obtain ⟨d1, d2, ⟨t0, d3, d3'⟩, d4⟩ := C37_merge_dispatch env.norm I P x hto hsize out hcall
  have hnd : out.feasibleSubsets.Nodup := hok.feasSorted.imp fun h => h.ne
  have hlt : ∀ c ∈ out.feasibleSubsets, c < s.partition.length := by
    rw [hp]
    exact fun c hc => ((hok.feasible c).1 hc).1
  have hmu := hok.muPos
  have h0 : MShape env I { s with didMerge := false } := h.congr rfl
  unfold merge
  rw [wp_bind, wp_modify, wp_ite]
  refine ⟨fun hu => ?_, fun _ => h0⟩
  rw [wp_bind, wp_lift]
  refine ⟨fun v _ => ?_, fun e he => (nf_pyMax newCosts).no e he⟩
  rw [wp_bind, wp_get, wp_ite]
  refine ⟨fun _ => ?_, fun _ => h0⟩
  unfold mergeDispatch
  rw [wp_ite]
  refine ⟨fun hlen => ?_, fun hlen => ?_⟩
  · unfold mergeAllFeasible
    rw [wp_bind, wp_get]
    have hfind : ∃ t, (sortSubsetCosts (List.range s.nbSubsets) s.costs).find?
        (fun c => c ∉ out.feasibleSubsets) = some t := by
      rw [← Option.isSome_iff_exists, List.find?_isSome]
      refine ⟨t0, mem_sortSubsetCosts_range ?_ ?_, by simpa using d3'⟩
      · rw [h.shape.aligned.lenC, h.shape.nb]
      · rw [h.shape.nb, hp]; exact d3
    obtain ⟨t, ht⟩ := hfind
    simp only [ht]
    have ht1 := List.mem_of_find?_eq_some ht
    have ht2 := List.find?_some ht
    simp only [decide_eq_true_eq] at ht2
    have ht4 : t < s.partition.length := by
      have := List.mem_range.1 (mem_sortSubsetCosts ht1)
      rw [h.shape.nb] at this
      exact this
    rw [wp_bind, wp_lift]
    refine ⟨fun m hm => ?_, fun e he => (nf_mergeAll _ _).no e he⟩
    have hmc : MergeCall env.norm I (fun _ => 0) out m :=
      .all t hlen (by rw [← hp]; exact ht4) ht2 (by rw [← hp]; exact hm)
    have hml := d4 m _ hmc
    rw [wp_bind]
    refine wp_mono (wp_applyMerge_shape (B := MergeErr) (cs := out.feasibleSubsets ++ [t]) _
      h0.shape (by simp; omega) ?_ ?_ hm) (fun _ s1 h1 => ?_) fun _ _ h' => h'
    · rw [List.nodup_append]
      exact ⟨hnd, by simp, fun a ha b hb => by
        rw [List.mem_singleton.1 hb]; rintro rfl; exact ht2 ha⟩
    · intro c hc
      rcases List.mem_append.1 hc with hc | hc
      · exact hlt c hc
      · rw [List.mem_singleton.1 hc]; exact ht4
    · have hsz : s1.nbSubsets = minSize I := by
        rw [h1.1.nb, h1.2.1, hml, minSize_eq heps, ← d2.1 hlen]
      rw [wp_bind, wp_get, wp_bind, wp_lift, pyAssert_true hsz]
      refine ⟨fun _ _ => ?_, by rintro e ⟨⟩⟩
      rw [wp_modify]
      refine MShape.congr (s := s1) ⟨h1.1, ?_, ?_, ?_⟩ rfl
      · rw [h1.2.1, hml]; exact hsize
      · rw [h1.2.2.2.2]; exact h.mem
      · exact h.feas.congr h1.2.2.1
  · rw [wp_ite]
    refine ⟨fun hlen2 => ?_, fun hlen2 => absurd (by omega) hlen2⟩
    unfold mergeMuPlusOne
    rw [wp_bind, wp_get]
    cases x' with
    | none => simp only; rw [wp_throw]; unfold MergeErr; simp
    | some x' =>
      simp only
      rw [wp_bind, wp_lift]
      refine ⟨fun m hm => ?_, fun e he => (nf_mergeFeasible _ _ _ _ _ _).no e he⟩
      obtain ⟨st, top, e1, e2, e3, e4, e5, -, -⟩ := C31_merge_feasible env.norm I s.partition
        h.shape.part.2 s.part h.shape.load x' out.feasibleSubsets hlt out.mu
        (by rw [hnd.dedup]; exact hlen2)
      have hm' : mergeFeasible env.norm (partCI I s.part) s.partition x' out.feasibleSubsets out.mu
        = .ok m := hm
      rw [hm'] at e1
      cases e1
      have hmc : MergeCall env.norm I x' out m :=
        .best s.part hlen2 (by rw [← hp]; exact h.shape.load) (by rw [← hp]; exact hm)
      have hml := d4 m _ hmc
      rw [wp_bind]
      refine wp_mono (wp_applyMerge_shape (B := MergeErr) (cs := top) _ h0.shape (by omega) e2
        (fun c hc => hlt c (e4 c hc)) e5) (fun _ s1 h1 => ?_) fun _ _ h' => h'
      rw [wp_modify]
      refine MShape.congr (s := s1) ⟨h1.1, ?_, ?_, ?_⟩ rfl
      · rw [h1.2.1, hml]; exact hsize
      · rw [h1.2.2.2.2]; exact h.mem
      · exact h.feas.congr h1.2.2.1

theorem wp_splitMerge_sites (heps : 0 ≤ I.eps) (hA : SplitsOk env cfg I) {x : Option Vec}
    {gap : Gap} (s : St) (h : MShape env I s) :
    wp (splitMergeStep env cfg I rounds x gap)
      (fun r s' => ∀ g t, r = .next g t → MShape env I s') (fun e _ => ¬ MergeErr e) s := by
  unfold splitMergeStep
  rw [wp_bind]
  refine wp_mono (wp_split_sites heps hA s h) (fun r s1 h1 => ?_) fun _ _ h' => h'
  obtain ⟨a1, a2, a3, y, a4, a5⟩ := h1
  rw [wp_bind]
  refine wp_mono (wp_merge_sites heps s1 a1 h.size a3 a4 a5) (fun _ s2 h2 => ?_)
    fun _ _ h' => h'
  wp_simp
  refine ⟨fun _ => by rintro g t ⟨⟩, fun _ => fun _ _ _ => ?_⟩
  exact ⟨⟨h2.1.1, h2.1.2, h2.1.3, h2.1.4⟩, h2.2, h2.3, h2.4⟩

theorem wp_iterate_sites (heps : 0 ≤ I.eps) (hA : SplitsOk env cfg I) {gap : Gap} (s : St)
    (h : MShape env I s) :
    wp (iterate env cfg I rounds gap) (fun r s' => ∀ g t, r = .next g t → MShape env I s')
      (fun e _ => ¬ MergeErr e) s := by
  unfold iterate
  rw [wp_bind]
  refine wp_mono (fr_gap (B := MergeErr) s) (fun _ s1 h1 => ?_) fun _ _ h' => h'.2
  rw [wp_bind]
  refine wp_mono (fr_mark (B := MergeErr) s1) (fun _ s2 h2 => ?_) fun _ _ h' => h'.2
  rw [wp_bind]
  refine wp_mono (fr_bigM (B := MergeErr) s2) (fun M s3 h3 => ?_) fun _ _ h' => h'.2
  have h3' := h.congr (h3.trans (h2.trans h1))
  rw [wp_bind]
  refine wp_mono (wp_upperBound_shape (B := MergeErr) M s3 h3'.shape h3'.feas)
    (fun r s4 h4 => ?_) fun _ _ h' => h'.2
  rw [wp_ite]
  obtain ⟨a1, a2, -, a2', a3⟩ := h4
  refine ⟨fun _ => by rintro g t ⟨⟩, fun hr => ?_⟩
  have hm4 : MShape env I s4 := ⟨a1, by rw [a2]; exact h3'.size, by rw [a2']; exact h3'.mem,
    a3 (by simpa using hr)⟩
  rw [wp_bind, wp_availableTime, wp_ite]
  refine ⟨fun _ => by rintro g t ⟨⟩, fun _ => ?_⟩
  unfold lowerStep
  rw [wp_bind, wp_markStep, wp_bind]
  refine wp_mono (fr_lowerBound (B := MergeErr) r.1 _) (fun g s5 h5 => ?_) fun _ _ h' => h'.2
  have hm5 : MShape env I s5 := MShape.congr (s := s4) hm4 h5
  rw [wp_ite]
  refine ⟨fun _ => by rintro g t ⟨⟩, fun _ => ?_⟩
  rw [wp_bind, wp_availableTime, wp_ite]
  refine ⟨fun _ => by rintro g t ⟨⟩, fun _ => ?_⟩
  exact wp_splitMerge_sites heps hA _ (hm5.congr rfl)

theorem wp_mainLoop_sites (heps : 0 ≤ I.eps) (hA : SplitsOk env cfg I) :
    ∀ (fuel : ℕ) (gap : Gap) (t : ℚ) (s : St), MShape env I s →
    wp (mainLoop env cfg I rounds fuel gap t) (fun _ _ => True) (fun e _ => ¬ MergeErr e) s
  | fuel, gap, t, s, h => by
    unfold mainLoop
    rw [wp_ite]
    refine ⟨fun h0 => ?_, fun _ => trivial⟩
    cases fuel with
    | zero => simp only; rw [wp_throw]; unfold MergeErr; simp
    | succ fuel =>
      simp only
      rw [wp_bind]
      refine wp_mono (wp_iterate_sites heps hA s h) (fun r s1 h1 => ?_) fun _ _ h' => h'
      cases r with
      | stop b g => trivial
      | next g t' => exact wp_mainLoop_sites heps hA fuel g t' s1 (h1 g t' rfl)

/-- No run raises one of the exceptions of the dispatch of `_merge`. -/
theorem run_sites (heps : 0 ≤ I.eps) (hA : SplitsOk env cfg I) {fuel : ℕ}
    {r : Except PyErr (Bool × Gap)} {s : St} (h : run env cfg I rounds fuel = .ok (r, s)) :
    ∀ e, r = .error e → ¬ MergeErr e := by
  obtain ⟨s0, hc, hs⟩ := run_inv h
  obtain ⟨p1, p2, p3, p4⟩ := construct_part hc
  obtain ⟨-, -, -, -, -, -, hfe, -, hmem, -⟩ := construct_start hc
  have hmain : wp (solve env cfg I rounds fuel) (fun _ _ => True) (fun e _ => ¬ MergeErr e) s0 := by
    unfold solve
    rw [wp_bind]
    refine wp_mono (wp_start_shape (B := MergeErr) s0 p1 (p2.trans p3.symm) p4)
      (fun _ s1 h1 => ?_) fun _ _ h' => h'
    obtain ⟨a1, a2, a3, a4, a5⟩ := h1
    rw [wp_bind, wp_availableTime, wp_bind]
    refine wp_mono (wp_mainLoop_sites heps hA fuel (.fin 1) _ _ (MShape.congr (s := s1)
      ⟨a1, ?_, ?_, ?_⟩ rfl)) (fun q s2 h2 => ?_) fun e s2 h' => h'
    · rw [a2, p3, minSize_eq heps]
    · rw [a5, hmem]; exact .start
    · intro F hF
      rw [a3, hfe] at hF
      cases hF
    · unfold report
      rw [wp_bind, wp_ite]
      exact ⟨fun _ => trivial, fun _ => trivial⟩
  rintro e rfl
  exact wp_error hmain hs

end Verif.Model
