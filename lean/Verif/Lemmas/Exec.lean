import Verif.Lemmas.View
import Verif.Lemmas.Shape
import Verif.Lemmas.Merger

/-!
# Rules for the methods that change the partition
-/

namespace Verif.Model
open Spec Props

variable {env : Env} {cfg : Cfg} {I : Inst}

/-- `(v, x)` is an answer obtained for the deterministic problem of `p`. -/
def Computed (env : Env) (I : Inst) (p : List ℕ) (v : ℚ) (x : Vec) : Prop :=
  ∃ t k, subsetCost I (env.sub t k) p = .ok (v, x)

/-- One stored cost and solution for every subset, computed for that subset. -/
structure Aligned (env : Env) (I : Inst) (P : List (List ℕ)) (costs : List ℚ) (sols : List Vec) :
    Prop where
  lenC : costs.length = P.length
  lenS : sols.length = P.length
  comp : ∀ c < P.length, Computed env I (P.getD c []) (costs.getD c 0) (sols.getD c fun _ => 0)

/-- An exception raised by the deterministic problem of the scenarios `p`. -/
def SubErr (env : Env) (I : Inst) (e : PyErr) : Prop :=
  ∃ t k p, p ≠ [] ∧ (∀ s ∈ p, s < I.N) ∧ subsetCost I (env.sub t k) p = .error e

theorem subErr_ne_fuel {e : PyErr} (h : SubErr env I e) : e ≠ .fuel := by
  obtain ⟨t, k, p, -, -, h⟩ := h
  rintro rfl
  unfold subsetCost optimize getObjVal getX getSol at h
  by_cases h1 : (env.sub t k (Deter.build (instCI I) p).g).status = 11
  · rw [if_pos h1] at h; cases h
  · rw [if_neg h1] at h
    simp only [bind, Except.bind] at h
    cases h2 : (env.sub t k (Deter.build (instCI I) p).g).sol <;> simp [h2] at h
    cases h

/-! ## `improve` -/

theorem wp_improve {Q : Unit → St → Prop} {E : PyErr → St → Prop} {cands : List Vec} {s : St}
    (h1 : incumbentBound env.norm env.argsort I cands s.vUB s.vLB = none → Q () s)
    (h2 : ∀ x v, incumbentBound env.norm env.argsort I cands s.vUB s.vLB = some (x, v) →
      Q () { s with xLB := some x, vLB := (v : WithBot ℚ), vLBNumpy := true
                    trace := s.trace ++ [(s.vUB, (v : WithBot ℚ))] }) :
    wp (improve env I cands) Q E s := by
  unfold improve
  rw [wp_bind, wp_get]
  split
  · next h => exact h1 h
  · next r h =>
    rw [wp_bind, wp_modify, wp_writeLB]
    exact h2 r.1 r.2 h

/-! ## `evalNew` -/

theorem wp_setCost {Q : Unit → St → Prop} {E : PyErr → St → Prop} {s : St} {c : ℕ} {r : ℚ × Vec}
    (hl : s.sols.length = s.costs.length)
    (h1 : c < s.costs.length → Q () { s with costs := s.costs.set c r.1, sols := s.sols.set c r.2 })
    (h2 : ¬ c < s.costs.length → Q () { s with costs := s.costs ++ [r.1]
                                               sols := s.sols ++ [r.2] }) :
    wp (setCost c r) Q E s := by
  unfold setCost
  wp_simp
  refine ⟨fun hc => ⟨?_, ?_⟩, fun hc => h2 hc⟩
  · intro sols hs
    unfold pySet at hs
    rw [if_pos (hl ▸ hc)] at hs
    cases hs
    exact h1 hc
  · intro e he
    unfold pySet at he
    rw [if_pos (hl ▸ hc)] at he
    cases he

theorem getD_append_lt {α : Type} {l : List α} {r d : α} {k : ℕ} (h : k < l.length) :
    (l ++ [r]).getD k d = l.getD k d := by
  rw [List.getD_eq_getElem _ _ (by simp; omega), List.getElem_append_left h,
    List.getD_eq_getElem _ _ h]

theorem getD_append_last {α : Type} {l : List α} {r d : α} : (l ++ [r]).getD l.length d = r := by
  rw [List.getD_eq_getElem _ _ (by simp), List.getElem_append_right le_rfl]; simp

/-- What the loop over the new subsets `cs` does to costs and solutions. -/
structure Fresh (env : Env) (I : Inst) (P : List (List ℕ)) (cs : List ℕ) (m : ℕ)
    (costs0 : List ℚ) (sols0 : List Vec) (costs : List ℚ) (sols : List Vec) : Prop where
  lenC : costs.length = costs0.length + m
  lenS : sols.length = costs.length
  comp : ∀ c ∈ cs, Computed env I (P.getD c []) (costs.getD c 0) (sols.getD c fun _ => 0)
  old : ∀ c < costs0.length, c ∉ cs → costs.getD c 0 = costs0.getD c 0
    ∧ (sols.getD c fun _ => 0) = sols0.getD c fun _ => 0

theorem wp_evalNew (t : ℕ) : ∀ (cs : List ℕ) (k m : ℕ) (s : St),
    s.sols.length = s.costs.length → cs.Nodup →
    (cs.filter fun c => s.costs.length ≤ c) = List.range' s.costs.length m →
    (∀ c ∈ cs, c < s.partition.length) → (∀ p ∈ s.partition, p ≠ [] ∧ ∀ i ∈ p, i < I.N) →
    wp (evalNew env I t cs k)
      (fun rs s' => ∃ costs sols, s' = { s with costs, sols }
        ∧ Fresh env I s.partition cs m s.costs s.sols costs sols
        ∧ rs = cs.map fun c => (costs.getD c 0, sols.getD c fun _ => 0))
      (fun e s' => SubErr env I e ∧ ∃ costs sols, s' = { s with costs, sols }) s
  | [], k, m, s, hl, _, hf, _, _ => by
    have hm : m = 0 := by
      have := congrArg List.length hf
      simpa using this.symm
    subst hm
    exact ⟨s.costs, s.sols, rfl, ⟨rfl, hl, by simp, fun _ _ _ => ⟨rfl, rfl⟩⟩, rfl⟩
  | c :: cs, k, m, s, hl, hnd, hf, hlt, hP => by
    have hc := hlt c (by simp)
    rw [List.nodup_cons] at hnd
    unfold evalNew
    rw [wp_bind, wp_get, wp_bind, wp_lift, pyGet_of_lt [] hc]
    refine ⟨?_, by rintro e ⟨⟩⟩
    rintro p ⟨⟩
    rw [wp_bind, wp_lift]
    have hpm : s.partition.getD c [] ∈ s.partition := by
      rw [List.getD_eq_getElem _ _ hc]; exact List.getElem_mem _
    refine ⟨?_, fun e he => ⟨⟨t, k, _, (hP _ hpm).1, (hP _ hpm).2, he⟩, s.costs, s.sols, rfl⟩⟩
    rintro ⟨v, x⟩ hr
    rw [wp_bind]
    refine wp_setCost hl (fun hcl => ?_) (fun hcl => ?_)
    · -- an old subset
      rw [wp_bind]
      have hf' : (cs.filter fun c => s.costs.length ≤ c) = List.range' s.costs.length m := by
        rw [← hf, List.filter_cons, if_neg (by simpa using hcl)]
      refine wp_mono (wp_evalNew t cs (k + 1) m _ (by simpa using hl) hnd.2
        (by simpa using hf') (fun d hd => hlt d (by simp [hd])) hP)
        (fun rs s' h => ?_) (fun e s' h => ?_)
      · obtain ⟨costs, sols, rfl, hF, hrs⟩ := h
        have hco : costs.getD c 0 = v ∧ (sols.getD c fun _ => 0) = x := by
          have := hF.old c (by simpa using hcl) hnd.1
          rw [this.1, this.2]
          simp only
          rw [getD_set _ _ _ _ _ hcl, getD_set _ _ _ _ _ (hl ▸ hcl), if_pos rfl, if_pos rfl]
          exact ⟨rfl, rfl⟩
        refine ⟨costs, sols, rfl, ⟨by simpa using hF.lenC, hF.lenS, ?_, ?_⟩, ?_⟩
        · intro d hd
          rcases List.mem_cons.1 hd with rfl | hd
          · rw [hco.1, hco.2]; exact ⟨t, k, hr⟩
          · exact hF.comp d hd
        · intro d hd hdn
          simp only [List.mem_cons, not_or] at hdn
          have := hF.old d (by simpa using hd) hdn.2
          rw [this.1, this.2]
          simp only
          rw [getD_set _ _ _ _ _ hcl, getD_set _ _ _ _ _ (hl ▸ hcl), if_neg hdn.1, if_neg hdn.1]
          exact ⟨rfl, rfl⟩
        · rw [List.map_cons, hco.1, hco.2, hrs]
      · obtain ⟨h1, costs, sols, rfl⟩ := h
        exact ⟨h1, costs, sols, rfl⟩
    · -- a new subset
      have hcons : c :: (cs.filter fun c => decide (s.costs.length ≤ c))
          = List.range' s.costs.length m := by
        rw [← hf, List.filter_cons, if_pos (by simpa using hcl)]
      obtain ⟨m', rfl⟩ : ∃ m', m = m' + 1 := by
        cases m with
        | zero => simp at hcons
        | succ m' => exact ⟨m', rfl⟩
      rw [List.range'_succ] at hcons
      injection hcons with hc1 hc2
      subst hc1
      have hf' : (cs.filter fun c => s.costs.length + 1 ≤ c)
          = List.range' (s.costs.length + 1) m' := by
        rw [← hc2]
        refine List.filter_congr fun d hd => ?_
        have : d ≠ s.costs.length := fun h => hnd.1 (h ▸ hd)
        simp only [decide_eq_decide]
        omega
      rw [wp_bind]
      refine wp_mono (wp_evalNew t cs (k + 1) m' _ (by simpa using hl) hnd.2
        (by simpa using hf') (fun d hd => hlt d (by simp [hd])) hP)
        (fun rs s' h => ?_) (fun e s' h => ?_)
      · obtain ⟨costs, sols, rfl, hF, hrs⟩ := h
        have hco : costs.getD s.costs.length 0 = v ∧ (sols.getD s.costs.length fun _ => 0) = x := by
          have := hF.old s.costs.length (by simp) hnd.1
          rw [this.1, this.2]
          simp only
          rw [getD_append_last, ← hl, getD_append_last]
          exact ⟨rfl, rfl⟩
        refine ⟨costs, sols, rfl, ⟨?_, hF.lenS, ?_, ?_⟩, ?_⟩
        · have := hF.lenC
          simp only [List.length_append, List.length_singleton] at this
          omega
        · intro d hd
          rcases List.mem_cons.1 hd with rfl | hd
          · rw [hco.1, hco.2]; exact ⟨t, k, hr⟩
          · exact hF.comp d hd
        · intro d hd hdn
          simp only [List.mem_cons, not_or] at hdn
          have := hF.old d (by simp; omega) hdn.2
          rw [this.1, this.2]
          simp only
          rw [getD_append_lt hd, getD_append_lt (hl ▸ hd)]
          exact ⟨rfl, rfl⟩
        · rw [List.map_cons, hco.1, hco.2, hrs]
      · obtain ⟨h1, costs, sols, rfl⟩ := h
        exact ⟨h1, costs, sols, rfl⟩

/-! ## `split` -/

theorem refineStep_shape {rounds t : ℕ} {s : St} {out : RefineOut} {mem : Memory}
    (h : refineStep env cfg I rounds t s = .ok (out, mem)) : ReShape I.N s.partition out := by
  unfold refineStep at h
  split at h
  · cases h
  · split at h
    · simp only [bind, Except.bind] at h
      split at h
      · cases h
      · next o ho =>
        cases h
        exact refineRandom_shape ho
    · exact refineCost_shape h

theorem part_valid {N : ℕ} {P : List (List ℕ)} (h : IsPartition N P) :
    ∀ p ∈ P, p ≠ [] ∧ ∀ i ∈ p, i < N :=
  fun p hp => ⟨h.2 p hp, fun _ hi => mem_part_lt h hp hi⟩

theorem wp_split {Q : RefineOut × List ℚ → St → Prop} {E : PyErr → St → Prop} {rounds : ℕ} {s : St}
    (hc : s.costs.length = s.partition.length) (hs : s.sols.length = s.partition.length)
    (h1 : ∀ e, refineStep env cfg I rounds s.tick s = .error e →
      E e { s with tick := s.tick + 1 })
    (h2 : ∀ e s', view s' = view s → s'.xLB = s.xLB → SubErr env I e → E e s')
    (h3 : ∀ out mem D costs sols, refineStep env cfg I rounds s.tick s = .ok (out, mem) →
      ReShape I.N s.partition out →
      loadPartition I out.partition.length out.partition = .ok D →
      Fresh env I out.partition out.newSubsets out.mu s.costs s.sols costs sols →
      wp (improve env I (out.newSubsets.map fun c => sols.getD c fun _ => 0))
        (fun _ s' => Q (out, out.newSubsets.map fun c => costs.getD c 0) s') E
        { s with tick := s.tick + 1, partition := out.partition, nbSubsets := out.partition.length
                 memory := mem, part := D, costs, sols }) :
    wp (split env cfg I rounds) Q E s := by
  unfold split reload
  rw [wp_bind, wp_nextTick, wp_bind, wp_get, wp_bind, wp_lift]
  refine ⟨?_, fun e he => h1 e he⟩
  rintro ⟨out, mem⟩ hr
  have hr' : refineStep env cfg I rounds s.tick s = .ok (out, mem) := hr
  have hS := refineStep_shape hr'
  rw [wp_bind, wp_modify, wp_bind, wp_bind, wp_get, wp_bind, wp_lift]
  have hload := loadPartition_ok I out.partition hS.part.2
  refine ⟨?_, ?_⟩
  · intro D hD
    rw [wp_modify, wp_bind]
    refine wp_mono (wp_evalNew s.tick out.newSubsets 0 out.mu _ (hs.trans hc.symm) hS.nodup ?_ hS.lt
      (part_valid hS.part)) (fun rs s' h => ?_) (fun e s' h => ?_)
    · show (out.newSubsets.filter fun c => s.costs.length ≤ c) = _
      rw [hc]; exact hS.newIdx
    · obtain ⟨costs, sols, rfl, hF, rfl⟩ := h
      have h3' := h3 out mem D costs sols hr' hS hD hF
      rw [wp_bind]
      simp only [List.map_map]
      exact h3'
    · obtain ⟨he, costs, sols, rfl⟩ := h
      exact h2 e _ rfl rfl he
  · intro e he
    rw [show (loadPartition I out.partition.length out.partition) = _ from hload] at he
    cases he

theorem Fresh.aligned {P : List (List ℕ)} {costs0 costs : List ℚ} {sols0 sols : List Vec}
    {out : RefineOut} (ha : Aligned env I P costs0 sols0) (hS : ReShape I.N P out)
    (hF : Fresh env I out.partition out.newSubsets out.mu costs0 sols0 costs sols) :
    Aligned env I out.partition costs sols := by
  have h1 : costs.length = out.partition.length := by rw [hF.lenC, ha.lenC, hS.len]
  refine ⟨h1, hF.lenS.trans h1, fun c hc => ?_⟩
  by_cases hn : c ∈ out.newSubsets
  · exact hF.comp c hn
  · have hcP : c < P.length := by
      by_contra hge
      have : c ∈ out.newSubsets.filter fun c => decide (P.length ≤ c) := by
        rw [hS.newIdx, List.mem_range'_1]
        have := hS.len; omega
      exact hn (List.mem_of_mem_filter this)
    have h2 := hF.old c (ha.lenC ▸ hcP) hn
    rw [h2.1, h2.2, hS.same c hcP hn]
    exact ha.comp c hcP

/-! ## `applyMerge` -/

/-- The indices kept. -/
def kept (K : ℕ) (ds : List ℕ) : List ℕ := (List.range K).filter fun c => c ∉ ds

theorem keepIdx_kept {α : Type} (l : List α) (d : α) (ds : List ℕ) :
    keepIdx l ds = (kept l.length ds).map fun c => l.getD c d := keepIdx_eq_map l d ds

theorem kept_lt {K : ℕ} {ds : List ℕ} {c : ℕ} (hc : c < (kept K ds).length) :
    (kept K ds)[c] < K :=
  List.mem_range.1 (List.mem_of_mem_filter (List.getElem_mem hc))

theorem keepIdx_getD_kept {α : Type} {l : List α} (d : α) {K : ℕ} {ds : List ℕ} {c : ℕ}
    (hl : l.length = K) (hc : c < (kept K ds).length) :
    (keepIdx l ds).getD c d = l.getD ((kept K ds)[c]) d := by
  subst hl
  rw [keepIdx_kept l d, List.getD_eq_getElem _ _ (by simpa using hc), List.getElem_map]

/-- The kept index `k` below all deleted ones stays in place. -/
theorem kept_get {K : ℕ} {ds : List ℕ} {k : ℕ} (hk : k < K) (h : ∀ c ∈ ds, k < c) :
    ∃ h' : k < (kept K ds).length, (kept K ds)[k] = k := by
  have h1 : kept K ds = List.range (k + 1) ++ (List.range' (k + 1) (K - (k + 1))).filter
      fun c => c ∉ ds := by
    have h1 : List.range K = List.range (k + 1) ++ List.range' (k + 1) (K - (k + 1)) := by
      rw [List.range_eq_range', List.range_eq_range', List.range'_eq_append_iff]
      exact ⟨k + 1, by omega, rfl, by simp⟩
    unfold kept
    rw [h1, List.filter_append]
    congr 1
    rw [List.filter_eq_self]
    intro a ha
    have := List.mem_range.1 ha
    simp only [decide_eq_true_iff]
    intro had
    have := h a had
    omega
  have h2 : k < (kept K ds).length := by rw [h1]; simp; omega
  refine ⟨h2, ?_⟩
  simp only [h1]
  rw [List.getElem_append_left (by simp)]
  simp

theorem kept_nodup (K : ℕ) (ds : List ℕ) : (kept K ds).Nodup := List.nodup_range.filter _

/-- The result of merging the subsets `cs` (at least two) of `P`: `mn` is the smallest index, the
others are deleted. -/
structure Merging (P : List (List ℕ)) (cs : List ℕ) (m : MState) (mn : ℕ) : Prop where
  two : 2 ≤ cs.length
  nodup : cs.Nodup
  lt : ∀ c ∈ cs, c < P.length
  mem : mn ∈ cs
  le : ∀ c ∈ cs, mn ≤ c
  targets : m.targets = [mn]
  deleted : m.deleted = cs.filter (· ≠ mn)
  partition : m.partition = keepIdx (P.set mn (mergedList P mn m.deleted)) m.deleted

theorem merging_of {P : List (List ℕ)} {cs : List ℕ} {m : MState} (h2 : 2 ≤ cs.length)
    (hnd : cs.Nodup) (hlt : ∀ c ∈ cs, c < P.length) (h : mergeAll P cs = .ok m) :
    ∃ mn, Merging P cs m mn := by
  obtain ⟨mn, hmn, hle, h'⟩ := mergeAll_ok (by rintro rfl; simp at h2) hnd hlt
  rw [h'] at h
  cases h
  refine ⟨mn, h2, hnd, hlt, hmn, hle, ?_, rfl, rfl⟩
  rw [if_pos]
  by_contra hall
  push Not at hall
  match cs, h2, hnd, hall with
  | a :: b :: l, _, hnd, hall =>
    have h1 := hall a (by simp)
    have h2 := hall b (by simp)
    rw [List.nodup_cons] at hnd
    exact hnd.1 (by simp [h1, h2])

namespace Merging

variable {P : List (List ℕ)} {cs : List ℕ} {m : MState} {mn : ℕ}

theorem del_nodup (h : Merging P cs m mn) : m.deleted.Nodup := by
  rw [h.deleted]; exact h.nodup.filter _

theorem del_lt (h : Merging P cs m mn) : ∀ d ∈ m.deleted, mn < d ∧ d < P.length := by
  rw [h.deleted]
  intro d hd
  rw [List.mem_filter] at hd
  have := h.le d hd.1
  have h1 := hd.2
  simp only [ne_eq, decide_not, Bool.not_eq_true', decide_eq_false_iff_not] at h1
  exact ⟨by omega, h.lt d hd.1⟩

theorem mn_lt (h : Merging P cs m mn) : mn < P.length := h.lt mn h.mem

theorem del_length (h : Merging P cs m mn) : m.deleted.length + 1 = cs.length := by
  have h1 := List.length_eq_length_filter_add (l := cs) fun c => decide (c ≠ mn)
  have h2 : (cs.filter fun c => !decide (c ≠ mn)) = [mn] := by
    have : (cs.filter fun c => !decide (c ≠ mn)) = cs.filter (· == mn) :=
      List.filter_congr fun c _ => by
        by_cases hc : c = mn <;> simp [hc]
    rw [this, List.filter_beq, List.count_eq_one_of_mem h.nodup h.mem]; rfl
  rw [h2] at h1
  rw [h.deleted]
  simp only [List.length_singleton] at h1
  omega

theorem length (h : Merging P cs m mn) : m.partition.length + cs.length = P.length + 1 := by
  have h1 := length_keepIdx (P.set mn (mergedList P mn m.deleted)) m.deleted h.del_nodup
    (fun d hd => by simpa using (h.del_lt d hd).2)
  rw [← h.partition, List.length_set] at h1
  have := h.del_length
  omega

theorem kept_length {α : Type} (h : Merging P cs m mn) (l : List α) (hl : l.length = P.length) :
    (keepIdx l m.deleted).length = m.partition.length := by
  have h1 := length_keepIdx l m.deleted h.del_nodup
    (fun d hd => by rw [hl]; exact (h.del_lt d hd).2)
  have h2 := h.length
  have h3 := h.del_length
  omega

theorem mn_lt' (h : Merging P cs m mn) : mn < m.partition.length := by
  obtain ⟨h1, -⟩ := kept_get (K := P.length) (ds := m.deleted) h.mn_lt fun c hc => (h.del_lt c hc).1
  have h2 := h.kept_length P rfl
  rw [keepIdx_kept P [], List.length_map] at h2
  omega

theorem at_mn (h : Merging P cs m mn) :
    m.partition.getD mn [] = mergedList P mn m.deleted := by
  rw [h.partition, keepIdx_getD _ _ (by simpa using h.mn_lt) fun c hc => (h.del_lt c hc).1,
    getD_set _ _ _ _ _ h.mn_lt, if_pos rfl]

theorem isPartition {N : ℕ} (h : Merging P cs m mn) (hP : IsPartition N P)
    (hm : mergeAll P cs = .ok m) : IsPartition N m.partition := by
  obtain ⟨st, merged, h1, h2, h3, h4⟩ := mergeAll_perm (P := P)
    (by have := h.two; rintro rfl; simp at this) h.nodup h.lt
  rw [hm] at h1
  cases h1
  constructor
  · refine (h2.flatten).trans ?_
    rw [List.flatten_cons]
    refine (h3.append_right _).trans ?_
    rw [← List.flatten_append]
    exact h4.flatten.symm.trans hP.1
  · intro p hp
    rcases List.mem_cons.1 (h2.mem_iff.1 hp) with rfl | hp
    · rintro rfl
      have h5 := h3.symm.eq_nil
      rw [List.flatten_eq_nil_iff] at h5
      have := h5 (P.getD mn []) (List.mem_map.2 ⟨mn, h.mem, rfl⟩)
      rw [List.getD_eq_getElem _ _ h.mn_lt] at this
      exact hP.2 _ (List.getElem_mem _) this
    · exact hP.2 p (h4.mem_iff.2 (List.mem_append_right _ hp))

/-- Costs and solutions stay aligned if the merged subset gets new ones. -/
theorem aligned {costs : List ℚ} {sols : List Vec} {v : ℚ} {x : Vec} (h : Merging P cs m mn)
    (ha : Aligned env I P costs sols)
    (hc : Computed env I (m.partition.getD mn []) v x) :
    Aligned env I m.partition ((keepIdx costs m.deleted).set mn v)
      ((keepIdx sols m.deleted).set mn x) := by
  have hl1 := h.kept_length costs ha.lenC
  have hl2 := h.kept_length sols ha.lenS
  refine ⟨by rw [List.length_set, hl1], by rw [List.length_set, hl2], fun c hcl => ?_⟩
  have hmn := h.mn_lt'
  rw [getD_set _ _ _ _ _ (hl1 ▸ hmn), getD_set _ _ _ _ _ (hl2 ▸ hmn)]
  by_cases hcm : c = mn
  · subst hcm; simp only [if_true]; exact hc
  · rw [if_neg hcm, if_neg hcm]
    have hck : c < (kept P.length m.deleted).length := by
      have h2 := h.kept_length P rfl
      rw [keepIdx_kept P [], List.length_map] at h2
      omega
    rw [keepIdx_getD_kept 0 ha.lenC hck, keepIdx_getD_kept _ ha.lenS hck, h.partition,
      keepIdx_getD_kept [] (by simp) hck, getD_set _ _ _ _ _ h.mn_lt, if_neg]
    · exact ha.comp _ (kept_lt hck)
    · obtain ⟨h1, h2⟩ := kept_get (K := P.length) (ds := m.deleted) h.mn_lt
        fun c hc => (h.del_lt c hc).1
      intro heq
      exact hcm ((kept_nodup _ _).getElem_inj_iff.1 (heq.trans h2.symm))

end Merging

theorem wp_applyMerge {Q : Unit → St → Prop} {E : PyErr → St → Prop} {s : St} {m : MState} {mn : ℕ}
    {cs : List ℕ} (hc : s.costs.length = s.partition.length)
    (hs : s.sols.length = s.partition.length) (hP : IsPartition I.N s.partition)
    (hm : mergeAll s.partition cs = .ok m) (h : Merging s.partition cs m mn)
    (h2 : ∀ e s', view s' = view s → s'.xLB = s.xLB → SubErr env I e → E e s')
    (h3 : ∀ D v x, loadPartition I m.partition.length m.partition = .ok D →
      subsetCost I (env.sub s.tick 0) (m.partition.getD mn []) = .ok (v, x) →
      wp (improve env I [x]) Q E
        { s with tick := s.tick + 1, partition := m.partition, nbSubsets := m.partition.length
                 deleted := m.deleted, part := D
                 costs := (keepIdx s.costs m.deleted).set mn v
                 sols := (keepIdx s.sols m.deleted).set mn x }) :
    wp (applyMerge env I m) Q E s := by
  have hPm := h.isPartition hP hm
  have hmn := h.mn_lt'
  have hl1 := h.kept_length s.costs hc
  have hl2 := h.kept_length s.sols hs
  unfold applyMerge reload
  rw [wp_bind, wp_modify, wp_bind, wp_bind, wp_get, wp_bind, wp_lift]
  refine ⟨?_, ?_⟩
  · intro D hD
    rw [wp_modify, wp_bind, wp_get, wp_bind, wp_lift]
    simp only
    rw [delAll_sortDesc _ _ h.del_nodup fun d hd => by rw [hc]; exact (h.del_lt d hd).2]
    refine ⟨?_, by rintro e ⟨⟩⟩
    rintro costs ⟨⟩
    rw [wp_bind, wp_lift, delAll_sortDesc _ _ h.del_nodup
      fun d hd => by rw [hs]; exact (h.del_lt d hd).2]
    refine ⟨?_, by rintro e ⟨⟩⟩
    rintro sols ⟨⟩
    rw [wp_bind, wp_modify, wp_bind, wp_nextTick, wp_bind, h.targets]
    unfold evalTargets
    rw [wp_bind, wp_get, wp_bind, wp_lift, pyGet_of_lt [] hmn]
    refine ⟨?_, by rintro e ⟨⟩⟩
    rintro p ⟨⟩
    rw [wp_bind, wp_lift]
    have hpm : m.partition.getD mn [] ∈ m.partition := by
      rw [List.getD_eq_getElem _ _ hmn]; exact List.getElem_mem _
    refine ⟨?_, fun e he => h2 e _ rfl rfl ⟨s.tick, 0, _, (part_valid hPm _ hpm).1,
      (part_valid hPm _ hpm).2, he⟩⟩
    rintro ⟨v, x⟩ hr
    rw [wp_bind, wp_lift, pySet, if_pos (hl1 ▸ hmn)]
    refine ⟨?_, by rintro e ⟨⟩⟩
    rintro costs ⟨⟩
    rw [wp_bind, wp_lift, pySet, if_pos (hl2 ▸ hmn)]
    refine ⟨?_, by rintro e ⟨⟩⟩
    rintro sols ⟨⟩
    exact h3 D v x hD hr
  · intro e he
    rw [show (loadPartition I m.partition.length m.partition) = _ from
      loadPartition_ok I m.partition hPm.2] at he
    cases he

end Verif.Model
