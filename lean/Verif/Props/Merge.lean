import Verif.Lemmas.Merger
import Verif.Props.Feasibility

/-!
# C30–C33: merging subsets
-/

namespace Verif.Props
open Spec Model

/-- `P'` is `P` with the subsets at the indices `cs` put together: their scenarios are at the
smallest of these indices, the other indices of `cs` are gone, all other subsets are unchanged
and in the same order. -/
def MergedInto (P P' : List (List ℕ)) (cs : List ℕ) : Prop :=
  ∃ mn ∈ cs, (∀ c ∈ cs, mn ≤ c) ∧ ∃ merged : List ℕ,
    merged.Perm (cs.map fun c => P.getD c []).flatten
    ∧ P' = ((P.set mn merged).zipIdx.filter fun q => q.2 ∉ cs ∨ q.2 = mn).map Prod.fst
    ∧ P'.getD mn [] = merged

theorem isPartition_of_perm {N : ℕ} {P P' : List (List ℕ)} (h : IsPartition N P)
    (hp : P'.flatten.Perm P.flatten) (hne : ∀ p ∈ P', p ≠ []) : IsPartition N P' :=
  ⟨hp.trans h.1, hne⟩

theorem getD_ne_nil {N : ℕ} {P : List (List ℕ)} (h : IsPartition N P) {c : ℕ}
    (hc : c < P.length) : P.getD c [] ≠ [] := by
  rw [List.getD_eq_getElem _ _ hc]
  exact h.2 _ (List.getElem_mem hc)

theorem mem_keepIdx {α : Type} {l : List α} {ds : List ℕ} {a : α} (h : a ∈ keepIdx l ds) :
    a ∈ l := by
  unfold keepIdx at h
  obtain ⟨p, hp, rfl⟩ := List.mem_map.1 h
  have := (List.mem_zipIdx_iff_getElem?.1 (List.mem_of_mem_filter hp))
  exact List.mem_of_getElem? this

/-- **C30.** `merge_all` on any list of distinct valid indices, in any order, succeeds (its
assertion cannot fail); the result is `P` with exactly these subsets put together at the
smallest index, it has `len(candidates) - 1` fewer subsets, and it is a partition if `P` is. -/
theorem C30_merge_all (P : List (List ℕ)) (cs : List ℕ) (hne : cs ≠ []) (hnd : cs.Nodup)
    (hlt : ∀ c ∈ cs, c < P.length) :
    ∃ st, mergeAll P cs = .ok st
      ∧ MergedInto P st.partition cs
      ∧ st.partition.length + cs.length = P.length + 1
      ∧ st.partition.length + st.deleted.length = P.length
      ∧ (∀ c, c ∈ st.deleted ↔ c ∈ cs ∧ ∃ d ∈ cs, d < c)
      ∧ ∀ N, IsPartition N P → IsPartition N st.partition := by
  obtain ⟨mn, hmn, hle, h⟩ := mergeAll_ok hne hnd hlt
  have hcs : cs.Perm (mn :: cs.filter (· ≠ mn)) := by
    rw [List.perm_ext_iff_of_nodup hnd (List.nodup_cons.2 ⟨by simp, hnd.filter _⟩)]
    intro c
    by_cases hc : c = mn <;> simp [hc, hmn]
  have hmerged : (mergedList P mn (cs.filter (· ≠ mn))).Perm
      (cs.map fun c => P.getD c []).flatten :=
    (List.Perm.flatten (hcs.map fun c => P.getD c [])).symm
  have hl := length_keepIdx (P.set mn (mergedList P mn (cs.filter (· ≠ mn))))
    (cs.filter (· ≠ mn)) (hnd.filter _) (fun d hd => by
      simpa using hlt d (List.mem_of_mem_filter hd))
  rw [List.length_set] at hl
  refine ⟨_, h, ⟨mn, hmn, hle, _, hmerged, ?_, ?_⟩, ?_, hl, ?_, ?_⟩
  · simp only [keepIdx]
    congr 1
    refine List.filter_congr fun q _ => ?_
    by_cases h1 : q.2 = mn <;> by_cases h2 : q.2 ∈ cs <;> simp [h1, h2]
  · rw [keepIdx_getD _ _ (by simpa using hlt mn hmn), getD_set _ _ _ _ _ (hlt mn hmn), if_pos rfl]
    intro c hc
    obtain ⟨h1, h2⟩ := List.mem_filter.1 hc
    have h3 := hle c h1
    simp only [ne_eq, decide_not, Bool.not_eq_true', decide_eq_false_iff_not] at h2
    omega
  · have h2 := hcs.length_eq
    rw [List.length_cons] at h2
    simp only
    omega
  · intro c
    simp only [List.mem_filter, decide_eq_true_iff]
    constructor
    · rintro ⟨h1, h2⟩
      exact ⟨h1, mn, hmn, lt_of_le_of_ne (hle c h1) (Ne.symm h2)⟩
    · rintro ⟨h1, d, hd, hlt'⟩
      refine ⟨h1, ?_⟩
      rintro rfl
      have := hle d hd
      omega
  · intro N hP
    obtain ⟨st, merged, h', hp, hm, hPp⟩ := mergeAll_perm hne hnd hlt
    rw [h] at h'
    cases h'
    refine isPartition_of_perm hP ?_ fun p hp' => ?_
    · refine hp.flatten.trans ?_
      rw [List.flatten_cons]
      refine (hm.append_right _).trans ?_
      rw [← List.flatten_append]
      exact hPp.flatten.symm
    · rcases List.mem_cons.1 (hp.mem_iff.1 hp') with rfl | hp'
      · intro h0
        rw [h0] at hm
        have := hm.nil_eq
        have h1 : ∀ s ∈ P.getD mn [], s ∈ (cs.map fun c => P.getD c []).flatten := fun s hs =>
          List.mem_flatten.2 ⟨_, List.mem_map.2 ⟨mn, hmn, rfl⟩, hs⟩
        rw [← this] at h1
        exact getD_ne_nil hP (hlt mn hmn) (List.eq_nil_iff_forall_not_mem.2 fun s hs => by
          simpa using h1 s hs)
      · exact hP.2 p (mem_keepIdx hp')

/-- The hypotheses are met by an unordered candidate list; the result, computed. -/
example : mergeAll [[0], [1], [2], [3]] [3, 1, 2] = .ok ⟨[[0], [1, 3, 2]], [1], [3, 2]⟩ := by
  decide

/-! ### C31 -/

/-- The rescaled slack of constraint `i` of scenario `s` at `x`. -/
def slack (norm : Norm) (I : Inst) (x : Vec) (s i : ℕ) : ℚ :=
  if norm.val I.n (I.A s i) = 0 then I.b s i - dot I.n (I.A s i) x
  else (I.b s i - dot I.n (I.A s i) x) / norm.val I.n (I.A s i)

/-- `v` is the smallest rescaled slack over all constraints of all scenarios of a subset. -/
def IsMargin (norm : Norm) (I : Inst) (x : Vec) (p : List ℕ) (v : ℚ) : Prop :=
  (∀ s ∈ p, ∀ i < I.m, v ≤ slack norm I x s i) ∧ ∃ s ∈ p, ∃ i < I.m, v = slack norm I x s i

theorem foldl_min_top (l : List ℕ) (f : ℕ → ℚ) (a : WithTop ℚ) :
    let r := l.foldl (fun (m : WithTop ℚ) i => min (f i : WithTop ℚ) m) a
    (r ≤ a ∧ ∀ i ∈ l, r ≤ (f i : WithTop ℚ)) ∧ (r = a ∨ ∃ i ∈ l, r = (f i : WithTop ℚ)) := by
  induction l generalizing a with
  | nil => simp
  | cons b l ih =>
    obtain ⟨⟨h1, h2⟩, h3⟩ := ih (min (f b : WithTop ℚ) a)
    simp only [List.foldl_cons]
    refine ⟨⟨h1.trans (min_le_right _ _), fun i hi => ?_⟩, ?_⟩
    · rcases List.mem_cons.1 hi with rfl | hi
      · exact h1.trans (min_le_left _ _)
      · exact h2 i hi
    · rcases h3 with h3 | ⟨i, hi, h3⟩
      · rcases min_choice (f b : WithTop ℚ) a with h | h
        · exact Or.inr ⟨b, by simp, h3.trans h⟩
        · exact Or.inl (h3.trans h)
      · exact Or.inr ⟨i, by simp [hi], h3⟩

theorem subsetMargin_eq (norm : Norm) (I : Inst) (x : Vec) (P : List (List ℕ))
    (hne : ∀ p ∈ P, p ≠ []) (D : PartData) (hD : loadPartition I P.length P = .ok D) {c : ℕ}
    (hc : c < P.length) {v : ℚ} (hv : IsMargin norm I x (P.getD c []) v) :
    subsetMargin norm (partCI I D) x c = (v : WithTop ℚ) := by
  rw [loadPartition_ok I P hne] at hD
  have hn : D.nbConPart.getD c 0 = (P.getD c []).length * I.m := by
    cases hD
    simp only
    rw [List.getD_eq_getElem _ _ (by simpa using hc), List.getElem_map,
      List.getD_eq_getElem _ _ hc]
  have hDP : D.partition = P := by cases hD; rfl
  set p := P.getD c [] with hp
  have hrow : ∀ k,
      (let margin := stackedB I p k - dot I.n (fun j => stackedA I p (k * I.n + j)) x
       let rescaling := norm.val I.n (fun j => stackedA I p (k * I.n + j))
       if rescaling ≠ 0 then margin / rescaling else margin)
      = slack norm I x (p.getD (k / I.m) 0) (k % I.m) := by
    intro k
    have h1 : norm.val I.n (fun j => stackedA I p (k * I.n + j))
        = norm.val I.n (I.A (p.getD (k / I.m) 0) (k % I.m)) :=
      norm.congr _ _ _ fun j hj => stackedA_eq I p hj
    have h2 : dot I.n (fun j => stackedA I p (k * I.n + j)) x
        = dot I.n (I.A (p.getD (k / I.m) 0) (k % I.m)) x :=
      dotEq_congr (fun j hj => stackedA_eq I p hj) fun _ _ => rfl
    simp only [h1, h2, stackedB, slack, ne_eq, ite_not]
  have key := foldl_min_top (List.range (p.length * I.m))
    (fun k => slack norm I x (p.getD (k / I.m) 0) (k % I.m)) ⊤
  have hfold : subsetMargin norm (partCI I D) x c
      = (List.range (p.length * I.m)).foldl (fun (m : WithTop ℚ) k =>
          min ((slack norm I x (p.getD (k / I.m) 0) (k % I.m) : ℚ) : WithTop ℚ) m) ⊤ := by
    unfold subsetMargin
    simp only [partCI, hn, hDP, ← hp]
    congr 1
    funext m k
    congr 2
    exact hrow k
  rw [hfold]
  simp only at key
  set r := (List.range (p.length * I.m)).foldl (fun (m : WithTop ℚ) k =>
    min ((slack norm I x (p.getD (k / I.m) 0) (k % I.m) : ℚ) : WithTop ℚ) m) ⊤
  obtain ⟨⟨-, h1⟩, h2⟩ := key
  obtain ⟨hv1, s, hs, i, hi, hv2⟩ := hv
  have hm : 0 < I.m := by omega
  have hval : ∀ k ∈ List.range (p.length * I.m), (v : WithTop ℚ)
      ≤ ((slack norm I x (p.getD (k / I.m) 0) (k % I.m) : ℚ) : WithTop ℚ) := by
    intro k hk
    rw [List.mem_range, mul_comm] at hk
    have hk' : k / I.m < p.length := Nat.div_lt_of_lt_mul hk
    refine WithTop.coe_le_coe.2 (hv1 _ ?_ _ (Nat.mod_lt _ hm))
    rw [List.getD_eq_getElem _ _ hk']
    exact List.getElem_mem hk'
  have hle : r ≤ (v : WithTop ℚ) := by
    obtain ⟨t, ht, rfl⟩ := List.getElem_of_mem hs
    have h3 : (t * I.m + i) / I.m = t := by
      rw [mul_comm, Nat.mul_add_div hm, Nat.div_eq_of_lt hi, Nat.add_zero]
    have h4 : (t * I.m + i) % I.m = i := by
      rw [mul_comm, Nat.mul_add_mod, Nat.mod_eq_of_lt hi]
    have := h1 (t * I.m + i) (List.mem_range.2 (by nlinarith))
    rw [h3, h4, List.getD_eq_getElem _ _ ht, ← hv2] at this
    exact this
  refine le_antisymm hle ?_
  rcases h2 with h2 | ⟨k, hk, h2⟩
  · rw [h2]; exact le_top
  · rw [h2]; exact hval k hk

theorem keys_spec (cs ks : List ℕ) (h : ks.Nodup) :
    (cs.foldl (fun ks c => if c ∈ ks then ks else ks ++ [c]) ks).Nodup
    ∧ ∀ a, a ∈ cs.foldl (fun ks c => if c ∈ ks then ks else ks ++ [c]) ks ↔ a ∈ ks ∨ a ∈ cs := by
  induction cs generalizing ks with
  | nil => simp [h]
  | cons c cs ih =>
    rw [List.foldl_cons]
    by_cases hc : c ∈ ks
    · rw [if_pos hc]
      refine ⟨(ih ks h).1, fun a => ?_⟩
      rw [(ih ks h).2 a, List.mem_cons]
      constructor
      · rintro (h | h) <;> simp [h]
      · rintro (h | rfl | h) <;> simp [*]
    · rw [if_neg hc]
      have hnd : (ks ++ [c]).Nodup := by
        rw [List.nodup_append]
        exact ⟨h, by simp, fun a ha b hb => by
          rw [List.mem_singleton] at hb; rintro rfl; exact hc (hb ▸ ha)⟩
      refine ⟨(ih _ hnd).1, fun a => ?_⟩
      rw [(ih _ hnd).2 a]
      simp only [List.mem_append, List.mem_cons, List.not_mem_nil, or_false]
      tauto

/-- **C31.** `merge_feasible` merges exactly `mu + 1` distinct candidates (it succeeds as soon
as there are that many distinct valid ones), and every candidate left out has a margin not
larger than that of every merged candidate. -/
theorem C31_merge_feasible (norm : Norm) (I : Inst) (P : List (List ℕ))
    (hne : ∀ p ∈ P, p ≠ []) (D : PartData) (hD : loadPartition I P.length P = .ok D) (x : Vec)
    (cands : List ℕ) (hlt : ∀ c ∈ cands, c < P.length) (mu : ℕ)
    (hmu : mu + 1 ≤ cands.dedup.length) :
    ∃ st top, mergeFeasible norm (partCI I D) P x cands mu = .ok st
      ∧ top.Nodup ∧ top.length = mu + 1 ∧ (∀ a ∈ top, a ∈ cands)
      ∧ mergeAll P top = .ok st ∧ MergedInto P st.partition top
      ∧ ∀ a ∈ top, ∀ b ∈ cands, b ∉ top → ∀ va vb,
          IsMargin norm I x (P.getD a []) va → IsMargin norm I x (P.getD b []) vb → vb ≤ va := by
  obtain ⟨hknd, hkmem⟩ := keys_spec cands [] List.nodup_nil
  unfold mergeFeasible
  simp only
  set keys := cands.foldl (fun ks c => if c ∈ ks then ks else ks ++ [c]) [] with hkeys
  have hklen : keys.length = cands.dedup.length := by
    refine List.Perm.length_eq ?_
    rw [List.perm_ext_iff_of_nodup hknd (List.nodup_dedup _)]
    intro a
    rw [hkmem a]
    simp
  let r : ℕ → ℕ → Prop := fun a b =>
    subsetMargin norm (partCI I D) x b ≤ subsetMargin norm (partCI I D) x a
  have : Std.Total r := ⟨fun a b => le_total _ _⟩
  have : IsTrans ℕ r := ⟨fun a b c h1 h2 => le_trans h2 h1⟩
  have hsorted : (keys.insertionSort fun a b =>
      subsetMargin norm (partCI I D) x b ≤ subsetMargin norm (partCI I D) x a).Pairwise r :=
    @List.pairwise_insertionSort _ r _ ‹_› ‹_› _
  have hperm := List.perm_insertionSort (fun a b =>
      subsetMargin norm (partCI I D) x b ≤ subsetMargin norm (partCI I D) x a) keys
  set so := keys.insertionSort fun a b =>
      subsetMargin norm (partCI I D) x b ≤ subsetMargin norm (partCI I D) x a with hso
  have hlen : (so.take (mu + 1)).length = mu + 1 := by
    rw [List.length_take, hperm.length_eq, hklen]; omega
  have hnd : (so.take (mu + 1)).Nodup :=
    (List.take_sublist _ _).nodup (hperm.nodup_iff.2 hknd)
  have hmem : ∀ a ∈ so.take (mu + 1), a ∈ cands := fun a ha => by
    have := (hkmem a).1 (hperm.mem_iff.1 (List.mem_of_mem_take ha))
    simpa using this
  obtain ⟨st, h1, h2, -, h5, -⟩ := C30_merge_all P (so.take (mu + 1))
    (fun h => by rw [h] at hlen; simp at hlen) hnd fun c hc => hlt c (hmem c hc)
  refine ⟨st, so.take (mu + 1), ?_, hnd, hlen, hmem, h1, h2, ?_⟩
  · rw [pyAssert_true (by simpa using hlen)]
    simp only [bind, Except.bind]
    rw [h1]
    simp only
    rw [pyAssert_true]
    · rfl
    · exact h5
  · intro a ha b hb hbt va vb hva hvb
    have hbso : b ∈ so.drop (mu + 1) := by
      have : b ∈ so := hperm.mem_iff.2 ((hkmem b).2 (Or.inr hb))
      rw [← List.take_append_drop (mu + 1) so, List.mem_append] at this
      exact this.resolve_left hbt
    rw [← List.take_append_drop (mu + 1) so, List.pairwise_append] at hsorted
    have h5 : subsetMargin norm (partCI I D) x b ≤ subsetMargin norm (partCI I D) x a :=
      hsorted.2.2 a ha b hbso
    rw [subsetMargin_eq norm I x P hne D hD (hlt a (hmem a ha)) hva,
      subsetMargin_eq norm I x P hne D hD (hlt b hb) hvb] at h5
    exact WithTop.coe_le_coe.1 h5

/-- Three scenarios with capacities 1, 2, 3: at `x = 0` the margins are 1, 2, 3. -/
def exMargin : Inst :=
  { n := 1, m := 1, N := 3, A := fun _ _ _ => 1, b := fun s _ => s + 1, c := fun _ => 1,
    proba := fun _ => 1 / 3, eps := 1 / 3, cont := true }

/-- The hypotheses of C31 are met with `mu = 1`; subsets 1 and 2 are merged. -/
example : ∃ D, loadPartition exMargin 3 [[0], [1], [2]] = .ok D
    ∧ mergeFeasible exNorm (partCI exMargin D) [[0], [1], [2]] (fun _ => 0) [0, 1, 2] 1
        = .ok ⟨[[0], [1, 2]], [1], [2]⟩
    ∧ IsMargin exNorm exMargin (fun _ => 0) [0] 1 ∧ IsMargin exNorm exMargin (fun _ => 0) [2] 3 := by
  refine ⟨_, loadPartition_ok exMargin [[0], [1], [2]] (by decide), by decide +kernel, ?_, ?_⟩
  · exact ⟨by decide +kernel, by decide +kernel⟩
  · exact ⟨by decide +kernel, by decide +kernel⟩

/-- With fewer distinct candidates the assertion of `merge_feasible` fails. -/
theorem C31_too_few (norm : Norm) (J : CI) (P : List (List ℕ)) (x : Vec) (cands : List ℕ)
    (mu : ℕ) (hmu : cands.dedup.length ≤ mu) :
    mergeFeasible norm J P x cands mu = .error (.assertion "Merger.py:137") := by
  obtain ⟨hknd, hkmem⟩ := keys_spec cands [] List.nodup_nil
  have hklen : (cands.foldl (fun ks c => if c ∈ ks then ks else ks ++ [c]) []).length
      = cands.dedup.length := by
    refine List.Perm.length_eq ?_
    rw [List.perm_ext_iff_of_nodup hknd (List.nodup_dedup _)]
    intro a
    rw [hkmem a]
    simp
  unfold mergeFeasible
  simp only
  rw [pyAssert_false]
  · rfl
  · rw [List.length_take, List.length_insertionSort, hklen]
    omega

/-! ### C32 -/

/-- **C32, false as stated.** Overlapping pairs `(0, 1)`, `(1, 2)`: the call succeeds, but
scenario `2` is in no subset afterwards. -/
theorem C32_chain_counterexample :
    ∃ st, mergePairs [[0], [1], [2]] [1, 2] [0, 1] = .ok st
      ∧ IsPartition 3 [[0], [1], [2]] ∧ 2 ∉ st.partition.flatten := by
  refine ⟨⟨[[0, 1]], [0, 1], [1, 2]⟩, by decide, ⟨by decide, by decide⟩, by decide⟩

theorem mergeLoop_ok : ∀ (cs ds : List ℕ) (Q : List (List ℕ)) (ts del : List ℕ),
    cs.length ≤ ds.length → (cs ++ ds.take cs.length).Nodup →
    (∀ c ∈ cs ++ ds.take cs.length, c < Q.length) →
    ∃ Q' ts', mergeLoop cs ds ⟨Q, ts, del⟩
        = .ok ⟨Q', ts', del ++ (cs.zip ds).map fun p => max p.1 p.2⟩
      ∧ Q'.length = Q.length
      ∧ (∀ p ∈ cs.zip ds, Q'.getD (min p.1 p.2) []
          = Q.getD (min p.1 p.2) [] ++ Q.getD (max p.1 p.2) [])
      ∧ ∀ c, c ∉ (cs.zip ds).map (fun p => min p.1 p.2) → Q'.getD c [] = Q.getD c [] := by
  intro cs
  induction cs with
  | nil => intro ds Q ts del _ _ _; exact ⟨Q, ts, by simp [mergeLoop], rfl, by simp, by simp⟩
  | cons c cs ih =>
    intro ds Q ts del hlen hnd hlt
    cases ds with
    | nil => simp at hlen
    | cons d ds =>
      simp only [List.length_cons, List.take_succ_cons] at hnd hlt hlen
      have hcd : c ≠ d := by
        intro h
        rw [List.nodup_append] at hnd
        exact hnd.2.2 c (by simp) d (by simp) h
      have hc : c < Q.length := hlt c (by simp)
      have hd : d < Q.length := hlt d (by simp)
      have hmn : min d c < Q.length := lt_of_le_of_lt (min_le_left _ _) hd
      have hmx : max d c < Q.length := max_lt hd hc
      have hstep : mergeTwo ⟨Q, ts, del⟩ d c = .ok
          ⟨Q.set (min d c) (Q.getD (min d c) [] ++ Q.getD (max d c) []),
           if min d c ∈ ts then ts else ts ++ [min d c], del ++ [max d c]⟩ := by
        unfold mergeTwo
        simp only
        rw [pyGet_of_lt [] hmn, pyGet_of_lt [] hmx]
        simp only [bind, Except.bind, pySet]
        rw [if_pos hmn]
        rfl
      have hnd' : (cs ++ ds.take cs.length).Nodup := by
        refine List.Sublist.nodup ?_ hnd
        exact (List.sublist_cons_self c cs).append (List.sublist_cons_self d _)
      have hcn : c ∉ cs ++ ds.take cs.length := by
        rw [List.cons_append, List.nodup_cons] at hnd
        intro h
        refine hnd.1 ?_
        rw [List.mem_append] at h ⊢
        rcases h with h | h
        · exact Or.inl h
        · exact Or.inr (List.mem_cons_of_mem _ h)
      have hdn : d ∉ cs ++ ds.take cs.length := by
        have h1 : (d :: ((c :: cs) ++ ds.take cs.length)).Nodup :=
          (List.perm_middle (l₁ := c :: cs)).nodup_iff.1 hnd
        rw [List.nodup_cons] at h1
        intro h
        refine h1.1 ?_
        rw [List.cons_append]
        exact List.mem_cons_of_mem _ h
      obtain ⟨Q', ts', h1, h2, h3, h4⟩ := ih ds
        (Q.set (min d c) (Q.getD (min d c) [] ++ Q.getD (max d c) []))
        (if min d c ∈ ts then ts else ts ++ [min d c]) (del ++ [max d c]) (by omega) hnd'
        (fun e he => by
          rw [List.length_set]
          refine hlt e ?_
          rw [List.mem_append] at he ⊢
          rcases he with h | h
          · exact Or.inl (List.mem_cons_of_mem _ h)
          · exact Or.inr (List.mem_cons_of_mem _ h))
      have hmemzip : ∀ p ∈ cs.zip ds, p.1 ∈ cs ++ ds.take cs.length
          ∧ p.2 ∈ cs ++ ds.take cs.length := by
        intro p hp
        have hz : cs.zip ds = cs.zip (ds.take cs.length) := by
          rw [List.zip_eq_zip_take_min]
          have : min cs.length ds.length = cs.length := by omega
          rw [this, List.take_length]
        rw [hz] at hp
        exact ⟨List.mem_append_left _ (List.of_mem_zip hp).1,
          List.mem_append_right _ (List.of_mem_zip hp).2⟩
      have hnotmin : ∀ e, e = c ∨ e = d → e ∉ (cs.zip ds).map fun p => min p.1 p.2 := by
        intro e he hm
        obtain ⟨p, hp, rfl⟩ := List.mem_map.1 hm
        obtain ⟨m1, m2⟩ := hmemzip p hp
        have : min p.1 p.2 ∈ cs ++ ds.take cs.length := by
          rcases min_choice p.1 p.2 with h | h <;> rw [h] <;> assumption
        rcases he with h | h <;> rw [h] at this
        · exact hcn this
        · exact hdn this
      refine ⟨Q', ts', ?_, ?_, ?_, ?_⟩
      · rw [mergeLoop, hstep]
        simp only [bind, Except.bind]
        rw [h1]
        simp [max_comm]
      · rw [h2, List.length_set]
      · intro p hp
        rw [List.zip_cons_cons, List.mem_cons] at hp
        rcases hp with rfl | hp
        · simp only
          rw [min_comm c d, max_comm c d]
          rw [h4 _ (hnotmin _ (by rcases min_choice d c with h | h <;> rw [h] <;> simp)),
            getD_set _ _ _ _ _ hmn, if_pos rfl]
        · obtain ⟨m1, m2⟩ := hmemzip p hp
          have e1 : ∀ e, e ∈ cs ++ ds.take cs.length → e ≠ min d c := by
            intro e he h
            rcases min_choice d c with h' | h' <;> rw [h'] at h <;> rw [h] at he
            · exact hdn he
            · exact hcn he
          rw [h3 p hp, getD_set _ _ _ _ _ hmn, getD_set _ _ _ _ _ hmn, if_neg, if_neg]
          · rcases max_choice p.1 p.2 with h | h <;> rw [h]
            · exact e1 _ m1
            · exact e1 _ m2
          · rcases min_choice p.1 p.2 with h | h <;> rw [h]
            · exact e1 _ m1
            · exact e1 _ m2
      · intro e he
        rw [List.zip_cons_cons, List.map_cons, List.mem_cons, not_or] at he
        rw [h4 e he.2, getD_set _ _ _ _ _ hmn, if_neg]
        rw [min_comm]
        exact he.1

theorem nodup_minmax : ∀ (cs ds : List ℕ), cs.length ≤ ds.length →
    (cs ++ ds.take cs.length).Nodup →
    (((cs.zip ds).map fun p => min p.1 p.2) ++ (cs.zip ds).map fun p => max p.1 p.2).Perm
      (cs ++ ds.take cs.length) := by
  intro cs
  induction cs with
  | nil => intro ds _ _; simp
  | cons c cs ih =>
    intro ds hlen hnd
    cases ds with
    | nil => simp at hlen
    | cons d ds =>
      simp only [List.length_cons, List.take_succ_cons, List.zip_cons_cons, List.map_cons] at *
      have hnd' : (cs ++ ds.take cs.length).Nodup :=
        List.Sublist.nodup
          ((List.sublist_cons_self c cs).append (List.sublist_cons_self d _)) hnd
      have h := ih ds (by omega) hnd'
      have h1 : ∀ (a b : ℕ) (l r : List ℕ), (a :: l ++ b :: r).Perm (a :: b :: (l ++ r)) :=
        fun a b l r => by
          rw [List.cons_append]
          exact List.Perm.cons _ List.perm_middle
      refine (h1 _ _ _ _).trans (List.Perm.trans ?_ (h1 _ _ _ _).symm)
      rcases le_total c d with hle | hle
      · rw [min_eq_left hle, max_eq_right hle]
        exact (h.cons _).cons _
      · rw [min_eq_right hle, max_eq_left hle]
        exact ((h.cons _).cons _).trans (List.Perm.swap _ _ _)

/-- Entries kept, those at the indices `es` first. -/
theorem keepIdx_perm_append {α : Type} (l : List α) (d : α) {es ds : List ℕ}
    (hnd : (es ++ ds).Nodup) (hlt : ∀ c ∈ es, c < l.length) :
    (keepIdx l ds).Perm ((es.map fun c => l.getD c d) ++ keepIdx l (es ++ ds)) := by
  rw [keepIdx_eq_map l d, keepIdx_eq_map l d, ← List.map_append]
  refine List.Perm.map _ ?_
  rw [List.nodup_append] at hnd
  rw [List.perm_ext_iff_of_nodup (List.nodup_range.filter _)]
  · intro a
    simp only [List.mem_filter, List.mem_range, decide_eq_true_iff, List.mem_append, not_or]
    constructor
    · rintro ⟨h1, h2⟩
      by_cases h : a ∈ es
      · exact Or.inl h
      · exact Or.inr ⟨h1, h, h2⟩
    · rintro (h | ⟨h1, _, h2⟩)
      · exact ⟨hlt a h, fun h' => hnd.2.2 a h a h' rfl⟩
      · exact ⟨h1, h2⟩
  · rw [List.nodup_append]
    refine ⟨hnd.1, List.nodup_range.filter _, fun a ha b hb => ?_⟩
    simp only [List.mem_filter, decide_eq_true_iff, List.mem_append, not_or] at hb
    rintro rfl
    exact hb.2.1 ha

/-- `P'` is `P` with each pair put together: the scenarios of a pair are at its smaller index,
the larger index is gone, all other subsets are unchanged and in the same order. -/
def PairsMerged (P P' : List (List ℕ)) (pairs : List (ℕ × ℕ)) : Prop :=
  ∃ Q : List (List ℕ), Q.length = P.length
    ∧ (∀ p ∈ pairs, Q.getD (min p.1 p.2) [] = P.getD (min p.1 p.2) [] ++ P.getD (max p.1 p.2) [])
    ∧ (∀ c, (∀ p ∈ pairs, c ≠ min p.1 p.2) → Q.getD c [] = P.getD c [])
    ∧ P' = (Q.zipIdx.filter fun q => ∀ p ∈ pairs, q.2 ≠ max p.1 p.2).map Prod.fst

/-- **C32, guarded.** If no index occurs in two pairs, `merge` succeeds, puts each pair
together and keeps a partition.  Missing: pairs sharing an index, for which the claim is false
(`C32_chain_counterexample`). -/
theorem C32_merge_pairs_partial (P : List (List ℕ)) (cs ds : List ℕ)
    (hlen : cs.length ≤ ds.length) (hnd : (cs ++ ds.take cs.length).Nodup)
    (hlt : ∀ c ∈ cs ++ ds.take cs.length, c < P.length) :
    ∃ st, mergePairs P cs ds = .ok st
      ∧ PairsMerged P st.partition (cs.zip ds)
      ∧ st.partition.length + cs.length = P.length
      ∧ ∀ N, IsPartition N P → IsPartition N st.partition := by
  obtain ⟨Q, ts, h1, h2, h3, h4⟩ := mergeLoop_ok cs ds P [] [] hlen hnd hlt
  rw [List.nil_append] at h1
  have hpm := nodup_minmax cs ds hlen hnd
  set mins := (cs.zip ds).map fun p => min p.1 p.2 with hmins
  set maxs := (cs.zip ds).map fun p => max p.1 p.2 with hmaxs
  have hmm : (mins ++ maxs).Nodup := hpm.nodup_iff.2 hnd
  have hmmlt : ∀ c ∈ mins ++ maxs, c < P.length := fun c hc => hlt c (hpm.mem_iff.1 hc)
  have hmaxlt : ∀ c ∈ maxs, c < Q.length := fun c hc => by
    rw [h2]; exact hmmlt c (List.mem_append_right _ hc)
  have hmaxnd : maxs.Nodup := (List.nodup_append.1 hmm).2.1
  have hl := length_keepIdx Q maxs hmaxnd hmaxlt
  have hmaxlen : maxs.length = cs.length := by
    rw [hmaxs, List.length_map, List.length_zip]; omega
  refine ⟨⟨keepIdx Q maxs, ts, maxs⟩, ?_, ⟨Q, h2, h3, ?_, ?_⟩, ?_, ?_⟩
  · unfold mergePairs
    rw [h1]
    simp only [deleteSubsets, bind, Except.bind]
    rw [delAll_sortDesc _ _ hmaxnd hmaxlt]
    simp only [pure, Except.pure]
    rw [pyAssert_true (by rw [hl, h2])]
  · intro c hc
    refine h4 c fun h => ?_
    obtain ⟨p, hp, rfl⟩ := List.mem_map.1 h
    exact hc p hp rfl
  · simp only [keepIdx]
    congr 1
    refine List.filter_congr fun q _ => ?_
    rw [decide_eq_decide, hmaxs]
    simp only [List.mem_map, not_exists, not_and]
    exact ⟨fun h p hp he => h p hp he.symm, fun h p hp he => h p hp he.symm⟩
  · rw [← hmaxlen]; simpa [h2] using hl
  · intro N hP
    have e1 := keepIdx_perm_append Q [] hmm fun c hc => by
      rw [h2]; exact hmmlt c (List.mem_append_left _ hc)
    have e2 : keepIdx Q (mins ++ maxs) = keepIdx P (mins ++ maxs) := by
      rw [keepIdx_eq_map _ [], keepIdx_eq_map _ [], h2]
      refine List.map_congr_left fun c hc => h4 c fun hm => ?_
      have := (List.mem_filter.1 hc).2
      rw [decide_eq_true_iff] at this
      exact this (List.mem_append_left _ hm)
    have e3 := perm_keepIdx P [] hmm hmmlt
    have e4 : (mins.map fun c => Q.getD c []).flatten.Perm
        ((mins ++ maxs).map fun c => P.getD c []).flatten := by
      rw [hmins, hmaxs, List.map_append, List.map_map, List.map_map, List.map_map,
        List.flatten_append]
      have : ∀ zs : List (ℕ × ℕ), (∀ p ∈ zs, Q.getD (min p.1 p.2) []
          = P.getD (min p.1 p.2) [] ++ P.getD (max p.1 p.2) []) →
          (zs.map ((fun c => Q.getD c []) ∘ fun p => min p.1 p.2)).flatten.Perm
            ((zs.map ((fun c => P.getD c []) ∘ fun p => min p.1 p.2)).flatten
              ++ (zs.map ((fun c => P.getD c []) ∘ fun p => max p.1 p.2)).flatten) := by
        intro zs
        induction zs with
        | nil => intro _; simp
        | cons z zs ih =>
          intro h
          simp only [List.map_cons, List.flatten_cons, Function.comp]
          rw [h z (by simp)]
          have := ih fun p hp => h p (by simp [hp])
          simp only [List.append_assoc]
          refine List.Perm.append_left _ ?_
          refine (List.Perm.append_left _ this).trans ?_
          rw [← List.append_assoc, ← List.append_assoc]
          exact List.Perm.append_right _ List.perm_append_comm
      exact this _ h3
    refine isPartition_of_perm hP ?_ fun p hp => ?_
    · refine e1.flatten.trans ?_
      rw [e2, List.flatten_append]
      refine (e4.append_right _).trans ?_
      rw [← List.flatten_append]
      exact e3.flatten.symm
    · rcases List.mem_append.1 (e1.mem_iff.1 hp) with hp | hp
      · obtain ⟨c, hc, rfl⟩ := List.mem_map.1 hp
        obtain ⟨z, hz, rfl⟩ := List.mem_map.1 hc
        rw [h3 z hz]
        intro h0
        exact getD_ne_nil hP (hmmlt _ (List.mem_append_left _ hc)) (List.append_eq_nil_iff.1 h0).1
      · rw [e2] at hp
        exact hP.2 p (mem_keepIdx hp)

/-- The hypotheses are met by two disjoint pairs in any orientation. -/
example : mergePairs [[0], [1], [2], [3]] [3, 0] [1, 2] = .ok ⟨[[0, 2], [1, 3]], [1, 0], [3, 2]⟩
    ∧ ([3, 0] ++ [1, 2].take 2).Nodup := by
  decide

/-! ### C33 -/

theorem zip_costs (cands : List ℕ) (costs : List ℚ) (h : cands.length ≤ costs.length) :
    (sortSubsetCosts cands costs).Perm cands := by
  unfold sortSubsetCosts
  refine ((List.perm_insertionSort _ _).map _).trans ?_
  rw [List.map_snd_zip h]

/-- **C33.** `sort_subset_costs(range(K), costs)` lists all subset indices, each once, by
decreasing cost, equal costs by decreasing index. -/
theorem C33_sort_subset_costs (costs : List ℚ) :
    (sortSubsetCosts (List.range costs.length) costs).Perm (List.range costs.length)
    ∧ (sortSubsetCosts (List.range costs.length) costs).Pairwise fun a b =>
        costs.getD b 0 < costs.getD a 0 ∨ (costs.getD b 0 = costs.getD a 0 ∧ b < a) := by
  have hperm := zip_costs (List.range costs.length) costs (by simp)
  refine ⟨hperm, ?_⟩
  have hnd : (sortSubsetCosts (List.range costs.length) costs).Nodup :=
    hperm.nodup_iff.2 List.nodup_range
  unfold sortSubsetCosts at hnd ⊢
  let r : ℚ × ℕ → ℚ × ℕ → Prop := fun a b => b.1 < a.1 ∨ (b.1 = a.1 ∧ b.2 ≤ a.2)
  have t1 : Std.Total r := ⟨fun a b => by
    rcases lt_trichotomy a.1 b.1 with h | h | h
    · exact Or.inr (Or.inl h)
    · rcases le_total a.2 b.2 with h' | h'
      · exact Or.inr (Or.inr ⟨h, h'⟩)
      · exact Or.inl (Or.inr ⟨h.symm, h'⟩)
    · exact Or.inl (Or.inl h)⟩
  have t2 : IsTrans (ℚ × ℕ) r := ⟨fun a b c h1 h2 => by
    rcases h1 with h1 | ⟨h1, h1'⟩ <;> rcases h2 with h2 | ⟨h2, h2'⟩
    · exact Or.inl (h2.trans h1)
    · exact Or.inl (h2 ▸ h1)
    · exact Or.inl (h1 ▸ h2)
    · exact Or.inr ⟨h2.trans h1, h2'.trans h1'⟩⟩
  have hs : ((costs.zip (List.range costs.length)).insertionSort fun a b =>
      b.1 < a.1 ∨ (b.1 = a.1 ∧ b.2 ≤ a.2)).Pairwise r :=
    @List.pairwise_insertionSort _ r _ t1 t2 _
  have hmem : ∀ p ∈ (costs.zip (List.range costs.length)).insertionSort fun a b =>
      b.1 < a.1 ∨ (b.1 = a.1 ∧ b.2 ≤ a.2), p.1 = costs.getD p.2 0 := by
    intro p hp
    have hp := (List.perm_insertionSort _ _).mem_iff.1 hp
    obtain ⟨k, hk, rfl⟩ := List.getElem_of_mem hp
    rw [List.length_zip, List.length_range, min_self] at hk
    rw [List.getElem_zip]
    simp [hk]
  rw [List.pairwise_map]
  rw [List.Nodup, List.pairwise_map] at hnd
  refine (List.Pairwise.and_mem.1 (hs.and hnd)).imp ?_
  rintro a b ⟨ha, hb, h, hne⟩
  rw [← hmem a ha, ← hmem b hb]
  rcases h with h | ⟨h, h'⟩
  · exact Or.inl h
  · exact Or.inr ⟨h, lt_of_le_of_ne h' (Ne.symm hne)⟩

/-- A list with distinct costs and one with a tie. -/
example : sortSubsetCosts (List.range 4) [5, 1, 3, 3] = [0, 3, 2, 1] := by decide +kernel

/-- **C33, false as stated for `find_inf_candidate`.** Costs are paired with the wrong
candidates: subset `2` (cost 3) comes after subset `1` (cost 1). -/
theorem C33_find_inf_candidate_counterexample :
    findInfCandidate [1, 2] [5, 1, 3] (10 : ℚ) = .ok [1, 2]
    ∧ ([5, 1, 3] : List ℚ).getD 1 0 < ([5, 1, 3] : List ℚ).getD 2 0 := by
  decide +kernel

/-- **C33, guarded.** `find_inf_candidate` returns exactly the infeasible subsets with cost at
most `vUB`, in some order.  Missing: the order, which can be wrong
(`C33_find_inf_candidate_counterexample`). -/
theorem C33_find_inf_candidate_partial (infeasible : List ℕ) (costs : List ℚ)
    (vUB : WithTop ℚ) (hnd : infeasible.Nodup) (hlt : ∀ c ∈ infeasible, c < costs.length) :
    ∃ l, findInfCandidate infeasible costs vUB = .ok l
      ∧ l.Perm (infeasible.filter fun c => ((costs.getD c 0 : ℚ) : WithTop ℚ) ≤ vUB) := by
  have hf : ∀ l : List ℕ, (∀ c ∈ l, c < costs.length) → pyFilter (fun c => do
      let v ← pyGet costs c
      pure (decide ((v : WithTop ℚ) ≤ vUB))) l
      = .ok (l.filter fun c => ((costs.getD c 0 : ℚ) : WithTop ℚ) ≤ vUB) := by
    intro l
    induction l with
    | nil => intro _; rfl
    | cons c l ih =>
      intro h
      rw [pyFilter, pyGet_of_lt 0 (h c (by simp))]
      have := ih fun d hd => h d (by simp [hd])
      simp only [bind, Except.bind, pure, Except.pure] at this ⊢
      rw [this]
      simp only [List.filter_cons]
  refine ⟨_, ?_, zip_costs (infeasible.filter fun c =>
    ((costs.getD c 0 : ℚ) : WithTop ℚ) ≤ vUB) costs ?_⟩
  · unfold findInfCandidate
    rw [hf infeasible hlt]
    rfl
  · have h1 : (infeasible.filter fun c => ((costs.getD c 0 : ℚ) : WithTop ℚ) ≤ vUB)
        ⊆ List.range costs.length := fun c hc =>
      List.mem_range.2 (hlt c (List.mem_of_mem_filter hc))
    have := ((hnd.filter _).subperm h1).length_le
    simpa using this

end Verif.Props
