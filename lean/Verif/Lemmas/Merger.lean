import Verif.Model.Merger
import Verif.Lemmas.PartInst
import Verif.Lemmas.Refiner

namespace Verif.Model
open Spec

/-- The entries of a list whose index is not in `ds`, in order. -/
def keepIdx {α : Type} (l : List α) (ds : List ℕ) : List α :=
  (l.zipIdx.filter fun p => p.2 ∉ ds).map Prod.fst

theorem keepIdx_congr {α : Type} (l : List α) {ds es : List ℕ} (h : ∀ c, c ∈ ds ↔ c ∈ es) :
    keepIdx l ds = keepIdx l es := by
  unfold keepIdx
  congr 1
  exact List.filter_congr fun p _ => by simp [h]

theorem keepIdx_nil {α : Type} (l : List α) : keepIdx l [] = l := by
  unfold keepIdx
  simp

/-- Deleting indices in decreasing order. -/
theorem delAll_ok {α : Type} : ∀ (ds : List ℕ) (l : List α), ds.Pairwise (· > ·) →
    (∀ d ∈ ds, d < l.length) → delAll ds l = .ok (keepIdx l ds) := by
  intro ds
  induction ds with
  | nil => intro l _ _; rw [delAll, keepIdx_nil]
  | cons d ds ih =>
    intro l hp hlt
    have hd : d < l.length := hlt d (by simp)
    rw [List.pairwise_cons] at hp
    rw [delAll, pyDel, if_pos hd]
    simp only [bind, Except.bind]
    rw [ih _ hp.2 (fun e he => by
      have := hp.1 e he
      rw [List.length_eraseIdx, if_pos hd]; omega)]
    congr 1
    unfold keepIdx
    have h1 : l = l.take d ++ l[d] :: l.drop (d + 1) := by simp
    have hlen : (l.take d).length = d := by simp; omega
    rw [List.eraseIdx_eq_take_drop_succ]
    conv_rhs => rw [h1]
    rw [List.zipIdx_append, List.zipIdx_append, List.zipIdx_cons, hlen, List.filter_append,
      List.filter_append, List.map_append, List.map_append]
    congr 1
    · congr 1
      refine List.filter_congr fun p hp' => ?_
      have : p.2 < d := by
        have := List.snd_lt_of_mem_zipIdx hp'; omega
      have : p.2 ≠ d := by omega
      simp [this]
    · rw [List.filter_cons, if_neg (by simp)]
      rw [List.filter_eq_self.2, List.filter_eq_self.2]
      · rw [List.zipIdx_map_fst, List.zipIdx_map_fst]
      · intro p hp'
        have h2 := List.le_snd_of_mem_zipIdx hp'
        have : p.2 ∉ ds := fun h => by have := hp.1 _ h; omega
        have : p.2 ≠ d := by omega
        simp [*]
      · intro p hp'
        have h2 := List.le_snd_of_mem_zipIdx hp'
        have : p.2 ∉ ds := fun h => by have := hp.1 _ h; omega
        simp [this]

theorem sortDesc_spec (l : List ℕ) (h : l.Nodup) :
    (sortDesc l).Pairwise (· > ·) ∧ (sortDesc l).Perm l := by
  have hperm := List.perm_insertionSort (· ≥ ·) l
  refine ⟨?_, hperm⟩
  have h1 : (sortDesc l).Pairwise (· ≥ ·) := List.pairwise_insertionSort _ _
  have h2 : (sortDesc l).Pairwise (· ≠ ·) := hperm.nodup_iff.2 h
  exact (h1.and h2).imp fun ⟨a, b⟩ => lt_of_le_of_ne a (Ne.symm b)

theorem delAll_sortDesc {α : Type} (ds : List ℕ) (l : List α) (h : ds.Nodup)
    (hlt : ∀ d ∈ ds, d < l.length) : delAll (sortDesc ds) l = .ok (keepIdx l ds) := by
  obtain ⟨h1, h2⟩ := sortDesc_spec ds h
  rw [delAll_ok _ _ h1 fun d hd => hlt d (h2.mem_iff.1 hd), keepIdx_congr l fun c => h2.mem_iff]

theorem length_keepIdx {α : Type} (l : List α) (ds : List ℕ) (h : ds.Nodup)
    (hlt : ∀ d ∈ ds, d < l.length) : (keepIdx l ds).length + ds.length = l.length := by
  unfold keepIdx
  rw [List.length_map]
  have h1 : ((l.zipIdx.filter fun p => p.2 ∉ ds).map Prod.snd)
      = (List.range l.length).filter fun c => c ∉ ds := by
    have : List.range l.length = l.zipIdx.map Prod.snd := by
      rw [List.zipIdx_map_snd, List.range_eq_range']
    rw [this, List.filter_map]; rfl
  have h2 : (l.zipIdx.filter fun p => p.2 ∉ ds).length
      = ((List.range l.length).filter fun c => c ∉ ds).length := by
    rw [← h1, List.length_map]
  rw [h2]
  have h3 : ((List.range l.length).filter fun c => c ∈ ds).Perm ds := by
    rw [List.perm_ext_iff_of_nodup (List.nodup_range.filter _) h]
    intro a
    simp only [List.mem_filter, List.mem_range, decide_eq_true_iff]
    exact ⟨fun h => h.2, fun h => ⟨hlt a h, h⟩⟩
  have h4 := List.length_eq_length_filter_add (l := List.range l.length) fun c => decide (c ∈ ds)
  rw [List.length_range, h3.length_eq] at h4
  have h5 : ((List.range l.length).filter fun c => !decide (c ∈ ds))
      = (List.range l.length).filter fun c => decide (c ∉ ds) :=
    List.filter_congr fun c _ => by simp
  rw [h5] at h4
  omega

theorem pyMin_ok (l : List ℕ) (h : l ≠ []) : ∃ m ∈ l, pyMin l = .ok m ∧ ∀ a ∈ l, m ≤ a := by
  cases l with
  | nil => exact absurd rfl h
  | cons a l =>
    refine ⟨l.foldl min a, ?_, rfl, ?_⟩
    · clear h
      induction l generalizing a with
      | nil => simp
      | cons b l ih =>
        rw [List.foldl_cons]
        have := ih (min a b)
        rcases List.mem_cons.1 this with h | h
        · rw [h]
          rcases min_choice a b with h' | h' <;> rw [h'] <;> simp
        · simp [h]
    · clear h
      intro c hc
      induction l generalizing a c with
      | nil => simp at hc; simp [hc]
      | cons b l ih =>
        rw [List.foldl_cons]
        rcases List.mem_cons.1 hc with rfl | hc
        · exact (ih (min c b) (min c b) (by simp)).trans (min_le_left _ _)
        · rcases List.mem_cons.1 hc with rfl | hc
          · exact (ih (min a c) (min a c) (by simp)).trans (min_le_right _ _)
          · exact ih (min a b) c (by simp [hc])

/-- The scenarios of the merged subset, in the order the code puts them. -/
def mergedList (P : List (List ℕ)) (mn : ℕ) (others : List ℕ) : List ℕ :=
  P.getD mn [] ++ (others.map fun c => P.getD c []).flatten

theorem mergeTwo_ok {P : List (List ℕ)} {mn c : ℕ} {ts ds : List ℕ} (hmn : mn < P.length)
    (hc : c < P.length) (hlt : mn < c) :
    mergeTwo ⟨P, ts, ds⟩ mn c = .ok
      ⟨P.set mn (P.getD mn [] ++ P.getD c []), if mn ∈ ts then ts else ts ++ [mn], ds ++ [c]⟩ := by
  unfold mergeTwo
  rw [min_eq_left hlt.le, max_eq_right hlt.le]
  simp only
  rw [pyGet_of_lt [] hmn, pyGet_of_lt [] hc]
  simp only [bind, Except.bind, pySet]
  rw [if_pos hmn]
  rfl

theorem mergeAllLoop_ok {P : List (List ℕ)} {mn : ℕ} (hmn : mn < P.length) :
    ∀ (cs done ts : List ℕ), cs.Nodup → (∀ c ∈ cs, mn ≤ c ∧ c < P.length) →
      mergeAllLoop mn cs ⟨P.set mn (mergedList P mn done), ts, done⟩ = .ok
        ⟨P.set mn (mergedList P mn (done ++ cs.filter (· ≠ mn))),
         (if ∃ c ∈ cs, c ≠ mn then (if mn ∈ ts then ts else ts ++ [mn]) else ts),
         done ++ cs.filter (· ≠ mn)⟩ := by
  intro cs
  induction cs with
  | nil => intro done ts _ _; simp [mergeAllLoop]
  | cons c cs ih =>
    intro done ts hnd hcs
    rw [List.nodup_cons] at hnd
    obtain ⟨h1, h2⟩ := hcs c (by simp)
    rw [mergeAllLoop]
    by_cases hc : c = mn
    · rw [if_neg (by simpa using hc), ih done ts hnd.2 fun d hd => hcs d (by simp [hd])]
      simp [hc]
    · rw [if_pos hc, mergeTwo_ok (by simpa using hmn) (by simpa using h2) (by omega)]
      simp only [bind, Except.bind]
      have e1 : (P.set mn (mergedList P mn done)).getD mn [] = mergedList P mn done := by
        rw [List.getD_eq_getElem _ _ (by simpa using hmn)]; simp
      have e2 : (P.set mn (mergedList P mn done)).getD c [] = P.getD c [] := by
        rw [List.getD_eq_getElem _ _ (by simpa using h2), List.getD_eq_getElem _ _ h2,
          List.getElem_set_ne (fun h => hc h.symm)]
      rw [e1, e2, List.set_set]
      have e3 : mergedList P mn done ++ P.getD c [] = mergedList P mn (done ++ [c]) := by
        simp [mergedList]
      rw [e3, ih _ _ hnd.2 fun d hd => hcs d (by simp [hd])]
      have e4 : (c :: cs).filter (· ≠ mn) = c :: cs.filter (· ≠ mn) := by simp [hc]
      rw [e4]
      simp only [List.append_assoc, List.singleton_append]
      congr 2
      have : ∃ d ∈ c :: cs, d ≠ mn := ⟨c, by simp, hc⟩
      rw [if_pos this]
      by_cases hts : mn ∈ ts <;> simp [hts]

theorem mergeAll_ok {P : List (List ℕ)} {cs : List ℕ} (hne : cs ≠ []) (hnd : cs.Nodup)
    (hlt : ∀ c ∈ cs, c < P.length) :
    ∃ mn ∈ cs, (∀ c ∈ cs, mn ≤ c) ∧ mergeAll P cs = .ok
      ⟨keepIdx (P.set mn (mergedList P mn (cs.filter (· ≠ mn)))) (cs.filter (· ≠ mn)),
       (if ∃ c ∈ cs, c ≠ mn then [mn] else []), cs.filter (· ≠ mn)⟩ := by
  obtain ⟨mn, hmn, hmin, hle⟩ := pyMin_ok cs hne
  refine ⟨mn, hmn, hle, ?_⟩
  have hloop := mergeAllLoop_ok (P := P) (mn := mn) (hlt mn hmn) cs [] [] hnd
    fun c hc => ⟨hle c hc, hlt c hc⟩
  have h0 : P.set mn (mergedList P mn []) = P := by
    simp only [mergedList, List.map_nil, List.flatten_nil, List.append_nil]
    rw [List.getD_eq_getElem _ _ (hlt mn hmn)]; simp
  rw [h0] at hloop
  simp only [List.nil_append, List.not_mem_nil, if_false] at hloop
  have hndf : (cs.filter (· ≠ mn)).Nodup := hnd.filter _
  have hltf : ∀ d ∈ cs.filter (· ≠ mn),
      d < (P.set mn (mergedList P mn (cs.filter (· ≠ mn)))).length := fun d hd => by
    simpa using hlt d (List.mem_of_mem_filter hd)
  unfold mergeAll
  rw [hmin]
  simp only [bind, Except.bind]
  rw [hloop]
  simp only [deleteSubsets, bind, Except.bind]
  rw [delAll_sortDesc _ _ hndf hltf]
  simp only [pure, Except.pure]
  rw [pyAssert_true (by
    have := length_keepIdx _ _ hndf hltf
    simpa using this)]

/-- The entries of a list are those at the indices `cs` and the others. -/
theorem perm_keepIdx {α : Type} (l : List α) (d : α) {cs : List ℕ} (hnd : cs.Nodup)
    (hlt : ∀ c ∈ cs, c < l.length) :
    l.Perm ((cs.map fun c => l.getD c d) ++ keepIdx l cs) := by
  have h1 := List.filter_append_perm (fun p : α × ℕ => decide (p.2 ∈ cs)) l.zipIdx
  have h2 := (h1.map Prod.fst).symm
  rw [List.zipIdx_map_fst, List.map_append] at h2
  refine h2.trans (List.Perm.append ?_ ?_)
  · have h3 : (l.zipIdx.filter fun p => decide (p.2 ∈ cs)).map Prod.fst
        = ((l.zipIdx.filter fun p => decide (p.2 ∈ cs)).map Prod.snd).map fun c => l.getD c d := by
      rw [List.map_map]
      refine List.map_congr_left fun p hp => ?_
      have := List.mem_zipIdx_iff_getElem?.1 (List.mem_of_mem_filter hp)
      simp [this]
    rw [h3]
    refine List.Perm.map _ ?_
    have h4 : ((l.zipIdx.filter fun p => decide (p.2 ∈ cs)).map Prod.snd)
        = (List.range l.length).filter fun c => decide (c ∈ cs) := by
      have : List.range l.length = l.zipIdx.map Prod.snd := by
        rw [List.zipIdx_map_snd, List.range_eq_range']
      rw [this, List.filter_map]; rfl
    rw [h4, List.perm_ext_iff_of_nodup (List.nodup_range.filter _) hnd]
    intro a
    simp only [List.mem_filter, List.mem_range, decide_eq_true_iff]
    exact ⟨fun h => h.2, fun h => ⟨hlt a h, h⟩⟩
  · unfold keepIdx
    have : (l.zipIdx.filter fun x => !decide (x.2 ∈ cs)) = l.zipIdx.filter fun p => p.2 ∉ cs :=
      List.filter_congr fun p _ => by simp
    rw [this]

theorem keepIdx_eq_map {α : Type} (l : List α) (d : α) (ds : List ℕ) :
    keepIdx l ds = ((List.range l.length).filter fun c => c ∉ ds).map fun c => l.getD c d := by
  unfold keepIdx
  have h3 : (l.zipIdx.filter fun p => decide (p.2 ∉ ds)).map Prod.fst
      = ((l.zipIdx.filter fun p => decide (p.2 ∉ ds)).map Prod.snd).map fun c => l.getD c d := by
    rw [List.map_map]
    refine List.map_congr_left fun p hp => ?_
    have := List.mem_zipIdx_iff_getElem?.1 (List.mem_of_mem_filter hp)
    simp [this]
  rw [h3]
  congr 1
  have : List.range l.length = l.zipIdx.map Prod.snd := by
    rw [List.zipIdx_map_snd, List.range_eq_range']
  rw [this, List.filter_map]; rfl

theorem getD_set {α : Type} (l : List α) (k c : ℕ) (v d : α) (hk : k < l.length) :
    (l.set k v).getD c d = if c = k then v else l.getD c d := by
  simp only [List.getD_eq_getElem?_getD, List.getElem?_set]
  by_cases h : k = c
  · subst h; simp [hk]
  · rw [if_neg h, if_neg (Ne.symm h)]

/-- Entries kept after replacing entry `k`. -/
theorem keepIdx_set_perm {α : Type} (l : List α) (k : ℕ) (v : α) {ds : List ℕ}
    (hk : k < l.length) (hkd : k ∉ ds) :
    (keepIdx (l.set k v) ds).Perm (v :: keepIdx l (k :: ds)) := by
  rw [keepIdx_eq_map _ v, keepIdx_eq_map _ v, List.length_set]
  have h1 : ((List.range l.length).filter fun c => decide (c ∉ ds)).Perm
      (k :: (List.range l.length).filter fun c => decide (c ∉ k :: ds)) := by
    rw [List.perm_ext_iff_of_nodup (List.nodup_range.filter _)]
    · intro a
      simp only [List.mem_filter, List.mem_range, decide_eq_true_iff, List.mem_cons, not_or]
      constructor
      · rintro ⟨h1, h2⟩
        by_cases h : a = k
        · exact Or.inl h
        · exact Or.inr ⟨h1, h, h2⟩
      · rintro (rfl | ⟨h1, _, h2⟩)
        · exact ⟨hk, hkd⟩
        · exact ⟨h1, h2⟩
    · rw [List.nodup_cons]
      exact ⟨by simp, List.nodup_range.filter _⟩
  refine (h1.map _).trans ?_
  rw [List.map_cons, getD_set l k k v v hk, if_pos rfl]
  refine List.Perm.cons _ (List.Perm.of_eq (List.map_congr_left fun c hc => ?_))
  have : c ≠ k := by
    have := (List.mem_filter.1 hc).2
    simp only [decide_eq_true_iff, List.mem_cons, not_or] at this
    exact this.1
  rw [getD_set l k c v v hk, if_neg this]

/-- The kept entry at an index below all deleted ones stays in place. -/
theorem keepIdx_getD {α : Type} (l : List α) (d : α) {ds : List ℕ} {k : ℕ}
    (hk : k < l.length) (h : ∀ c ∈ ds, k < c) : (keepIdx l ds).getD k d = l.getD k d := by
  rw [keepIdx_eq_map l d]
  have h1 : List.range l.length = List.range (k + 1) ++ List.range' (k + 1) (l.length - (k + 1)) := by
    rw [List.range_eq_range', List.range_eq_range', List.range'_eq_append_iff]
    exact ⟨k + 1, by omega, rfl, by simp⟩
  have h2 : ((List.range (k + 1)).filter fun c => decide (c ∉ ds)) = List.range (k + 1) := by
    rw [List.filter_eq_self]
    intro a ha
    have := List.mem_range.1 ha
    simp only [decide_eq_true_iff]
    intro had
    have := h a had
    omega
  rw [h1, List.filter_append, h2, List.map_append]
  rw [List.getD_eq_getElem?_getD, List.getElem?_append_left (by simp)]
  simp

/-- The effect of `merge_all` on the multiset of subsets. -/
theorem mergeAll_perm {P : List (List ℕ)} {cs : List ℕ} (hne : cs ≠ []) (hnd : cs.Nodup)
    (hlt : ∀ c ∈ cs, c < P.length) :
    ∃ st merged, mergeAll P cs = .ok st
      ∧ st.partition.Perm (merged :: keepIdx P cs)
      ∧ merged.Perm (cs.map fun c => P.getD c []).flatten
      ∧ P.Perm ((cs.map fun c => P.getD c []) ++ keepIdx P cs) := by
  obtain ⟨mn, hmn, hle, h⟩ := mergeAll_ok hne hnd hlt
  refine ⟨_, mergedList P mn (cs.filter (· ≠ mn)), h, ?_, ?_, perm_keepIdx P [] hnd hlt⟩
  · refine (keepIdx_set_perm P mn _ (hlt mn hmn) (by simp)).trans (List.Perm.cons _ ?_)
    rw [keepIdx_congr P (es := cs)]
    intro c
    simp only [List.mem_cons, List.mem_filter, decide_eq_true_iff]
    constructor
    · rintro (rfl | h)
      · exact hmn
      · exact h.1
    · intro h
      by_cases hc : c = mn
      · exact Or.inl hc
      · exact Or.inr ⟨h, hc⟩
  · have h1 : cs.Perm (mn :: cs.filter (· ≠ mn)) := by
      rw [List.perm_ext_iff_of_nodup hnd
        (List.nodup_cons.2 ⟨by simp, hnd.filter _⟩)]
      intro c
      simp only [List.mem_cons, List.mem_filter, decide_eq_true_iff]
      constructor
      · intro h
        by_cases hc : c = mn
        · exact Or.inl hc
        · exact Or.inr ⟨h, hc⟩
      · rintro (rfl | h)
        · exact hmn
        · exact h.1
    exact (List.Perm.flatten (h1.map fun c => P.getD c [])).symm

end Verif.Model
