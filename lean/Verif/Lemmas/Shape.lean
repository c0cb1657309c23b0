import Verif.Lemmas.CostRefiner

/-!
# What a refinement that returns guarantees, whatever the solver answered
-/

namespace Verif.Model
open Spec

/-- Bookkeeping during a refinement of `P0`, independent of the answers of the solver. -/
structure RShape (P0 : List (List ℕ)) (st : RState) : Prop where
  len : st.partition.length = P0.length + st.muCounter
  nodup : st.newSubsets.Nodup
  newIdx : (st.newSubsets.filter fun c => P0.length ≤ c) = List.range' P0.length st.muCounter
  lt : ∀ c ∈ st.newSubsets, c < st.partition.length
  same : ∀ c < P0.length, c ∉ st.newSubsets → st.partition.getD c [] = P0.getD c []

theorem RShape.init (P : List (List ℕ)) : RShape P (RState.init P) := by
  constructor <;> simp [RState.init]

theorem RShape.calls {P0 : List (List ℕ)} {st : RState} (h : RShape P0 st) (k : ℕ) :
    RShape P0 { st with calls := k } := ⟨h.1, h.2, h.3, h.4, h.5⟩

theorem RShape.split {P0 : List (List ℕ)} {st : RState} (h : RShape P0 st) {c : ℕ}
    (hc : c < st.partition.length) (l r : List ℕ) :
    RShape P0 (st.record (st.partition.set c l ++ [r]) c) := by
  have hlen : (st.partition.set c l ++ [r]).length = st.partition.length + 1 := by simp
  set ns := if c ∈ st.newSubsets then st.newSubsets else st.newSubsets ++ [c] with hns
  have hnew : ∀ a, a ∈ ns ↔ a ∈ st.newSubsets ∨ a = c := fun a => by
    rw [hns]; split
    · constructor
      · exact Or.inl
      · rintro (h | rfl) <;> assumption
    · simp
  constructor
  · show (st.partition.set c l ++ [r]).length = P0.length + (st.muCounter + 1)
    rw [hlen, h.len]; omega
  · show (ns ++ [_ - 1]).Nodup
    rw [hlen]
    have hn : ns.Nodup := by
      rw [hns]; split
      · exact h.nodup
      · rw [List.nodup_append]
        refine ⟨h.nodup, by simp, fun a ha b hb => ?_⟩
        rw [List.mem_singleton.1 hb]; rintro rfl; contradiction
    rw [List.nodup_append]
    refine ⟨hn, by simp, fun a ha b hb => ?_⟩
    rw [List.mem_singleton.1 hb]
    have : a < st.partition.length := by
      rcases (hnew a).1 ha with ha | rfl
      · exact h.lt a ha
      · exact hc
    omega
  · show ((ns ++ [_ - 1]).filter _) = List.range' P0.length (st.muCounter + 1)
    rw [hlen, List.filter_append, List.range'_concat]
    have h1 : (ns.filter fun c => decide (P0.length ≤ c)) = List.range' P0.length st.muCounter := by
      rw [← h.newIdx, hns]; split
      · rfl
      · rename_i hcn
        rw [List.filter_append]
        have : c < P0.length := by
          by_contra hge
          have : c ∈ st.newSubsets.filter fun c => decide (P0.length ≤ c) := by
            rw [h.newIdx, List.mem_range'_1]
            have := h.len; omega
          exact hcn (List.mem_of_mem_filter this)
        simp [this]
    rw [h1]
    have : P0.length ≤ st.partition.length + 1 - 1 := by have := h.len; omega
    simp only [List.filter_cons, this, decide_true, if_true, List.filter_nil]
    rw [h.len]; simp
  · intro a ha
    show a < (st.partition.set c l ++ [r]).length
    rw [hlen]
    rcases List.mem_append.1 ha with ha | ha
    · rcases (hnew a).1 ha with ha | rfl
      · have := h.lt a ha; omega
      · omega
    · have := List.mem_singleton.1 ha; rw [hlen] at this; omega
  · intro a ha hna
    have hna1 : a ∉ ns := fun h' => hna (List.mem_append_left _ h')
    rw [hnew] at hna1
    push Not at hna1
    show (st.partition.set c l ++ [r]).getD a [] = _
    rw [getD_set_append (by have := h.len; omega), if_neg hna1.2]
    exact h.same a ha hna1.1

theorem pyGet_lt {α : Type} {l : List α} {k : ℕ} {a : α} (h : pyGet l k = .ok a) :
    k < l.length := by
  unfold pyGet at h
  cases h1 : l[k]? with
  | none => rw [h1] at h; cases h
  | some b => exact (List.getElem?_eq_some_iff.1 h1).1

theorem traverse_shape {flags : List Bool} {mu : ℕ} {sh : ℕ → Shuffle} {nb : List ℕ}
    {P0 : List (List ℕ)} : ∀ (cs : List ℕ) (st st' : RState), RShape P0 st →
      traverse flags mu sh nb cs st = .ok st' → RShape P0 st'
  | [], st, st', h, ht => by cases ht; exact h
  | c :: cs, st, st', h, ht => by
    rw [traverse] at ht
    split at ht
    · simp only [bind, Except.bind] at ht
      split at ht
      · cases ht
      · split at ht
        · split at ht
          · cases ht
          · next p hp =>
            split at ht
            · cases ht
            · next P hP =>
              refine traverse_shape cs _ _ ?_ ht
              have hlt := pyGet_lt hp
              unfold splitScenariosSubset at hP
              simp only [bind, Except.bind] at hP
              repeat' split at hP
              all_goals first
                | (cases hP; done)
                | (cases hP; exact (h.calls (st.calls + 1)).split hlt _ _)
        · exact traverse_shape cs _ _ h ht
    · exact traverse_shape cs _ _ h ht

theorem randomLoop_shape {F : CheckOut} {mu : ℕ} {sh : ℕ → Shuffle} {P0 : List (List ℕ)} :
    ∀ (fuel : ℕ) (st st' : RState), RShape P0 st → randomLoop F mu sh fuel st = .ok st' →
      RShape P0 st'
  | 0, st, st', h, hr => by
    rw [randomLoop] at hr
    split at hr
    · cases hr
    · cases hr; exact h
  | fuel + 1, st, st', h, hr => by
    rw [randomLoop] at hr
    split at hr
    · simp only [bind, Except.bind] at hr
      split at hr
      · cases hr
      · next st1 h1 =>
        exact randomLoop_shape fuel _ _ (traverse_shape _ _ _ (h.calls _) h1) hr
    · cases hr; exact h

theorem evaluateSplit_base {I : Inst} {F : CheckOut} {solve : ℕ → GModel → GResult}
    {st st' : CState} {c : ℕ} (h : evaluateSplit I F solve st c = .ok st') :
    ∃ k, st'.base = { st.base with calls := k } := by
  unfold evaluateSplit at h
  simp only [bind, Except.bind] at h
  repeat' split at h
  all_goals first
    | (cases h; done)
    | (cases h; exact ⟨_, rfl⟩)

theorem evaluate_fold_base {I : Inst} {F : CheckOut} {solve : ℕ → GModel → GResult} :
    ∀ (cs : List ℕ) {st st' : CState}, cs.foldlM (evaluateSplit I F solve) st = .ok st' →
      ∃ k, st'.base = { st.base with calls := k }
  | [], st, st', h => by cases h; exact ⟨_, rfl⟩
  | c :: cs, st, st', h => by
    rw [List.foldlM_cons] at h
    cases h1 : evaluateSplit I F solve st c with
    | error e => rw [h1] at h; cases h
    | ok st1 =>
      rw [h1] at h
      obtain ⟨k1, hk1⟩ := evaluateSplit_base h1
      obtain ⟨k2, hk2⟩ := evaluate_fold_base cs h
      exact ⟨k2, by rw [hk2, hk1]⟩

theorem updateOld_base {I : Inst} {F : CheckOut} {solve : ℕ → GModel → GResult} {nb : List ℕ}
    {st st' : CState} {c : ℕ} (h : updateOld I F solve nb st c = .ok st') :
    ∃ k, st'.base = { st.base with calls := k } := by
  unfold updateOld at h
  split at h
  · exact evaluateSplit_base h
  · simp only [bind, Except.bind] at h
    split at h
    · cases h
    · cases h; exact ⟨_, rfl⟩

theorem updateNew_base {I : Inst} {F : CheckOut} {solve : ℕ → GModel → GResult} {nb : List ℕ}
    {st st' : CState} {c : ℕ} (h : updateNew I F solve nb st c = .ok st') :
    ∃ k, st'.base = { st.base with calls := k } := by
  unfold updateNew at h
  split at h
  · exact evaluateSplit_base h
  · cases h; exact ⟨_, rfl⟩

theorem performSplit_shape {I : Inst} {F : CheckOut} {solve : ℕ → GModel → GResult}
    {vUB : WithTop ℚ} {P0 : List (List ℕ)} {st st' : CState} (h : RShape P0 st.base)
    (hs : performSplit I F solve vUB st = .ok st') :
    RShape P0 st'.base ∧ st'.base.muCounter = st.base.muCounter + 1 := by
  unfold performSplit at hs
  simp only [bind, Except.bind] at hs
  cases hc : chooseSplit vUB st.post with
  | error e => rw [hc] at hs; cases hs
  | ok c =>
    rw [hc] at hs
    simp only at hs
    cases hl : assocGet st.left c with
    | error e => rw [hl] at hs; cases hs
    | ok l =>
      rw [hl] at hs
      simp only at hs
      cases hP : pySet st.base.partition c l with
      | error e => rw [hP] at hs; cases hs
      | ok P =>
        rw [hP] at hs
        simp only at hs
        cases hr : assocGet st.right c with
        | error e => rw [hr] at hs; cases hs
        | ok r =>
          rw [hr] at hs
          simp only at hs
          have hclt : c < st.base.partition.length ∧ P = st.base.partition.set c l := by
            unfold pySet at hP
            split at hP
            · cases hP; exact ⟨‹_›, rfl⟩
            · cases hP
          split at hs
          · cases hs
          · next st1 h1 =>
            split at hs
            · cases hs
            · next st2 h2 =>
              cases hs
              obtain ⟨k1, e1⟩ := updateOld_base h1
              obtain ⟨k2, e2⟩ := updateNew_base h2
              simp only at e1 ⊢
              have e3 : st2.base = { st.base with partition := P ++ [r], calls := k2 } := by
                rw [e2, e1]
              rw [e3, hclt.2]
              exact ⟨(h.calls k2).split hclt.1 l r, rfl⟩

theorem costLoop_shape {I : Inst} {F : CheckOut} {solve : ℕ → GModel → GResult}
    {vUB : WithTop ℚ} {P0 : List (List ℕ)} {mu : ℕ} :
    ∀ (fuel : ℕ) (st st' : CState), RShape P0 st.base →
      costLoop I F solve vUB mu fuel st = .ok st' → RShape P0 st'.base
  | 0, st, st', h, hr => by
    rw [costLoop] at hr
    split at hr
    · cases hr
    · cases hr; exact h
  | fuel + 1, st, st', h, hr => by
    rw [costLoop] at hr
    split at hr
    · simp only [bind, Except.bind] at hr
      split at hr
      · cases hr
      · next st1 h1 => exact costLoop_shape fuel _ _ (performSplit_shape h h1).1 hr
    · cases hr; exact h

/-- What a refinement of `P` that returns guarantees, whatever the solver answered. -/
structure ReShape (N : ℕ) (P : List (List ℕ)) (out : RefineOut) : Prop where
  part : IsPartition N out.partition
  muPos : 1 ≤ out.mu
  len : out.partition.length = P.length + out.mu
  nodup : out.newSubsets.Nodup
  newIdx : (out.newSubsets.filter fun c => P.length ≤ c) = List.range' P.length out.mu
  lt : ∀ c ∈ out.newSubsets, c < out.partition.length
  same : ∀ c < P.length, c ∉ out.newSubsets → out.partition.getD c [] = P.getD c []
  feasLt : ∀ c ∈ out.feasibleSubsets, c < out.partition.length
  feasNodup : out.feasibleSubsets.Nodup

theorem pyAssert_inv {m : String} {p : Prop} [Decidable p] {u : Unit}
    (h : pyAssert m p = .ok u) : p := by
  by_contra hp
  rw [pyAssert_false hp] at h
  cases h

theorem numberOfSplits_pos {I : Inst} {k mu : ℕ} (h : numberOfSplits I k = .ok mu) : 1 ≤ mu := by
  unfold numberOfSplits at h
  simp only [bind, Except.bind] at h
  split at h
  · cases h
  · next h1 =>
    have := pyAssert_inv h1
    have h2 : (⌊I.eps * (I.N : ℚ)⌋ + 1 - (k : ℤ)).toNat = mu := Except.ok.inj h
    omega

theorem finishRefine_shape {I : Inst} {F : CheckOut} {P : List (List ℕ)} {mu : ℕ} {st : RState}
    {out : RefineOut} (h : finishRefine I F P mu st = .ok out) (hs : RShape P st)
    (hmu : 1 ≤ mu) : ReShape I.N P out := by
  unfold finishRefine checkFinalPartition at h
  simp only [bind, Except.bind] at h
  split at h
  · cases h
  · next h1 =>
    have h1 := pyAssert_inv h1
    split at h
    · cases h
    · next hcheck =>
      split at hcheck
      · cases hcheck
      split at hcheck
      · cases hcheck
      next hne =>
      split at hcheck
      · cases hcheck
      split at hcheck
      · cases hcheck
      split at hcheck
      · cases hcheck
      next hset =>
      split at hcheck
      · cases hcheck
      next hlen =>
      cases h
      have hne := pyAssert_inv hne
      have hset := pyAssert_inv hset
      have hlen := pyAssert_inv hlen
      have hnd : st.partition.flatten.Nodup := by
        rw [← Multiset.coe_nodup, ← Multiset.toFinset_card_eq_card_iff_nodup]
        show st.partition.flatten.toFinset.card = st.partition.flatten.length
        rw [hset, hlen, List.toFinset_card_of_nodup List.nodup_range, List.length_range]
      refine ⟨⟨?_, hne⟩, hmu, by rw [hs.len, h1], hs.nodup, by rw [hs.newIdx, h1], hs.lt, hs.same,
        ?_, ?_⟩
      · rw [List.perm_ext_iff_of_nodup hnd List.nodup_range]
        intro a
        rw [← List.mem_toFinset, hset, List.mem_toFinset]
      · intro c hc
        exact List.mem_range.1 (List.mem_of_mem_filter hc)
      · exact List.nodup_range.filter _

theorem refineRandom_shape {I : Inst} {F : CheckOut} {sh : ℕ → Shuffle} {a : Bool} {fuel : ℕ}
    {P : List (List ℕ)} {out : RefineOut} (h : refineRandom I F sh a fuel P = .ok out) :
    ReShape I.N P out := by
  unfold refineRandom at h
  simp only [bind, Except.bind] at h
  split at h
  · cases h
  · next mu hmu =>
    cases a
    · simp only [Bool.false_eq_true, if_false] at h
      split at h
      · cases h
      · next st hst =>
        exact finishRefine_shape h (randomLoop_shape _ _ _ (RShape.init P) hst)
          (numberOfSplits_pos hmu)
    · cases h

theorem refineCost_shape {I : Inst} {F : CheckOut} {solve : ℕ → GModel → GResult}
    {argsort : Argsort} {costs : List ℚ} {vUB : WithTop ℚ} {mem mem' : Memory} {fuel : ℕ}
    {P : List (List ℕ)} {out : RefineOut}
    (h : refineCost I F solve argsort costs vUB mem fuel P = .ok (out, mem')) :
    ReShape I.N P out := by
  unfold refineCost at h
  simp only [bind, Except.bind] at h
  split at h
  · cases h
  · next mu hmu =>
    split at h
    · cases h
    · split at h
      · cases h
      · next st1 h1 =>
        split at h
        · cases h
        · next st2 h2 =>
          split at h
          · cases h
          · next o ho =>
            cases h
            have hb : ∃ k, st1.base = { RState.init P with calls := k } := by
              unfold evaluateSplits at h1
              simp only [bind, Except.bind] at h1
              split at h1
              · cases h1
              · exact evaluate_fold_base _ h1
            obtain ⟨k, hk⟩ := hb
            refine finishRefine_shape ho (costLoop_shape _ _ _ ?_ h2) (numberOfSplits_pos hmu)
            rw [hk]; exact (RShape.init P).calls k

end Verif.Model
