import Verif.Lemmas.Refiner
import Verif.Lemmas.Optim

namespace Verif.Model
open Spec

/-! ## Association lists -/

theorem assocGet_mem {κ β : Type} [DecidableEq κ] {d : List (κ × β)} {k : κ} {v : β}
    (h : assocGet d k = .ok v) : (k, v) ∈ d := by
  unfold assocGet at h
  cases hf : d.find? fun p => p.1 = k with
  | none => rw [hf] at h; cases h
  | some p =>
    rw [hf] at h
    cases h
    have h1 := List.find?_some hf
    have h2 := List.mem_of_find?_eq_some hf
    simp only [decide_eq_true_iff] at h1
    rw [← h1]; exact h2

theorem assocGet_set {κ β : Type} [DecidableEq κ] (d : List (κ × β)) (k k' : κ) (v : β) :
    assocGet (assocSet d k v) k' = if k' = k then .ok v else assocGet d k' := by
  unfold assocSet
  by_cases hk : k ∈ d.map Prod.fst
  · rw [if_pos hk]
    induction d with
    | nil => simp at hk
    | cons p d ih =>
      unfold assocGet at ih ⊢
      simp only [List.map_cons, List.find?_cons]
      by_cases hp : p.1 = k
      · by_cases hk' : k' = k
        · simp [hp, hk']
        · have : ¬ k = k' := fun h => hk' h.symm
          simp only [hp, if_true, this, decide_false, if_neg hk']
          by_cases hkd : k ∈ d.map Prod.fst
          · have := ih hkd
            rw [if_neg hk'] at this; exact this
          · have hid : (d.map fun p => if p.1 = k then (k, v) else p) = d := by
              conv_rhs => rw [← List.map_id d]
              refine List.map_congr_left fun q hq => ?_
              have : q.1 ≠ k := by rintro rfl; exact hkd (List.mem_map_of_mem hq)
              simp [this]
            rw [hid]
      · simp only [if_neg hp]
        have hkd : k ∈ d.map Prod.fst := by
          rcases List.mem_cons.1 hk with h | h
          · exact absurd h.symm hp
          · exact h
        by_cases hpk : p.1 = k'
        · have : ¬ k' = k := fun h => hp (hpk.trans h)
          simp [hpk, this]
        · simp only [hpk, decide_false]
          exact ih hkd
  · rw [if_neg hk]
    unfold assocGet
    rw [List.find?_append]
    by_cases hk' : k' = k
    · subst hk'
      have : d.find? (fun p => decide (p.1 = k')) = none := by
        rw [List.find?_eq_none]
        intro q hq hq2
        simp only [decide_eq_true_iff] at hq2
        exact hk (hq2 ▸ List.mem_map_of_mem hq)
      rw [this]; simp
    · have : ¬ k = k' := fun h => hk' h.symm
      rw [if_neg hk']
      cases hf : d.find? (fun p => decide (p.1 = k')) <;> simp [this]

theorem mem_assocSet_keys {κ β : Type} [DecidableEq κ] (d : List (κ × β)) (k k' : κ) (v : β) :
    k' ∈ (assocSet d k v).map Prod.fst ↔ k' = k ∨ k' ∈ d.map Prod.fst := by
  unfold assocSet
  by_cases hk : k ∈ d.map Prod.fst
  · rw [if_pos hk]
    have : (d.map fun p => if p.1 = k then (k, v) else p).map Prod.fst = d.map Prod.fst := by
      rw [List.map_map]
      refine List.map_congr_left fun p _ => ?_
      by_cases hp : p.1 = k <;> simp [hp]
    rw [this]
    constructor
    · exact Or.inr
    · rintro (rfl | h) <;> assumption
  · rw [if_neg hk, List.map_append, List.mem_append]
    simp [or_comm]

theorem mem_assocSet {κ β : Type} [DecidableEq κ] {d : List (κ × β)} {k : κ} {v : β}
    {p : κ × β} (h : p ∈ assocSet d k v) : p = (k, v) ∨ p ∈ d := by
  unfold assocSet at h
  split at h
  · obtain ⟨q, hq, rfl⟩ := List.mem_map.1 h
    by_cases hqk : q.1 = k
    · simp [hqk]
    · simp [hqk, hq]
  · rcases List.mem_append.1 h with h | h
    · exact Or.inr h
    · exact Or.inl (List.mem_singleton.1 h)

/-! ## The memory -/

/-- The cost of a list of scenarios is at most `v`. -/
def CostBound (I : Inst) (l : List ℕ) (v : ℚ) : Prop :=
  ∀ x, InBox I.n x → SatAll I l x → obj I x ≤ v

/-- A stored split is valid for its key `(scenarios, infeasible scenarios)`; `Q` is what is known of
the parts and the cost. -/
structure SplitOk (Q : List ℕ → ℚ → Prop) (S T : Finset ℕ) (sp : Split) : Prop where
  nodup : (sp.left ++ sp.right).Nodup
  all : (sp.left ++ sp.right).toFinset = S
  left : ∃ s ∈ sp.left, s ∈ T
  right : ∃ s ∈ sp.right, s ∈ T
  leftBound : Q sp.left sp.cost
  rightBound : Q sp.right sp.cost
  low : -(10 ^ 6) ≤ sp.cost

/-- Every stored split is valid. -/
def MemOk (Q : List ℕ → ℚ → Prop) (mem : Memory) : Prop := ∀ e ∈ mem, SplitOk Q e.1.1 e.1.2 e.2

/-- A solver whose answers to split problems give valid splits. -/
def Splitter (I : Inst) (Q : List ℕ → ℚ → Prop) (solve : ℕ → GModel → GResult) : Prop :=
  ∀ k (scenarios inf : List ℕ), scenarios.Nodup → (∀ s ∈ scenarios, s < I.N) →
    2 ≤ (scenarios.countP fun s => s ∈ inf) →
    ∃ sp, accurateObjSplit I (solve k) scenarios inf = .ok sp
      ∧ SplitOk Q scenarios.toFinset inf.toFinset sp

theorem accObj_feasible_two {J : CI} {scenarios inf : List ℕ}
    (htwo : 2 ≤ scenarios.countP fun s => s ∈ inf) :
    ∃ ρ, (buildAccObj J scenarios inf).Feas ρ := by
  have hlen : 2 ≤ ((List.range scenarios.length).filter
      fun s => decide (scenarios.getD s 0 ∈ inf)).length := by
    rw [← List.countP_eq_length_filter]
    have h3 : ((List.range scenarios.length).map fun s => scenarios.getD s 0) = scenarios := by
      apply List.ext_getElem
      · simp
      · intro i h1 h2; simp [List.getElem?_eq_getElem h2]
    conv at htwo => rw [← h3, List.countP_map]
    exact htwo
  have hnd2 : ((List.range scenarios.length).filter
      fun s => decide (scenarios.getD s 0 ∈ inf)).Nodup := List.nodup_range.filter _
  generalize hL : ((List.range scenarios.length).filter
      fun s => decide (scenarios.getD s 0 ∈ inf)) = L at hlen hnd2
  have hmem : ∀ t ∈ L, t < scenarios.length ∧ scenarios.getD t 0 ∈ inf := fun t ht => by
    rw [← hL, List.mem_filter, List.mem_range, decide_eq_true_iff] at ht; exact ht
  match L, hlen, hnd2, hmem with
  | a :: b :: L, _, hnd2, hmem =>
    have hab : a ≠ b := by
      rintro rfl; simp at hnd2
    exact accObj_feasible _ _ _ hab (hmem a (by simp)).1 (hmem b (by simp)).1
      (hmem a (by simp)).2 (hmem b (by simp)).2

theorem accObj_bounded {J : CI} {scenarios inf : List ℕ}
    (hlow : ∀ ρ, (buildAccObj J scenarios inf).Feas ρ → -(10 ^ 6) ≤ ρ .alpha) :
    (buildAccObj J scenarios inf).Bounded := ⟨-(10 ^ 6), fun ρ hρ => by
  rw [accObj_min, accObj_obj]
  exact hlow ρ hρ⟩

theorem accurateObjSplit_ok {I : Inst} {solve : GModel → GResult} {scenarios inf : List ℕ}
    (hsolve : ∀ g, GResult.Answers g (solve g)) (hnd : scenarios.Nodup)
    (hlow : ∀ ρ, (buildAccObj (instCI I) scenarios inf).Feas ρ → -(10 ^ 6) ≤ ρ .alpha)
    (htwo : 2 ≤ scenarios.countP fun s => s ∈ inf) :
    ∃ sp, accurateObjSplit I solve scenarios inf = .ok sp
      ∧ SplitOk (CostBound I) scenarios.toFinset inf.toFinset sp := by
  set g := buildAccObj (instCI I) scenarios inf with hg
  have hA := hsolve g
  have hfe : ∃ ρ, g.Feas ρ := accObj_feasible_two htwo
  have hbd : g.Bounded := accObj_bounded hlow
  obtain ⟨ρ, hρ⟩ := Option.isSome_iff_exists.1 (hA.solved hbd hfe)
  obtain ⟨hfeas, hval⟩ := hA.valid.feas ρ hρ
  have hval : ρ .alpha = (solve g).objVal := by
    rw [← hval]; exact (accObj_obj _ _ _ _).symm
  refine ⟨⟨(solve g).objVal, (accSubsets scenarios ρ).1, (accSubsets scenarios ρ).2⟩, ?_, ?_⟩
  · unfold accurateObjSplit optimize
    rw [← hg, if_neg hA.notInterrupted]
    simp only [bind, Except.bind, getObjVal, getSol, hρ]
    rfl
  · have hp := accSubsets_perm scenarios ρ
    have hside : ∀ (right : Bool) (x : Vec), InBox I.n x →
        SatAll I (if right then (accSubsets scenarios ρ).2 else (accSubsets scenarios ρ).1) x →
        obj I x ≤ ρ .alpha := fun right x hx hs =>
      accObj_weak_duality hfeas right hx fun s hs' hpi i hi =>
        hs _ (mem_accSubsets hfeas right s hs' hpi) i hi
    constructor
    · exact hp.nodup_iff.2 hnd
    · exact List.toFinset_eq_of_perm _ _ hp
    · obtain ⟨s, h1, h2⟩ := accSubsets_inf hfeas false
      exact ⟨s, h1, List.mem_toFinset.2 h2⟩
    · obtain ⟨s, h1, h2⟩ := accSubsets_inf hfeas true
      exact ⟨s, h1, List.mem_toFinset.2 h2⟩
    · intro x hx hs; rw [← hval]; exact hside false x hx hs
    · intro x hx hs; rw [← hval]; exact hside true x hx hs
    · simp only; rw [← hval]; exact hlow ρ hfeas

/-- The lower bound on the split costs that `free_mergers` relies on. -/
def CostsLow (I : Inst) : Prop :=
  ∀ (scenarios inf : List ℕ) (ρ : V → ℚ), (∀ s ∈ scenarios, s < I.N) →
    (buildAccObj (instCI I) scenarios inf).Feas ρ → -(10 ^ 6) ≤ ρ .alpha

theorem costsLow_of_nonneg {I : Inst} (hb : ∀ s < I.N, ∀ i < I.m, 0 ≤ I.b s i) : CostsLow I := by
  intro scenarios inf ρ hs hfeas
  have := accObj_weak_duality hfeas false (x := fun _ => 0) (fun j _ => by norm_num) (by
    intro t ht _ i hi
    have : dot (instCI I).n ((instCI I).row (scenarios.getD t 0) i) (fun _ => 0) = 0 := by
      simp [dot]
    rw [this]
    refine hb _ (hs _ ?_) i hi
    rw [List.getD_eq_getElem _ _ ht]; exact List.getElem_mem _)
  have h0 : dot (instCI I).n (instCI I).c (fun _ => 0) = 0 := by simp [dot]
  rw [h0] at this
  linarith

theorem splitter_of_answers {I : Inst} (hb : ∀ s < I.N, ∀ i < I.m, 0 ≤ I.b s i)
    {solve : ℕ → GModel → GResult} (h : ∀ k g, GResult.Answers g (solve k g)) :
    Splitter I (CostBound I) solve := fun k scenarios inf hnd hlt htwo =>
  accurateObjSplit_ok (h k) hnd (fun ρ => costsLow_of_nonneg hb scenarios inf ρ hlt) htwo

theorem Splitter.mono {I : Inst} {Q Q' : List ℕ → ℚ → Prop} (hQ : ∀ l v, Q l v → Q' l v)
    {solve : ℕ → GModel → GResult} (h : Splitter I Q solve) : Splitter I Q' solve :=
  fun k scenarios inf h1 h2 h3 => by
    obtain ⟨sp, e, h⟩ := h k scenarios inf h1 h2 h3
    exact ⟨sp, e, h.nodup, h.all, h.left, h.right, hQ _ _ h.leftBound, hQ _ _ h.rightBound, h.low⟩

/-- The split stored for subset `c` is a split of the current subset `c`. -/
def GoodAt (q : ℕ → Bool) (p : List ℕ) (st : CState) (c : ℕ) : Prop :=
  ∃ l r, assocGet st.left c = .ok l ∧ assocGet st.right c = .ok r ∧ (l ++ r).Perm p
    ∧ l.any q = true ∧ r.any q = true

theorem part_nodup {N : ℕ} {P : List (List ℕ)} (hP : IsPartition N P) {p : List ℕ} (hp : p ∈ P) :
    p.Nodup :=
  (List.nodup_flatten.1 (hP.1.nodup_iff.2 List.nodup_range)).1 p hp

theorem evaluateSplit_ok {I : Inst} {Q : List ℕ → ℚ → Prop} {F : CheckOut} {q : ℕ → Bool}
    {solve : ℕ → GModel → GResult} {st : CState} {c : ℕ} (hF : Marks I.N F q)
    (hsolve : Splitter I Q solve)
    (hP : IsPartition I.N st.base.partition) (hc : c < st.base.partition.length)
    (htwo : 2 ≤ (st.base.partition.getD c []).countP q) (hmem : MemOk Q st.memory) :
    ∃ st', evaluateSplit I F solve st c = .ok st'
      ∧ (∃ k, st'.base = { st.base with calls := k }) ∧ MemOk Q st'.memory
      ∧ (∀ c', c' ∈ st'.post.map Prod.fst ↔ c' = c ∨ c' ∈ st.post.map Prod.fst)
      ∧ (∀ p ∈ st'.post, p ∈ st.post ∨ -(10 ^ 6) ≤ p.2)
      ∧ GoodAt q (st.base.partition.getD c []) st' c
      ∧ ∀ c' ≠ c, assocGet st'.left c' = assocGet st.left c'
          ∧ assocGet st'.right c' = assocGet st.right c' := by
  set p := st.base.partition.getD c [] with hp
  have hpm : p ∈ st.base.partition := by
    rw [hp, List.getD_eq_getElem _ _ hc]; exact List.getElem_mem _
  have hnd := part_nodup hP hpm
  have hlt : ∀ s ∈ p, s < I.N := fun s hs => mem_part_lt hP hpm hs
  set inf := p.filter fun s => s ∈ F.infeasibleScenarios with hinf
  have hinfq : ∀ s, s ∈ inf ↔ s ∈ p ∧ q s = true := fun s => by
    rw [hinf, List.mem_filter, decide_eq_true_iff, hF.inf]
    exact ⟨fun ⟨a, _, b⟩ => ⟨a, b⟩, fun ⟨a, b⟩ => ⟨a, hlt s a, b⟩⟩
  -- any valid split of this key is good
  have hgood : ∀ (sp : Split), SplitOk Q p.toFinset inf.toFinset sp →
      (sp.left ++ sp.right).Perm p ∧ sp.left.any q = true ∧ sp.right.any q = true := by
    intro sp hsp
    refine ⟨?_, ?_, ?_⟩
    · rw [List.perm_ext_iff_of_nodup hsp.nodup hnd]
      intro a
      rw [← List.mem_toFinset, hsp.all, List.mem_toFinset]
    · obtain ⟨s, h1, h2⟩ := hsp.left
      exact List.any_eq_true.2 ⟨s, h1, ((hinfq s).1 (List.mem_toFinset.1 h2)).2⟩
    · obtain ⟨s, h1, h2⟩ := hsp.right
      exact List.any_eq_true.2 ⟨s, h1, ((hinfq s).1 (List.mem_toFinset.1 h2)).2⟩
  unfold evaluateSplit
  rw [pyGet_of_lt [] hc, ← hp]
  simp only [bind, Except.bind]
  rw [← hinf]
  cases hfind : st.memory.find? fun e => decide (e.1 = (p.toFinset, inf.toFinset)) with
  | none =>
    obtain ⟨sp, h1, h2⟩ := hsolve st.base.calls p inf hnd hlt (by
        have : (p.countP fun s => decide (s ∈ inf)) = p.countP q :=
          List.countP_congr fun s hs => by
            rw [decide_eq_true_iff, hinfq]; exact and_iff_right hs
        rw [this]; exact htwo)
    obtain ⟨g1, g2, g3⟩ := hgood sp h2
    simp only [h1]
    refine ⟨_, rfl, ⟨_, rfl⟩, ?_, ?_, ?_, ?_, ?_⟩
    · intro e he
      rcases mem_assocSet he with rfl | he
      · exact h2
      · exact hmem e he
    · intro c'; exact mem_assocSet_keys _ _ _ _
    · intro e he
      rcases mem_assocSet he with rfl | he
      · exact Or.inr h2.low
      · exact Or.inl he
    · exact ⟨sp.left, sp.right, by simp [assocGet_set], by simp [assocGet_set], g1, g2, g3⟩
    · intro c' hc'
      simp [assocGet_set, hc']
  | some e =>
    have hk := List.find?_some hfind
    simp only [decide_eq_true_iff] at hk
    have he := hmem e (List.mem_of_find?_eq_some hfind)
    rw [hk] at he
    obtain ⟨g1, g2, g3⟩ := hgood e.2 he
    refine ⟨_, rfl, ⟨st.base.calls, rfl⟩, hmem, ?_, ?_, ?_, ?_⟩
    · intro c'; exact mem_assocSet_keys _ _ _ _
    · intro e' he'
      rcases mem_assocSet he' with rfl | he'
      · exact Or.inr he.low
      · exact Or.inl he'
    · exact ⟨e.2.left, e.2.right, by simp [assocGet_set], by simp [assocGet_set], g1, g2, g3⟩
    · intro c' hc'
      simp [assocGet_set, hc']

/-- Invariant of the cost refiner between two splits. -/
structure CInv (I : Inst) (Q : List ℕ → ℚ → Prop) (q : ℕ → Bool) (P0 : List (List ℕ)) (st : CState) : Prop where
  base : RInv I.N q P0 st.base
  mem : MemOk Q st.memory
  keys : ∀ c, c ∈ st.post.map Prod.fst ↔
    c < st.base.partition.length ∧ 2 ≤ (st.base.partition.getD c []).countP q
  low : ∀ p ∈ st.post, -(10 ^ 6) ≤ p.2
  good : ∀ c ∈ st.post.map Prod.fst, GoodAt q (st.base.partition.getD c []) st c

theorem RInv.calls {N : ℕ} {q : ℕ → Bool} {P0 : List (List ℕ)} {st : RState}
    (h : RInv N q P0 st) (k : ℕ) : RInv N q P0 { st with calls := k } :=
  ⟨h.1, h.2, h.3, h.4, h.5, h.6, h.7, h.8, h.9⟩

theorem GoodAt.congr {q : ℕ → Bool} {p : List ℕ} {st st' : CState} {c : ℕ}
    (h : GoodAt q p st c) (h1 : assocGet st'.left c = assocGet st.left c)
    (h2 : assocGet st'.right c = assocGet st.right c) : GoodAt q p st' c := by
  obtain ⟨l, r, a, b, rest⟩ := h
  exact ⟨l, r, h1.trans a, h2.trans b, rest⟩

/-- Evaluating a list of splittable subsets. -/
theorem evaluate_fold {I : Inst} {Q : List ℕ → ℚ → Prop} {F : CheckOut} {q : ℕ → Bool}
    {solve : ℕ → GModel → GResult} (hF : Marks I.N F q)
    (hsolve : Splitter I Q solve) :
    ∀ (cs : List ℕ) (st : CState), IsPartition I.N st.base.partition → MemOk Q st.memory →
      (∀ c ∈ cs, c < st.base.partition.length
        ∧ 2 ≤ (st.base.partition.getD c []).countP q) →
      (∀ p ∈ st.post, -(10 ^ 6) ≤ p.2) →
      (∀ c ∈ st.post.map Prod.fst, GoodAt q (st.base.partition.getD c []) st c) →
      ∃ st', cs.foldlM (evaluateSplit I F solve) st = .ok st'
        ∧ (∃ k, st'.base = { st.base with calls := k }) ∧ MemOk Q st'.memory
        ∧ (∀ c, c ∈ st'.post.map Prod.fst ↔ c ∈ cs ∨ c ∈ st.post.map Prod.fst)
        ∧ (∀ p ∈ st'.post, -(10 ^ 6) ≤ p.2)
        ∧ ∀ c ∈ st'.post.map Prod.fst, GoodAt q (st.base.partition.getD c []) st' c := by
  intro cs
  induction cs with
  | nil =>
    intro st _ hm _ hl hg
    exact ⟨st, rfl, ⟨_, rfl⟩, hm, by simp, hl, hg⟩
  | cons c cs ih =>
    intro st hP hm hcs hl hg
    obtain ⟨hc1, hc2⟩ := hcs c (by simp)
    obtain ⟨st1, e1, ⟨k, hk⟩, m1, k1, l1, g1, o1⟩ :=
      evaluateSplit_ok hF hsolve hP hc1 hc2 hm
    have hpart : st1.base.partition = st.base.partition := by rw [hk]
    obtain ⟨st2, e2, ⟨k', hk'⟩, m2, k2, l2, g2⟩ := ih st1 (by rw [hpart]; exact hP) m1
      (fun d hd => by rw [hpart]; exact hcs d (by simp [hd]))
      (fun p hp => (l1 p hp).elim (hl p) id)
      (fun d hd => by
        rw [hpart]
        by_cases hdc : d = c
        · rw [hdc]; exact g1
        · exact (hg d (((k1 d).1 hd).resolve_left hdc)).congr (o1 d hdc).1 (o1 d hdc).2)
    refine ⟨st2, ?_, ⟨k', by rw [hk', hk]⟩, m2, ?_, l2, ?_⟩
    · rw [List.foldlM_cons, e1]; exact e2
    · intro d
      rw [k2, k1, List.mem_cons]; tauto
    · rw [hpart] at g2; exact g2

theorem bestFree_some (l : List (ℕ × ℚ)) (b : ℕ) (v : ℚ) :
    ∃ c, bestFree l (some b) v = some c ∧ (c = b ∨ c ∈ l.map Prod.fst) := by
  induction l generalizing b v with
  | nil => exact ⟨b, rfl, Or.inl rfl⟩
  | cons p l ih =>
    obtain ⟨c, w⟩ := p
    rw [bestFree]
    split
    · obtain ⟨d, h1, h2⟩ := ih c w
      refine ⟨d, h1, Or.inr ?_⟩
      rcases h2 with rfl | h2
      · simp
      · simp only [List.map_cons, List.mem_cons]; exact Or.inr h2
    · obtain ⟨d, h1, h2⟩ := ih b v
      refine ⟨d, h1, ?_⟩
      rcases h2 with rfl | h2
      · exact Or.inl rfl
      · right; simp only [List.map_cons, List.mem_cons]; exact Or.inr h2

theorem foldl_argmin_mem (l : List (ℕ × ℚ)) (b : ℕ × ℚ) :
    l.foldl (fun (b : ℕ × ℚ) p => if p.2 < b.2 then p else b) b ∈ b :: l := by
  induction l generalizing b with
  | nil => simp
  | cons p l ih =>
    rw [List.foldl_cons]
    have := ih (if p.2 < b.2 then p else b)
    rcases List.mem_cons.1 this with h | h
    · rw [h]; split <;> simp
    · simp [h]

theorem chooseSplit_ok {vUB : WithTop ℚ} {post : List (ℕ × ℚ)} (hne : post ≠ [])
    (hlow : ∀ p ∈ post, -(10 ^ 6) ≤ p.2) :
    ∃ c ∈ post.map Prod.fst, chooseSplit vUB post = .ok c := by
  unfold chooseSplit
  simp only
  generalize hfree : (post.filter fun p => decide (((p.2 : ℚ) : WithTop ℚ) ≤ vUB)) = free
  have hsub : ∀ p ∈ free, p ∈ post := fun p hp => by
    rw [← hfree] at hp; exact List.mem_of_mem_filter hp
  cases free with
  | nil =>
    rw [if_neg (by simp)]
    cases post with
    | nil => exact absurd rfl hne
    | cons p l =>
      refine ⟨_, ?_, rfl⟩
      exact List.mem_map_of_mem (foldl_argmin_mem l (p.1, p.2))
  | cons p l =>
    rw [if_pos (by simp)]
    obtain ⟨c, w⟩ := p
    have hw : w ≥ -(10 ^ 6) := hlow (c, w) (hsub _ (by simp))
    obtain ⟨d, h1, h2⟩ := bestFree_some l c w
    refine ⟨d, ?_, ?_⟩
    · rcases h2 with rfl | h2
      · exact List.mem_map_of_mem (f := Prod.fst) (hsub (d, w) (by simp))
      · obtain ⟨e, he, rfl⟩ := List.mem_map.1 h2
        exact List.mem_map_of_mem (hsub e (by simp [he]))
    · rw [bestFree, if_pos hw, h1]

theorem performSplit_ok {I : Inst} {Q : List ℕ → ℚ → Prop} {F : CheckOut} {q : ℕ → Bool}
    {solve : ℕ → GModel → GResult} {vUB : WithTop ℚ} {P0 : List (List ℕ)} {st : CState}
    (hF : Marks I.N F q) (hsolve : Splitter I Q solve)
    (h : CInv I Q q P0 st) (hne : st.post ≠ []) :
    ∃ st', performSplit I F solve vUB st = .ok st' ∧ CInv I Q q P0 st'
      ∧ st'.base.muCounter = st.base.muCounter + 1 := by
  obtain ⟨c, hc, hch⟩ := chooseSplit_ok (vUB := vUB) hne h.low
  obtain ⟨hclt, -⟩ := (h.keys c).1 hc
  obtain ⟨l, r, hl, hr, hperm, hlq, hrq⟩ := h.good c hc
  set P := st.base.partition with hPdef
  set P' := P.set c l ++ [r] with hP'
  have hlen' : P'.length = P.length + 1 := by simp [hP']
  have hpart' : IsPartition I.N P' := (h.base.split hclt hperm hlq hrq 0).part
  have hnb : ∀ d < P'.length, (countInfeasible P' F.infeasibleScenarios).getD d 0
      = (P'.getD d []).countP q := fun d hd => by
    rw [List.getD_eq_getElem?_getD, hF.nb hpart' hd, Option.getD_some]
  have hPc : P'.getD c [] = l := by rw [hP', getD_set_append hclt, if_pos rfl]
  have hPn : P'.getD P.length [] = r := by rw [hP', getD_set_append_last]
  have hPo : ∀ d < P.length, d ≠ c → P'.getD d [] = P.getD d [] := fun d hd hdc => by
    rw [hP', getD_set_append hd, if_neg hdc]
  have hnotkey : P.length ∉ st.post.map Prod.fst := fun hk => by
    have := ((h.keys _).1 hk).1
    exact absurd this (lt_irrefl _)
  unfold performSplit
  rw [hch]
  simp only [bind, Except.bind]
  rw [hl]
  simp only
  rw [pySet, if_pos hclt]
  simp only
  rw [hr]
  simp only
  rw [← hPdef, ← hP']
  -- the state after re-evaluating subset c
  have step1 : ∃ st1 : CState,
      updateOld I F solve (countInfeasible P' F.infeasibleScenarios)
        { st with base := { st.base with partition := P' } } c = .ok st1
      ∧ (∃ k, st1.base = { st.base with partition := P', calls := k }) ∧ MemOk Q st1.memory
      ∧ (∀ d, d ∈ st1.post.map Prod.fst ↔ d < P.length ∧ 2 ≤ (P'.getD d []).countP q)
      ∧ (∀ p ∈ st1.post, -(10 ^ 6) ≤ p.2)
      ∧ ∀ d ∈ st1.post.map Prod.fst, GoodAt q (P'.getD d []) st1 d := by
    unfold updateOld
    rw [hnb c (by omega), hPc]
    by_cases htwo : 2 ≤ l.countP q
    · rw [if_pos htwo]
      obtain ⟨st1, e1, ⟨k, hk⟩, m1, k1, l1, g1, o1⟩ := evaluateSplit_ok
        (st := { st with base := { st.base with partition := P' } }) (c := c) hF hsolve
        hpart' (by show c < P'.length; omega) (by show 2 ≤ (P'.getD c []).countP q
                                                  rw [hPc]; exact htwo) h.mem
      refine ⟨st1, e1, ⟨k, hk⟩, m1, ?_, fun p hp => (l1 p hp).elim (h.low p) id, ?_⟩
      · intro d
        rw [k1]
        by_cases hdc : d = c
        · subst hdc; rw [hPc]; simp [hclt, htwo]
        · simp only [hdc, false_or]
          show d ∈ st.post.map Prod.fst ↔ _
          rw [h.keys]
          constructor
          · rintro ⟨a, b⟩; exact ⟨a, by rw [hPo d a hdc]; exact b⟩
          · rintro ⟨a, b⟩; exact ⟨a, by rw [hPo d a hdc] at b; exact b⟩
      · intro d hd
        by_cases hdc : d = c
        · rw [hdc]; exact g1
        · have hd' : d ∈ st.post.map Prod.fst := ((k1 d).1 hd).resolve_left hdc
          rw [hPo d ((h.keys d).1 hd').1 hdc]
          exact (h.good d hd').congr (o1 d hdc).1 (o1 d hdc).2
    · rw [if_neg htwo, assocPop, if_pos hc]
      refine ⟨_, rfl, ⟨st.base.calls, rfl⟩, h.mem, ?_, ?_, ?_⟩
      · intro d
        have : d ∈ (st.post.filter fun p => decide (p.1 ≠ c)).map Prod.fst
            ↔ d ∈ st.post.map Prod.fst ∧ d ≠ c := by
          simp only [List.mem_map, List.mem_filter, decide_eq_true_iff]
          constructor
          · rintro ⟨p, ⟨a, b⟩, rfl⟩; exact ⟨⟨p, a, rfl⟩, b⟩
          · rintro ⟨⟨p, a, rfl⟩, b⟩; exact ⟨p, ⟨a, b⟩, rfl⟩
        rw [this, h.keys]
        constructor
        · rintro ⟨⟨a, b⟩, hdc⟩; exact ⟨a, by rw [hPo d a hdc]; exact b⟩
        · rintro ⟨a, b⟩
          have hdc : d ≠ c := by rintro rfl; rw [hPc] at b; exact htwo b
          exact ⟨⟨a, by rw [hPo d a hdc] at b; exact b⟩, hdc⟩
      · intro p hp; exact h.low p (List.mem_of_mem_filter hp)
      · intro d hd
        obtain ⟨p, hp, rfl⟩ := List.mem_map.1 hd
        obtain ⟨hp1, hp2⟩ := List.mem_filter.1 hp
        have hdc : p.1 ≠ c := by simpa using hp2
        have hd' : p.1 ∈ st.post.map Prod.fst := List.mem_map_of_mem hp1
        rw [hPo _ ((h.keys _).1 hd').1 hdc]
        exact (h.good _ hd').congr rfl rfl
  obtain ⟨st1, e1, ⟨k, hk⟩, m1, k1, l1, g1⟩ := step1
  rw [e1]
  simp only
  rw [show P'.length - 1 = P.length by omega]
  -- the state after evaluating the new subset
  have step2 : ∃ st2 : CState,
      updateNew I F solve (countInfeasible P' F.infeasibleScenarios) st1 P.length = .ok st2
      ∧ (∃ k, st2.base = { st.base with partition := P', calls := k }) ∧ MemOk Q st2.memory
      ∧ (∀ d, d ∈ st2.post.map Prod.fst ↔ d < P'.length ∧ 2 ≤ (P'.getD d []).countP q)
      ∧ (∀ p ∈ st2.post, -(10 ^ 6) ≤ p.2)
      ∧ ∀ d ∈ st2.post.map Prod.fst, GoodAt q (P'.getD d []) st2 d := by
    have hst1P : st1.base.partition = P' := by rw [hk]
    unfold updateNew
    rw [hnb P.length (by omega), hPn]
    by_cases htwo : 2 ≤ r.countP q
    · rw [if_pos htwo]
      obtain ⟨st2, e2, ⟨k', hk'⟩, m2, k2, l2, g2, o2⟩ := evaluateSplit_ok
        (st := st1) (c := P.length) hF hsolve (by rw [hst1P]; exact hpart')
        (by rw [hst1P]; omega) (by rw [hst1P, hPn]; exact htwo) m1
      rw [hst1P] at g2
      refine ⟨st2, e2, ⟨k', by rw [hk', hk]⟩, m2, ?_, fun p hp => (l2 p hp).elim (l1 p) id, ?_⟩
      · intro d
        rw [k2, k1, hlen']
        by_cases hd : d = P.length
        · subst hd; rw [hPn]; simp [htwo]
        · constructor
          · rintro (h' | ⟨a, b⟩)
            · exact absurd h' hd
            · exact ⟨by omega, b⟩
          · rintro ⟨a, b⟩; exact Or.inr ⟨by omega, b⟩
      · intro d hd
        by_cases hdn : d = P.length
        · rw [hdn]; exact g2
        · have hd' := ((k2 d).1 hd).resolve_left hdn
          exact (g1 d hd').congr (o2 d hdn).1 (o2 d hdn).2
    · rw [if_neg htwo]
      refine ⟨st1, rfl, ⟨k, hk⟩, m1, ?_, l1, g1⟩
      intro d
      rw [k1, hlen']
      constructor
      · rintro ⟨a, b⟩; exact ⟨by omega, b⟩
      · rintro ⟨a, b⟩
        have : d ≠ P.length := by rintro rfl; rw [hPn] at b; exact htwo b
        exact ⟨by omega, b⟩
  obtain ⟨st2, e2, ⟨k2, hk2⟩, m2, key2, l2, g2⟩ := step2
  rw [e2]
  simp only
  refine ⟨_, rfl, ?_, ?_⟩
  · have hrec : st2.base.record P' c = { st.base with calls := k2 }.record P' c := by
      rw [hk2]; rfl
    constructor
    · show RInv I.N q P0 (st2.base.record P' c)
      rw [hrec]
      exact h.base.split hclt hperm hlq hrq k2
    · exact m2
    · exact key2
    · exact l2
    · intro d hd
      exact (g2 d hd).congr rfl rfl
  · show (st2.base.record P' c).muCounter = _
    rw [hk2]; rfl

theorem costLoop_ok {I : Inst} {Q : List ℕ → ℚ → Prop} {F : CheckOut} {q : ℕ → Bool}
    {solve : ℕ → GModel → GResult} {vUB : WithTop ℚ} {P0 : List (List ℕ)} {mu : ℕ}
    (hF : Marks I.N F q) (hsolve : Splitter I Q solve)
    (hbig : P0.countP (fun p => p.any q) + mu ≤ (List.range I.N).countP q) :
    ∀ (fuel : ℕ) (st : CState), CInv I Q q P0 st → st.base.muCounter ≤ mu →
      mu ≤ st.base.muCounter + fuel →
      ∃ st', costLoop I F solve vUB mu fuel st = .ok st' ∧ CInv I Q q P0 st'
        ∧ st'.base.muCounter = mu := by
  intro fuel
  induction fuel with
  | zero =>
    intro st h hle hfuel
    refine ⟨st, ?_, h, by omega⟩
    rw [costLoop, if_neg (by omega)]
  | succ fuel ih =>
    intro st h hle hfuel
    rw [costLoop]
    by_cases hlt : st.base.muCounter < mu
    · rw [if_pos hlt]
      obtain ⟨c, hc, hc2⟩ := exists_splittable h.base hlt hbig
      have hne : st.post ≠ [] := by
        intro h0
        have := (h.keys c).2 ⟨hc, hc2⟩
        rw [h0] at this; simp at this
      obtain ⟨st1, e1, h1, hm⟩ := performSplit_ok (vUB := vUB) hF hsolve h hne
      simp only [bind, Except.bind]
      rw [e1]
      exact ih st1 h1 (by omega) (by omega)
    · rw [if_neg hlt]
      exact ⟨st, rfl, h, by omega⟩

theorem refineCost_ok {I : Inst} {Q : List ℕ → ℚ → Prop} {F : CheckOut} {q : ℕ → Bool} {P : List (List ℕ)}
    {solve : ℕ → GModel → GResult} {argsort : Argsort} {costs : List ℚ} {vUB : WithTop ℚ}
    {mem : Memory} {fuel : ℕ} (heps : 0 ≤ I.eps) (hF : Marks I.N F q)
    (hsolve : Splitter I Q solve)
    (hmem : MemOk Q mem) (hcosts : costs.length = P.length)
    (hP : IsPartition I.N P) (hk : P.countP (fun p => p.any q) ≤ kmax I)
    (hinf : kmax I < (List.range I.N).countP q)
    (hfuel : kmax I + 1 ≤ fuel + P.countP fun p => p.any q) :
    ∃ out mem', refineCost I F solve argsort costs vUB mem fuel P = .ok (out, mem')
      ∧ RefineOk I q P out ∧ MemOk Q mem' := by
  have hlen := length_infeasible hF hP
  have hsort := (argsort.spec costs).1
  rw [hcosts] at hsort
  have hfilter : pyFilter (fun c => do
      let k ← pyGet (countInfeasible P F.infeasibleScenarios) c; pure (decide (2 ≤ k)))
      (argsort.run costs)
      = .ok ((argsort.run costs).filter fun c => decide (2 ≤ (P.getD c []).countP q)) :=
    pyFilter_ok fun c hc => by
      rw [pyGet_eq (hF.nb hP (List.mem_range.1 (hsort.mem_iff.1 hc)))]; rfl
  obtain ⟨st1, e1, ⟨k, hk1⟩, m1, k1, l1, g1⟩ := evaluate_fold hF hsolve
    ((argsort.run costs).filter fun c => decide (2 ≤ (P.getD c []).countP q))
    { base := RState.init P, memory := mem, post := [], left := [], right := [] } hP hmem
    (fun c hc => by
      obtain ⟨h1, h2⟩ := List.mem_filter.1 hc
      exact ⟨List.mem_range.1 (hsort.mem_iff.1 h1), of_decide_eq_true h2⟩)
    (by simp) (by simp)
  have hpart : st1.base.partition = P := by rw [hk1]; rfl
  have hinv : CInv I Q q P st1 := by
    constructor
    · rw [hk1]; exact (RInv.init hP).calls k
    · exact m1
    · intro c
      rw [k1, hpart]
      simp only [List.mem_filter, decide_eq_true_iff, List.map_nil, List.not_mem_nil, or_false]
      rw [hsort.mem_iff, List.mem_range]
    · exact l1
    · intro c hc
      have := g1 c hc
      rw [hpart]; exact this
  have hmu0 : st1.base.muCounter = 0 := by rw [hk1]; rfl
  obtain ⟨st2, e2, h2, h3⟩ := costLoop_ok (vUB := vUB)
    (mu := kmax I + 1 - P.countP fun p => p.any q) hF hsolve (by omega) fuel st1 hinv
    (by omega) (by omega)
  refine ⟨_, st2.memory, ?_, refineOk_of hF h2.base h3 hk rfl, h2.mem⟩
  unfold refineCost evaluateSplits
  simp only
  rw [hlen, numberOfSplits_ok heps hk]
  simp only [bind, Except.bind] at hfilter ⊢
  rw [pyAssert_true hcosts]
  simp only [RState.init] at e1 ⊢
  rw [hfilter]
  simp only
  rw [e1]
  simp only
  rw [e2]
  simp only
  rw [finishRefine_ok hP h2.base h3 (by omega)]
  rfl

theorem countP_any_le (P : List (List ℕ)) (f : ℕ → Bool) :
    P.countP (fun p => p.any f) ≤ P.flatten.countP f := by
  induction P with
  | nil => simp
  | cons p P ih =>
    rw [List.countP_cons, List.flatten_cons, List.countP_append]
    split
    · rename_i hp
      have : 0 < p.countP f := by
        obtain ⟨a, ha, hf⟩ := List.any_eq_true.1 hp
        exact List.countP_pos_iff.2 ⟨a, ha, hf⟩
      omega
    · omega

/-! ## The memory grows -/

theorem evaluateSplit_keys {I : Inst} {F : CheckOut} {solve : ℕ → GModel → GResult}
    {st st' : CState} {c : ℕ} (h : evaluateSplit I F solve st c = .ok st') :
    (∀ k ∈ st.memory.map Prod.fst, k ∈ st'.memory.map Prod.fst)
    ∧ ((st.base.partition.getD c []).toFinset,
        ((st.base.partition.getD c []).filter
          fun s => s ∈ F.infeasibleScenarios).toFinset) ∈ st'.memory.map Prod.fst := by
  unfold evaluateSplit at h
  cases hp : st.base.partition[c]? with
  | none => simp [pyGet, hp, bind, Except.bind] at h
  | some p =>
    have hg : st.base.partition.getD c [] = p := by simp [hp]
    rw [hg]
    simp only [pyGet, hp, bind, Except.bind] at h
    split at h
    · split at h
      · cases h
      · cases h
        refine ⟨fun k hk => (mem_assocSet_keys _ _ _ _).2 (Or.inr hk),
          (mem_assocSet_keys _ _ _ _).2 (Or.inl rfl)⟩
    · rename_i e he
      cases h
      refine ⟨fun k hk => hk, ?_⟩
      have h1 := List.find?_some he
      simp only [decide_eq_true_iff] at h1
      exact h1 ▸ List.mem_map_of_mem (List.mem_of_find?_eq_some he)

theorem evaluate_fold_keys {I : Inst} {F : CheckOut} {solve : ℕ → GModel → GResult} :
    ∀ (cs : List ℕ) {st st' : CState}, cs.foldlM (evaluateSplit I F solve) st = .ok st' →
      (∀ k ∈ st.memory.map Prod.fst, k ∈ st'.memory.map Prod.fst)
      ∧ ∀ c, cs.head? = some c → ((st.base.partition.getD c []).toFinset,
        ((st.base.partition.getD c []).filter
          fun s => s ∈ F.infeasibleScenarios).toFinset) ∈ st'.memory.map Prod.fst := by
  intro cs
  induction cs with
  | nil => intro st st' h; cases h; simp
  | cons c cs ih =>
    intro st st' h
    rw [List.foldlM_cons] at h
    cases h1 : evaluateSplit I F solve st c with
    | error e => rw [h1] at h; cases h
    | ok st1 =>
      rw [h1] at h
      obtain ⟨a, -⟩ := ih h
      obtain ⟨b, b'⟩ := evaluateSplit_keys h1
      refine ⟨fun k hk => a k (b k hk), fun d hd => ?_⟩
      cases hd
      exact a _ b'

theorem performSplit_keys {I : Inst} {F : CheckOut} {solve : ℕ → GModel → GResult}
    {vUB : WithTop ℚ} {st st' : CState} (h : performSplit I F solve vUB st = .ok st') :
    ∀ k ∈ st.memory.map Prod.fst, k ∈ st'.memory.map Prod.fst := by
  unfold performSplit at h
  simp only [bind, Except.bind] at h
  repeat' split at h
  all_goals first
    | (cases h; done)
    | (rename_i st1 h1 _ st2 h2
       cases h
       intro k hk
       have hk1 : k ∈ st1.memory.map Prod.fst := by
         unfold updateOld at h1
         split at h1
         · exact (evaluateSplit_keys h1).1 k hk
         · simp only [bind, Except.bind] at h1
           split at h1
           · cases h1
           · cases h1; exact hk
       unfold updateNew at h2
       split at h2
       · exact (evaluateSplit_keys h2).1 k hk1
       · cases h2; exact hk1)

theorem costLoop_keys {I : Inst} {F : CheckOut} {solve : ℕ → GModel → GResult}
    {vUB : WithTop ℚ} {mu : ℕ} {st' : CState} :
    ∀ {f : ℕ} {st : CState}, costLoop I F solve vUB mu f st = .ok st' →
      ∀ k ∈ st.memory.map Prod.fst, k ∈ st'.memory.map Prod.fst := by
  intro f
  induction f with
  | zero =>
    intro st h
    rw [costLoop] at h
    split at h
    · cases h
    · cases h; exact fun k hk => hk
  | succ f ih =>
    intro st h
    rw [costLoop] at h
    split at h
    · simp only [bind, Except.bind] at h
      split at h
      · cases h
      · rename_i st1 h1
        exact fun k hk => ih h k (performSplit_keys h1 k hk)
    · cases h; exact fun k hk => hk

theorem refineCost_keys {I : Inst} {F : CheckOut} {q : ℕ → Bool} {P : List (List ℕ)}
    {solve : ℕ → GModel → GResult} {argsort : Argsort} {costs : List ℚ} {vUB : WithTop ℚ}
    {mem mem' : Memory} {fuel : ℕ} {out : RefineOut} (hF : Marks I.N F q)
    (hP : IsPartition I.N P) (hcosts : costs.length = P.length)
    (h : refineCost I F solve argsort costs vUB mem fuel P = .ok (out, mem')) (c : ℕ)
    (hc : ((argsort.run costs).filter
      fun c => decide (2 ≤ (P.getD c []).countP q)).head? = some c) :
    ((P.getD c []).toFinset, ((P.getD c []).filter
          fun s => s ∈ F.infeasibleScenarios).toFinset) ∈ mem'.map Prod.fst := by
  have hsort := (argsort.spec costs).1
  rw [hcosts] at hsort
  have hfilter : pyFilter (fun c => do
      let k ← pyGet (countInfeasible P F.infeasibleScenarios) c; pure (decide (2 ≤ k)))
      (argsort.run costs)
      = .ok ((argsort.run costs).filter fun c => decide (2 ≤ (P.getD c []).countP q)) :=
    pyFilter_ok fun c hc => by
      rw [pyGet_eq (hF.nb hP (List.mem_range.1 (hsort.mem_iff.1 hc)))]; rfl
  unfold refineCost evaluateSplits at h
  simp only [bind, Except.bind] at h hfilter
  cases h1 : numberOfSplits I (findInfeasibleSubsets P F.infeasibleScenarios).2.length with
  | error e => rw [h1] at h; cases h
  | ok mu =>
    rw [h1, pyAssert_true hcosts] at h
    simp only [RState.init] at h
    rw [hfilter] at h
    simp only at h
    split at h
    · cases h
    · rename_i st1 e1
      obtain ⟨-, k1⟩ := evaluate_fold_keys _ e1
      split at h
      · cases h
      · rename_i st2 e2
        split at h
        · cases h
        · cases h
          exact costLoop_keys e2 _ (k1 c hc)

/-! ## More rounds than needed change nothing -/

theorem randomLoop_mono {F : CheckOut} {mu : ℕ} {sh : ℕ → Shuffle} {st' : RState} :
    ∀ {f : ℕ} {st : RState} (f' : ℕ), randomLoop F mu sh f st = .ok st' → f ≤ f' →
      randomLoop F mu sh f' st = .ok st' := by
  intro f
  induction f with
  | zero =>
    intro st f' h _
    rw [randomLoop] at h
    split at h
    · cases h
    · cases f' <;> rw [randomLoop, if_neg (by assumption)] <;> exact h
  | succ f ih =>
    intro st f' h hle
    obtain ⟨f', rfl⟩ : ∃ g, f' = g + 1 := ⟨f' - 1, by omega⟩
    rw [randomLoop] at h ⊢
    split at h
    · rw [if_pos (by assumption)]
      simp only [bind, Except.bind] at h ⊢
      split at h
      · cases h
      · exact ih f' h (by omega)
    · rw [if_neg (by assumption)]; exact h

theorem costLoop_mono {I : Inst} {F : CheckOut} {solve : ℕ → GModel → GResult}
    {vUB : WithTop ℚ} {mu : ℕ} {st' : CState} :
    ∀ {f : ℕ} {st : CState} (f' : ℕ), costLoop I F solve vUB mu f st = .ok st' → f ≤ f' →
      costLoop I F solve vUB mu f' st = .ok st' := by
  intro f
  induction f with
  | zero =>
    intro st f' h _
    rw [costLoop] at h
    split at h
    · cases h
    · cases f' <;> rw [costLoop, if_neg (by assumption)] <;> exact h
  | succ f ih =>
    intro st f' h hle
    obtain ⟨f', rfl⟩ : ∃ g, f' = g + 1 := ⟨f' - 1, by omega⟩
    rw [costLoop] at h ⊢
    split at h
    · rw [if_pos (by assumption)]
      simp only [bind, Except.bind] at h ⊢
      split at h
      · cases h
      · exact ih f' h (by omega)
    · rw [if_neg (by assumption)]; exact h

theorem refineRandom_mono {I : Inst} {F : CheckOut} {sh : ℕ → Shuffle} {a : Bool} {f f' : ℕ}
    {P : List (List ℕ)} {out : RefineOut} (h : refineRandom I F sh a f P = .ok out)
    (hle : f ≤ f') : refineRandom I F sh a f' P = .ok out := by
  unfold refineRandom at h ⊢
  simp only [bind, Except.bind] at h ⊢
  cases h1 : numberOfSplits I (findInfeasibleSubsets P F.infeasibleScenarios).2.length with
  | error e => rw [h1] at h; cases h
  | ok mu =>
    rw [h1] at h
    simp only at h ⊢
    cases a
    · simp only [Bool.false_eq_true, if_false] at h ⊢
      cases h4 : randomLoop F mu sh f (RState.init P) with
      | error e => rw [h4] at h; cases h
      | ok st =>
        rw [h4] at h
        rw [randomLoop_mono f' h4 hle]; exact h
    · simp only [if_true] at h ⊢; exact h

theorem refineCost_mono {I : Inst} {F : CheckOut} {solve : ℕ → GModel → GResult}
    {argsort : Argsort} {costs : List ℚ} {vUB : WithTop ℚ} {mem : Memory} {f f' : ℕ}
    {P : List (List ℕ)} {out : RefineOut × Memory}
    (h : refineCost I F solve argsort costs vUB mem f P = .ok out)
    (hle : f ≤ f') : refineCost I F solve argsort costs vUB mem f' P = .ok out := by
  unfold refineCost at h ⊢
  simp only [bind, Except.bind] at h ⊢
  cases h1 : numberOfSplits I (findInfeasibleSubsets P F.infeasibleScenarios).2.length with
  | error e => rw [h1] at h; cases h
  | ok mu =>
    rw [h1] at h
    simp only at h ⊢
    cases h2 : pyAssert "CostRefiner.py:24" (costs.length = P.length) with
    | error e => rw [h2] at h; cases h
    | ok _ =>
      rw [h2] at h
      simp only at h ⊢
      cases h3 : evaluateSplits I F solve (argsort.run costs)
          { base := RState.init P, memory := mem, post := [], left := [], right := [] } with
      | error e => rw [h3] at h; cases h
      | ok st =>
        rw [h3] at h
        simp only at h ⊢
        cases h4 : costLoop I F solve vUB mu f st with
        | error e => rw [h4] at h; cases h
        | ok st' =>
          rw [h4] at h
          rw [costLoop_mono f' h4 hle]; exact h

/-- Without enough infeasible scenarios the loop of the random refiner never ends. -/
theorem randomLoop_diverges {N : ℕ} {F : CheckOut} {q : ℕ → Bool} {mu : ℕ} {sh : ℕ → Shuffle}
    {P0 : List (List ℕ)} (hF : Marks N F q)
    (hsmall : (List.range N).countP q < P0.countP (fun p => p.any q) + mu) :
    ∀ (fuel : ℕ) (st : RState), RInv N q P0 st → st.muCounter ≤ mu →
      randomLoop F mu sh fuel st = .error .fuel := by
  intro fuel
  induction fuel with
  | zero =>
    intro st h hle
    have := countP_any_le st.partition q
    rw [h.cnt, h.part.1.countP_eq] at this
    rw [randomLoop, if_pos (by omega)]
  | succ fuel ih =>
    intro st h hle
    have := countP_any_le st.partition q
    rw [h.cnt, h.part.1.countP_eq] at this
    rw [randomLoop, if_pos (by omega)]
    simp only
    have hperm := (sh st.calls).perm (List.range st.partition.length)
    obtain ⟨st', h1, h2, h3, h4, h5⟩ := traverse_ok (sh := sh) (mu := mu)
      (nb := countInfeasible st.partition F.infeasibleScenarios) hF.flags
      ((sh st.calls).run (List.range st.partition.length)) { st with calls := st.calls + 1 }
      (hperm.nodup_iff.2 List.nodup_range) (h.calls _) hle (by
        intro c hc
        have hc' := List.mem_range.1 (hperm.mem_iff.1 hc)
        exact ⟨hc', hF.nb h.part hc'⟩)
    simp only [bind, Except.bind] at h1 ⊢
    rw [h1]
    exact ih st' h2 h4

end Verif.Model
