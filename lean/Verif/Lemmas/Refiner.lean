import Verif.Model.Refiner
import Verif.Lemmas.Instance
import Verif.Lemmas.PartInst
import Verif.Lemmas.Py

namespace Verif.Model
open Spec

/-! ## List facts -/

theorem set_append_flatten_perm {P : List (List ℕ)} {c : ℕ} (hc : c < P.length) {l r : List ℕ}
    (h : (l ++ r).Perm (P.getD c [])) : (P.set c l ++ [r]).flatten.Perm P.flatten := by
  rw [List.getD_eq_getElem P [] hc] at h
  have h1 : P = P.take c ++ P[c] :: P.drop (c + 1) := by simp
  rw [List.set_eq_take_append_cons_drop, if_pos hc]
  conv_rhs => rw [h1]
  simp only [List.flatten_append, List.flatten_cons, List.flatten_nil, List.append_nil,
    List.append_assoc]
  refine List.Perm.append_left _ ?_
  have h2 : (l ++ ((P.drop (c + 1)).flatten ++ r)).Perm (l ++ (r ++ (P.drop (c + 1)).flatten)) :=
    List.Perm.append_left _ List.perm_append_comm
  refine h2.trans ?_
  rw [← List.append_assoc]
  exact h.append_right _

theorem countP_set_append {P : List (List ℕ)} {c : ℕ} (hc : c < P.length) (l r : List ℕ)
    (f : List ℕ → Bool) :
    (P.set c l ++ [r]).countP f + (if f (P.getD c []) then 1 else 0)
      = P.countP f + (if f l then 1 else 0) + (if f r then 1 else 0) := by
  rw [List.getD_eq_getElem P [] hc]
  have h1 : P = P.take c ++ P[c] :: P.drop (c + 1) := by simp
  rw [List.set_eq_take_append_cons_drop, if_pos hc]
  have h3 : P.countP f
      = (P.take c).countP f + ((P.drop (c + 1)).countP f + if f P[c] then 1 else 0) := by
    conv_lhs => rw [h1]
    rw [List.countP_append, List.countP_cons]
  rw [h3]
  simp only [List.countP_append, List.countP_cons, List.countP_nil]
  omega

theorem any_perm {l r : List ℕ} (h : l.Perm r) (f : ℕ → Bool) : l.any f = r.any f := by
  rw [Bool.eq_iff_iff, List.any_eq_true, List.any_eq_true]
  exact ⟨fun ⟨a, ha, hf⟩ => ⟨a, h.mem_iff.1 ha, hf⟩, fun ⟨a, ha, hf⟩ => ⟨a, h.mem_iff.2 ha, hf⟩⟩

/-- Pigeonhole: more marked elements than marked lists. -/
theorem exists_two {P : List (List ℕ)} {f : ℕ → Bool}
    (h : P.countP (fun p => p.any f) < P.flatten.countP f) : ∃ p ∈ P, 2 ≤ p.countP f := by
  by_contra hno
  push Not at hno
  induction P with
  | nil => simp at h
  | cons p P ih =>
    rw [List.countP_cons, List.flatten_cons, List.countP_append] at h
    have hp := hno p (by simp)
    refine ih ?_ fun q hq => hno q (by simp [hq])
    have : p.countP f ≤ if p.any f = true then 1 else 0 := by
      split
      · omega
      · rename_i hn
        rw [List.any_eq_true] at hn
        push Not at hn
        rw [Nat.le_zero, List.countP_eq_zero]
        exact fun a ha => hn a ha
    omega

/-! ## The invariant of the split loops -/

/-- What holds between the partition `P0` at the start of `refine` and the state during the
splits; `q` marks the infeasible scenarios. -/
structure RInv (N : ℕ) (q : ℕ → Bool) (P0 : List (List ℕ)) (st : RState) : Prop where
  part : IsPartition N st.partition
  len : st.partition.length = P0.length + st.muCounter
  cnt : st.partition.countP (fun p => p.any q) = P0.countP (fun p => p.any q) + st.muCounter
  nodup : st.newSubsets.Nodup
  newIdx : (st.newSubsets.filter fun c => P0.length ≤ c) = List.range' P0.length st.muCounter
  lt : ∀ c ∈ st.newSubsets, c < st.partition.length
  same : ∀ c < P0.length, c ∉ st.newSubsets → st.partition.getD c [] = P0.getD c []
  inf : ∀ c ∈ st.newSubsets, (st.partition.getD c []).any q = true
  mono : ∀ r : ℕ → Bool,
    P0.countP (fun p => p.any r) ≤ st.partition.countP (fun p => p.any r)

theorem RInv.init {N : ℕ} {q : ℕ → Bool} {P : List (List ℕ)} (h : IsPartition N P) :
    RInv N q P (RState.init P) := by
  constructor <;> simp [RState.init, h]

theorem getD_set_append {α : Type} {P : List α} {c k : ℕ} {l r d : α} (hk : k < P.length) :
    (P.set c l ++ [r]).getD k d = if k = c then l else P.getD k d := by
  rw [List.getD_eq_getElem _ _ (by simp; omega), List.getElem_append_left (by simpa using hk),
    List.getElem_set, List.getD_eq_getElem _ _ hk]
  by_cases h : c = k
  · simp [h]
  · simp [h, Ne.symm h]

theorem getD_set_append_last {α : Type} {P : List α} {c : ℕ} {l r d : α} :
    (P.set c l ++ [r]).getD P.length d = r := by
  rw [List.getD_eq_getElem _ _ (by simp), List.getElem_append_right (by simp)]
  simp

theorem RInv.split {N : ℕ} {q : ℕ → Bool} {P0 : List (List ℕ)} {st : RState}
    (h : RInv N q P0 st) {c : ℕ} (hc : c < st.partition.length) {l r : List ℕ}
    (hlr : (l ++ r).Perm (st.partition.getD c [])) (hl : l.any q = true) (hr : r.any q = true)
    (k : ℕ) :
    RInv N q P0
      ({ st with calls := k }.record (st.partition.set c l ++ [r]) c) := by
  have hlen : (st.partition.set c l ++ [r]).length = st.partition.length + 1 := by simp
  have hany : ∀ f : ℕ → Bool, (st.partition.getD c []).any f = (l.any f || r.any f) := fun f => by
    rw [← any_perm hlr, List.any_append]
  set ns := if c ∈ st.newSubsets then st.newSubsets else st.newSubsets ++ [c] with hns
  have hnew : ∀ a, a ∈ ns ↔ a ∈ st.newSubsets ∨ a = c := fun a => by
    rw [hns]; split
    · constructor
      · exact Or.inl
      · rintro (h | rfl) <;> assumption
    · simp
  constructor
  · -- partition
    constructor
    · exact (set_append_flatten_perm hc hlr).trans h.part.1
    · intro p hp
      rcases List.mem_append.1 hp with hp | hp
      · rcases List.mem_or_eq_of_mem_set hp with hp | rfl
        · exact h.part.2 p hp
        · rintro rfl; simp at hl
      · rw [List.mem_singleton.1 hp]; rintro rfl; simp at hr
  · show (st.partition.set c l ++ [r]).length = P0.length + (st.muCounter + 1)
    rw [hlen, h.len]; omega
  · show (st.partition.set c l ++ [r]).countP _ = _ + (st.muCounter + 1)
    have := countP_set_append hc l r (fun p => p.any q)
    simp only [hany, hl, hr, Bool.or_self, if_true] at this
    rw [← Nat.add_assoc, ← h.cnt]; omega
  · show (ns ++ [_ - 1]).Nodup
    rw [hlen]
    have hn : ns.Nodup := by
      rw [hns]; split
      · exact h.nodup
      · rw [List.nodup_append]
        refine ⟨h.nodup, by simp, fun a ha b hb => ?_⟩
        rw [List.mem_singleton.1 hb]; rintro rfl; contradiction
    rw [List.nodup_append]
    refine ⟨hn, by simp, fun a ha b hb => ?_⟩
    rw [List.mem_singleton.1 hb]
    have : a < st.partition.length := by
      rcases (hnew a).1 ha with ha | rfl
      · exact h.lt a ha
      · exact hc
    omega
  · show ((ns ++ [_ - 1]).filter _) = List.range' P0.length (st.muCounter + 1)
    rw [hlen, List.filter_append, List.range'_concat]
    have h1 : (ns.filter fun c => decide (P0.length ≤ c)) = List.range' P0.length st.muCounter := by
      rw [← h.newIdx, hns]; split
      · rfl
      · rename_i hcn
        rw [List.filter_append]
        have : c < P0.length := by
          by_contra hge
          have : c ∈ st.newSubsets.filter fun c => decide (P0.length ≤ c) := by
            rw [h.newIdx, List.mem_range'_1]
            have := h.len; omega
          exact hcn (List.mem_of_mem_filter this)
        simp [this]
    rw [h1]
    have : P0.length ≤ st.partition.length + 1 - 1 := by have := h.len; omega
    simp only [List.filter_cons, this, decide_true, if_true, List.filter_nil]
    rw [h.len]; simp
  · intro a ha
    show a < (st.partition.set c l ++ [r]).length
    rw [hlen]
    rcases List.mem_append.1 ha with ha | ha
    · rcases (hnew a).1 ha with ha | rfl
      · have := h.lt a ha; omega
      · omega
    · have := List.mem_singleton.1 ha; rw [hlen] at this; omega
  · intro a ha hna
    have hna1 : a ∉ ns := fun h' => hna (List.mem_append_left _ h')
    rw [hnew] at hna1
    push Not at hna1
    show (st.partition.set c l ++ [r]).getD a [] = _
    rw [getD_set_append (by have := h.len; omega), if_neg hna1.2]
    exact h.same a ha hna1.1
  · intro a ha
    show ((st.partition.set c l ++ [r]).getD a []).any q = true
    rcases List.mem_append.1 ha with ha | ha
    · have halt : a < st.partition.length := by
        rcases (hnew a).1 ha with ha | rfl
        · exact h.lt a ha
        · exact hc
      rw [getD_set_append halt]
      split
      · exact hl
      · rcases (hnew a).1 ha with ha | rfl
        · exact h.inf a ha
        · contradiction
    · have := List.mem_singleton.1 ha
      rw [hlen, Nat.add_sub_cancel] at this
      rw [this, getD_set_append_last]; exact hr
  · intro f
    refine (h.mono f).trans ?_
    show _ ≤ (st.partition.set c l ++ [r]).countP _
    have := countP_set_append hc l r (fun p => p.any f)
    simp only [hany] at this
    generalize l.any f = u, r.any f = v at this
    cases u <;> cases v <;>
      simp only [Bool.or_self, Bool.or_true, Bool.or_false, if_true,
        Bool.false_eq_true, if_false] at this <;> omega

/-! ## The random refiner -/

theorem pyFilter_ok {α : Type} {f : α → PyM Bool} {q : α → Bool} {l : List α}
    (h : ∀ a ∈ l, f a = .ok (q a)) : pyFilter f l = .ok (l.filter q) := by
  induction l with
  | nil => rfl
  | cons a l ih =>
    rw [pyFilter, h a (by simp), ih fun b hb => h b (by simp [hb])]
    cases hq : q a <;> simp [hq, bind, Except.bind, pure, Except.pure]

theorem pyGet_eq {α : Type} {l : List α} {k : ℕ} {a : α} (h : l[k]? = some a) :
    pyGet l k = .ok a := by
  simp [pyGet, h]

theorem splitScenarios_ok (l : List ℕ) :
    ∃ a b, splitScenarios l = .ok (a, b) ∧ (a ++ b).Perm l
      ∧ (2 ≤ l.length → a ≠ [] ∧ b ≠ []) := by
  unfold splitScenarios
  by_cases h : 2 ≤ l.length
  · rw [if_pos h]
    refine ⟨sliceStep l 0 2, sliceStep l 1 2, ?_, ?_, fun _ => ⟨?_, ?_⟩⟩
    · unfold splitSortedSubset; rw [pyAssert_true h]; rfl
    · have := flatten_sliceStep_perm l 2 (by norm_num)
      simpa [List.range_succ] using this
    · intro h0
      have := sliceStep_length l 0 2 (by norm_num)
      rw [h0] at this; simp at this; omega
    · intro h0
      have := sliceStep_length l 1 2 (by norm_num)
      rw [h0] at this; simp at this; omega
  · rw [if_neg h]
    exact ⟨l, [], rfl, by simp, fun h' => absurd h' h⟩

theorem splitScenariosSubset_ok {flags : List Bool} {q : ℕ → Bool} {P : List (List ℕ)} {c : ℕ}
    {scenarios : List ℕ} (hc : c < P.length) (hperm : scenarios.Perm (P.getD c []))
    (hflags : ∀ s ∈ P.getD c [], flags[s]? = some (q s))
    (htwo : 2 ≤ (P.getD c []).countP q) :
    ∃ l r, splitScenariosSubset flags P scenarios c = .ok (P.set c l ++ [r])
      ∧ (l ++ r).Perm (P.getD c []) ∧ l.any q = true ∧ r.any q = true := by
  have hfl : ∀ s ∈ scenarios, flags[s]? = some (q s) := fun s hs => hflags s (hperm.mem_iff.1 hs)
  have h1 : pyFilter (fun s => pyGet flags s) scenarios = .ok (scenarios.filter q) :=
    pyFilter_ok fun s hs => pyGet_eq (hfl s hs)
  have h2 : pyFilter (fun s => do let b ← pyGet flags s; pure (!b)) scenarios
      = .ok (scenarios.filter fun s => !q s) :=
    pyFilter_ok fun s hs => by rw [pyGet_eq (hfl s hs)]; rfl
  have hlen : 2 ≤ (scenarios.filter q).length := by
    rw [← List.countP_eq_length_filter, hperm.countP_eq]; exact htwo
  obtain ⟨a, b, hab, hp1, hne⟩ := splitScenarios_ok (scenarios.filter q)
  obtain ⟨a', b', hab', hp2, -⟩ := splitScenarios_ok (scenarios.filter fun s => !q s)
  obtain ⟨hna, hnb⟩ := hne hlen
  have hq : ∀ s ∈ a ++ b, q s = true := fun s hs => (List.mem_filter.1 (hp1.mem_iff.1 hs)).2
  have hany : ∀ l l' : List ℕ, l ≠ [] → (∀ s ∈ l, q s = true) → (l ++ l').any q = true := by
    intro l l' hl hall
    obtain ⟨s, hs⟩ := List.exists_mem_of_ne_nil l hl
    exact List.any_eq_true.2 ⟨s, by simp [hs], hall s hs⟩
  refine ⟨a ++ a', b ++ b', ?_, ?_, hany _ _ hna fun s hs => hq s (by simp [hs]),
    hany _ _ hnb fun s hs => hq s (by simp [hs])⟩
  · unfold splitScenariosSubset
    rw [pyGet_of_lt [] hc]
    simp only [bind, Except.bind] at h2 ⊢
    rw [pyAssert_true hperm.length_eq.symm,
      pyAssert_true (show (P.getD c []).toFinset = scenarios.toFinset from
        (List.toFinset_eq_of_perm _ _ hperm).symm)]
    simp only [h1, h2, pyAssert_true hlen, hab, hab']
    rfl
  · have h3 : ((a ++ a') ++ (b ++ b')).Perm ((a ++ b) ++ (a' ++ b')) := by
      simp only [List.append_assoc]
      refine List.Perm.append_left _ ?_
      rw [← List.append_assoc, ← List.append_assoc]
      exact List.perm_append_comm.append_right _
    refine h3.trans ((hp1.append hp2).trans ?_)
    exact (List.filter_append_perm q scenarios).trans hperm

theorem traverse_ok {N : ℕ} {flags : List Bool} {q : ℕ → Bool} {mu : ℕ} {sh : ℕ → Shuffle}
    {nb : List ℕ} {P0 : List (List ℕ)} (hflags : ∀ s < N, flags[s]? = some (q s)) :
    ∀ (cs : List ℕ) (st : RState), cs.Nodup → RInv N q P0 st → st.muCounter ≤ mu →
      (∀ c ∈ cs, c < st.partition.length ∧
        nb[c]? = some ((st.partition.getD c []).countP q)) →
      ∃ st', traverse flags mu sh nb cs st = .ok st' ∧ RInv N q P0 st'
        ∧ st.muCounter ≤ st'.muCounter ∧ st'.muCounter ≤ mu
        ∧ ((∃ c ∈ cs, 2 ≤ (st.partition.getD c []).countP q) → st.muCounter < mu →
            st.muCounter < st'.muCounter) := by
  intro cs
  induction cs with
  | nil =>
    intro st _ h hmu _
    exact ⟨st, rfl, h, le_refl _, hmu, by simp⟩
  | cons c cs ih =>
    intro st hnd h hmu hcs
    rw [List.nodup_cons] at hnd
    obtain ⟨hclt, hcnb⟩ := hcs c (by simp)
    rw [traverse]
    by_cases hlt : st.muCounter < mu
    · rw [if_pos hlt, pyGet_eq hcnb]
      simp only [bind, Except.bind]
      by_cases htwo : 2 ≤ (st.partition.getD c []).countP q
      · rw [if_pos htwo, pyGet_of_lt [] hclt]
        simp only
        obtain ⟨l, r, he, hp, hl, hr⟩ := splitScenariosSubset_ok (flags := flags) hclt
          ((sh st.calls).perm (st.partition.getD c [])) (fun s hs => hflags s
            (mem_part_lt h.part (by
              rw [List.getD_eq_getElem _ _ hclt] at hs ⊢; exact List.getElem_mem _) hs)) htwo
        rw [he]
        simp only
        have hinv := h.split hclt hp hl hr (st.calls + 1)
        obtain ⟨st', h1, h2, h3, h4, -⟩ := ih _ hnd.2 hinv hlt (by
          intro d hd
          obtain ⟨hd1, hd2⟩ := hcs d (by simp [hd])
          have hne : d ≠ c := by rintro rfl; exact hnd.1 hd
          constructor
          · show d < (st.partition.set c l ++ [r]).length
            simp; omega
          · show nb[d]? = some (((st.partition.set c l ++ [r]).getD d []).countP q)
            rw [getD_set_append hd1, if_neg hne]; exact hd2)
        have h3' : st.muCounter + 1 ≤ st'.muCounter := h3
        exact ⟨st', h1, h2, by omega, h4, fun _ _ => by omega⟩
      · rw [if_neg htwo]
        obtain ⟨st', h1, h2, h3, h4, h5⟩ := ih st hnd.2 h hmu fun d hd => hcs d (by simp [hd])
        refine ⟨st', h1, h2, h3, h4, fun ⟨d, hd, hd2⟩ hlt => h5 ?_ hlt⟩
        rcases List.mem_cons.1 hd with rfl | hd
        · exact absurd hd2 htwo
        · exact ⟨d, hd, hd2⟩
    · rw [if_neg hlt]
      obtain ⟨st', h1, h2, h3, h4, h5⟩ := ih st hnd.2 h hmu fun d hd => hcs d (by simp [hd])
      exact ⟨st', h1, h2, h3, h4, fun _ hlt' => absurd hlt' hlt⟩

/-- The attributes of `check_feasibility` mark exactly the scenarios of `q`. -/
structure Marks (N : ℕ) (F : CheckOut) (q : ℕ → Bool) : Prop where
  flags : ∀ s < N, F.isScenarioInfeasible[s]? = some (q s)
  inf : ∀ s, s ∈ F.infeasibleScenarios ↔ s < N ∧ q s = true

theorem marks_check (norm : Norm) (I : Inst) (x : Vec) :
    Marks I.N (checkFeasibility norm I x) fun s => decide (ViolBy I feasTol s x) := by
  constructor
  · intro s hs
    show (isFeasible norm I x).flags[s]? = _
    rw [flags_eq]; simp [hs]
  · intro s
    show s ∈ (((isFeasible norm I x).flags.zipIdx.filter fun p => p.1).map fun p => p.2) ↔ _
    rw [flags_eq, zipIdx_filter_range, List.mem_filter, List.mem_range]

theorem Marks.countP {N : ℕ} {F : CheckOut} {q : ℕ → Bool} (h : Marks N F q)
    {P : List (List ℕ)} (hP : IsPartition N P) {p : List ℕ} (hp : p ∈ P) :
    (p.countP fun s => decide (s ∈ F.infeasibleScenarios)) = p.countP q := by
  refine List.countP_congr fun s hs => ?_
  rw [decide_eq_true_iff, h.inf]
  exact and_iff_right (mem_part_lt hP hp hs)

theorem Marks.countInfeasible {N : ℕ} {F : CheckOut} {q : ℕ → Bool} (h : Marks N F q)
    {P : List (List ℕ)} (hP : IsPartition N P) :
    countInfeasible P F.infeasibleScenarios = P.map fun p => p.countP q :=
  List.map_congr_left fun _ hp => h.countP hP hp

theorem Marks.nb {N : ℕ} {F : CheckOut} {q : ℕ → Bool} (h : Marks N F q)
    {P : List (List ℕ)} (hP : IsPartition N P) {c : ℕ} (hc : c < P.length) :
    (Model.countInfeasible P F.infeasibleScenarios)[c]? = some ((P.getD c []).countP q) := by
  rw [h.countInfeasible hP, List.getElem?_map, List.getElem?_eq_getElem hc,
    List.getD_eq_getElem _ _ hc]
  rfl

theorem exists_splittable {N : ℕ} {q : ℕ → Bool} {P0 : List (List ℕ)} {st : RState}
    (h : RInv N q P0 st) {mu : ℕ} (hlt : st.muCounter < mu)
    (hbig : P0.countP (fun p => p.any q) + mu ≤ (List.range N).countP q) :
    ∃ c < st.partition.length, 2 ≤ (st.partition.getD c []).countP q := by
  obtain ⟨p, hp, h2⟩ := exists_two (P := st.partition) (f := q) (by
    rw [h.cnt, h.part.1.countP_eq]; omega)
  obtain ⟨c, hc, rfl⟩ := List.mem_iff_getElem.1 hp
  exact ⟨c, hc, by rw [List.getD_eq_getElem _ _ hc]; exact h2⟩

theorem randomLoop_ok {N : ℕ} {F : CheckOut} {q : ℕ → Bool} {mu : ℕ} {sh : ℕ → Shuffle}
    {P0 : List (List ℕ)} (hF : Marks N F q)
    (hbig : P0.countP (fun p => p.any q) + mu ≤ (List.range N).countP q) :
    ∀ (fuel : ℕ) (st : RState), RInv N q P0 st → st.muCounter ≤ mu → mu ≤ st.muCounter + fuel →
      ∃ st', randomLoop F mu sh fuel st = .ok st' ∧ RInv N q P0 st' ∧ st'.muCounter = mu := by
  intro fuel
  induction fuel with
  | zero =>
    intro st h hle hfuel
    refine ⟨st, ?_, h, by omega⟩
    rw [randomLoop, if_neg (by omega)]
  | succ fuel ih =>
    intro st h hle hfuel
    rw [randomLoop]
    by_cases hlt : st.muCounter < mu
    · rw [if_pos hlt]
      simp only
      have hperm := (sh st.calls).perm (List.range st.partition.length)
      have hinv : RInv N q P0 { st with calls := st.calls + 1 } :=
        ⟨h.1, h.2, h.3, h.4, h.5, h.6, h.7, h.8, h.9⟩
      obtain ⟨st', h1, h2, h3, h4, h5⟩ := traverse_ok (sh := sh) (mu := mu)
        (nb := countInfeasible st.partition F.infeasibleScenarios) hF.flags
        ((sh st.calls).run (List.range st.partition.length)) { st with calls := st.calls + 1 }
        (hperm.nodup_iff.2 List.nodup_range) hinv hle (by
          intro c hc
          have hc' := List.mem_range.1 (hperm.mem_iff.1 hc)
          exact ⟨hc', hF.nb h.part hc'⟩)
      have h1' := h1
      simp only [bind, Except.bind] at h1' ⊢
      rw [h1']
      simp only
      obtain ⟨c, hc, hc2⟩ := exists_splittable h hlt hbig
      have hprog : st.muCounter < st'.muCounter :=
        h5 ⟨c, hperm.mem_iff.2 (List.mem_range.2 hc), hc2⟩ hlt
      exact ih st' h2 h4 (by omega)
    · rw [if_neg hlt]
      exact ⟨st, rfl, h, by omega⟩

theorem length_infeasible {N : ℕ} {F : CheckOut} {q : ℕ → Bool} (h : Marks N F q)
    {P : List (List ℕ)} (hP : IsPartition N P) :
    (findInfeasibleSubsets P F.infeasibleScenarios).2.length = P.countP fun p => p.any q := by
  have hpos : ∀ p : List ℕ, (p.any q = true ↔ ¬ p.countP q = 0) := fun p => by
    rw [List.any_eq_true, List.countP_eq_zero]
    push Not
    simp
  unfold findInfeasibleSubsets
  simp only
  rw [h.countInfeasible hP, ← List.countP_eq_length_filter]
  have key : ∀ P : List (List ℕ),
      ((List.range P.length).countP fun c =>
        decide (¬ ((P.map fun p => p.countP q).getD c 0 = 0))) = P.countP fun p => p.any q := by
    intro P
    induction P using List.reverseRecOn with
    | nil => simp
    | append_singleton P p ih =>
      rw [List.length_append, List.length_singleton, List.range_succ, List.countP_append,
        List.countP_append]
      congr 1
      · rw [← ih]
        refine List.countP_congr fun c hc => ?_
        have hc := List.mem_range.1 hc
        rw [List.map_append, List.getD_append _ _ _ _ (by simpa using hc)]
      · simp only [List.countP_cons, List.countP_nil, List.map_append]
        rw [List.getD_append_right _ _ _ _ (by simp)]
        simp only [List.length_map, Nat.sub_self, List.map_cons, List.map_nil,
          List.getD_cons_zero]
        by_cases hp : p.any q = true
        · simp [hp, (hpos p).1 hp]
        · have h0 : p.countP q = 0 := by
            by_contra h0; exact hp ((hpos p).2 h0)
          simp [hp, h0]
  exact key P

theorem mem_feasible {N : ℕ} {F : CheckOut} {q : ℕ → Bool} (h : Marks N F q)
    {P : List (List ℕ)} (hP : IsPartition N P) (c : ℕ) :
    (c ∈ (findInfeasibleSubsets P F.infeasibleScenarios).1
      ↔ c < P.length ∧ (P.getD c []).any q = false)
    ∧ (c ∈ (findInfeasibleSubsets P F.infeasibleScenarios).2
      ↔ c < P.length ∧ (P.getD c []).any q = true) := by
  unfold findInfeasibleSubsets
  simp only [List.mem_filter, List.mem_range, decide_eq_true_iff]
  have key : c < P.length → ((countInfeasible P F.infeasibleScenarios).getD c 0 = 0
      ↔ (P.getD c []).any q = false) := fun hc => by
    rw [List.getD_eq_getElem?_getD, h.nb hP hc, Option.getD_some, List.countP_eq_zero,
      List.any_eq_false]
  refine ⟨and_congr_right key, and_congr_right fun hc => ?_⟩
  rw [key hc]
  simp

theorem finishRefine_ok {I : Inst} {F : CheckOut} {q : ℕ → Bool} {P : List (List ℕ)} {mu : ℕ}
    {st : RState} (hP : IsPartition I.N P) (h : RInv I.N q P st) (hmu : st.muCounter = mu)
    (hpos : 1 ≤ mu) :
    finishRefine I F P mu st = .ok
      { partition := st.partition, mu, newSubsets := st.newSubsets, splitted := st.splitted
        feasibleSubsets := (findInfeasibleSubsets st.partition F.infeasibleScenarios).1
        infeasibleSubsets := (findInfeasibleSubsets st.partition F.infeasibleScenarios).2 } := by
  have hlen := h.len
  unfold finishRefine checkFinalPartition
  rw [pyAssert_true hmu, pyAssert_true (show st.partition ≠ P by
      intro he; rw [he] at hlen; omega),
    pyAssert_true h.part.2, pyAssert_true hP.2, pyAssert_true (show _ = _ by rw [hlen, hmu]),
    pyAssert_true (List.toFinset_eq_of_perm _ _ h.part.1),
    pyAssert_true (show _ = _ by rw [h.part.1.length_eq, List.length_range]),
    pyAssert_true (show st.partition.length > P.length by omega)]
  rfl

/-- The tolerated number of violated scenarios as the code computes it. -/
theorem numberOfSplits_ok {I : Inst} (heps : 0 ≤ I.eps) {k : ℕ} (hk : k ≤ kmax I) :
    numberOfSplits I k = .ok (kmax I + 1 - k) := by
  have hfl : ⌊I.eps * (I.N : ℚ)⌋ = (kmax I : ℤ) := by
    rw [kmax, Int.natCast_floor_eq_floor (mul_nonneg heps (Nat.cast_nonneg _))]
  unfold numberOfSplits
  simp only
  rw [hfl, pyAssert_true (by omega)]
  simp only [bind, Except.bind, pure, Except.pure]
  congr 1
  omega

theorem numberOfSplits_err {I : Inst} (heps : 0 ≤ I.eps) {k : ℕ} (hk : kmax I < k) :
    numberOfSplits I k = .error (.assertion "Refiner.py:92") := by
  have hfl : ⌊I.eps * (I.N : ℚ)⌋ = (kmax I : ℤ) := by
    rw [kmax, Int.natCast_floor_eq_floor (mul_nonneg heps (Nat.cast_nonneg _))]
  unfold numberOfSplits
  simp only
  rw [hfl, pyAssert_false (by omega)]
  rfl

/-- What one successful `refine` guarantees. -/
structure RefineOk (I : Inst) (q : ℕ → Bool) (P : List (List ℕ)) (out : RefineOut) : Prop where
  mu : out.mu + P.countP (fun p => p.any q) = kmax I + 1
  muPos : 1 ≤ out.mu
  inv : ∃ st, RInv I.N q P st ∧ st.muCounter = out.mu ∧ out.partition = st.partition
    ∧ out.newSubsets = st.newSubsets
  feasible : ∀ c, c ∈ out.feasibleSubsets
    ↔ c < out.partition.length ∧ (out.partition.getD c []).any q = false
  infeasible : ∀ c, c ∈ out.infeasibleSubsets
    ↔ c < out.partition.length ∧ (out.partition.getD c []).any q = true
  feasSorted : out.feasibleSubsets.Pairwise (· < ·)

theorem refineOk_of {I : Inst} {F : CheckOut} {q : ℕ → Bool} {P : List (List ℕ)} {mu : ℕ}
    {st : RState} (hF : Marks I.N F q) (h : RInv I.N q P st)
    (hmu : st.muCounter = mu) (hk : P.countP (fun p => p.any q) ≤ kmax I)
    (hmu2 : mu = kmax I + 1 - P.countP fun p => p.any q) :
    RefineOk I q P
      { partition := st.partition, mu, newSubsets := st.newSubsets, splitted := st.splitted
        feasibleSubsets := (findInfeasibleSubsets st.partition F.infeasibleScenarios).1
        infeasibleSubsets := (findInfeasibleSubsets st.partition F.infeasibleScenarios).2 } where
  mu := by simp only; omega
  muPos := by simp only; omega
  inv := ⟨st, h, hmu, rfl, rfl⟩
  feasible c := (mem_feasible hF h.part c).1
  infeasible c := (mem_feasible hF h.part c).2
  feasSorted := List.pairwise_lt_range.sublist List.filter_sublist

theorem refineRandom_ok {I : Inst} {F : CheckOut} {q : ℕ → Bool} {P : List (List ℕ)}
    {sh : ℕ → Shuffle} {fuel : ℕ} (heps : 0 ≤ I.eps) (hF : Marks I.N F q)
    (hP : IsPartition I.N P) (hk : P.countP (fun p => p.any q) ≤ kmax I)
    (hinf : kmax I < (List.range I.N).countP q)
    (hfuel : kmax I + 1 ≤ fuel + P.countP fun p => p.any q) :
    ∃ out, refineRandom I F sh false fuel P = .ok out ∧ RefineOk I q P out := by
  have hlen := length_infeasible hF hP
  obtain ⟨st, h1, h2, h3⟩ := randomLoop_ok (sh := sh) (P0 := P)
    (mu := kmax I + 1 - P.countP fun p => p.any q) hF (by omega)
    fuel (RState.init P) (RInv.init hP) (by simp [RState.init]) (by simp [RState.init]; omega)
  refine ⟨_, ?_, refineOk_of hF h2 h3 hk rfl⟩
  unfold refineRandom
  simp only
  rw [hlen, numberOfSplits_ok heps hk]
  simp only [bind, Except.bind, Bool.false_eq_true, if_false]
  rw [h1]
  simp only
  exact finishRefine_ok hP h2 h3 (by omega)

end Verif.Model
