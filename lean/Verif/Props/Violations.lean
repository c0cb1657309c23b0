import Verif.Lemmas.Violations
import Verif.Model.Song
import Verif.Props.Knapsack

/-!
# C45, C46: the compiled violation routine
-/

open Finset

namespace Verif.Props
open Spec Model

theorem dot_congr_left {n : ℕ} {a a' : Vec} (h : ∀ j < n, a j = a' j) (x : Vec) :
    dot n a x = dot n a' x :=
  Finset.sum_congr rfl fun j hj => by rw [h j (Finset.mem_range.1 hj)]

/-! ## One call of `compute` -/

theorem ordered_of_sort (srt : CppSort) (n : ℕ) (p w : Vec) (l : List ℕ)
    (hl : l.Perm (List.range n)) (hp : ∀ j < n, 0 ≤ p j) (hw : ∀ j < n, 0 ≤ w j) :
    Ordered n p w (srt.run (cppComp p w) l) := by
  have hm : ∀ a ∈ l, a < n := fun a ha => List.mem_range.1 (hl.mem_iff.1 ha)
  obtain ⟨h1, h2⟩ := srt.spec _ _
    (cppComp_strictWeak p w l (fun a ha => hp a (hm a ha)) fun a ha => hw a (hm a ha))
  have hm' : ∀ a ∈ srt.run (cppComp p w) l, a < n := fun a ha => hm a (h1.mem_iff.1 ha)
  refine ⟨h1.trans hl, ?_⟩
  refine List.Pairwise.imp_of_mem ?_ h2
  intro a b ha hb hab
  exact cppComp_ratio (hp a (hm' a ha)) (hw b (hm' b hb)) hab

/-- The two rows of a call. -/
def rowS (I : Inst) (op : CppOp) : Vec := fun j => memA I (op.slhs + j)
def rowT (I : Inst) (op : CppOp) : Vec := fun j => memA I (op.tlhs + j)

/-- The calls that occur: rows `i` of `s` and `l` of `t`. -/
def OpOk (I : Inst) (op : CppOp) : Prop :=
  ∃ s i t l, s < I.N ∧ i < I.m ∧ t < I.N ∧ l < I.m ∧ ¬ (s = t ∧ i = l)
    ∧ op = mkOp I.N I.n I.m s i t l

theorem rowS_mkOp (I : Inst) {s i t l : ℕ} (hi : i < I.m) {j : ℕ} (hj : j < I.n) :
    rowS I (mkOp I.N I.n I.m s i t l) j = I.A s i j := memA_eq I hi hj

theorem rowT_mkOp (I : Inst) {s i t l : ℕ} (hl : l < I.m) {j : ℕ} (hj : j < I.n) :
    rowT I (mkOp I.N I.n I.m s i t l) j = I.A t l j := memA_eq I hl hj

/-- One call as two updates of the output. -/
theorem cppCompute_step (srt : CppSort) (I : Inst) (hA : ∀ s < I.N, ∀ i < I.m, ∀ j < I.n, 0 ≤ I.A s i j)
    (st : CppState) (hst : st.indices.Perm (List.range I.n)) (op : CppOp) (hop : OpOk I op) :
    ∃ l : List ℕ, Ordered I.n (rowS I op) (rowT I op) (visit l false)
      ∧ Ordered I.n (rowT I op) (rowS I op) (visit l true)
      ∧ (cppCompute srt (memA I) (memB I) st op).indices = l
      ∧ l.Perm (List.range I.n)
      ∧ ∃ V1 : ℕ → WithTop ℚ,
          V1 = Function.update st.viols op.sViol (cppUpdate (rowS I op) (memB I op.srhs) (rowT I op)
            (memB I op.trhs) (st.viols op.sViol) l false)
          ∧ (cppCompute srt (memA I) (memB I) st op).viols
            = Function.update V1 op.tViol (cppUpdate (rowT I op) (memB I op.trhs) (rowS I op)
              (memB I op.srhs) (V1 op.tViol) l true) := by
  obtain ⟨s, i, t, l, hs, hi, ht, hl, _, rfl⟩ := hop
  have hp : ∀ j < I.n, 0 ≤ rowS I (mkOp I.N I.n I.m s i t l) j := fun j hj => by
    rw [rowS_mkOp I hi hj]; exact hA s hs i hi j hj
  have hw : ∀ j < I.n, 0 ≤ rowT I (mkOp I.N I.n I.m s i t l) j := fun j hj => by
    rw [rowT_mkOp I hl hj]; exact hA t ht l hl j hj
  have ho := ordered_of_sort srt I.n _ _ st.indices hst hp hw
  exact ⟨_, ho, ho.reverse, rfl, ho.perm, _, rfl, rfl⟩

/-- A full pass is a fold over calls that satisfy `OpOk`. -/
theorem cpp_ops_ok (I : Inst) : ∀ op ∈ cppOps1 I.N I.n I.m ++ cppOps2 I.N I.n I.m, OpOk I op := by
  intro op h
  obtain ⟨s, i, t, l, h1, h2, h3, h4, h5, h6⟩ := mem_cppOps_bounds h
  exact ⟨s, i, t, l, h1, h2, h3, h4, h5, h6⟩

/-! ## Validity -/

/-- The violation of row `i` of `s` at `x` is at most the stored entry, for every `x` that
satisfies scenario `t`. -/
def EntriesValid (I : Inst) (V : ℕ → WithTop ℚ) : Prop :=
  ∀ s < I.N, ∀ t < I.N, ∀ i < I.m, ∀ x, InBox I.n x → Sat I t x →
    ((dot I.n (I.A s i) x - I.b s i : ℚ) : WithTop ℚ) ≤ V (addr I.N I.m s t i)

theorem entriesValid_step (srt : CppSort) (I : Inst)
    (hA : ∀ s < I.N, ∀ i < I.m, ∀ j < I.n, 0 ≤ I.A s i j) (st : CppState)
    (hst : st.indices.Perm (List.range I.n)) (hV : EntriesValid I st.viols) (op : CppOp)
    (hop : OpOk I op) :
    EntriesValid I (cppCompute srt (memA I) (memB I) st op).viols
    ∧ (cppCompute srt (memA I) (memB I) st op).indices.Perm (List.range I.n) := by
  obtain ⟨ind, ho1, ho2, hind, hperm, V1, hV1, hV2⟩ := cppCompute_step srt I hA st hst op hop
  obtain ⟨s, i, t, l, hs, hi, ht, hl, _, rfl⟩ := hop
  have hp : ∀ j < I.n, 0 ≤ rowS I (mkOp I.N I.n I.m s i t l) j := fun j hj => by
    rw [rowS_mkOp I hi hj]; exact hA s hs i hi j hj
  have hw : ∀ j < I.n, 0 ≤ rowT I (mkOp I.N I.n I.m s i t l) j := fun j hj => by
    rw [rowT_mkOp I hl hj]; exact hA t ht l hl j hj
  have hdS : ∀ x, dot I.n (rowS I (mkOp I.N I.n I.m s i t l)) x = dot I.n (I.A s i) x :=
    dot_congr_left fun j hj => rowS_mkOp I hi hj
  have hdT : ∀ x, dot I.n (rowT I (mkOp I.N I.n I.m s i t l)) x = dot I.n (I.A t l) x :=
    dot_congr_left fun j hj => rowT_mkOp I hl hj
  have hbS : memB I (mkOp I.N I.n I.m s i t l).srhs = I.b s i := memB_eq I hi
  have hbT : memB I (mkOp I.N I.n I.m s i t l).trhs = I.b t l := memB_eq I hl
  have h1 : EntriesValid I V1 := by
    intro s' hs' t' ht' i' hi' x hx hsat
    rw [hV1, Function.update_apply]
    split_ifs with h
    · obtain ⟨rfl, rfl, rfl⟩ := addr_inj ht' hi' ht hi h
      have := cppUpdate_valid I.n _ (memB I (mkOp I.N I.n I.m s' i' t' l).srhs) _
        (memB I (mkOp I.N I.n I.m s' i' t' l).trhs)
        (st.viols (mkOp I.N I.n I.m s' i' t' l).sViol) ind false hp hw ho1 x hx
        (by rw [hdT, hbT]; exact hsat l hl)
        (by rw [hdS, hbS]; exact hV s' hs' t' ht' i' hi' x hx hsat)
      rw [hdS] at this
      rw [hbS] at this ⊢
      exact this
    · exact hV s' hs' t' ht' i' hi' x hx hsat
  refine ⟨?_, by rw [hind]; exact hperm⟩
  intro s' hs' t' ht' i' hi' x hx hsat
  rw [hV2, Function.update_apply]
  split_ifs with h
  · obtain ⟨rfl, rfl, rfl⟩ := addr_inj ht' hi' hs hl h
    have := cppUpdate_valid I.n _ (memB I (mkOp I.N I.n I.m t' i s' i').trhs) _
      (memB I (mkOp I.N I.n I.m t' i s' i').srhs)
      (V1 (mkOp I.N I.n I.m t' i s' i').tViol) ind true hw hp ho2 x hx
      (by rw [hdS, hbS]; exact hsat i hi)
      (by rw [hdT, hbT]; exact h1 s' hs' t' ht' i' hi' x hx hsat)
    rw [hdT] at this
    rw [hbT] at this ⊢
    exact this
  · exact h1 s' hs' t' ht' i' hi' x hx hsat

theorem entriesValid_fold (srt : CppSort) (I : Inst)
    (hA : ∀ s < I.N, ∀ i < I.m, ∀ j < I.n, 0 ≤ I.A s i j) (ops : List CppOp)
    (hops : ∀ op ∈ ops, OpOk I op) (st : CppState)
    (hst : st.indices.Perm (List.range I.n)) (hV : EntriesValid I st.viols) :
    EntriesValid I (ops.foldl (cppCompute srt (memA I) (memB I)) st).viols := by
  induction ops generalizing st with
  | nil => exact hV
  | cons op ops ih =>
    obtain ⟨h1, h2⟩ := entriesValid_step srt I hA st hst hV op (hops op (by simp))
    exact ih (fun o ho => hops o (by simp [ho])) _ h2 h1

theorem cppUpdate_ne_top (p : Vec) (loss : ℚ) (w : Vec) (cap : ℚ) (mn : WithTop ℚ) (l : List ℕ)
    (r : Bool) : cppUpdate p loss w cap mn l r ≠ ⊤ := by
  rw [cppUpdate_eq]
  intro h
  exact absurd (min_eq_top.1 h).2 (by simp)

/-- Entries touched by a call become finite and stay so. -/
theorem finite_fold (srt : CppSort) (I : Inst) (ops : List CppOp) (st : CppState) (a : ℕ)
    (h : st.viols a ≠ ⊤ ∨ ∃ op ∈ ops, op.sViol = a ∨ op.tViol = a) :
    (ops.foldl (cppCompute srt (memA I) (memB I)) st).viols a ≠ ⊤ := by
  induction ops generalizing st with
  | nil => rcases h with h | ⟨op, h, _⟩; exact h; simp at h
  | cons op ops ih =>
    apply ih
    by_cases ht : op.tViol = a
    · left
      show Function.update _ _ _ _ ≠ _
      rw [Function.update_apply, if_pos ht.symm]
      exact cppUpdate_ne_top _ _ _ _ _ _ _
    · by_cases hs : op.sViol = a
      · left
        show Function.update _ _ _ _ ≠ _
        rw [Function.update_apply, if_neg (Ne.symm ht), Function.update_apply, if_pos hs.symm]
        exact cppUpdate_ne_top _ _ _ _ _ _ _
      · rcases h with h | ⟨o, ho, h⟩
        · left
          show Function.update _ _ _ _ ≠ _
          rw [Function.update_apply, if_neg (Ne.symm ht), Function.update_apply, if_neg (Ne.symm hs)]
          exact h
        · rcases List.mem_cons.1 ho with rfl | ho
          · rcases h with h | h
            · exact absurd h hs
            · exact absurd h ht
          · exact Or.inr ⟨o, ho, h⟩

theorem cppInit_addr {k m s t i : ℕ} (ht : t < k) (hi : i < m) :
    cppInit k m (addr k m s t i) = if s = t then 0 else ⊤ := by
  unfold cppInit
  obtain ⟨h1, h2, _⟩ := addr_div (s := s) ht hi
  rw [h1, h2]

/-- Every pair of different scenarios is visited in one of the two roles. -/
theorem touched {k n m s t i : ℕ} (hs : s < k) (ht : t < k) (hi : i < m) (hne : s ≠ t) :
    ∃ op ∈ cppOps1 k n m ++ cppOps2 k n m,
      op.sViol = addr k m s t i ∨ op.tViol = addr k m s t i := by
  rcases Nat.lt_or_gt_of_ne hne with h | h
  · exact ⟨_, (mem_cppOps k n m _).2 (Or.inr ⟨s, t, i, i, h, ht, hi, hi, rfl⟩), Or.inl rfl⟩
  · exact ⟨_, (mem_cppOps k n m _).2 (Or.inr ⟨t, s, i, i, h, hs, hi, hi, rfl⟩), Or.inr rfl⟩

/-- **C45.** For non-negative `A` (and any `b`), whatever order `std::sort` leaves equal elements
in, entry `[s, t, i]` of the compiled `compute_all_violations` is a finite number that is at
least `A_s,i.x - b_s,i` for every `x` of the unit box that satisfies scenario `t`. -/
theorem C45_cpp_violations_valid (srt : CppSort) (I : Inst) (hN : 0 < I.N) (hm : 0 < I.m)
    (hn : 0 < I.n) (hA : ∀ s < I.N, ∀ i < I.m, ∀ j < I.n, 0 ≤ I.A s i j) :
    ∃ f, cppViolations srt I = .ok f ∧
      ∀ s < I.N, ∀ t < I.N, ∀ i < I.m, ∃ q : ℚ, f s t i = (q : WithTop ℚ)
        ∧ ∀ x, InBox I.n x → Sat I t x → dot I.n (I.A s i) x - I.b s i ≤ q := by
  refine ⟨_, if_neg (by omega), fun s hs t ht i hi => ?_⟩
  have hval : EntriesValid I (cppComputeAll srt (memA I) (memB I) I.N I.n I.m (cppInit I.N I.m)) := by
    refine entriesValid_fold srt I hA _ (cpp_ops_ok I) _ (List.Perm.refl _) ?_
    intro s hs t ht i hi x hx hsat
    show _ ≤ cppInit I.N I.m _
    rw [cppInit_addr ht hi]
    split_ifs with h
    · subst h
      have := hsat i hi
      exact_mod_cast (by linarith : dot I.n (I.A s i) x - I.b s i ≤ 0)
    · exact le_top
  have hfin : cppComputeAll srt (memA I) (memB I) I.N I.n I.m (cppInit I.N I.m)
      (addr I.N I.m s t i) ≠ ⊤ := by
    apply finite_fold
    by_cases h : s = t
    · left
      show cppInit I.N I.m _ ≠ ⊤
      rw [cppInit_addr ht hi, if_pos h]
      exact WithTop.zero_ne_top
    · exact Or.inr (touched hs ht hi h)
  obtain ⟨q, hq⟩ := WithTop.ne_top_iff_exists.1 hfin
  refine ⟨q, hq.symm, fun x hx hsat => ?_⟩
  have := hval s hs t ht i hi x hx hsat
  rw [← hq] at this
  exact_mod_cast this

/-! ## Equality with the Python reference -/

theorem isKnapsackMax_unique {n : ℕ} {r w r' w' : Vec} {k cap v v' : ℚ}
    (hr : ∀ j < n, r j = r' j) (hw : ∀ j < n, w j = w' j) (h : IsKnapsackMax n r w k cap v)
    (h' : IsKnapsackMax n r' w' k cap v') : v = v' := by
  have er := fun x => dot_congr_left (n := n) hr x
  have ew := fun x => dot_congr_left (n := n) hw x
  obtain ⟨a, x, hx, hxc, hxe⟩ := h
  obtain ⟨b, y, hy, hyc, hye⟩ := h'
  apply le_antisymm
  · rw [← hxe, er]; exact b x hx (by rw [← ew]; exact hxc)
  · rw [← hye, ← er]; exact a y hy (by rw [ew]; exact hyc)

/-- Hypotheses of C46 on the data: non-negative multiples of 1/10. -/
def OneDecimal (I : Inst) : Prop :=
  NonnegAb I ∧ ∀ s < I.N, ∀ i < I.m, Grid (I.b s i) ∧ ∀ j < I.n, Grid (I.A s i j)

/-- The smaller of the entry and of all knapsack values written to its address. -/
theorem exact_fold (srt : CppSort) (I : Inst) (hI : OneDecimal I)
    (K : ℕ → ℕ → ℕ → ℕ → ℚ)
    (hK : ∀ s < I.N, ∀ i < I.m, ∀ t < I.N, ∀ l < I.m,
      IsKnapsackMax I.n (I.A s i) (I.A t l) (I.b s i) (I.b t l) (K s i t l))
    (ops : List CppOp) (hops : ∀ op ∈ ops, OpOk I op) (st : CppState)
    (hst : st.indices.Perm (List.range I.n)) {s t i : ℕ} (ht : t < I.N) (hi : i < I.m)
    (hs : s < I.N) (y : WithTop ℚ) :
    y ≤ (ops.foldl (cppCompute srt (memA I) (memB I)) st).viols (addr I.N I.m s t i) ↔
      y ≤ st.viols (addr I.N I.m s t i)
      ∧ ∀ l < I.m, (mkOp I.N I.n I.m s i t l ∈ ops ∨ mkOp I.N I.n I.m t l s i ∈ ops) →
        y ≤ (K s i t l : WithTop ℚ) := by
  obtain ⟨hI1, hI2⟩ := hI
  have hA : ∀ s < I.N, ∀ i < I.m, ∀ j < I.n, 0 ≤ I.A s i j := fun s hs i hi => (hI1 s hs i hi).2
  induction ops generalizing st with
  | nil => simp
  | cons op ops ih =>
    obtain ⟨ind, ho1, ho2, hind, hperm, V1, hV1, hV2⟩ :=
      cppCompute_step srt I hA st hst op (hops op (by simp))
    have hih := ih (fun o ho => hops o (by simp [ho]))
      (cppCompute srt (memA I) (memB I) st op) (by rw [hind]; exact hperm)
    rw [List.foldl_cons]
    refine hih.trans ?_
    rw [hV2]
    clear hih ih
    obtain ⟨s', i', t', l', hs', hi', ht', hl', hne, rfl⟩ := hops op (by simp)
    have hp : ∀ j < I.n, 0 ≤ rowS I (mkOp I.N I.n I.m s' i' t' l') j := fun j hj => by
      rw [rowS_mkOp I hi' hj]; exact hA s' hs' i' hi' j hj
    have hw : ∀ j < I.n, 0 ≤ rowT I (mkOp I.N I.n I.m s' i' t' l') j := fun j hj => by
      rw [rowT_mkOp I hl' hj]; exact hA t' ht' l' hl' j hj
    have gp : ∀ j < I.n, Grid (rowS I (mkOp I.N I.n I.m s' i' t' l') j) := fun j hj => by
      rw [rowS_mkOp I hi' hj]; exact (hI2 s' hs' i' hi').2 j hj
    have gw : ∀ j < I.n, Grid (rowT I (mkOp I.N I.n I.m s' i' t' l') j) := fun j hj => by
      rw [rowT_mkOp I hl' hj]; exact (hI2 t' ht' l' hl').2 j hj
    have hdS : ∀ x, dot I.n (rowS I (mkOp I.N I.n I.m s' i' t' l')) x = dot I.n (I.A s' i') x :=
      dot_congr_left fun j hj => rowS_mkOp I hi' hj
    have hdT : ∀ x, dot I.n (rowT I (mkOp I.N I.n I.m s' i' t' l')) x = dot I.n (I.A t' l') x :=
      dot_congr_left fun j hj => rowT_mkOp I hl' hj
    have hbS : memB I (mkOp I.N I.n I.m s' i' t' l').srhs = I.b s' i' := memB_eq I hi'
    have hbT : memB I (mkOp I.N I.n I.m s' i' t' l').trhs = I.b t' l' := memB_eq I hl'
    have e1 : ∀ mn, cppUpdate (rowS I (mkOp I.N I.n I.m s' i' t' l'))
        (memB I (mkOp I.N I.n I.m s' i' t' l').srhs) (rowT I (mkOp I.N I.n I.m s' i' t' l'))
        (memB I (mkOp I.N I.n I.m s' i' t' l').trhs) mn ind false
        = min mn (K s' i' t' l' : WithTop ℚ) := by
      intro mn
      have hk := hK s' hs' i' hi' t' ht' l' hl'
      refine cppUpdate_exact I.n _ _ _ _ mn ind false hp hw gw ?_ ?_ ho1 _ ?_ ?_
      · rw [hbT]; exact (hI2 t' ht' l' hl').1
      · rw [hbT]; exact (hI1 t' ht' l' hl').1
      · intro x hx hxc; rw [hdT, hbT] at hxc; rw [hdS, hbS]; exact hk.1 x hx hxc
      · obtain ⟨x, hx, hxc, hxe⟩ := hk.2
        exact ⟨x, hx, by rw [hdT, hbT]; exact hxc, by rw [hdS, hbS]; exact hxe⟩
    have e2 : ∀ mn, cppUpdate (rowT I (mkOp I.N I.n I.m s' i' t' l'))
        (memB I (mkOp I.N I.n I.m s' i' t' l').trhs) (rowS I (mkOp I.N I.n I.m s' i' t' l'))
        (memB I (mkOp I.N I.n I.m s' i' t' l').srhs) mn ind true
        = min mn (K t' l' s' i' : WithTop ℚ) := by
      intro mn
      have hk := hK t' ht' l' hl' s' hs' i' hi'
      refine cppUpdate_exact I.n _ _ _ _ mn ind true hw hp gp ?_ ?_ ho2 _ ?_ ?_
      · rw [hbS]; exact (hI2 s' hs' i' hi').1
      · rw [hbS]; exact (hI1 s' hs' i' hi').1
      · intro x hx hxc; rw [hdS, hbS] at hxc; rw [hdT, hbT]; exact hk.1 x hx hxc
      · obtain ⟨x, hx, hxc, hxe⟩ := hk.2
        exact ⟨x, hx, by rw [hdS, hbS]; exact hxc, by rw [hdT, hbT]; exact hxe⟩
    rw [e1] at hV1
    rw [e2]
    -- which of the two writes hit the entry
    have ha1 : ((mkOp I.N I.n I.m s' i' t' l').sViol = addr I.N I.m s t i) ↔ s' = s ∧ t' = t ∧ i' = i :=
      ⟨fun h => addr_inj ht' hi' ht hi h, by rintro ⟨rfl, rfl, rfl⟩; rfl⟩
    have ha2 : ((mkOp I.N I.n I.m s' i' t' l').tViol = addr I.N I.m s t i) ↔ t' = s ∧ s' = t ∧ l' = i :=
      ⟨fun h => addr_inj hs' hl' ht hi h, by rintro ⟨rfl, rfl, rfl⟩; rfl⟩
    have hmk : ∀ s1 i1 t1 l1, t1 < I.N → i1 < I.m → s1 < I.N → l1 < I.m →
        (mkOp I.N I.n I.m s1 i1 t1 l1 = mkOp I.N I.n I.m s' i' t' l' ↔
          s1 = s' ∧ i1 = i' ∧ t1 = t' ∧ l1 = l') := by
      intro s1 i1 t1 l1 h1 h2 h3 h4
      constructor
      · intro h
        have k1 := addr_inj h1 h2 ht' hi' (congrArg CppOp.sViol h)
        have k2 := addr_inj h3 h4 hs' hl' (congrArg CppOp.tViol h)
        exact ⟨k1.1, k1.2.2, k1.2.1, k2.2.2⟩
      · rintro ⟨rfl, rfl, rfl, rfl⟩; rfl
    have hupd : ∀ (V : ℕ → WithTop ℚ) (a a' : ℕ) (q : WithTop ℚ),
        (y ≤ Function.update V a (min (V a) q) a' ↔ y ≤ V a' ∧ (a = a' → y ≤ q)) := by
      intro V a a' q
      rw [Function.update_apply]
      by_cases h : a' = a
      · subst h; simp
      · rw [if_neg h]; simp [Ne.symm h]
    rw [hupd, hV1, hupd, ha1, ha2]
    constructor
    · rintro ⟨⟨⟨h1, h2⟩, h3⟩, h4⟩
      refine ⟨h1, fun l hl => ?_⟩
      rw [List.mem_cons, List.mem_cons, hmk s i t l ht hi hs hl, hmk t l s i hs hl ht hi]
      rintro ((⟨rfl, rfl, rfl, rfl⟩ | h) | (⟨rfl, rfl, rfl, rfl⟩ | h))
      · exact h2 ⟨rfl, rfl, rfl⟩
      · exact h4 l hl (Or.inl h)
      · exact h3 ⟨rfl, rfl, rfl⟩
      · exact h4 l hl (Or.inr h)
    · rintro ⟨h1, h2⟩
      refine ⟨⟨⟨h1, ?_⟩, ?_⟩, fun l hl h => h2 l hl
        (h.imp (List.mem_cons_of_mem _) (List.mem_cons_of_mem _))⟩
      · rintro ⟨rfl, rfl, rfl⟩
        exact h2 l' hl' (Or.inl List.mem_cons_self)
      · rintro ⟨rfl, rfl, rfl⟩
        exact h2 i' hi' (Or.inr List.mem_cons_self)

/-- A row against itself: the maximum is at least the smaller of 0 and the naive big-M. -/
theorem self_knapsack {n : ℕ} {a : Vec} {b v : ℚ} (hb : 0 ≤ b)
    (h : IsKnapsackMax n a a b b v) :
    v ≤ 0 ∧ min 0 (∑ j ∈ range n, a j - b) ≤ v := by
  obtain ⟨h1, x, hx, hxc, hxe⟩ := h
  refine ⟨by linarith, ?_⟩
  have hone : dot n a (fun _ => 1) = ∑ j ∈ range n, a j := by simp [dot]
  by_cases hle : ∑ j ∈ range n, a j ≤ b
  · have := h1 (fun _ => 1) (fun j _ => by norm_num) (by rw [hone]; exact hle)
    rw [hone] at this
    exact (min_le_right _ _).trans this
  · have hpos : 0 < ∑ j ∈ range n, a j := by linarith
    have hscale : dot n a (fun _ => b / ∑ j ∈ range n, a j) = b := by
      unfold dot
      rw [← Finset.sum_mul]
      exact mul_div_cancel₀ _ hpos.ne'
    have := h1 (fun _ => b / ∑ j ∈ range n, a j)
      (fun j _ => ⟨div_nonneg hb hpos.le, (div_le_one hpos).2 (by linarith)⟩) (by rw [hscale])
    rw [hscale, sub_self] at this
    exact (min_le_left _ _).trans this

theorem knapsack_le_naive {n : ℕ} {a w : Vec} {b cap v : ℚ} (ha : ∀ j < n, 0 ≤ a j)
    (h : IsKnapsackMax n a w b cap v) : v ≤ ∑ j ∈ range n, a j - b := by
  obtain ⟨_, x, hx, _, hxe⟩ := h
  rw [← hxe]
  have : dot n a x ≤ ∑ j ∈ range n, a j := Finset.sum_le_sum fun j hj => by
    have hj := Finset.mem_range.1 hj
    nlinarith [ha j hj, (hx j hj).2]
  linarith

theorem foldlM_min (l : List ℕ) (f : ℕ → PyM ℚ) (k : ℕ → ℚ) (h : ∀ a ∈ l, f a = .ok (k a))
    (v0 : WithTop ℚ) :
    ∃ v, l.foldlM (fun (v : WithTop ℚ) a => do
        let q ← f a
        pure (min v ((q : ℚ) : WithTop ℚ))) v0 = Except.ok v
      ∧ ∀ y, y ≤ v ↔ y ≤ v0 ∧ ∀ a ∈ l, y ≤ (k a : WithTop ℚ) := by
  induction l generalizing v0 with
  | nil => exact ⟨v0, rfl, by simp⟩
  | cons a l ih =>
    obtain ⟨v, h1, h2⟩ := ih (fun b hb => h b (by simp [hb])) (min v0 (k a : WithTop ℚ))
    refine ⟨v, ?_, fun y => ?_⟩
    · rw [List.foldlM_cons, h a (by simp)]
      exact h1
    · rw [h2, le_min_iff]
      simp only [List.forall_mem_cons]
      tauto

/-- Full statement of **C46**: the compiled and the Python violations are the same array. -/
def CppEqualsPython (I : Inst) : Prop :=
  ∀ (srt : CppSort) (argsort : Argsort), ∃ f L, cppViolations srt I = .ok f
    ∧ pyViolations argsort I = .ok L
    ∧ ∀ s < I.N, ∀ t < I.N, ∀ i < I.m, f s t i = ((L.getD s []).getD i []).getD t ⊤

/-- **C46 (partial).** With at least two constraints per scenario the compiled and the Python
routine agree entry by entry on non-negative one-decimal data, for every order `std::sort` and
`np.argsort` may choose.  Missing: one constraint per scenario, for which it is false. -/
theorem C46_cpp_equals_python_partial (I : Inst) (hN : 0 < I.N) (hm : 2 ≤ I.m) (hn : 0 < I.n)
    (hI : OneDecimal I) : CppEqualsPython I := by
  intro srt argsort
  obtain ⟨hI1, hI2⟩ := id hI
  have hex : ∀ s i t l, ∃ v, s < I.N → i < I.m → t < I.N → l < I.m →
      solveContinuousKnapsack argsort I.n (I.A s i) (I.b s i) (I.A t l) (I.b t l) = .ok v
      ∧ IsKnapsackMax I.n (I.A s i) (I.A t l) (I.b s i) (I.b t l) v := by
    intro s i t l
    by_cases h : s < I.N ∧ i < I.m ∧ t < I.N ∧ l < I.m
    · obtain ⟨hs, hi, ht, hl⟩ := h
      obtain ⟨v, h1, h2⟩ := C40_continuous_knapsack_exact argsort I.n (I.A s i) (I.A t l)
        (I.b s i) (I.b t l) (hI1 s hs i hi).2 (hI1 t ht l hl).2 (hI1 t ht l hl).1
      exact ⟨v, fun _ _ _ _ => ⟨h1, h2⟩⟩
    · exact ⟨0, fun a b c d => absurd ⟨a, b, c, d⟩ h⟩
  choose K hK using hex
  -- Python side
  have hsong : ∀ s i t, ∃ v, s < I.N → i < I.m → t < I.N →
      songMinViolation argsort I.n I.m (I.A t) (I.b t) (I.A s i) (I.b s i) = .ok v
      ∧ ∀ y, y ≤ v ↔ ∀ l < I.m, y ≤ (K s i t l : WithTop ℚ) := by
    intro s i t
    by_cases h : s < I.N ∧ i < I.m ∧ t < I.N
    · obtain ⟨hs, hi, ht⟩ := h
      obtain ⟨v, h1, h2⟩ := foldlM_min (List.range I.m)
        (fun l => solveContinuousKnapsack argsort I.n (I.A s i) (I.b s i) (I.A t l) (I.b t l))
        (K s i t) (fun l hl => (hK s i t l hs hi ht (List.mem_range.1 hl)).1) ⊤
      refine ⟨v, fun _ _ _ => ⟨h1, fun y => ?_⟩⟩
      rw [h2]
      simp
    · exact ⟨0, fun a b c => absurd ⟨a, b, c⟩ h⟩
  choose W hW using hsong
  refine ⟨_, (List.range I.N).map fun s => (List.range I.m).map fun i =>
    (List.range I.N).map fun t => W s i t, if_neg (by omega), ?_, ?_⟩
  · unfold pyViolations
    refine mapM_ok _ _ _ fun s hs => mapM_ok _ _ _ fun i hi => ?_
    refine mapM_ok _ _ _ fun t ht => ?_
    exact (hW s i t (List.mem_range.1 hs) (List.mem_range.1 hi) (List.mem_range.1 ht)).1
  · intro s hs t ht i hi
    have hr : (((((List.range I.N).map fun s => (List.range I.m).map fun i =>
        (List.range I.N).map fun t => W s i t).getD s []).getD i []).getD t ⊤) = W s i t := by
      simp [hs, hi, ht]
    rw [hr]
    refine eq_of_forall_le_iff fun y => ?_
    rw [(hW s i t hs hi ht).2]
    have hfold := exact_fold srt I hI K
      (fun s hs i hi t ht l hl => (hK s i t l hs hi ht hl).2)
      (cppOps1 I.N I.n I.m ++ cppOps2 I.N I.n I.m) (cpp_ops_ok I)
      { viols := cppInit I.N I.m, indices := List.range I.n } (List.Perm.refl _) ht hi hs y
    refine Iff.trans hfold ?_
    simp only [cppInit_addr ht hi]
    by_cases hst : s = t
    · subst hst
      rw [if_pos rfl]
      have hself := self_knapsack (hI1 s hs i hi).1 (hK s i s i hs hi hs hi).2
      constructor
      · rintro ⟨h0, h1⟩
        have hother : ∀ l < I.m, l ≠ i → y ≤ (K s i s l : WithTop ℚ) := by
          intro l hl hne
          apply h1 l hl
          rcases Nat.lt_or_gt_of_ne hne with h | h
          · exact Or.inr ((mem_cppOps _ _ _ _).2 (Or.inl ⟨s, l, i, hs, h, hi, rfl⟩))
          · exact Or.inl ((mem_cppOps _ _ _ _).2 (Or.inl ⟨s, i, l, hs, h, hl, rfl⟩))
        intro l hl
        by_cases hli : l = i
        · subst hli
          obtain ⟨l', hl', hne⟩ : ∃ l' < I.m, l' ≠ l := by
            by_cases h : l = 0
            · exact ⟨1, by omega, by omega⟩
            · exact ⟨0, by omega, by omega⟩
          have h2 := hother l' hl' hne
          have h3 := knapsack_le_naive (hI1 s hs l hl).2 (hK s l s l' hs hl hs hl').2
          have h4 : min (0 : ℚ) (K s l s l') ≤ K s l s l := (min_le_min_left 0 h3).trans hself.2
          refine le_trans (le_min h0 h2) ?_
          rcases min_cases (0 : ℚ) (K s l s l') with ⟨e, _⟩ | ⟨e, _⟩
          · rw [e] at h4
            exact (min_le_left _ _).trans (by exact_mod_cast h4)
          · rw [e] at h4
            exact (min_le_right _ _).trans (by exact_mod_cast h4)
        · exact hother l hl hli
      · intro h
        refine ⟨(h i hi).trans ?_, fun l hl _ => h l hl⟩
        exact_mod_cast hself.1
    · rw [if_neg hst]
      constructor
      · rintro ⟨-, h1⟩ l hl
        apply h1 l hl
        rcases Nat.lt_or_gt_of_ne hst with h | h
        · exact Or.inl ((mem_cppOps _ _ _ _).2 (Or.inr ⟨s, t, i, l, h, ht, hi, hl, rfl⟩))
        · exact Or.inr ((mem_cppOps _ _ _ _).2 (Or.inr ⟨t, s, l, i, h, hs, hl, hi, rfl⟩))
      · intro h
        exact ⟨le_top, fun l hl _ => h l hl⟩

/-- Two scenarios, two rows, two items. -/
def exViol : Inst :=
  { n := 2, N := 2, m := 2, A := fun s i j => ([3, 1, 2, 4, 1, 5, 0, 2].getD (4 * s + 2 * i + j) 0) / 10
    b := fun s i => [3, 4, 2, 1].getD (2 * s + i) 0 / 10
    c := fun _ => 1, proba := fun _ => 1 / 2, eps := 1 / 2, cont := true }

/-- A case of C45 and C46. -/
example : OneDecimal exViol ∧ 0 < exViol.N ∧ 2 ≤ exViol.m ∧ 0 < exViol.n
    ∧ (cppViolations .default exViol).toOption.map (fun f => f 0 1 0) = some ((1 / 50 : ℚ) : WithTop ℚ)
    := by
  refine ⟨⟨?_, ?_⟩, by decide, by decide, by decide, by decide +kernel⟩
  · unfold NonnegAb; decide +kernel
  · intro s hs i hi
    refine ⟨⟨[3, 4, 2, 1].getD (2 * s + i) 0, ?_⟩, fun j hj => ⟨[3, 1, 2, 4, 1, 5, 0, 2].getD (4 * s + 2 * i + j) 0, ?_⟩⟩
    all_goals
      have hs' : s = 0 ∨ s = 1 := by change s < 2 at hs; omega
      have hi' : i = 0 ∨ i = 1 := by change i < 2 at hi; omega
    · rcases hs' with rfl | rfl <;> rcases hi' with rfl | rfl <;> norm_num [exViol]
    · have hj' : j = 0 ∨ j = 1 := by change j < 2 at hj; omega
      rcases hs' with rfl | rfl <;> rcases hi' with rfl | rfl <;> rcases hj' with rfl | rfl <;>
        norm_num [exViol]

/-- One scenario with the single constraint `0.1 x <= 1`. -/
def exOneRow : Inst :=
  { n := 1, N := 1, m := 1, A := fun _ _ _ => 1 / 10, b := fun _ _ => 1, c := fun _ => 1
    proba := fun _ => 1, eps := 0, cont := true }

/-- **C46 is false** with one constraint per scenario: the diagonal of the compiled array is 0,
that of the Python array -0.9. -/
theorem C46_one_row_counterexample : OneDecimal exOneRow ∧ ¬ CppEqualsPython exOneRow := by
  refine ⟨⟨?_, ?_⟩, ?_⟩
  · unfold NonnegAb; decide +kernel
  · intro s _ i _
    exact ⟨⟨10, by norm_num [exOneRow]⟩, fun j _ => ⟨1, by norm_num [exOneRow]⟩⟩
  · intro h
    obtain ⟨f, L, hf, hL, he⟩ := h .default .default
    have h1 : (cppViolations .default exOneRow).toOption.map (fun f => f 0 0 0) = some 0 := by
      decide +kernel
    have h2 : pyViolations .default exOneRow = .ok [[[((-9 / 10 : ℚ) : WithTop ℚ)]]] := by
      decide +kernel
    have := he 0 (by decide) 0 (by decide) 0 (by decide)
    rw [hf] at h1
    rw [hL] at h2
    injection h2 with h2
    subst h2
    simp only [Except.toOption, Option.map_some, Option.some.injEq] at h1
    rw [h1] at this
    exact absurd this (by decide +kernel)

end Verif.Props
