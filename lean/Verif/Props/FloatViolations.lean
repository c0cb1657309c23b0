import Verif.Lemmas.FloatViolations
import Verif.Props.FloatSort
import Verif.Props.Violations
import Verif.Props.BigM

/-!
# C96: the compiled violations in double precision
-/

open Finset

namespace Verif.Props
open Spec Model

/-! ## Sorting -/

theorem grid_nat {q : ℚ} (h0 : 0 ≤ q) (hg : Grid q) : ∃ k : ℕ, q = (k : ℚ) / 10 := by
  obtain ⟨z, rfl⟩ := hg
  have hz : 0 ≤ z := by
    have : (0 : ℚ) ≤ z := by linarith
    exact_mod_cast this
  exact ⟨z.toNat, by
    have : ((z.toNat : ℤ) : ℚ) = z := by rw [Int.toNat_of_nonneg hz]
    rw [← this]; rfl⟩

/-- The order found with the comparison in doubles is one by decreasing ratio of the decimal
numbers. -/
theorem ordered_of_flSort (srt : CppSort) (n : ℕ) (p w : Vec) (l : List ℕ)
    (hl : l.Perm (List.range n)) (hp : ∀ j < n, 0 ≤ p j ∧ Grid (p j) ∧ p j ≤ 10 ^ 6)
    (hw : ∀ j < n, 0 ≤ w j ∧ Grid (w j) ∧ w j ≤ 10 ^ 6)
    (hS : StrictWeak (flComp (fun j => fl64 (p j)) fun j => fl64 (w j)) (List.range n)) :
    Ordered n p w (srt.run (flComp (fun j => fl64 (p j)) fun j => fl64 (w j)) l) := by
  have hm : ∀ a ∈ l, a ∈ List.range n := fun a ha => hl.mem_iff.1 ha
  obtain ⟨h1, h2⟩ := srt.spec (flComp (fun j => fl64 (p j)) fun j => fl64 (w j)) l
    ⟨fun a ha => hS.1 a (hm a ha), fun a ha b hb d hd => hS.2.1 a (hm a ha) b (hm b hb) d (hm d hd),
      fun a ha b hb d hd => hS.2.2 a (hm a ha) b (hm b hb) d (hm d hd)⟩
  refine ⟨h1.trans hl, ?_⟩
  have hP : ∀ j, ∃ k : ℕ, j < n → p j = (k : ℚ) / 10 ∧ k ≤ 2 ^ 24 := by
    intro j
    by_cases hj : j < n
    · obtain ⟨h0, hg, hb⟩ := hp j hj
      obtain ⟨k, hk⟩ := grid_nat h0 hg
      refine ⟨k, fun _ => ⟨hk, ?_⟩⟩
      have : (k : ℚ) ≤ 10 ^ 7 := by rw [hk] at hb; linarith
      have : k ≤ 10 ^ 7 := by exact_mod_cast this
      exact this.trans (by norm_num)
    · exact ⟨0, fun h => absurd h hj⟩
  have hW : ∀ j, ∃ k : ℕ, j < n → w j = (k : ℚ) / 10 ∧ k ≤ 2 ^ 24 := by
    intro j
    by_cases hj : j < n
    · obtain ⟨h0, hg, hb⟩ := hw j hj
      obtain ⟨k, hk⟩ := grid_nat h0 hg
      refine ⟨k, fun _ => ⟨hk, ?_⟩⟩
      have : (k : ℚ) ≤ 10 ^ 7 := by rw [hk] at hb; linarith
      have : k ≤ 10 ^ 7 := by exact_mod_cast this
      exact this.trans (by norm_num)
    · exact ⟨0, fun h => absurd h hj⟩
  choose P hP using hP
  choose W hW using hW
  refine List.Pairwise.imp_of_mem ?_ h2
  intro a b ha hb hab
  have ha' : a < n := List.mem_range.1 (hm a (h1.mem_iff.1 ha))
  have hb' : b < n := List.mem_range.1 (hm b (h1.mem_iff.1 hb))
  have ea := (hP a ha').1
  have eb := (hP b hb').1
  have fa := (hW a ha').1
  have fb := (hW b hb').1
  by_cases hne : P b * W a = P a * W b
  · rw [ea, eb, fa, fb]
    have : (P b : ℚ) * W a = P a * W b := by exact_mod_cast hne
    linarith
  · have hd := C93_decides_right P W n (fun j hj => (hP j hj).2) (fun j hj => (hW j hj).2) b a hb' ha'
      hne
    have e1 : flComp (fun j => fl64 (p j)) (fun j => fl64 (w j)) b a
        = flComp (fun a => tenth (P a)) (fun a => tenth (W a)) b a := by
      unfold flComp tenth
      simp only [ea, eb, fa, fb]
    rw [← e1, hab] at hd
    have := cppComp_ratio (p := fun a => (P a : ℚ) / 10) (w := fun a => (W a : ℚ) / 10) (a := a) (b := b)
      (by positivity) (by positivity) hd.symm
    rw [ea, eb, fa, fb]
    exact this

/-! ## The whole routine -/

/-- The comparison is a strict weak order for all pairs of rows that are compared: otherwise
`std::sort` has no defined behaviour (C93). -/
def SortsDefined (I : Inst) : Prop :=
  ∀ s < I.N, ∀ i < I.m, ∀ t < I.N, ∀ l < I.m, (s < t ∨ (s = t ∧ i < l)) →
    StrictWeak (flComp (fun j => fl64 (I.A s i j)) fun j => fl64 (I.A t l j)) (List.range I.n)

/-- Row sums up to `R` and capacities up to `c`, not too large. -/
structure SongSized (I : Inst) (R c : ℚ) : Prop where
  coeff : ∀ s < I.N, ∀ i < I.m, ∀ j < I.n, I.A s i j ≤ 10 ^ 6
  rowSum : ∀ s < I.N, ∀ i < I.m, ∑ j ∈ range I.n, I.A s i j ≤ R
  rhs : ∀ s < I.N, ∀ i < I.m, I.b s i ≤ c
  scale : (I.n + 11) * (R + c + 1) ≤ 4 * 10 ^ 8

/-- Bound on the error of a violation. -/
def songErr (I : Inst) (R c : ℚ) : ℚ := (I.n + 10) * (R + c + 1) / 2 ^ 52

theorem songErr_eq (I : Inst) (R c : ℚ) : flErr I.n (R + c + 1) = songErr I R c := by
  unfold flErr songErr ulp
  ring

theorem fl64_rel {q : ℚ} (h : 0 ≤ q) : |fl64 q - q| ≤ ulp * q := fl64_err h

theorem SongSized.entry {I : Inst} {R c : ℚ} (h : SongSized I R c) (hI : NonnegAb I) {s i j : ℕ} (hs : s < I.N)
    (hi : i < I.m) (hj : j < I.n) : I.A s i j ≤ R :=
  (Finset.single_le_sum (f := fun j => I.A s i j) (fun k hk => (hI s hs i hi).2 k (Finset.mem_range.1 hk))
    (Finset.mem_range.2 hj)).trans (h.rowSum s hs i hi)

/-- The error is below `1e-7`. -/
theorem songErr_le {I : Inst} {R c : ℚ} (h : SongSized I R c) (h0 : 0 ≤ R + c + 1) :
    songErr I R c ≤ 1 / 10 ^ 7 := by
  unfold songErr
  rw [div_le_iff₀ (by norm_num)]
  have := h.scale
  norm_num at this ⊢
  linarith

/-- The data of one update. -/
theorem nearData_rows (I : Inst) (hI : OneDecimal I) {R c : ℚ} (hz : SongSized I R c)
    {s i t l : ℕ} (hs : s < I.N) (hi : i < I.m) (ht : t < I.N) (hl : l < I.m) (p w : Vec)
    (hp : ∀ j < I.n, p j = I.A s i j) (hw : ∀ j < I.n, w j = I.A t l j) (hn : 0 < I.n) :
    NearData (List.range I.n) p w (fun j => fl64 (p j)) (fun j => fl64 (w j)) (I.b t l)
      (fl64 (I.b t l)) (R + c + 1) (R + c + 1) I.n := by
  obtain ⟨hI1, hI2⟩ := hI
  have hpn : ∀ j ∈ List.range I.n, 0 ≤ p j ∧ p j ≤ R := fun j hj => by
    have hj := List.mem_range.1 hj
    rw [hp j hj]
    exact ⟨(hI1 s hs i hi).2 j hj, hz.entry hI1 hs hi hj⟩
  have hwn : ∀ j ∈ List.range I.n, 0 ≤ w j ∧ w j ≤ R ∧ Grid (w j) := fun j hj => by
    have hj := List.mem_range.1 hj
    rw [hw j hj]
    exact ⟨(hI1 t ht l hl).2 j hj, hz.entry hI1 ht hl hj, (hI2 t ht l hl).2 j hj⟩
  have hb0 := (hI1 t ht l hl).1
  have hbc := hz.rhs t ht l hl
  have hR0 : 0 ≤ R := by
    obtain ⟨h1, h2⟩ := hpn 0 (List.mem_range.2 hn); linarith
  have hc0 : 0 ≤ c := hb0.trans hbc
  have hB : 0 ≤ R + c + 1 := by linarith
  have h1 := hz.scale
  refine ⟨fun j hj => (hpn j hj).1, fun j hj => fl64_rel (hpn j hj).1, fun j hj => (hwn j hj).1,
    fun j hj => (hwn j hj).2.2, fun j hj => fl64_rel (hwn j hj).1, hb0, (hI2 t ht l hl).1,
    fl64_rel hb0, fun j hj => by linarith [(hwn j hj).2.1], by linarith,
    fun j hj => by linarith [(hpn j hj).2], ?_, ?_⟩
  · unfold ulp
    have : ((I.n : ℚ) + 3) * (2 * (1 / 2 ^ 53) * (R + c + 1)) ≤ ((I.n + 11) * (R + c + 1)) * (1 / 2 ^ 52) := by
      linarith
    refine this.trans ((mul_le_mul_of_nonneg_right h1 (by norm_num)).trans (by norm_num))
  · unfold ulp
    have : ((I.n : ℚ) + 11) * (2 * (1 / 2 ^ 53) * (R + c + 1))
        = ((I.n + 11) * (R + c + 1)) * (1 / 2 ^ 52) := by ring
    rw [this]
    exact (mul_le_mul_of_nonneg_right h1 (by norm_num)).trans (by norm_num)

/-- One update of the routine, for row `i` of `s` against row `l` of `t`. -/
theorem flUpdate_rows (I : Inst) (hI : OneDecimal I) {R c : ℚ} (hz : SongSized I R c) (hn : 0 < I.n)
    {s i t l : ℕ} (hs : s < I.N) (hi : i < I.m) (ht : t < I.N) (hl : l < I.m) (p w : Vec)
    (hp : ∀ j < I.n, p j = I.A s i j) (hw : ∀ j < I.n, w j = I.A t l j) {K : ℚ}
    (hK : IsKnapsackMax I.n (I.A s i) (I.A t l) (I.b s i) (I.b t l) K) (ind : List ℕ) (rev : Bool)
    (ho : Ordered I.n p w (visit ind rev)) (mnf mne : WithTop ℚ)
    (hm : Within (songErr I R c) (R + c + 1) mnf mne) :
    Within (songErr I R c) (R + c + 1)
      (flUpdate (fun j => fl64 (p j)) (fl64 (I.b s i)) (fun j => fl64 (w j)) (fl64 (I.b t l)) mnf ind
        rev) (Min.min mne (K : WithTop ℚ)) := by
  obtain ⟨hI1, hI2⟩ := id hI
  have hN := nearData_rows I hI hz hs hi ht hl p w hp hw hn
  have hp0 : ∀ j < I.n, 0 ≤ p j := fun j hj => hN.p0 j (List.mem_range.2 hj)
  have hw0 : ∀ j < I.n, 0 ≤ w j := fun j hj => hN.w0 j (List.mem_range.2 hj)
  have hdp := fun x => dot_congr_left (n := I.n) hp x
  have hdw := fun x => dot_congr_left (n := I.n) hw x
  have hperm : ind.Perm (List.range I.n) := by
    have : ind.Perm (visit ind rev) := by
      unfold visit; split
      · exact (List.reverse_perm ind).symm
      · exact List.Perm.refl _
    exact this.trans ho.perm
  have hval : cppValue p (I.b s i) w (I.b t l) ⊤ ind rev = K := by
    have := cppUpdate_exact I.n p (I.b s i) w (I.b t l) ⊤ ind rev hp0 hw0
      (fun j hj => hN.wg j (List.mem_range.2 hj)) hN.cg hN.c0 ho K
      (fun x hx hxc => by rw [hdw] at hxc; rw [hdp]; exact hK.1 x hx hxc)
      (by obtain ⟨x, hx, hxc, hxe⟩ := hK.2
          exact ⟨x, hx, by rw [hdw]; exact hxc, by rw [hdp]; exact hxe⟩)
    rw [cppUpdate_eq, top_inf_eq, top_inf_eq] at this
    exact_mod_cast this
  have hsum : ∑ j ∈ range I.n, p j ≤ R := by
    rw [Finset.sum_congr rfl fun j hj => hp j (Finset.mem_range.1 hj)]
    exact hz.rowSum s hs i hi
  have hsum0 : 0 ≤ ∑ j ∈ range I.n, p j := Finset.sum_nonneg fun j hj => hp0 j (Finset.mem_range.1 hj)
  have hb := hz.rhs s hs i hi
  have hb0 := (hI1 s hs i hi).1
  have hKB : |K| ≤ R + c + 1 := by
    have h1 := knapsack_le_naive (hI1 s hs i hi).2 hK
    have h2 := hK.1 (fun _ => 0) (fun _ _ => by norm_num) (by
      unfold dot; simp; exact (hI1 t ht l hl).1)
    have h3 : dot I.n (I.A s i) (fun _ => 0) = 0 := by unfold dot; simp
    have h4 : ∑ j ∈ range I.n, I.A s i j = ∑ j ∈ range I.n, p j :=
      Finset.sum_congr rfl fun j hj => (hp j (Finset.mem_range.1 hj)).symm
    rw [h3] at h2
    rw [h4] at h1
    exact abs_le.2 ⟨by linarith, by linarith⟩
  have hsc := hz.scale
  have hc0 : 0 ≤ c := hb0.trans hb
  have hB0 : 0 ≤ R + c + 1 := by linarith
  have hBv : R + c + 1 ≤ 10 ^ 9 * 2 := by
    have e2 : 0 ≤ (I.n : ℚ) * (R + c + 1) := by positivity
    linarith
  have := flUpdate_close (K := K) ind rev mnf mne hperm ho.ratio hN hb0 (fl64_rel hb0) (by linarith) hBv
    (by rw [songErr_eq]; exact (songErr_le hz hB0).trans (by norm_num)) hval hKB
    (by rw [songErr_eq]; exact hm)
  rwa [songErr_eq] at this

/-- The pass in double precision next to the exact pass. -/
theorem flFold_close (srt srt' : CppSort) (I : Inst) (hI : OneDecimal I) {R c : ℚ}
    (hz : SongSized I R c) (hn : 0 < I.n)
    (ops : List CppOp) (hops : ∀ op ∈ ops, ∃ s i t l, s < I.N ∧ i < I.m ∧ t < I.N ∧ l < I.m
      ∧ (s < t ∨ (s = t ∧ i < l)) ∧ op = mkOp I.N I.n I.m s i t l)
    (hS : SortsDefined I) (st st' : CppState)
    (hst : st.indices.Perm (List.range I.n)) (hst' : st'.indices.Perm (List.range I.n))
    (h : ∀ x, Within (songErr I R c) (R + c + 1) (st.viols x) (st'.viols x)) :
    ∀ x, Within (songErr I R c) (R + c + 1)
      ((ops.foldl (flCompute srt (memA (dbl I)) (memB (dbl I))) st).viols x)
      ((ops.foldl (cppCompute srt' (memA I) (memB I)) st').viols x) := by
  obtain ⟨hI1, hI2⟩ := id hI
  have hA : ∀ s < I.N, ∀ i < I.m, ∀ j < I.n, 0 ≤ I.A s i j := fun s hs i hi => (hI1 s hs i hi).2
  induction ops generalizing st st' with
  | nil => exact h
  | cons op ops ih =>
    obtain ⟨s, i, t, l, hs, hi, ht, hl, hlt, rfl⟩ := hops op (by simp)
    have hne : ¬ (s = t ∧ i = l) := by omega
    obtain ⟨ind, ho1, ho2, hind, hperm, V1, hV1, hV2⟩ :=
      cppCompute_step srt' I hA st' hst' _ ⟨s, i, t, l, hs, hi, ht, hl, hne, rfl⟩
    rw [List.foldl_cons, List.foldl_cons]
    set op := mkOp I.N I.n I.m s i t l with hop
    -- the order in double precision
    have hrS : ∀ j < I.n, rowS I op j = I.A s i j := fun j hj => rowS_mkOp I hi hj
    have hrT : ∀ j < I.n, rowT I op j = I.A t l j := fun j hj => rowT_mkOp I hl hj
    have hmS : ∀ j < I.n, 0 ≤ rowS I op j ∧ Grid (rowS I op j) ∧ rowS I op j ≤ 10 ^ 6 := fun j hj => by
      rw [hrS j hj]
      exact ⟨hA s hs i hi j hj, (hI2 s hs i hi).2 j hj, hz.coeff s hs i hi j hj⟩
    have hmT : ∀ j < I.n, 0 ≤ rowT I op j ∧ Grid (rowT I op j) ∧ rowT I op j ≤ 10 ^ 6 := fun j hj => by
      rw [hrT j hj]
      exact ⟨hA t ht l hl j hj, (hI2 t ht l hl).2 j hj, hz.coeff t ht l hl j hj⟩
    have hsw : StrictWeak (flComp (fun j => fl64 (rowS I op j)) fun j => fl64 (rowT I op j))
        (List.range I.n) := by
      have h0 := hS s hs i hi t ht l hl hlt
      have e : ∀ x ∈ List.range I.n, ∀ y ∈ List.range I.n,
          flComp (fun j => fl64 (rowS I op j)) (fun j => fl64 (rowT I op j)) x y
            = flComp (fun j => fl64 (I.A s i j)) (fun j => fl64 (I.A t l j)) x y := by
        intro x hx y hy
        have hx := List.mem_range.1 hx
        have hy := List.mem_range.1 hy
        unfold flComp
        simp only [hrS x hx, hrS y hy, hrT x hx, hrT y hy]
      refine ⟨fun x hx => by rw [e x hx x hx]; exact h0.1 x hx, fun x hx y hy z hy' h1 h2 => ?_,
        fun x hx y hy z hy' h1 h2 => ?_⟩
      · rw [e x hx y hy] at h1; rw [e y hy z hy'] at h2; rw [e x hx z hy']
        exact h0.2.1 x hx y hy z hy' h1 h2
      · rw [e x hx y hy] at h1; rw [e y hy z hy'] at h2; rw [e x hx z hy']
        exact h0.2.2 x hx y hy z hy' h1 h2
    have hof := ordered_of_flSort srt I.n (rowS I op) (rowT I op) st.indices hst hmS hmT hsw
    -- the exact values
    have hex : ∀ s i t l, s < I.N → i < I.m → t < I.N → l < I.m →
        ∃ v, IsKnapsackMax I.n (I.A s i) (I.A t l) (I.b s i) (I.b t l) v := by
      intro s i t l hs hi ht hl
      obtain ⟨v, _, h2⟩ := C40_continuous_knapsack_exact .default I.n (I.A s i) (I.A t l)
        (I.b s i) (I.b t l) (hI1 s hs i hi).2 (hI1 t ht l hl).2 (hI1 t ht l hl).1
      exact ⟨v, h2⟩
    obtain ⟨K1, hK1⟩ := hex s i t l hs hi ht hl
    obtain ⟨K2, hK2⟩ := hex t l s i ht hl hs hi
    have hbS : memB I op.srhs = I.b s i := memB_eq I hi
    have hbT : memB I op.trhs = I.b t l := memB_eq I hl
    have exact_upd : ∀ {s i t l : ℕ}, s < I.N → i < I.m → t < I.N → l < I.m → ∀ (p w : Vec),
        (∀ j < I.n, p j = I.A s i j) → (∀ j < I.n, w j = I.A t l j) → ∀ {K : ℚ},
        IsKnapsackMax I.n (I.A s i) (I.A t l) (I.b s i) (I.b t l) K → ∀ rev mn,
        Ordered I.n p w (visit ind rev) →
        cppUpdate p (I.b s i) w (I.b t l) mn ind rev = Min.min mn (K : WithTop ℚ) := by
      intro s i t l hs hi ht hl p w hp hw K hK rev mn ho
      have hdp := fun x => dot_congr_left (n := I.n) hp x
      have hdw := fun x => dot_congr_left (n := I.n) hw x
      refine cppUpdate_exact I.n p (I.b s i) w (I.b t l) mn ind rev
        (fun j hj => by rw [hp j hj]; exact hA s hs i hi j hj)
        (fun j hj => by rw [hw j hj]; exact hA t ht l hl j hj)
        (fun j hj => by rw [hw j hj]; exact (hI2 t ht l hl).2 j hj)
        (hI2 t ht l hl).1 (hI1 t ht l hl).1 ho K
        (fun x hx hxc => by rw [hdw] at hxc; rw [hdp]; exact hK.1 x hx hxc)
        (by obtain ⟨x, hx, hxc, hxe⟩ := hK.2
            exact ⟨x, hx, by rw [hdw]; exact hxc, by rw [hdp]; exact hxe⟩)
    rw [hbS, hbT, exact_upd hs hi ht hl _ _ hrS hrT hK1 false _ ho1] at hV1
    rw [hbS, hbT, exact_upd ht hl hs hi _ _ hrT hrS hK2 true _ ho2] at hV2
    -- one call in double precision
    set find := srt.run (flComp (fun j => fl64 (rowS I op j)) fun j => fl64 (rowT I op j)) st.indices
      with hfind
    obtain ⟨W1, hW1, hW2⟩ : ∃ W1 : ℕ → WithTop ℚ,
        W1 = Function.update st.viols op.sViol (flUpdate (fun j => fl64 (rowS I op j)) (fl64 (I.b s i))
          (fun j => fl64 (rowT I op j)) (fl64 (I.b t l)) (st.viols op.sViol) find false)
        ∧ (flCompute srt (memA (dbl I)) (memB (dbl I)) st op).viols
          = Function.update W1 op.tViol (flUpdate (fun j => fl64 (rowT I op j)) (fl64 (I.b t l))
            (fun j => fl64 (rowS I op j)) (fl64 (I.b s i)) (W1 op.tViol) find true) := by
      rw [← hbS, ← hbT]
      exact ⟨_, rfl, rfl⟩
    have h1 : ∀ x, Within (songErr I R c) (R + c + 1) (W1 x) (V1 x) := by
      intro x
      rw [hW1, hV1, Function.update_apply, Function.update_apply]
      split_ifs with hx
      · exact flUpdate_rows I hI hz hn hs hi ht hl _ _ hrS hrT hK1 find false hof _ _ (h _)
      · exact h x
    refine ih (fun o ho => hops o (by simp [ho])) _ _ ?_ (by rw [hind]; exact hperm) fun x => ?_
    · exact hof.perm
    · rw [hW2, hV2, Function.update_apply, Function.update_apply]
      split_ifs with hx
      · exact flUpdate_rows I hI hz hn ht hl hs hi _ _ hrT hrS hK2 find true hof.reverse _ _ (h1 _)
      · exact h1 x

/-! ## The violations -/

/-- The violation of row `i` of scenario `s` by points that satisfy scenario `t`, as Song et al. bound
it: the least of the maxima of `A_si x - b_si` over the points of the box that satisfy one row of
`t`; for `t = s` the row itself gives 0. -/
def IsSongViolation (I : Inst) (s t i : ℕ) (w : ℚ) : Prop :=
  IsLeast {K | (s = t ∧ K = 0) ∨ ∃ l < I.m, ¬ (s = t ∧ l = i)
    ∧ IsKnapsackMax I.n (I.A s i) (I.A t l) (I.b s i) (I.b t l) K} w

/-- The exact routine finds it. -/
theorem exact_songViolation (srt : CppSort) (I : Inst) (hI : OneDecimal I)
    {s t i : ℕ} (hs : s < I.N) (ht : t < I.N) (hi : i < I.m) (w : ℚ)
    (hw : ((cppOps1 I.N I.n I.m ++ cppOps2 I.N I.n I.m).foldl (cppCompute srt (memA I) (memB I))
      { viols := cppInit I.N I.m, indices := List.range I.n }).viols (addr I.N I.m s t i)
        = (w : WithTop ℚ)) : IsSongViolation I s t i w := by
  obtain ⟨hI1, hI2⟩ := id hI
  have hex : ∀ s i t l, ∃ v, s < I.N → i < I.m → t < I.N → l < I.m →
      IsKnapsackMax I.n (I.A s i) (I.A t l) (I.b s i) (I.b t l) v := by
    intro s i t l
    by_cases h : s < I.N ∧ i < I.m ∧ t < I.N ∧ l < I.m
    · obtain ⟨hs, hi, ht, hl⟩ := h
      obtain ⟨v, _, h2⟩ := C40_continuous_knapsack_exact .default I.n (I.A s i) (I.A t l)
        (I.b s i) (I.b t l) (hI1 s hs i hi).2 (hI1 t ht l hl).2 (hI1 t ht l hl).1
      exact ⟨v, fun _ _ _ _ => h2⟩
    · exact ⟨0, fun a b c d => absurd ⟨a, b, c, d⟩ h⟩
  choose K hK using hex
  have hfold := fun y => exact_fold srt I hI K (fun s hs i hi t ht l hl => hK s i t l hs hi ht hl)
    (cppOps1 I.N I.n I.m ++ cppOps2 I.N I.n I.m) (cpp_ops_ok I)
    { viols := cppInit I.N I.m, indices := List.range I.n } (List.Perm.refl _) ht hi hs y
  simp only [hw, cppInit_addr ht hi] at hfold
  have hmem : ∀ l < I.m, (mkOp I.N I.n I.m s i t l ∈ cppOps1 I.N I.n I.m ++ cppOps2 I.N I.n I.m
      ∨ mkOp I.N I.n I.m t l s i ∈ cppOps1 I.N I.n I.m ++ cppOps2 I.N I.n I.m)
      ↔ ¬ (s = t ∧ l = i) := by
    intro l hl
    have hinj : ∀ {s i t l s' i' t' l' : ℕ}, t < I.N → i < I.m → s < I.N → l < I.m → t' < I.N → i' < I.m →
        s' < I.N → l' < I.m → mkOp I.N I.n I.m s i t l = mkOp I.N I.n I.m s' i' t' l' →
        s = s' ∧ i = i' ∧ t = t' ∧ l = l' := by
      intro s i t l s' i' t' l' h1 h2 h3 h4 h1' h2' h3' h4' h
      have k1 := addr_inj h1 h2 h1' h2' (congrArg CppOp.sViol h)
      have k2 := addr_inj h3 h4 h3' h4' (congrArg CppOp.tViol h)
      exact ⟨k1.1, k1.2.2, k1.2.1, k2.2.2⟩
    constructor
    · rintro (h | h) ⟨rfl, rfl⟩ <;>
      · obtain ⟨s', i', t', l', a1, a2, a3, a4, a5, e⟩ := cpp_ops_ok I _ h
        obtain ⟨rfl, rfl, rfl, rfl⟩ := hinj ht hi hs hl a3 a2 a1 a4 e
        exact a5 ⟨rfl, rfl⟩
    · intro h
      rw [mem_cppOps, mem_cppOps]
      rcases lt_trichotomy s t with h1 | rfl | h1
      · exact Or.inl (Or.inr ⟨s, t, i, l, h1, ht, hi, hl, rfl⟩)
      · rcases lt_trichotomy i l with h2 | rfl | h2
        · exact Or.inl (Or.inl ⟨s, i, l, hs, h2, hl, rfl⟩)
        · exact absurd ⟨rfl, rfl⟩ h
        · exact Or.inr (Or.inl ⟨s, l, i, hs, h2, hi, rfl⟩)
      · exact Or.inr (Or.inr ⟨t, s, l, i, h1, hs, hl, hi, rfl⟩)
  have hlb := (hfold (w : WithTop ℚ)).1 (le_refl _)
  have huniq : ∀ l < I.m, ∀ k, IsKnapsackMax I.n (I.A s i) (I.A t l) (I.b s i) (I.b t l) k →
      k = K s i t l := fun l hl k hk =>
    isKnapsackMax_unique (fun _ _ => rfl) (fun _ _ => rfl) hk (hK s i t l hs hi ht hl)
  refine ⟨?_, ?_⟩
  · by_contra hno
    -- all candidates are larger, so the smallest of them would be a larger lower bound
    have hgt : (s = t → w < 0) ∧ ∀ l < I.m, ¬ (s = t ∧ l = i) → w < K s i t l := by
      constructor
      · intro hst
        have h1 := hlb.1
        rw [if_pos hst] at h1
        have h1 : w ≤ 0 := by exact_mod_cast h1
        exact lt_of_le_of_ne h1 fun h => hno (Or.inl ⟨hst, h⟩)
      · intro l hl hne
        have h1 : w ≤ K s i t l := by exact_mod_cast hlb.2 l hl ((hmem l hl).2 hne)
        exact lt_of_le_of_ne h1 fun h => hno (Or.inr ⟨l, hl, hne, h ▸ hK s i t l hs hi ht hl⟩)
    have hstep : ∃ y : ℚ, w < y ∧ (s = t → y ≤ 0) ∧ ∀ l < I.m, ¬ (s = t ∧ l = i) → y ≤ K s i t l := by
      have hfin : ∀ q : ℕ, ∃ y : ℚ, w < y ∧ (s = t → y ≤ 0)
          ∧ ∀ l < q, l < I.m → ¬ (s = t ∧ l = i) → y ≤ K s i t l := by
        intro q
        induction q with
        | zero =>
          by_cases hst : s = t
          · exact ⟨0, hgt.1 hst, fun _ => le_refl _, fun l hl => absurd hl (by omega)⟩
          · exact ⟨w + 1, by linarith, fun h => absurd h hst, fun l hl => absurd hl (by omega)⟩
        | succ q ih =>
          obtain ⟨y, h1, h2, h3⟩ := ih
          by_cases hq : q < I.m ∧ ¬ (s = t ∧ q = i)
          · refine ⟨min y (K s i t q), lt_min h1 (hgt.2 q hq.1 hq.2),
              fun h => (min_le_left _ _).trans (h2 h), fun l hl hlm hne => ?_⟩
            rcases Nat.lt_succ_iff_lt_or_eq.1 hl with h | rfl
            · exact (min_le_left _ _).trans (h3 l h hlm hne)
            · exact min_le_right _ _
          · refine ⟨y, h1, h2, fun l hl hlm hne => ?_⟩
            rcases Nat.lt_succ_iff_lt_or_eq.1 hl with h | rfl
            · exact h3 l h hlm hne
            · exact absurd ⟨hlm, hne⟩ hq
      obtain ⟨y, h1, h2, h3⟩ := hfin I.m
      exact ⟨y, h1, h2, fun l hl hne => h3 l hl hl hne⟩
    obtain ⟨y, h1, h2, h3⟩ := hstep
    have := (hfold (y : WithTop ℚ)).2 ⟨by
      by_cases hst : s = t
      · rw [if_pos hst]; exact_mod_cast h2 hst
      · rw [if_neg hst]; exact le_top, fun l hl hop => by
        exact_mod_cast h3 l hl ((hmem l hl).1 hop)⟩
    have : y ≤ w := by exact_mod_cast this
    linarith
  · rintro k (⟨hst, rfl⟩ | ⟨l, hl, hne, hk⟩)
    · have h1 := hlb.1
      rw [if_pos hst] at h1
      exact_mod_cast h1
    · rw [huniq l hl k hk]
      exact_mod_cast hlb.2 l hl ((hmem l hl).2 hne)

/-- **C96.** On one-decimal data of ordinary size, whenever the behaviour of the sort is defined, every
violation computed in double precision is within `songErr` (at most `1e-7`) of the exact one. -/
theorem C96_accurate (srt : CppSort) (I : Inst) (hN : 0 < I.N) (hm : 0 < I.m) (hn : 0 < I.n)
    (hI : OneDecimal I) (R c : ℚ) (hz : SongSized I R c) (hS : SortsDefined I) :
    songErr I R c ≤ 1 / 10 ^ 7
    ∧ ∃ f, flViolations srt I = .ok f ∧ ∀ s < I.N, ∀ t < I.N, ∀ i < I.m, ∃ v w : ℚ,
      f s t i = (v : WithTop ℚ) ∧ IsSongViolation I s t i w ∧ |v - w| ≤ songErr I R c := by
  have hc0 : 0 ≤ c := ((hI.1 0 hN 0 hm).1).trans (hz.rhs 0 hN 0 hm)
  have hR0 : 0 ≤ R := ((hI.1 0 hN 0 hm).2 0 hn).trans (hz.entry hI.1 hN hm hn)
  have hB : (0 : ℚ) ≤ R + c + 1 := by positivity
  refine ⟨songErr_le hz hB, _, if_neg (by omega), fun s hs t ht i hi => ?_⟩
  have hd : 0 ≤ songErr I R c := by unfold songErr; positivity
  have h := flFold_close srt .default I hI hz hn (cppOps1 I.N I.n I.m ++ cppOps2 I.N I.n I.m) (by
      intro op hop
      rcases (mem_cppOps I.N I.n I.m op).1 hop with ⟨s, i, l, h1, h2, h3, rfl⟩ | ⟨s, t, i, l, h1, h2, h3, h4, rfl⟩
      · exact ⟨s, i, s, l, h1, by omega, h1, h3, Or.inr ⟨rfl, h2⟩, rfl⟩
      · exact ⟨s, i, t, l, by omega, h3, h2, h4, Or.inl h1, rfl⟩) hS
    { viols := cppInit I.N I.m, indices := List.range I.n }
    { viols := cppInit I.N I.m, indices := List.range I.n } (List.Perm.refl _) (List.Perm.refl _) (by
      intro x
      simp only [cppInit]
      split_ifs
      · exact Or.inr ⟨0, 0, rfl, rfl, by simpa using hd, by simpa using hB⟩
      · exact Or.inl ⟨rfl, rfl⟩) (addr I.N I.m s t i)
  obtain ⟨g, hg, hgv⟩ := C45_cpp_violations_valid .default I hN hm hn fun s hs i hi => (hI.1 s hs i hi).2
  obtain ⟨q, hq, _⟩ := hgv s hs t ht i hi
  have hge : g s t i = ((cppOps1 I.N I.n I.m ++ cppOps2 I.N I.n I.m).foldl
      (cppCompute .default (memA I) (memB I))
      { viols := cppInit I.N I.m, indices := List.range I.n }).viols (addr I.N I.m s t i) := by
    unfold cppViolations at hg
    rw [if_neg (by omega)] at hg
    cases hg
    rfl
  rw [hge] at hq
  have hex := exact_songViolation .default I hI hs ht hi q hq
  rcases h with ⟨_, h⟩ | ⟨x, y, h1, h2, h3, _⟩
  · rw [hq] at h; exact absurd h (by simp)
  · rw [hq] at h2
    have : q = y := by exact_mod_cast h2
    subst this
    exact ⟨x, q, h1, hex, h3⟩

/-! ## The big-Ms -/

/-- An element of a sorted list: how many are at most as large. -/
theorem sorted_count (l : List (WithTop ℚ)) {k : ℕ}
    (hk : k < (l.insertionSort (· ≤ ·)).length) :
    k + 1 ≤ l.countP fun v => v ≤ (l.insertionSort (· ≤ ·))[k] := by
  have hperm := List.perm_insertionSort (fun a b : WithTop ℚ => a ≤ b) l
  have hsort : (l.insertionSort fun a b => a ≤ b).Pairwise (· ≤ ·) := List.pairwise_insertionSort _ _
  rw [← hperm.countP_eq]
  have hsplit := List.take_append_drop (k + 1) (l.insertionSort fun a b => a ≤ b)
  obtain ⟨M, hM⟩ : ∃ M, M = (l.insertionSort (· ≤ ·))[k] := ⟨_, rfl⟩
  rw [← hM, ← hsplit, List.countP_append]
  have hall : ((l.insertionSort fun a b => a ≤ b).take (k + 1)).countP (fun v => v ≤ M) = k + 1 := by
    rw [List.countP_eq_length.2, List.length_take]
    · omega
    · intro v hv
      obtain ⟨r, hr, rfl⟩ := List.mem_iff_getElem.1 hv
      rw [List.length_take] at hr
      rw [List.getElem_take, decide_eq_true_iff, hM]
      rcases Nat.lt_or_ge r k with h | h
      · exact List.pairwise_iff_getElem.1 hsort r k (by omega) hk h
      · have : r = k := by omega
        subst this; exact le_refl _
  omega

/-- Conversely, an element is at most as large as a bound that enough elements respect. -/
theorem sorted_le (l : List (WithTop ℚ)) {k : ℕ} (hk : k < (l.insertionSort (· ≤ ·)).length)
    (y : WithTop ℚ) (h : k + 1 ≤ l.countP fun v => v ≤ y) : (l.insertionSort (· ≤ ·))[k] ≤ y := by
  have hperm := List.perm_insertionSort (fun a b : WithTop ℚ => a ≤ b) l
  have hsort : (l.insertionSort fun a b => a ≤ b).Pairwise (· ≤ ·) := List.pairwise_insertionSort _ _
  by_contra hc
  push Not at hc
  rw [← hperm.countP_eq, ← List.take_append_drop k (l.insertionSort fun a b => a ≤ b),
    List.countP_append] at h
  have h1 : ((l.insertionSort fun a b => a ≤ b).take k).countP (fun v => v ≤ y) ≤ k :=
    List.countP_le_length.trans (by rw [List.length_take]; omega)
  have h2 : ((l.insertionSort fun a b => a ≤ b).drop k).countP (fun v => v ≤ y) = 0 := by
    rw [List.countP_eq_zero]
    intro v hv
    obtain ⟨r, hr, rfl⟩ := List.mem_iff_getElem.1 hv
    rw [List.length_drop] at hr
    rw [List.getElem_drop, decide_eq_true_iff, not_le]
    refine lt_of_lt_of_le hc ?_
    rcases Nat.eq_zero_or_pos r with rfl | h0
    · exact le_refl _
    · exact List.pairwise_iff_getElem.1 hsort k (k + r) hk (by omega) (by omega)
  omega

/-- The index computed in doubles is at most one too small. -/
theorem flFloor_low (I : Inst) (heps : 0 ≤ I.eps) (hN : I.N ≤ 2 ^ 40)
    (hq : flFloor (dbl I) + 1 < I.N) :
    ∃ k : ℕ, flFloor (dbl I) + 1 = (k : ℤ) ∧ kmax I ≤ k ∧ k < I.N := by
  have hNq : (I.N : ℚ) ≤ 2 ^ 40 := by exact_mod_cast hN
  have hN0 : (0 : ℚ) ≤ I.N := by positivity
  set e := I.eps * I.N with he
  have he0 : 0 ≤ e := mul_nonneg heps hN0
  have h1 := le_fl64 heps
  have h2 := le_fl64 (q := fl64 I.eps * I.N) (mul_nonneg (fl64_nonneg _) hN0)
  set r := fl64 (fl64 I.eps * I.N) with hr
  have hr0 : 0 ≤ r := fl64_nonneg _
  have h3 : e * (1 - 1 / 2 ^ 53) ≤ fl64 I.eps * I.N := by
    have := mul_le_mul_of_nonneg_right h1 hN0
    rw [he]; linarith
  have h4 : e * (1 - 1 / 2 ^ 53) * (1 - 1 / 2 ^ 53) ≤ r :=
    (mul_le_mul_of_nonneg_right h3 (by norm_num)).trans h2
  have hfl : flFloor (dbl I) = ⌊r⌋ := rfl
  have hf0 : 0 ≤ ⌊r⌋ := Int.floor_nonneg.2 hr0
  rw [hfl] at hq ⊢
  have hrN : r < 2 ^ 40 := by
    have h5 := Int.lt_floor_add_one r
    have h6 : ((⌊r⌋ : ℚ)) + 1 < I.N := by exact_mod_cast hq
    linarith
  refine ⟨(⌊r⌋ + 1).toNat, by omega, ?_, by omega⟩
  have h7 : (kmax I : ℚ) ≤ e := Nat.floor_le he0
  have h8 : (kmax I : ℚ) < ⌊r⌋ + 2 := by
    have h5 := Int.lt_floor_add_one r
    norm_num at h4
    linarith
  have h9 : (kmax I : ℤ) < ⌊r⌋ + 2 := by exact_mod_cast h8
  omega

/-- **C96**, big-Ms: for equiprobable scenarios the big-Ms taken from these violations, with the index
of the quantile computed in doubles, relax every row for every point of the box that satisfies the
chance constraint, up to `songErr`. -/
theorem C96_song_valid (srt : CppSort) (I : Inst) (hE : Equi I) (heps : 0 ≤ I.eps) (hm : 0 < I.m)
    (hn : 0 < I.n) (hI : OneDecimal I) (R c : ℚ) (hz : SongSized I R c) (hS : SortsDefined I)
    (hN : I.N ≤ 2 ^ 40) (hq : flFloor (dbl I) + 1 < I.N) :
    ∃ f, flViolations srt I = .ok f ∧ ∀ s < I.N, ∀ i < I.m, ∃ M, flSongBigM I f s i = .ok M
      ∧ ∀ x, InBox I.n x → Chance I x →
        dot I.n (I.A s i) x ≤ I.b s i + M + songErr I R c := by
  obtain ⟨_, f, hf, hacc⟩ := C96_accurate srt I hE.1 hm hn hI R c hz hS
  obtain ⟨k, hk, hk1, hk2⟩ := flFloor_low I heps hN hq
  refine ⟨f, hf, fun s hs i hi => ?_⟩
  set l := (List.range I.N).map fun t => f s t i with hl
  have hperm := List.perm_insertionSort (fun a b : WithTop ℚ => a ≤ b) l
  have hlen : k < (l.insertionSort (· ≤ ·)).length := by
    rw [hperm.length_eq, hl, List.length_map, List.length_range]; exact hk2
  have hmem := hperm.mem_iff.1 (List.getElem_mem hlen)
  obtain ⟨t0, ht0, he0⟩ := List.mem_map.1 hmem
  obtain ⟨M, _, hM, _, _⟩ := hacc s hs t0 (List.mem_range.1 ht0) i hi
  rw [he0] at hM
  refine ⟨M, ?_, fun x hx hch => ?_⟩
  · unfold flSongBigM
    rw [hk, npGet_nat, pyGet_of_lt ⊤ hlen, List.getD_eq_getElem _ _ hlen, hM]
    rfl
  · have hcount := sorted_count l hlen
    rw [hM] at hcount
    by_contra hbad
    push Not at hbad
    rw [hl, List.countP_map] at hcount
    have hle : (List.range I.N).countP ((fun v => decide (v ≤ (M : WithTop ℚ))) ∘ fun t => f s t i)
        ≤ (List.range I.N).countP (fun s => ¬ Sat I s x) := by
      refine List.countP_mono_left fun t ht hle => ?_
      simp only [Function.comp, decide_eq_true_eq] at hle
      rw [decide_eq_true_iff]
      intro hsat
      obtain ⟨v, w, hv, hw, hvw⟩ := hacc s hs t (List.mem_range.1 ht) i hi
      rw [hv] at hle
      have hvM : v ≤ M := by exact_mod_cast hle
      have hdw : dot I.n (I.A s i) x - I.b s i ≤ w := by
        rcases hw.1 with ⟨rfl, rfl⟩ | ⟨l, hl, _, hk⟩
        · have := hsat i hi; linarith
        · exact hk.1 x hx (hsat l hl)
      have := (abs_le.1 hvw).1
      linarith
    rw [card_viol] at hle
    have := (chance_iff_card I hE heps x).1 hch
    omega

/-- **C96**, big-Ms against exact arithmetic: if the index of the quantile is the exact one (C91), every
big-M is within `songErr` of the big-M of exact arithmetic. -/
theorem C96_song_near (srt srt' : CppSort) (I : Inst) (hE : Equi I) (heps : 0 ≤ I.eps) (hm : 0 < I.m)
    (hn : 0 < I.n) (hI : OneDecimal I) (R c : ℚ) (hz : SongSized I R c) (hS : SortsDefined I)
    (hq : kmax I + 1 < I.N) (hfl : flFloor (dbl I) = kmax I) :
    ∃ f g, flViolations srt I = .ok f ∧ cppViolations srt' I = .ok g ∧ ∀ s < I.N, ∀ i < I.m, ∃ M M',
      flSongBigM I f s i = .ok M
      ∧ quantileBigM I.eps I.N ((List.range I.N).map fun t => g s t i) = .ok M'
      ∧ |M - M'| ≤ songErr I R c := by
  obtain ⟨_, f, hf, hacc⟩ := C96_accurate srt I hE.1 hm hn hI R c hz hS
  obtain ⟨g, hg, hgv⟩ := C45_cpp_violations_valid srt' I hE.1 hm hn fun s hs i hi => (hI.1 s hs i hi).2
  refine ⟨f, g, hf, hg, fun s hs i hi => ?_⟩
  have h0 : 0 ≤ I.eps * I.N := mul_nonneg heps (by positivity)
  -- the entries of the two lists
  have hent : ∀ t < I.N, ∃ v w : ℚ, f s t i = (v : WithTop ℚ) ∧ g s t i = (w : WithTop ℚ)
      ∧ |v - w| ≤ songErr I R c := by
    intro t ht
    obtain ⟨v, w, hv, hw, hvw⟩ := hacc s hs t ht i hi
    obtain ⟨q, hqv, _⟩ := hgv s hs t ht i hi
    have hge : g s t i = ((cppOps1 I.N I.n I.m ++ cppOps2 I.N I.n I.m).foldl
        (cppCompute srt' (memA I) (memB I))
        { viols := cppInit I.N I.m, indices := List.range I.n }).viols (addr I.N I.m s t i) := by
      unfold cppViolations at hg
      rw [if_neg (by have := hE.1; omega)] at hg
      cases hg
      rfl
    have hqw := exact_songViolation srt' I hI hs ht hi q (by rw [← hge]; exact hqv)
    refine ⟨v, q, hv, hqv, ?_⟩
    rw [hqw.unique hw]; exact hvw
  set la := (List.range I.N).map fun t => f s t i with hla
  set lb := (List.range I.N).map fun t => g s t i with hlb
  have hpa := List.perm_insertionSort (fun a b : WithTop ℚ => a ≤ b) la
  have hpb := List.perm_insertionSort (fun a b : WithTop ℚ => a ≤ b) lb
  have hka : kmax I + 1 < (la.insertionSort (· ≤ ·)).length := by
    rw [hpa.length_eq, hla, List.length_map, List.length_range]; exact hq
  have hkb : kmax I + 1 < (lb.insertionSort (· ≤ ·)).length := by
    rw [hpb.length_eq, hlb, List.length_map, List.length_range]; exact hq
  obtain ⟨M, hM⟩ : ∃ M : ℚ, (la.insertionSort (· ≤ ·))[kmax I + 1] = (M : WithTop ℚ) := by
    obtain ⟨t, ht, he⟩ := List.mem_map.1 (hpa.mem_iff.1 (List.getElem_mem hka))
    obtain ⟨v, _, hv, _⟩ := hent t (List.mem_range.1 ht)
    exact ⟨v, he.symm.trans hv⟩
  obtain ⟨M', hM'⟩ : ∃ M : ℚ, (lb.insertionSort (· ≤ ·))[kmax I + 1] = (M : WithTop ℚ) := by
    obtain ⟨t, ht, he⟩ := List.mem_map.1 (hpb.mem_iff.1 (List.getElem_mem hkb))
    obtain ⟨_, w, _, hw, _⟩ := hent t (List.mem_range.1 ht)
    exact ⟨w, he.symm.trans hw⟩
  refine ⟨M, M', ?_, ?_, ?_⟩
  · unfold flSongBigM
    rw [hfl, show (kmax I : ℤ) + 1 = ((kmax I + 1 : ℕ) : ℤ) by push_cast; ring, npGet_nat,
      pyGet_of_lt ⊤ hka, List.getD_eq_getElem _ _ hka, hM]
    rfl
  · unfold quantileBigM
    simp only
    rw [floor_add_one h0]
    change (do
      let v ← npGet (lb.insertionSort (· ≤ ·)) ((kmax I + 1 : ℕ) : ℤ)
      match v with
      | some q => pure q
      | none => throw PyErr.gurobiError) = Except.ok M'
    rw [npGet_nat, pyGet_of_lt ⊤ hkb, List.getD_eq_getElem _ _ hkb, hM']
    rfl
  · have c1 := sorted_count la hka
    have c2 := sorted_count lb hkb
    rw [hM] at c1
    rw [hM'] at c2
    have h1 := sorted_le la hka ((M' + songErr I R c : ℚ) : WithTop ℚ) (c2.trans (by
      rw [hla, hlb, List.countP_map, List.countP_map]
      refine List.countP_mono_left fun t ht hle => ?_
      simp only [Function.comp, decide_eq_true_eq] at hle ⊢
      obtain ⟨v, w, hv, hw, hvw⟩ := hent t (List.mem_range.1 ht)
      rw [hw] at hle
      rw [hv]
      have hle : w ≤ M' := by exact_mod_cast hle
      have := (abs_le.1 hvw).2
      exact_mod_cast (by linarith : v ≤ M' + songErr I R c)))
    have h2 := sorted_le lb hkb ((M + songErr I R c : ℚ) : WithTop ℚ) (c1.trans (by
      rw [hla, hlb, List.countP_map, List.countP_map]
      refine List.countP_mono_left fun t ht hle => ?_
      simp only [Function.comp, decide_eq_true_eq] at hle ⊢
      obtain ⟨v, w, hv, hw, hvw⟩ := hent t (List.mem_range.1 ht)
      rw [hv] at hle
      rw [hw]
      have hle : v ≤ M := by exact_mod_cast hle
      have := (abs_le.1 hvw).1
      exact_mod_cast (by linarith : w ≤ M + songErr I R c)))
    rw [hM] at h1
    rw [hM'] at h2
    have h1 : M ≤ M' + songErr I R c := by exact_mod_cast h1
    have h2 : M' ≤ M + songErr I R c := by exact_mod_cast h2
    exact abs_le.2 ⟨by linarith, by linarith⟩

/-! ## Examples -/

set_option synthInstance.maxSize 1000 in
theorem exBigM_sorts : SortsDefined exBigM := by unfold SortsDefined StrictWeak; decide +kernel

theorem exBigM_sized : SongSized exBigM 2 1 :=
  ⟨by decide +kernel, by decide +kernel, by decide +kernel, by norm_num [exBigM]⟩

/-- The theorems apply to the instance of `Props/BigM.lean`; there the error is below `2e-14`. -/
example : (∃ f, flViolations .default exBigM = .ok f ∧ ∀ s < 4, ∀ i < 2, ∃ M,
      flSongBigM exBigM f s i = .ok M ∧ ∀ x, InBox 2 x → Chance exBigM x →
        dot 2 (exBigM.A s i) x ≤ exBigM.b s i + M + songErr exBigM 2 1)
    ∧ (∃ f g, flViolations .default exBigM = .ok f ∧ cppViolations .default exBigM = .ok g
      ∧ ∀ s < 4, ∀ i < 2, ∃ M M', flSongBigM exBigM f s i = .ok M
        ∧ quantileBigM exBigM.eps 4 ((List.range 4).map fun t => g s t i) = .ok M'
        ∧ |M - M'| ≤ songErr exBigM 2 1)
    ∧ songErr exBigM 2 1 ≤ 2 / 10 ^ 14 :=
  ⟨C96_song_valid .default exBigM exBigM_equi (by decide +kernel) (by decide) (by decide) exBigM_grid
      2 1 exBigM_sized exBigM_sorts (by decide) (by decide +kernel),
    C96_song_near .default .default exBigM exBigM_equi (by decide +kernel) (by decide) (by decide)
      exBigM_grid 2 1 exBigM_sized exBigM_sorts (by decide +kernel) (by decide +kernel),
    by norm_num [songErr, exBigM]⟩

/-- Some error is unavoidable: the exact violation `-1/15` is not a double. -/
example : (flViolations .default exBigM >>= fun f => pure (f 0 0 0))
      = .ok ((-300239975158033 / 4503599627370496 : ℚ) : WithTop ℚ)
    ∧ (cppViolations .default exBigM >>= fun f => pure (f 0 0 0)) = .ok ((-1 / 15 : ℚ) : WithTop ℚ) := by
  decide +kernel

/-- For instance 50 variables, row sums up to 30000 and capacities up to 12000 meet the bound on the
size; the error is then below `6e-10`. -/
example : ((50 : ℚ) + 11) * (30000 + 12000 + 1) ≤ 4 * 10 ^ 8
    ∧ ((50 : ℚ) + 10) * (30000 + 12000 + 1) / 2 ^ 52 ≤ 6 / 10 ^ 10 := by
  norm_num

end Verif.Props
