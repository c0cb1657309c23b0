import Verif.Model.FloatOptim
import Verif.Lemmas.FloatViolations
import Verif.Lemmas.Tolerances
import Verif.Props.FloatSort

/-!
# Lemmas on the partitioned problems in double precision
-/

open Finset

namespace Verif.Model
open LinExpr Spec Props

variable {t : Tols} {ρ : V → ℚ} {e : ℚ}

/-- Two versions of a linear constraint that differ by at most `e` at a point. -/
def Lin.Apart (e : ℚ) (ρ : V → ℚ) (l l' : Lin) : Prop :=
  l.rel = l'.rel ∧ |(l.lhs.eval ρ - l.rhs.eval ρ) - (l'.lhs.eval ρ - l'.rhs.eval ρ)| ≤ e

/-- Two versions of a constraint that differ by at most `e` at a point. -/
def Constr.Apart (e : ℚ) (ρ : V → ℚ) : Constr → Constr → Prop
  | .lin l, .lin l' => l.Apart e ρ l'
  | .ind v val l, .ind v' val' l' => v = v' ∧ val = val' ∧ l.Apart e ρ l'
  | _, _ => False

theorem Lin.Apart.symm {l l' : Lin} (h : l.Apart e ρ l') : l'.Apart e ρ l :=
  ⟨h.1.symm, by rw [abs_sub_comm]; exact h.2⟩

theorem Constr.Apart.symm {c c' : Constr} (h : c.Apart e ρ c') : c'.Apart e ρ c := by
  cases c <;> cases c' <;> simp only [Constr.Apart] at h ⊢
  · exact h.symm
  · exact ⟨h.1.symm, h.2.1.symm, h.2.2.symm⟩

theorem Lin.Apart.near {l l' : Lin} (h : l.Apart e ρ l') {τ : ℚ} (hn : l.Near τ ρ) :
    l'.Near (τ + e) ρ := by
  obtain ⟨h1, h2⟩ := h
  have h3 := abs_le.1 h2
  unfold Lin.Near at hn ⊢
  rw [← h1]
  cases hr : l.rel <;> simp only [hr] at hn ⊢
  · linarith
  · linarith
  · have := abs_le.1 hn
    exact abs_le.2 ⟨by linarith, by linarith⟩

theorem Constr.Apart.near {c c' : Constr} (h : c.Apart e ρ c') (hn : c.Near t ρ) :
    c'.Near ⟨t.int, t.feas + e⟩ ρ := by
  cases c <;> cases c' <;> simp only [Constr.Apart] at h
  · exact Lin.Apart.near h hn
  · obtain ⟨rfl, rfl, h⟩ := h
    exact fun hv => h.near (hn hv)

/-- The points accepted for a chance-constrained problem. -/
def NearCC (t : Tols) (J : CI) (cs : List Constr) (ch : Constr) (prune : List ℕ) (ρ : V → ℚ) : Prop :=
  (∀ d ∈ varX J, d.Near t ρ) ∧ (∀ d ∈ varZ J, d.Near t ρ) ∧ (∀ c ∈ cs, c.Near t ρ) ∧ ch.Near t ρ
    ∧ ∀ c ∈ prune.map fixZero, c.Near t ρ

/-- The models of both kinds. -/
def ccShape (J : CI) (cs : List Constr) (ch : Constr) (prune : List ℕ) (gap : ℚ) : GModel :=
  ((((((GModel.empty.addVars (varX J)).setObjective (objExpr J) true).addVars
        (varZ J)).addConstrs cs).addConstr ch).addConstrs (prune.map fixZero)).setMIPGap gap

theorem nearCC {J : CI} {cs : List Constr} {ch : Constr} {prune : List ℕ} {gap : ℚ} :
    (ccShape J cs ch prune gap).NearFeas t ρ ↔ NearCC t J cs ch prune ρ := by
  have h' : (ccShape J cs ch prune gap).NearFeas t ρ ↔
      GModel.NearFeas t (((((((GModel.empty.addVars (varX J)).setObjective (objExpr J) true).addVars
        (varZ J)).addConstrs cs).addConstr ch).addConstrs (prune.map fixZero))) ρ := Iff.rfl
  rw [h', near_addConstrs, near_addConstr, near_addConstrs, near_addVars]
  unfold NearCC
  constructor
  · rintro ⟨⟨⟨⟨h1, h2⟩, h3⟩, h4⟩, h5⟩
    exact ⟨fun d hd => h1.1 d (List.mem_append_right _ hd), h2, h3, h4, h5⟩
  · rintro ⟨h1, h2, h3, h4, h5⟩
    refine ⟨⟨⟨⟨⟨fun d hd => ?_, fun c hc => ?_⟩, h2⟩, h3⟩, h4⟩, h5⟩
    · exact h1 d (by simpa [GModel.setObjective, GModel.addVars, GModel.empty] using hd)
    · simp [GModel.setObjective, GModel.addVars, GModel.empty] at hc

theorem VarDecl.Near.mono {t u : Tols} (hi : t.int ≤ u.int) (hf : t.feas ≤ u.feas) {d : VarDecl}
    (h : d.Near t ρ) : d.Near u ρ :=
  ⟨fun hb => ⟨(h.1 hb).1.imp (le_trans · hi) (le_trans · hi), by linarith [(h.1 hb).2.1],
    by linarith [(h.1 hb).2.2]⟩, fun l hl => by linarith [h.2.1 l hl], fun u' hu => by linarith [h.2.2 u' hu]⟩

theorem fixZero_near {t u : Tols} (hf : t.feas ≤ u.feas) {s : ℕ} (h : (fixZero s).Near t ρ) :
    (fixZero s).Near u ρ := by
  simp only [fixZero, Constr.Near, Lin.Near] at h ⊢
  exact h.trans hf

/-- Transfer between the two versions. -/
theorem NearCC.transfer {J J' : CI} (hn : J'.n = J.n) (hS : J'.nbScen = J.nbScen) (hc : J'.cont = J.cont)
    {cs cs' : List Constr} {ch ch' : Constr} {prune : List ℕ}
    (hcs : List.Forall₂ (Constr.Apart e ρ) cs cs') (hch : ch.Apart e ρ ch') (he : 0 ≤ e)
    (h : NearCC t J cs ch prune ρ) : NearCC ⟨t.int, t.feas + e⟩ J' cs' ch' prune ρ := by
  obtain ⟨h1, h2, h3, h4, h5⟩ := h
  have hx : varX J' = varX J := by unfold varX; rw [hn, hc]
  have hz : varZ J' = varZ J := by unfold varZ; rw [hS]
  refine ⟨fun d hd => VarDecl.Near.mono (t := t) (u := ⟨t.int, t.feas + e⟩) le_rfl (by simpa using he) (h1 d (hx ▸ hd)),
    fun d hd => VarDecl.Near.mono (t := t) (u := ⟨t.int, t.feas + e⟩) le_rfl (by simpa using he) (h2 d (hz ▸ hd)), ?_, hch.near h4, ?_⟩
  · intro c' hc'
    obtain ⟨k, hk, rfl⟩ := List.mem_iff_getElem.1 hc'
    have hlen := hcs.length_eq
    have := List.Forall₂.get hcs (by omega : k < cs.length) hk
    exact this.near (h3 _ (List.getElem_mem _))
  · intro c hc
    obtain ⟨s, hs, rfl⟩ := List.mem_map.1 hc
    exact fixZero_near (t := t) (by simpa using he) (h5 _ hc)

/-- Every variable is within 2 of zero. -/
theorem NearCC.box {J : CI} {cs : List Constr} {ch : Constr} {prune : List ℕ}
    (h : NearCC t J cs ch prune ρ) (ht : t.feas ≤ 1) :
    (∀ j < J.n, |ρ (.x j)| ≤ 2) ∧ ∀ s < J.nbScen, |ρ (.z s)| ≤ 2 := by
  constructor
  · intro j hj
    obtain ⟨-, h2, h3⟩ := near_varX (t := t) h.1 j hj
    exact abs_le.2 ⟨by linarith, by linarith⟩
  · intro s hs
    obtain ⟨-, h2, h3⟩ := near_varZ (t := t) h.2.1 s hs
    exact abs_le.2 ⟨by linarith, by linarith⟩

/-! ## The rows -/

/-- Data and their doubles. -/
structure RowsNear (R : ℚ) (J J' : CI) : Prop where
  n : J'.n = J.n
  scen : J'.nbScen = J.nbScen
  con : ∀ s < J.nbScen, J'.nbCon s = J.nbCon s
  cont : J'.cont = J.cont
  row : ∀ s < J.nbScen, ∀ i < J.nbCon s, ∀ j < J.n, 0 ≤ J.row s i j ∧ J'.row s i j = fl64 (J.row s i j)
  rhs : ∀ s < J.nbScen, ∀ i < J.nbCon s, 0 ≤ J.rhs s i ∧ J'.rhs s i = fl64 (J.rhs s i)
  size : ∀ s < J.nbScen, ∀ i < J.nbCon s, ∑ j ∈ range J.n, J.row s i j ≤ R ∧ J.rhs s i ≤ R

theorem RowsNear.lhs {R : ℚ} {J J' : CI} (h : RowsNear R J J') (hx : ∀ j < J.n, |ρ (.x j)| ≤ 2) {s i : ℕ}
    (hs : s < J.nbScen) (hi : i < J.nbCon s) :
    |(lhsExpr J s i).eval ρ - (lhsExpr J' s i).eval ρ| ≤ ulp * (2 * R) := by
  rw [eval_lhsExpr, eval_lhsExpr, h.n]
  unfold dot
  rw [← Finset.sum_sub_distrib]
  have h1 : ∑ j ∈ range J.n, |J.row s i j * ρ (.x j) - J'.row s i j * ρ (.x j)|
      ≤ ∑ j ∈ range J.n, ulp * 2 * J.row s i j := by
    refine Finset.sum_le_sum fun j hj => ?_
    have hj := Finset.mem_range.1 hj
    obtain ⟨r0, r1⟩ := h.row s hs i hi j hj
    rw [← sub_mul, abs_mul, r1, abs_sub_comm]
    have e1 : |fl64 (J.row s i j) - J.row s i j| ≤ ulp * J.row s i j := fl64_err r0
    calc |fl64 (J.row s i j) - J.row s i j| * |ρ (.x j)|
        ≤ (ulp * J.row s i j) * 2 := mul_le_mul e1 (hx j hj) (abs_nonneg _)
          (mul_nonneg ulp_pos.le r0)
      _ = ulp * 2 * J.row s i j := by ring
  refine (Finset.abs_sum_le_sum_abs _ _).trans (h1.trans ?_)
  rw [← Finset.mul_sum]
  have := (h.size s hs i hi).1
  have hu := ulp_pos
  nlinarith

theorem RowsNear.rhs_err {R : ℚ} {J J' : CI} (h : RowsNear R J J') {s i : ℕ}
    (hs : s < J.nbScen) (hi : i < J.nbCon s) : |J.rhs s i - J'.rhs s i| ≤ ulp * R := by
  obtain ⟨b0, b1⟩ := h.rhs s hs i hi
  rw [b1, abs_sub_comm]
  have e1 : |fl64 (J.rhs s i) - J.rhs s i| ≤ ulp * J.rhs s i := fl64_err b0
  exact e1.trans (mul_le_mul_of_nonneg_left (h.size s hs i hi).2 ulp_pos.le)

theorem RowsNear.indicator {R : ℚ} {J J' : CI} (h : RowsNear R J J') (hR : ulp * (3 * R) ≤ e)
    (hx : ∀ j < J.n, |ρ (.x j)| ≤ 2) {s i : ℕ} (hs : s < J.nbScen) (hi : i < J.nbCon s) :
    Constr.Apart e ρ (.ind (.z s) true ⟨lhsExpr J s i, .le, ofConst (J.rhs s i)⟩)
      (.ind (.z s) true ⟨lhsExpr J' s i, .le, ofConst (J'.rhs s i)⟩) := by
  refine ⟨rfl, rfl, rfl, ?_⟩
  have h1 := abs_le.1 (h.lhs hx hs hi)
  have h2 := abs_le.1 (h.rhs_err hs hi)
  simp only [eval, ofConst, List.map_nil, List.sum_nil, add_zero] at h1 ⊢
  exact abs_le.2 ⟨by linarith [h1.1, h2.2], by linarith [h1.2, h2.1]⟩

theorem forall₂_range {α : Type} {r : α → α → Prop} {k k' : ℕ} (hk : k' = k) {f f' : ℕ → α}
    (h : ∀ i < k, r (f i) (f' i)) :
    List.Forall₂ r ((List.range k).map f) ((List.range k').map f') := by
  subst hk
  rw [List.forall₂_map_left_iff, List.forall₂_map_right_iff, List.forall₂_same]
  exact fun i hi => h i (List.mem_range.1 hi)

theorem RowsNear.indicators {R : ℚ} {J J' : CI} (h : RowsNear R J J') (hR : ulp * (3 * R) ≤ e)
    (hx : ∀ j < J.n, |ρ (.x j)| ≤ 2) :
    List.Forall₂ (Constr.Apart e ρ) (allIndicators J) (allIndicators J') :=
  List.rel_flatten (forall₂_range h.scen fun _ hs => forall₂_range (h.con _ hs) fun _ hi =>
    h.indicator hR hx hs hi)

/-- A big-M is a double (or an infinity is excluded before). -/
def IsDouble (q : ℚ) : Prop := rd q = q

/-- The rounded literal separates the doubles as the decimal number does. -/
theorem tol6_iff {M : ℚ} (hM : IsDouble M) : M ≥ -tol6 ↔ M ≥ -(1 / 10 ^ 6) := by
  have ht : tol6 ≤ 1 / 10 ^ 6 := by unfold tol6; decide +kernel
  constructor
  · intro h; linarith
  · intro h
    by_cases h0 : 0 ≤ M
    · have : 0 ≤ tol6 := by unfold tol6; exact fl64_nonneg _
      linarith
    · have h1 : rd M = -fl64 (-M) := by unfold rd; rw [if_neg h0]
      have h2 : fl64 (-M) ≤ tol6 := fl64_mono (by linarith)
      rw [← hM, h1]
      linarith

theorem RowsNear.bigM {R : ℚ} {J J' : CI} (h : RowsNear R J J') {B : ℚ} (hR : ulp * (5 * R + B) ≤ e)
    (hx : ∀ j < J.n, |ρ (.x j)| ≤ 2) {s i : ℕ} (hs : s < J.nbScen) (hi : i < J.nbCon s) {M : ℚ}
    (hM : IsDouble M) (hB : |M| ≤ B) :
    List.Forall₂ (Constr.Apart e ρ) (bigMConstrs J s i M) (flBigMConstrs J' s i M) := by
  have h1 := abs_le.1 (h.lhs hx hs hi)
  have h2 := abs_le.1 (h.rhs_err hs hi)
  obtain ⟨b0, b1⟩ := h.rhs s hs i hi
  have hb := (h.size s hs i hi).2
  have hu : ulp * R ≤ R := by
    have : ulp ≤ 1 := ulp_small.trans (by norm_num)
    nlinarith
  have h3 : |rd (J'.rhs s i + M) - (J'.rhs s i + M)| ≤ ulp * (2 * R + B) := by
    refine rd_near ((abs_add_le _ _).trans ?_)
    have : |J'.rhs s i| ≤ 2 * R := abs_le.2 ⟨by linarith [h2.2], by linarith [h2.1]⟩
    linarith
  have h3 := abs_le.1 h3
  unfold bigMConstrs flBigMConstrs
  simp only [tol6_iff hM, h.cont]
  split_ifs
  · refine List.Forall₂.cons ⟨rfl, ?_⟩ List.Forall₂.nil
    simp only [eval, LinExpr.add, LinExpr.smul, LinExpr.sub, ofConst, var, List.map_cons, List.map_nil, List.sum_nil,
      List.sum_cons, List.nil_append] at h1 ⊢
    refine abs_le.2 ⟨?_, ?_⟩ <;> linarith [h1.1, h1.2, h2.1, h2.2, h3.1, h3.2]
  · exact List.Forall₂.nil
  · refine List.Forall₂.cons ⟨rfl, ?_⟩ List.Forall₂.nil
    simp only [eval, ofConst, List.map_nil, List.sum_nil, add_zero] at h1 ⊢
    refine abs_le.2 ⟨?_, ?_⟩ <;> linarith [h1.1, h1.2, h2.1, h2.2, h3.1, h3.2]

/-! ## The chance constraint -/

theorem div_close {q q' d : ℚ} (h0 : 0 ≤ q) (h1 : q ≤ 1) (hq : |q' - q| ≤ 1 / 10 ^ 13)
    (hd : |d - 1| ≤ 22 / 10 ^ 12) : |q' / d - q| ≤ 23 / 10 ^ 12 := by
  have a := abs_le.1 hq
  have b := abs_le.1 hd
  have hd0 : 0 < d := by linarith
  have c1 : q * d ≤ q * (1 + 22 / 10 ^ 12) := mul_le_mul_of_nonneg_left (by linarith) h0
  have c2 : q * (1 - 22 / 10 ^ 12) ≤ q * d := mul_le_mul_of_nonneg_left (by linarith) h0
  rw [abs_le]
  constructor
  · rw [neg_le_sub_iff_le_add, ← sub_le_iff_le_add, le_div_iff₀ hd0]
    linarith
  · rw [sub_le_iff_le_add, div_le_iff₀ hd0]
    linarith

/-- The chance constraints of two instances. -/
structure ChanceNear (J J' : CI) : Prop where
  scen : J'.nbScen = J.nbScen
  proba : ∀ s < J.nbScen, |J'.proba s - J.proba s| * J.nbScen ≤ 24 / 10 ^ 12
  eps0 : 0 ≤ J.eps
  eps1 : J.eps ≤ 1
  eps : |J'.eps - J.eps| ≤ 24 / 10 ^ 12

theorem ChanceNear.apart {J J' : CI} (h : ChanceNear J J') (hz : ∀ s < J.nbScen, |ρ (.z s)| ≤ 2)
    (h0 : 0 < J.nbScen) : Constr.Apart (1 / 10 ^ 10) ρ (chanceConstr J) (flChanceConstr J') := by
  refine ⟨rfl, ?_⟩
  have h1 : |∑ s ∈ range J.nbScen, J.proba s * ρ (.z s) - ∑ s ∈ range J.nbScen, J'.proba s * ρ (.z s)|
      ≤ 48 / 10 ^ 12 := by
    rw [← Finset.sum_sub_distrib]
    have hK : (0 : ℚ) < J.nbScen := by exact_mod_cast h0
    refine (Finset.abs_sum_le_sum_abs _ _).trans ?_
    have : ∑ s ∈ range J.nbScen, |J.proba s * ρ (.z s) - J'.proba s * ρ (.z s)|
        ≤ ∑ _s ∈ range J.nbScen, 48 / 10 ^ 12 / (J.nbScen : ℚ) := by
      refine Finset.sum_le_sum fun s hs => ?_
      have hs := Finset.mem_range.1 hs
      rw [← sub_mul, abs_mul, abs_sub_comm, le_div_iff₀ hK]
      have h2 := h.proba s hs
      have h3 := hz s hs
      calc |J'.proba s - J.proba s| * |ρ (.z s)| * J.nbScen
          = (|J'.proba s - J.proba s| * J.nbScen) * |ρ (.z s)| := by ring
        _ ≤ (24 / 10 ^ 12) * 2 := mul_le_mul h2 h3 (abs_nonneg _) (by norm_num)
        _ = 48 / 10 ^ 12 := by norm_num
    refine this.trans ?_
    rw [Finset.sum_const, Finset.card_range, nsmul_eq_mul, mul_div_cancel₀ _ hK.ne']
  have he := abs_le.1 h.eps
  have h2 : |rd (1 - J'.eps) - (1 - J'.eps)| ≤ ulp * 2 := by
    refine rd_near (abs_le.2 ⟨by linarith [h.eps1], by linarith [h.eps0]⟩)
  have h2 := abs_le.1 h2
  have h1 := abs_le.1 h1
  have hu := ulp_small
  rw [eval_quicksum_range, eval_quicksum_range, eval_ofConst, eval_ofConst, h.scen]
  exact abs_le.2 ⟨by linarith [h1.1, h2.1, he.1], by linarith [h1.2, h2.2, he.2]⟩

/-- The doubles of the instance itself. -/
theorem chanceNear_inst {I : Inst} (hE : Equi I) (h0 : 0 ≤ I.eps) (h1 : I.eps ≤ 1) :
    ChanceNear (instCI I) (instCI (dbl I)) where
  scen := rfl
  proba := fun s hs => by
    have hN : (0 : ℚ) < I.N := by exact_mod_cast hE.1
    have hp : I.proba s = 1 / I.N := hE.2 s hs
    have : |fl64 (I.proba s) - I.proba s| ≤ ulp * I.proba s := fl64_err (by rw [hp]; positivity)
    have hu := ulp_small
    calc |fl64 (I.proba s) - I.proba s| * I.N ≤ ulp * I.proba s * I.N :=
          mul_le_mul_of_nonneg_right this hN.le
      _ = ulp := by rw [hp]; field_simp
      _ ≤ 24 / 10 ^ 12 := hu.trans (by norm_num)
  eps0 := h0
  eps1 := h1
  eps := by
    have : |fl64 I.eps - I.eps| ≤ ulp * I.eps := fl64_err h0
    have hu := ulp_small
    refine this.trans (le_trans (mul_le_mul_of_nonneg_left h1 ulp_pos.le) ?_)
    rw [mul_one]; exact hu.trans (by norm_num)

theorem npMin_const {l : List ℚ} {p : ℚ} (hne : l ≠ []) (h : ∀ q ∈ l, q = p) : npMin l = .ok p := by
  cases l with
  | nil => exact absurd rfl hne
  | cons a l =>
    have ha : a = p := h a (by simp)
    have : ∀ l : List ℚ, (∀ q ∈ l, q = p) → l.foldl min p = p := by
      intro l
      induction l with
      | nil => intro _; rfl
      | cons b l ih =>
        intro hl
        rw [List.foldl_cons, hl b (by simp), min_self]
        exact ih fun q hq => hl q (by simp [hq])
    rw [npMin, ha, this l fun q hq => h q (by simp [hq])]

/-- What `load_partition` computes in doubles. -/
theorem flLoad {I : Inst} (hE : Equi I) {P : List (List ℕ)} (hP : IsPartition I.N P) {D : PartData}
    (h : FlLoadPartition I P D) :
    ∃ total, FlSum (P.map fun _ => fl64 (1 / I.N)) total ∧ D.nbSubsets = P.length ∧ D.partition = P
      ∧ (D.nbConPart = P.map fun p => (p.map fun _ => I.m).sum)
      ∧ (∀ c < P.length, D.probaPart.getD c 0 = rd (fl64 (1 / I.N) / total))
      ∧ D.epsPart = rd (fl64 I.eps / total) := by
  obtain ⟨mins, total, h1, h2, rfl⟩ := h
  have hm : mins = P.map fun _ => fl64 (1 / I.N) := by
    rw [mapM_ok _ _ (fun _ => fl64 (1 / I.N))] at h1
    · cases h1; rfl
    · intro p hp
      refine npMin_const (by simpa using hP.2 p hp) ?_
      intro q hq
      obtain ⟨s, hs, rfl⟩ := List.mem_map.1 hq
      show fl64 (I.proba s) = _
      rw [hE.2 s (mem_part_lt hP hp hs)]
  subst hm
  refine ⟨total, h2, rfl, rfl, rfl, fun c hc => ?_, rfl⟩
  rw [List.map_map, List.getD_eq_getElem _ _ (by simpa using hc), List.getElem_map]
  rfl

/-- The total probability. -/
theorem flTotal_near {N K : ℕ} (hN : 0 < N) (hN' : N ≤ 90000) (hK : 0 < K) (hKN : K ≤ N) {α : Type}
    {P : List α} (hP : P.length = K) {total : ℚ} (h : FlSum (P.map fun _ => fl64 (1 / N)) total) :
    |total / (K * fl64 (1 / N)) - 1| ≤ 21 / 10 ^ 12 ∧ |total * N / K - 1| ≤ 22 / 10 ^ 12 := by
  have hNq : (0 : ℚ) < N := by exact_mod_cast hN
  have hKq : (0 : ℚ) < K := by exact_mod_cast hK
  have hp : |fl64 (1 / N) - 1 / N| ≤ ulp * (1 / N) := fl64_err (by positivity)
  set p := fl64 (1 / (N : ℚ)) with hpd
  have hu := ulp_small
  have hp1 : |p * N - 1| ≤ ulp := by
    have : p * N - 1 = (p - 1 / N) * N := by field_simp
    rw [this, abs_mul, abs_of_pos hNq]
    calc |p - 1 / N| * N ≤ ulp * (1 / N) * N := mul_le_mul_of_nonneg_right hp hNq.le
      _ = ulp := by field_simp
  have hp2 := abs_le.1 hp1
  have hp0 : 0 < p := by
    by_contra hc
    have : p * N ≤ 0 := mul_nonpos_of_nonpos_of_nonneg (not_lt.1 hc) hNq.le
    norm_num at hu
    linarith
  obtain ⟨-, b1, b2⟩ := flSum_bounds h fun a ha => by
    obtain ⟨_, _, rfl⟩ := List.mem_map.1 ha; exact hp0.le
  have hsum : (P.map fun _ => p).sum = K * p := by
    rw [List.map_const', List.sum_replicate, hP, nsmul_eq_mul]
  rw [hsum, List.length_map, hP] at b1 b2
  have hK9 : (K : ℚ) ≤ 90000 := by exact_mod_cast hKN.trans hN'
  have hk1 : ((K - 1 : ℕ) : ℚ) ≤ 90000 := le_trans (by exact_mod_cast Nat.sub_le K 1) hK9
  have hk0 : (0 : ℚ) ≤ ((K - 1 : ℕ) : ℚ) := by positivity
  have c1 : (1 : ℚ) - 21 / 10 ^ 12 ≤ (1 - 1 / 2 ^ 53) ^ (K - 1) := by
    refine le_trans ?_ (pow_down (by norm_num) (by norm_num) _)
    have : ((K - 1 : ℕ) : ℚ) * (1 / 2 ^ 53) ≤ 90000 * (1 / 2 ^ 53) :=
      mul_le_mul_of_nonneg_right hk1 (by norm_num)
    norm_num at this ⊢
    linarith
  have c2 : (1 + 1 / 2 ^ 53 : ℚ) ^ (K - 1) ≤ 1 + 21 / 10 ^ 12 := by
    have h3 : ((K - 1 : ℕ) : ℚ) * (1 / 2 ^ 53) ≤ 90000 * (1 / 2 ^ 53) :=
      mul_le_mul_of_nonneg_right hk1 (by norm_num)
    refine (pow_up (by norm_num) _ (h3.trans (by norm_num))).trans ?_
    norm_num at h3 ⊢
    linarith
  have hKp : 0 < K * p := mul_pos hKq hp0
  have d1 : K * p * (1 - 21 / 10 ^ 12) ≤ total := (mul_le_mul_of_nonneg_left c1 hKp.le).trans b1
  have d2 : total ≤ K * p * (1 + 21 / 10 ^ 12) := b2.trans (mul_le_mul_of_nonneg_left c2 hKp.le)
  constructor
  · rw [abs_le]
    constructor
    · rw [neg_le_sub_iff_le_add, ← sub_le_iff_le_add, le_div_iff₀ hKp]; linarith
    · rw [sub_le_iff_le_add, div_le_iff₀ hKp]; linarith
  · have e1 : K * (p * N) * (1 - 21 / 10 ^ 12) ≤ total * N := by
      have := mul_le_mul_of_nonneg_right d1 hNq.le; linarith
    have e2 : total * N ≤ K * (p * N) * (1 + 21 / 10 ^ 12) := by
      have := mul_le_mul_of_nonneg_right d2 hNq.le; linarith
    have f1 : K * (1 - ulp) ≤ K * (p * N) := mul_le_mul_of_nonneg_left (by linarith) hKq.le
    have f2 : K * (p * N) ≤ K * (1 + ulp) := mul_le_mul_of_nonneg_left (by linarith) hKq.le
    have g1 : K * ulp ≤ K * (1 / 10 ^ 15) := mul_le_mul_of_nonneg_left hu hKq.le
    rw [abs_le]
    constructor
    · rw [neg_le_sub_iff_le_add, ← sub_le_iff_le_add, le_div_iff₀ hKq]; linarith
    · rw [sub_le_iff_le_add, div_le_iff₀ hKq]; linarith

/-- The doubles of a partitioned instance. -/
theorem chanceNear_part {I : Inst} (hE : Equi I) (h0 : 0 ≤ I.eps) (hN : I.N ≤ 90000)
    {P : List (List ℕ)} (hP : IsPartition I.N P) (hk : kmax I < P.length) {D D' : PartData}
    (hD : loadPartition I P.length P = .ok D) (hD' : FlLoadPartition I P D') :
    ChanceNear (partCI I D) (partCI (dbl I) D') := by
  have hNq : (0 : ℚ) < I.N := by exact_mod_cast hE.1
  have hK0 : 0 < P.length := by omega
  have hKq : (0 : ℚ) < P.length := by exact_mod_cast hK0
  obtain ⟨total, hs, e1, e2, e3, e4, e5⟩ := flLoad hE hP hD'
  obtain ⟨t1, t2⟩ := flTotal_near hE.1 hN hK0 (partition_length_le hP) rfl hs
  have hpos : ∀ s < I.N, 0 < I.proba s := fun s hs => by
    rw [hE.2 s hs]; positivity
  obtain ⟨D0, hD0, hnb, _, _, _, hq⟩ := C09_partition_probabilities I P hE.1 hP hpos
  rw [hD] at hD0
  cases hD0
  obtain ⟨hq1, hq2⟩ := hq hE
  have hu := ulp_small
  have hE1 : (partCI I D).eps = I.eps * I.N / P.length := by rw [← hq2]; field_simp
  have hlt : I.eps * I.N < P.length := by
    have := Nat.lt_floor_add_one (I.eps * I.N)
    have h2 : ((kmax I + 1 : ℕ) : ℚ) ≤ P.length := by exact_mod_cast hk
    unfold kmax at h2
    push_cast at h2
    linarith
  have hE0 : 0 ≤ (partCI I D).eps := by rw [hE1]; positivity
  have hE2 : (partCI I D).eps ≤ 1 := by
    rw [hE1, div_le_one hKq]; exact hlt.le
  refine ⟨by rw [hnb]; exact e1, ?_, hE0, hE2, ?_⟩
  · rw [hnb]
    intro c hc
    rw [hq1 c hc]
    have : (partCI (dbl I) D').proba c = rd (fl64 (1 / I.N) / total) := e4 c hc
    rw [this]
    have habs : ∀ q : ℚ, |q| * P.length = |q * P.length| := fun q => by
      rw [abs_mul, abs_of_pos hKq]
    -- `p / total` is close to `1 / K`
    have hp : fl64 (1 / (I.N : ℚ)) / total * P.length = 1 / (total / (P.length * fl64 (1 / I.N))) := by
      rw [one_div_div]; ring
    have h3 : |fl64 (1 / (I.N : ℚ)) / total * P.length - 1| ≤ 23 / 10 ^ 12 := by
      rw [hp]
      exact div_close (by norm_num) le_rfl (by norm_num) (t1.trans (by norm_num))
    have h4 := rd_err (fl64 (1 / (I.N : ℚ)) / total)
    have h5 : |rd (fl64 (1 / (I.N : ℚ)) / total) - fl64 (1 / (I.N : ℚ)) / total| * P.length
        ≤ ulp * 2 := by
      refine (mul_le_mul_of_nonneg_right h4 hKq.le).trans ?_
      rw [mul_assoc]
      refine mul_le_mul_of_nonneg_left ?_ ulp_pos.le
      rw [habs]
      have := abs_le.1 h3
      exact abs_le.2 ⟨by linarith, by linarith⟩
    rw [habs] at h5 ⊢
    have a := abs_le.1 h3
    have b := abs_le.1 h5
    have hc : (1 : ℚ) / P.length * P.length = 1 := by field_simp
    rw [sub_mul] at b ⊢
    rw [hc]
    exact abs_le.2 ⟨by linarith, by linarith⟩
  · have h6 : (partCI (dbl I) D').eps = rd (fl64 I.eps / total) := e5
    rw [h6]
    have h7 : fl64 I.eps / total = fl64 I.eps * I.N / P.length / (total * I.N / P.length) := by
      field_simp
    have h8 : |fl64 I.eps * I.N / P.length - (partCI I D).eps| ≤ 1 / 10 ^ 13 := by
      rw [hE1, ← sub_div, ← sub_mul, abs_div, abs_mul, abs_of_pos hNq, abs_of_pos hKq, div_le_iff₀ hKq]
      have h9 : |fl64 I.eps - I.eps| ≤ ulp * I.eps := fl64_err h0
      have h10 := mul_le_mul_of_nonneg_right h9 hNq.le
      have h11 : ulp * (I.eps * I.N) ≤ ulp * P.length := mul_le_mul_of_nonneg_left hlt.le ulp_pos.le
      have h12 : ulp * P.length ≤ 1 / 10 ^ 15 * P.length := mul_le_mul_of_nonneg_right hu hKq.le
      linarith
    have h9 := div_close hE0 hE2 h8 t2
    rw [← h7] at h9
    have a := abs_le.1 h9
    have h10 : |rd (fl64 I.eps / total) - fl64 I.eps / total| ≤ ulp * 2 :=
      rd_near (abs_le.2 ⟨by linarith, by linarith⟩)
    have b := abs_le.1 h10
    exact abs_le.2 ⟨by linarith, by linarith⟩

/-! ## The models -/

theorem rowsNear_inst {I : Inst} (hI : NonnegAb I) (hM : Model.Moderate I) :
    RowsNear 20000 (instCI I) (instCI (dbl I)) where
  n := rfl
  scen := rfl
  con := fun _ _ => rfl
  cont := rfl
  row := fun s hs i hi j hj => ⟨(hI s hs i hi).2 j hj, rfl⟩
  rhs := fun s hs i hi => ⟨(hI s hs i hi).1, rfl⟩
  size := fun s hs i hi => ⟨(hM s hs i hi).2, (hM s hs i hi).1.trans (by norm_num)⟩

theorem rowsNear_part {I : Inst} (hE : Equi I) (hI : NonnegAb I) (hM : Model.Moderate I)
    {P : List (List ℕ)} (hP : IsPartition I.N P) {D D' : PartData}
    (hD : loadPartition I P.length P = .ok D) (hD' : FlLoadPartition I P D') :
    RowsNear 20000 (partCI I D) (partCI (dbl I) D') := by
  have hnb := nbScen_part hP hD
  obtain ⟨_, _, e1, e2, e3, -, -⟩ := flLoad hE hP hD'
  have hDp : D.partition = P ∧ D.nbConPart = P.map fun p => p.length * I.m := by
    rw [loadPartition_ok I P hP.2] at hD
    cases hD
    exact ⟨rfl, rfl⟩
  have hrow : ∀ c, D'.partition.getD c [] = D.partition.getD c [] := fun c => by rw [e2, hDp.1]
  refine ⟨rfl, by rw [hnb]; exact e1, fun c _ => ?_, rfl, ?_, ?_, ?_⟩
  · show D'.nbConPart.getD c 0 = D.nbConPart.getD c 0
    rw [e3, hDp.2]
    congr 2
    funext p
    simp
  · intro c hc k hk j hj
    rw [hnb] at hc
    obtain ⟨s, -, -, -, hs, hi, hr, -⟩ := partCI_row hP hD hc hk
    refine ⟨by rw [hr j hj]; exact (hI s hs _ hi).2 j hj, ?_⟩
    show stackedA (dbl I) (D'.partition.getD c []) _ = fl64 (stackedA I (D.partition.getD c []) _)
    rw [hrow]
    rfl
  · intro c hc k hk
    rw [hnb] at hc
    obtain ⟨s, -, -, -, hs, hi, -, hb⟩ := partCI_row hP hD hc hk
    refine ⟨by rw [hb]; exact (hI s hs _ hi).1, ?_⟩
    show stackedB (dbl I) (D'.partition.getD c []) _ = fl64 (stackedB I (D.partition.getD c []) _)
    rw [hrow]
    rfl
  · intro c hc k hk
    rw [hnb] at hc
    obtain ⟨s, -, -, -, hs, hi, hr, hb⟩ := partCI_row hP hD hc hk
    refine ⟨?_, by rw [hb]; exact (hM s hs _ hi).1.trans (by norm_num)⟩
    refine le_trans (le_of_eq ?_) (hM s hs _ hi).2
    exact Finset.sum_congr rfl fun j hj => hr j (Finset.mem_range.1 hj)

/-- Big-Ms that can be compared: doubles of moderate size, one for every row. -/
def DoubleMs (J : CI) (Ms : List (List ℚ)) : Prop :=
  Shape J Ms ∧ ∀ s < J.nbScen, ∀ i < J.nbCon s, IsDouble (bigMAt Ms s i) ∧ |bigMAt Ms s i| ≤ 10 ^ 6

theorem flAllBigM_ok {J : CI} {Ms : List (List ℚ)} (hM : Shape J Ms) :
    flAllBigM J Ms = .ok ((List.range J.nbScen).map fun s =>
      ((List.range (J.nbCon s)).map fun i => flBigMConstrs J s i (bigMAt Ms s i)).flatten).flatten := by
  unfold flAllBigM
  rw [mapM_ok (g := fun s => ((List.range (J.nbCon s)).map fun i =>
    flBigMConstrs J s i (bigMAt Ms s i)).flatten)]
  · rfl
  · intro s hs
    have hs := List.mem_range.1 hs
    rw [pyGet_of_lt [] (by rw [hM.1]; exact hs)]
    simp only [bind, Except.bind]
    rw [mapM_ok (g := fun i => flBigMConstrs J s i (bigMAt Ms s i))]
    · rfl
    · intro i hi
      have hi := List.mem_range.1 hi
      rw [pyGet_of_lt 0 (by rw [hM.2 s hs]; exact hi)]
      rfl

/-- The constraints of the rows in both arithmetics. -/
def rowConstrs (J : CI) : Option (List (List ℚ)) → List Constr
  | none => allIndicators J
  | some Ms => ((List.range J.nbScen).map fun s =>
      ((List.range (J.nbCon s)).map fun i => bigMConstrs J s i (bigMAt Ms s i)).flatten).flatten

def flRowConstrs (J : CI) : Option (List (List ℚ)) → List Constr
  | none => allIndicators J
  | some Ms => ((List.range J.nbScen).map fun s =>
      ((List.range (J.nbCon s)).map fun i => flBigMConstrs J s i (bigMAt Ms s i)).flatten).flatten

theorem buildCCLP_shape {J : CI} {bigM : Option (List (List ℚ))} (hM : ∀ Ms, bigM = some Ms → Shape J Ms)
    {zs prune : List ℕ} {gap : ℚ} {g : GModel} (hg : buildCCLP J bigM zs prune gap = .ok g) :
    g = ccShape J (rowConstrs J bigM) (chanceConstr J) prune gap := by
  unfold buildCCLP at hg
  by_cases hz : ∃ s ∈ zs, ¬ s < J.nbScen
  · simp only [if_pos hz, bind, Except.bind] at hg
    cases hg
  by_cases hp : ∃ s ∈ prune, ¬ s < J.nbScen
  · cases bigM with
    | none =>
      simp only [if_neg hz, if_pos hp, bind, Except.bind, pure, Except.pure] at hg
      cases hg
    | some Ms =>
      simp only [if_neg hz, if_pos hp, bind, Except.bind, pure, Except.pure, allBigM_ok (hM Ms rfl)] at hg
      cases hg
  cases bigM with
  | none =>
    simp only [if_neg hz, if_neg hp, bind, Except.bind, pure, Except.pure] at hg
    cases hg
    rfl
  | some Ms =>
    simp only [if_neg hz, if_neg hp, bind, Except.bind, pure, Except.pure, allBigM_ok (hM Ms rfl)] at hg
    cases hg
    rfl

theorem flBuildCCLP_shape {J : CI} {bigM : Option (List (List ℚ))} (hM : ∀ Ms, bigM = some Ms → Shape J Ms)
    {zs prune : List ℕ} {gap : ℚ} {g : GModel} (hg : flBuildCCLP J bigM zs prune gap = .ok g) :
    g = ccShape J (flRowConstrs J bigM) (flChanceConstr J) prune gap := by
  unfold flBuildCCLP at hg
  by_cases hz : ∃ s ∈ zs, ¬ s < J.nbScen
  · simp only [if_pos hz, bind, Except.bind] at hg
    cases hg
  by_cases hp : ∃ s ∈ prune, ¬ s < J.nbScen
  · cases bigM with
    | none =>
      simp only [if_neg hz, if_pos hp, bind, Except.bind, pure, Except.pure] at hg
      cases hg
    | some Ms =>
      simp only [if_neg hz, if_pos hp, bind, Except.bind, pure, Except.pure, flAllBigM_ok (hM Ms rfl)] at hg
      cases hg
  cases bigM with
  | none =>
    simp only [if_neg hz, if_neg hp, bind, Except.bind, pure, Except.pure] at hg
    cases hg
    rfl
  | some Ms =>
    simp only [if_neg hz, if_neg hp, bind, Except.bind, pure, Except.pure, flAllBigM_ok (hM Ms rfl)] at hg
    cases hg
    rfl

/-- The constraints of the rows are close. -/
theorem RowsNear.rows {J J' : CI} (h : RowsNear 20000 J J') {bigM : Option (List (List ℚ))}
    (hM : ∀ Ms, bigM = some Ms → DoubleMs J Ms) (hx : ∀ j < J.n, |ρ (.x j)| ≤ 2) :
    List.Forall₂ (Constr.Apart (2 / 10 ^ 10) ρ) (rowConstrs J bigM) (flRowConstrs J' bigM) := by
  cases bigM with
  | none => exact h.indicators (by norm_num [ulp]) hx
  | some Ms =>
    refine List.rel_flatten (forall₂_range h.scen fun s hs =>
      List.rel_flatten (forall₂_range (h.con _ hs) fun i hi => ?_))
    obtain ⟨h1, h2⟩ := (hM Ms rfl).2 s hs i hi
    exact h.bigM (B := 10 ^ 6) (by norm_num [ulp]) hx hs hi h1 h2

theorem shape_congr {R : ℚ} {J J' : CI} (h : RowsNear R J J') {Ms : List (List ℚ)} (hM : Shape J Ms) :
    Shape J' Ms :=
  ⟨by rw [hM.1, h.scen], fun s hs => by rw [h.scen] at hs; rw [hM.2 s hs, h.con s hs]⟩

theorem Constr.Apart.mono {e' : ℚ} (he : e ≤ e') {c c' : Constr} (h : c.Apart e ρ c') : c.Apart e' ρ c' := by
  cases c <;> cases c' <;> simp only [Constr.Apart, Lin.Apart] at h ⊢
  · exact ⟨h.1, h.2.trans he⟩
  · exact ⟨h.1, h.2.1, h.2.2.1, h.2.2.2.trans he⟩

/-- Points of one version are points of the other. -/
theorem near_versions {J J' : CI} (hr : RowsNear 20000 J J') (hch : ChanceNear J J') (h0 : 0 < J.nbScen)
    {bigM : Option (List (List ℚ))} (hM : ∀ Ms, bigM = some Ms → DoubleMs J Ms) {zs prune : List ℕ}
    {gap : ℚ} {g g' : GModel} (hg : buildCCLP J bigM zs prune gap = .ok g)
    (hg' : flBuildCCLP J' bigM zs prune gap = .ok g') (ht : t.feas ≤ 1) :
    (g.NearFeas t ρ → g'.NearFeas ⟨t.int, t.feas + 2 / 10 ^ 10⟩ ρ)
    ∧ (g'.NearFeas t ρ → g.NearFeas ⟨t.int, t.feas + 2 / 10 ^ 10⟩ ρ) := by
  rw [buildCCLP_shape (fun Ms e => (hM Ms e).1) hg,
    flBuildCCLP_shape (fun Ms e => shape_congr hr (hM Ms e).1) hg', nearCC, nearCC, nearCC, nearCC]
  constructor
  · intro h
    obtain ⟨hx, hz⟩ := h.box ht
    exact h.transfer hr.n hr.scen hr.cont (hr.rows hM hx) ((hch.apart hz h0).mono (by norm_num))
      (by norm_num)
  · intro h
    obtain ⟨hx, hz⟩ := h.box ht
    rw [hr.n] at hx
    rw [hr.scen] at hz
    refine h.transfer hr.n.symm hr.scen.symm hr.cont.symm ?_ ((hch.apart hz h0).symm.mono (by norm_num))
      (by norm_num)
    have := (hr.rows hM hx).flip
    exact this.imp fun _ _ h => Constr.Apart.symm h

end Verif.Model
