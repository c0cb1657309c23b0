import Verif.Model.FloatAdaptive
import Verif.Props.FloatBelotti
import Verif.Props.FloatRow

/-!
# The bounds of the adaptive method in double precision (C112)
-/

namespace Verif.Props
open Spec Model Finset LinExpr

variable {I : Inst} {t : Tols}

/-! ## Subset problems -/

theorem subset_near (hI : NonnegAb I) (hM : Model.Moderate I) {y : Vec} (hy : InX I y) {l : List ℕ}
    (hl : ∀ s ∈ l, s < I.N) (hsat : SatAll I l y) :
    (Deter.build (instCI (dbl I)) l).g.NearFeas ⟨0, 2 / 10 ^ 10⟩ (vecPoint y) := by
  refine near_add_of l _ _ ?_ fun t ht c hc => ?_
  · refine near_of_feas (t := ⟨0, 2 / 10 ^ 10⟩) le_rfl (by norm_num) (by norm_num) ?_ ?_
    · intro c hc
      simp [GModel.setObjective, GModel.addVars, GModel.empty] at hc
    · rw [feas_setObjective, feas_addVars, varX_ok]
      exact ⟨feas_empty _, hy⟩
  · obtain ⟨i, hi, rfl⟩ := List.mem_map.1 hc
    have hi : i < I.m := List.mem_range.1 hi
    obtain ⟨e1, e2⟩ := dbl_row hI hM hy (hl t ht) hi
    have h := hsat t ht i hi
    have e1 := abs_le.1 e1
    have e2 := abs_le.1 e2
    simp only [rowC, Constr.Near, Lin.Near, eval_lhsExpr]
    have : dot (instCI (dbl I)).n ((instCI (dbl I)).row t i) (fun j => vecPoint y (.x j))
        ≤ (instCI (dbl I)).rhs t i + 2 / 10 ^ 10 := by
      show dot I.n ((dbl I).A t i) y ≤ (dbl I).b t i + _
      linarith
    simpa using this

/-- The reported cost and solution of a subset. -/
theorem flSubset_spec (hI : NonnegAb I) (hM : Model.Moderate I) {l : List ℕ} (hl : ∀ s ∈ l, s < I.N)
    {p : ℚ × Vec} (h : FlSubset I l p) :
    (∀ y, InX I y → SatAll I l y → obj (dbl I) y ≤ (1 + 1 / 10 ^ 4) * p.1) ∧ 0 ≤ p.1
    ∧ NearDom defaultTols (instCI I) p.2 := by
  obtain ⟨solve, h, hr⟩ := h
  have hp : ∃ ρ, (solve (Deter.build (instCI (dbl I)) l).g).sol = some ρ
      ∧ p = ((solve (Deter.build (instCI (dbl I)) l).g).objVal, fun j => ρ (.x j)) := by
    unfold subsetCost at hr
    rw [optimize, if_neg h.notInterrupted] at hr
    simp only [bind, Except.bind] at hr
    cases hs : (solve (Deter.build (instCI (dbl I)) l).g).sol with
    | none => simp only [getObjVal, hs] at hr; cases hr
    | some ρ =>
      simp only [getObjVal, getX, getSol, hs, bind, Except.bind, pure, Except.pure] at hr
      cases hr
      exact ⟨ρ, rfl, rfl⟩
  obtain ⟨ρ, hs, rfl⟩ := hp
  have hz := subset_near hI hM (zero_inX I) hl (zero_satAll hI hl)
  have hgap := h.gap (h.status ⟨_, hz⟩)
  rw [build_mipGap] at hgap
  have hbd : ∀ y, InX I y → SatAll I l y → obj (dbl I) y
      ≤ (solve (Deter.build (instCI (dbl I)) l).g).objBnd := fun y hy hsat => by
    have hb := h.bound _ (subset_near hI hM hy hl hsat)
    rw [build_obj] at hb
    exact hb
  have h0 : 0 ≤ (solve (Deter.build (instCI (dbl I)) l).g).objBnd := by
    have := hbd _ (zero_inX I) (zero_satAll hI hl)
    have h0 : obj (dbl I) (fun _ => 0) = 0 := by unfold Spec.obj dot; simp
    rwa [h0] at this
  dsimp only
  generalize (solve (Deter.build (instCI (dbl I)) l).g).objVal = v at hgap
  generalize (solve (Deter.build (instCI (dbl I)) l).g).objBnd = u at hgap hbd h0
  have h1 := le_abs_self (u - v)
  have hv : 0 ≤ v := by
    by_contra hneg
    rw [abs_of_neg (not_le.1 hneg)] at hgap
    linarith [not_le.1 hneg]
  rw [abs_of_nonneg hv] at hgap
  exact ⟨fun y hy hsat => by linarith [hbd y hy hsat], hv, (build_near (h.feas ρ hs).1).1⟩

/-! ## Sums of numbers of any sign -/

theorem list_abs_sum (l : List ℚ) : |l.sum| ≤ (l.map abs).sum := by
  induction l with
  | nil => simp
  | cons a l ih =>
    simp only [List.sum_cons, List.map_cons]
    exact (abs_add_le _ _).trans (add_le_add le_rfl ih)

theorem flSum_err {l : List ℚ} {v : ℚ} (h : FlSum l v) :
    |v - l.sum| ≤ ((1 + 1 / 2 ^ 53) ^ (l.length - 1) - 1) * (l.map abs).sum := by
  induction h with
  | nil => simp
  | single a => simp
  | @add l l' v v' w hl hl' _ _ hw ih ih' =>
    have e1 : 0 < l.length := List.length_pos_iff.2 hl
    have e2 : 0 < l'.length := List.length_pos_iff.2 hl'
    have p1 : 0 ≤ (l.map abs).sum := List.sum_nonneg fun a ha => by
      obtain ⟨b, -, rfl⟩ := List.mem_map.1 ha; exact abs_nonneg b
    have p2 : 0 ≤ (l'.map abs).sum := List.sum_nonneg fun a ha => by
      obtain ⟨b, -, rfl⟩ := List.mem_map.1 ha; exact abs_nonneg b
    set k := (l ++ l').length - 1 - 1 with hk
    have e3 : (l ++ l').length - 1 = k + 1 := by rw [hk]; simp; omega
    have q1 : |v - l.sum| ≤ ((1 + 1 / 2 ^ 53 : ℚ) ^ k - 1) * (l.map abs).sum :=
      ih.trans (mul_le_mul_of_nonneg_right (sub_le_sub_right
        (pow_le_pow_right₀ (by norm_num) (by rw [hk]; simp; omega)) 1) p1)
    have q2 : |v' - l'.sum| ≤ ((1 + 1 / 2 ^ 53 : ℚ) ^ k - 1) * (l'.map abs).sum :=
      ih'.trans (mul_le_mul_of_nonneg_right (sub_le_sub_right
        (pow_le_pow_right₀ (by norm_num) (by rw [hk]; simp; omega)) 1) p2)
    have s1 : |l.sum| ≤ (l.map abs).sum := list_abs_sum l
    have s2 : |l'.sum| ≤ (l'.map abs).sum := list_abs_sum l'
    rw [e3, List.sum_append, List.map_append, List.sum_append, pow_succ]
    unfold Rounds at hw
    generalize (1 + 1 / 2 ^ 53 : ℚ) ^ k = X at q1 q2 ⊢
    generalize (l.map abs).sum = A at q1 s1 p1 ⊢
    generalize (l'.map abs).sum = B at q2 s2 p2 ⊢
    generalize l.sum = a at q1 s1 ⊢
    generalize l'.sum = b at q2 s2 ⊢
    have t1 : |v + v'| ≤ |v - a| + |v' - b| + (|a| + |b|) := by
      have : v + v' = (v - a) + (v' - b) + (a + b) := by ring
      rw [this]
      exact (abs_add_le _ _).trans (add_le_add (abs_add_le _ _) (abs_add_le _ _))
    have t2 : |w - (a + b)| ≤ |w - (v + v')| + (|v - a| + |v' - b|) := by
      have : w - (a + b) = (w - (v + v')) + ((v - a) + (v' - b)) := by ring
      rw [this]
      exact (abs_add_le _ _).trans (add_le_add le_rfl (abs_add_le _ _))
    have t3 : (1 / 2 ^ 53 : ℚ) * |v + v'| ≤ 1 / 2 ^ 53 * ((X - 1) * A + (X - 1) * B + (A + B)) :=
      mul_le_mul_of_nonneg_left (by linarith) (by norm_num)
    have : (X * (1 + 1 / 2 ^ 53) - 1) * (A + B)
        = 1 / 2 ^ 53 * ((X - 1) * A + (X - 1) * B + (A + B)) + ((X - 1) * A + (X - 1) * B) := by ring
    rw [this]
    linarith
  | @perm l l' v hp _ ih =>
    rw [← hp.sum_eq, ← hp.length_eq, ← (hp.map abs).sum_eq]
    exact ih

/-- A product with a vector that may be slightly outside of the box. -/
theorem flDot_err {n : ℕ} (hn : n ≤ 10000) {a x : Vec} (ha : ∀ j < n, 0 ≤ a j) (hx : ∀ j < n, |x j| ≤ 2)
    {v : ℚ} (h : FlDot n (fun j => fl64 (a j)) x v) :
    |v - dot n a x| ≤ 1 / 10 ^ 11 * ∑ j ∈ range n, a j := by
  obtain ⟨p, hp, hv⟩ := h
  have hT : 0 ≤ ∑ j ∈ range n, a j := Finset.sum_nonneg fun j hj => ha j (Finset.mem_range.1 hj)
  have hpj : ∀ j < n, |p j - a j * x j| ≤ 1 / 2 ^ 50 * a j ∧ |p j| ≤ 3 * a j := fun j hj => by
    have h1 := hp j hj
    unfold Rounds at h1
    have h2 := fl64_err (ha j hj)
    have h3 := ha j hj
    have h4 := hx j hj
    have e1 : |fl64 (a j) * x j - a j * x j| ≤ 1 / 2 ^ 53 * a j * 2 := by
      rw [← sub_mul, abs_mul]
      exact mul_le_mul h2 h4 (abs_nonneg _) (by positivity)
    have e2 : |a j * x j| ≤ a j * 2 := by
      rw [abs_mul, abs_of_nonneg h3]
      exact mul_le_mul_of_nonneg_left h4 h3
    have e3 := abs_sub_abs_le_abs_sub (fl64 (a j) * x j) (a j * x j)
    have e4 : |p j - a j * x j| ≤ |p j - fl64 (a j) * x j| + |fl64 (a j) * x j - a j * x j| := by
      have : p j - a j * x j = (p j - fl64 (a j) * x j) + (fl64 (a j) * x j - a j * x j) := by ring
      rw [this]
      exact abs_add_le _ _
    have e5 := abs_sub_abs_le_abs_sub (p j) (a j * x j)
    have e6 : |fl64 (a j) * x j| ≤ 3 * a j := by linarith
    have e7 := mul_le_mul_of_nonneg_left e6 (show (0 : ℚ) ≤ 1 / 2 ^ 53 by norm_num)
    constructor <;> linarith
  have h1 := flSum_err hv
  have hs : ((List.range n).map p).sum = ∑ j ∈ range n, p j := rfl
  have hs' : (((List.range n).map p).map abs).sum = ∑ j ∈ range n, |p j| := by
    rw [List.map_map]; rfl
  rw [hs, hs'] at h1
  simp only [List.length_map, List.length_range] at h1
  have h2 : |∑ j ∈ range n, p j - dot n a x| ≤ 1 / 2 ^ 50 * ∑ j ∈ range n, a j := by
    unfold dot
    rw [← Finset.sum_sub_distrib, Finset.mul_sum]
    exact (Finset.abs_sum_le_sum_abs _ _).trans
      (Finset.sum_le_sum fun j hj => (hpj j (Finset.mem_range.1 hj)).1)
  have h3 : ∑ j ∈ range n, |p j| ≤ 3 * ∑ j ∈ range n, a j := by
    rw [Finset.mul_sum]
    exact Finset.sum_le_sum fun j hj => (hpj j (Finset.mem_range.1 hj)).2
  have h4 : (1 + 1 / 2 ^ 53 : ℚ) ^ (n - 1) - 1 ≤ 2 * 10000 * (1 / 2 ^ 53) := by
    have hn' : ((n - 1 : ℕ) : ℚ) ≤ 10000 := by exact_mod_cast (by omega : n - 1 ≤ 10000)
    generalize n - 1 = k at hn' ⊢
    have e2 := pow_up (u := 1 / 2 ^ 53) (by norm_num) k (by linarith)
    linarith
  have h5 : ((1 + 1 / 2 ^ 53 : ℚ) ^ (n - 1) - 1) * ∑ j ∈ range n, |p j|
      ≤ 2 * 10000 * (1 / 2 ^ 53) * (3 * ∑ j ∈ range n, a j) :=
    mul_le_mul h4 h3 (Finset.sum_nonneg fun _ _ => abs_nonneg _) (by norm_num)
  have h6 : |v - dot n a x| ≤ |v - ∑ j ∈ range n, p j| + |∑ j ∈ range n, p j - dot n a x| := by
    have : v - dot n a x = (v - ∑ j ∈ range n, p j) + (∑ j ∈ range n, p j - dot n a x) := by ring
    rw [this]
    exact abs_add_le _ _
  generalize ∑ j ∈ range n, a j = T at *
  have h7 : (2 : ℚ) * 10000 * (1 / 2 ^ 53) * (3 * T) + 1 / 2 ^ 50 * T ≤ 1 / 10 ^ 11 * T := by
    have : (2 : ℚ) * 10000 * (1 / 2 ^ 53) * (3 * T) + 1 / 2 ^ 50 * T
      = (2 * 10000 * (1 / 2 ^ 53) * 3 + 1 / 2 ^ 50) * T := by ring
    rw [this]
    exact mul_le_mul_of_nonneg_right (by norm_num) hT
  linarith

theorem nearDom_abs {x : Vec} (h : NearDom defaultTols (instCI I) x) : ∀ j < I.n, |x j| ≤ 2 := fun j hj => by
  obtain ⟨-, h2, h3⟩ := h j hj
  norm_num [defaultTols] at h2 h3
  exact abs_le.2 ⟨by linarith, by linarith⟩

/-- The objective of a point that is nearly in the box, in doubles. -/
theorem obj_dbl (hc : NonnegC I) {x : Vec} (hx : ∀ j < I.n, |x j| ≤ 2) :
    |obj (dbl I) x - obj I x| ≤ objErr I := by
  unfold Spec.obj dot objErr
  show |∑ j ∈ range I.n, _ - ∑ j ∈ range I.n, _| ≤ _
  rw [← Finset.sum_sub_distrib, Finset.mul_sum]
  refine (Finset.abs_sum_le_sum_abs _ _).trans (Finset.sum_le_sum fun j hj => ?_)
  have hj := Finset.mem_range.1 hj
  have e1 := fl64_err (hc j hj)
  show |fl64 (I.c j) * x j - I.c j * x j| ≤ _
  rw [← sub_mul, abs_mul]
  refine (mul_le_mul e1 (hx j hj) (abs_nonneg _) (mul_nonneg (by norm_num) (hc j hj))).trans (le_of_eq ?_)
  ring

/-! ## The verdict on points of Gurobi -/

theorem fl_accepted {p : ℕ} (hp : p ≤ 100) (heps : I.eps = p / 100) (hN : I.N ≤ 90000)
    (hs : p ∉ roundedDown ∨ ¬ 100 ∣ p * I.N) (hI : NonnegAb I) (hM : Model.Moderate I) (hn : I.n ≤ 10000)
    {x : Vec} (hx : ∀ j < I.n, |x j| ≤ 2) {flags : List Bool} (hf : FlFlags (dbl I) x flags)
    (hv : flVerdict (dbl I) flags = true) : (violBy I (2 / 10 ^ 6) x).card ≤ kmax I := by
  obtain ⟨f1, f2⟩ := C91_floor_partial I p hp heps (hN.trans (by norm_num)) hs
  have hcount : flCount flags ≤ kmax I := by
    have h := of_decide_eq_true hv
    have h' : ((flCount flags : ℤ)) ≤ flFloor (dbl I) := Int.le_floor.2 (by exact_mod_cast h)
    rw [f1] at h'
    rw [f2]
    exact_mod_cast h'
  refine le_trans ?_ hcount
  obtain ⟨w, hw, rfl⟩ := hf
  have hc : flCount ((List.range (dbl I).N).map fun s => decide (∃ i < (dbl I).m, fl64 (1 / 10 ^ 6) < w s i))
      = ((range I.N).filter fun s => ∃ i < I.m, fl64 (1 / 10 ^ 6) < w s i).card := by
    unfold flCount
    rw [List.map_map, Finset.card_filter]
    refine Eq.trans ?_ (rfl : ((List.range I.N).map fun s =>
      if ∃ i < I.m, fl64 (1 / 10 ^ 6) < w s i then 1 else 0).sum = _)
    refine congrArg List.sum (List.map_congr_left fun s _ => ?_)
    simp [dbl]
  rw [hc]
  refine Finset.card_le_card fun s hs => ?_
  obtain ⟨s1, i, hi, hviol⟩ := Finset.mem_filter.1 hs
  refine Finset.mem_filter.2 ⟨s1, i, hi, ?_⟩
  have hs' := Finset.mem_range.1 s1
  obtain ⟨v, d, h1, h2, h3⟩ := hw s hs' i hi
  obtain ⟨n1, n2⟩ := hI s hs' i hi
  obtain ⟨m1, m2⟩ := hM s hs' i hi
  have e1 := abs_le.1 (flDot_err hn n2 hx h1)
  have e2 := abs_le.1 (fl64_err n1)
  have e3 : fl64 (1 / 10 ^ 6) ≤ 11 / 10 ^ 7 := by
    have : fl64 (1 / 10 ^ 6) ≤ 1 / 10 ^ 6 * (1 + 1 / 2 ^ 53) := fl64_le (by norm_num)
    refine this.trans (by norm_num)
  rw [h3]
  refine lt_of_lt_of_le ?_ (le_max_left _ _)
  unfold Rounds at h2
  have h2' := (abs_le.1 h2).1
  have hpos : 17 / 10 ^ 7 < v - (dbl I).b s i := by
    show _ < v - fl64 (I.b s i)
    linarith
  rw [abs_of_nonneg (by linarith)] at h2'
  linarith

/-! ## The invariant -/

/-- `l` is a lower bound up to Gurobi's tolerances: the point is within `d` of a feasible one. -/
def LowerOk (I : Inst) (d l : ℚ) (x : Option Vec) : Prop :=
  ∃ x', x = some x' ∧ ∃ y, Feas I y ∧ (∀ j < I.n, |x' j - y j| ≤ d)
    ∧ |l - obj I y| ≤ (d + 1 / 10 ^ 10) * ∑ j ∈ range I.n, I.c j

/-- No feasible point exceeds both bounds by more than Gurobi's gap and the rounding of the objective. -/
def UpperOk (I : Inst) (vUB : WithTop ℚ) (vLB : WithBot ℚ) : Prop :=
  ∀ y, Feas I y → ∀ u : ℚ, vUB = u → obj I y ≤ (1 + 1 / 10 ^ 4) * u + objErr I
    ∨ ∃ l : ℚ, vLB = l ∧ obj I y ≤ (1 + 1 / 10 ^ 4) * l + objErr I

structure FlInv (I : Inst) (d : ℚ) (st : FlSt) : Prop where
  upper : UpperOk I st.vUB st.vLB
  lower : ∀ l : ℚ, st.vLB = l → LowerOk I d l st.xLB
  det : ∃ cuts, DetInv (instCI (dbl I)) st.lb.deter st.lb.scenarios cuts ∧ (st.vLB = ⊥ → cuts = [])

/-- The assumptions on the instance. -/
structure FlOk (I : Inst) (p : ℕ) : Prop where
  equi : Equi I
  pct : p < 100
  eps : I.eps = p / 100
  notDown : p ∉ roundedDown ∨ ¬ 100 ∣ p * I.N
  scen : I.N ≤ 90000
  items : I.n ≤ 10000
  one : OneDecimal I
  size : Model.Moderate I
  c : NonnegC I
  sum : ∑ j ∈ range I.n, I.c j ≤ 10 ^ 7
  binary : I.cont = false

/-- What the proofs need: points of Gurobi with few violations are within `d` of a feasible one. -/
structure FlRun (I : Inst) (p : ℕ) (d : ℚ) : Prop where
  equi : Equi I
  pct : p < 100
  eps : I.eps = p / 100
  notDown : p ∉ roundedDown ∨ ¬ 100 ∣ p * I.N
  scen : I.N ≤ 90000
  items : I.n ≤ 10000
  ab : NonnegAb I
  size : Model.Moderate I
  c : NonnegC I
  sum : ∑ j ∈ range I.n, I.c j ≤ 10 ^ 7
  pos : 0 ≤ d
  small : d ≤ 9 / 10 ^ 5
  near : ∀ x, NearDom defaultTols (instCI I) x → (violBy I (2 / 10 ^ 6) x).card ≤ kmax I →
    ∃ y, Feas I y ∧ ∀ j < I.n, |x j - y j| ≤ d

theorem violBy_card_mono {τ τ' : ℚ} (hτ : τ ≤ τ') {x : Vec} {k : ℕ} (h : (violBy I τ x).card ≤ k) :
    (violBy I τ' x).card ≤ k := by
  refine le_trans (Finset.card_le_card fun s hs => ?_) h
  obtain ⟨h1, i, hi, h2⟩ := Finset.mem_filter.1 hs
  exact Finset.mem_filter.2 ⟨h1, i, hi, lt_of_le_of_lt hτ h2⟩

theorem FlOk.run {p : ℕ} (h : FlOk I p) : FlRun I p (1 / 10 ^ 5) where
  equi := h.equi
  pct := h.pct
  eps := h.eps
  notDown := h.notDown
  scen := h.scen
  items := h.items
  ab := h.one.1
  size := h.size
  c := h.c
  sum := h.sum
  pos := by norm_num
  small := by norm_num
  near x hx hcard := ⟨roundVec x, round_feas h.equi (by rw [h.eps]; positivity) h.one h.size h.binary hx
    (violBy_card_mono (by norm_num) hcard), fun j hj => round_abs (by norm_num [defaultTols]) h.binary hx hj⟩

namespace FlRun
variable {p : ℕ} {d : ℚ} (h : FlRun I p d)
include h

theorem eps0 : 0 ≤ I.eps := by rw [h.eps]; positivity

theorem c0 : 0 ≤ ∑ j ∈ range I.n, I.c j := Finset.sum_nonneg fun j hj => h.c j (Finset.mem_range.1 hj)

theorem floor : flFloor (dbl I) = kmax I := by
  obtain ⟨f1, f2⟩ := C91_floor_partial I p h.pct.le h.eps (h.scen.trans (by norm_num)) h.notDown
  rw [f1, f2]

theorem err0 : 0 ≤ objErr I := mul_nonneg (by norm_num) h.c0

theorem obj_feas {y : Vec} (hy : InX I y) : |obj (dbl I) y - obj I y| ≤ objErr I :=
  obj_dbl h.c fun j hj => by
    obtain ⟨y0, y1⟩ := inX_box hy j hj
    exact abs_le.2 ⟨by linarith, by linarith⟩

/-- A point of Gurobi whose large violations are few enough. -/
theorem lowerOk {x : Vec} (hx : NearDom defaultTols (instCI I) x)
    (hcard : (violBy I (2 / 10 ^ 6) x).card ≤ kmax I)
    {l : ℚ} (hl : |l - obj I x| ≤ 1 / 10 ^ 10 * ∑ j ∈ range I.n, I.c j) : LowerOk I d l (some x) := by
  obtain ⟨y, hy, hxy⟩ := h.near x hx hcard
  refine ⟨x, rfl, y, hy, hxy, ?_⟩
  have h1 := abs_le.1 (shrink_obj h.c hxy)
  have h2 := abs_le.1 hl
  exact abs_le.2 ⟨by linarith, by linarith⟩

theorem lower_range {l : ℚ} {x : Option Vec} (hl : LowerOk I d l x) :
    -1000 ≤ l ∧ l ≤ 2 * 10 ^ 7 := by
  obtain ⟨-, -, y, hy, -, h1⟩ := hl
  have h0 := obj_nonneg h.c hy.1
  have h2 : obj I y ≤ ∑ j ∈ range I.n, I.c j := by
    unfold Spec.obj dot
    refine Finset.sum_le_sum fun j hj => ?_
    have hj := Finset.mem_range.1 hj
    exact mul_le_of_le_one_right (h.c j hj) (inX_box hy.1 j hj).2
  have h3 := h.sum
  have h4 : (d + 1 / 10 ^ 10) * ∑ j ∈ range I.n, I.c j ≤ (9 / 10 ^ 5 + 1 / 10 ^ 10) * ∑ j ∈ range I.n, I.c j :=
    mul_le_mul_of_nonneg_right (by linarith [h.small]) h.c0
  have h1 := abs_le.1 (h1.trans h4)
  have := h.c0
  constructor <;> linarith

end FlRun

/-- A larger lower bound keeps the upper bound right. -/
theorem UpperOk.mono {u : WithTop ℚ} {l l' : WithBot ℚ} (h : UpperOk I u l) (hl : l ≤ l') : UpperOk I u l' := by
  intro y hy v hv
  rcases h y hy v hv with h1 | ⟨q, rfl, h1⟩
  · exact .inl h1
  · cases l' with
    | bot => exact absurd hl (by simp)
    | coe q' =>
      have := WithBot.coe_le_coe.1 hl
      exact .inr ⟨q', rfl, by linarith⟩

theorem storeUB_inv {st : FlSt} (h : FlInv I d st) {v : ℚ} (hv : UpperOk I (v : WithTop ℚ) st.vLB) :
    FlInv I d (flStoreUB st v) := by
  unfold flStoreUB
  split
  · exact ⟨hv, h.lower, h.det⟩
  · exact h

variable {p : ℕ} {d : ℚ}

/-- A new candidate is not below the lower bound. -/
theorem improving_le (h : FlRun I p d) {vUB : WithTop ℚ} {vLB : WithBot ℚ} {x : Option Vec}
    (hl : ∀ l : ℚ, vLB = l → LowerOk I d l x) {v : ℚ} (hi : flIsImproving vUB vLB v = true) :
    vLB ≤ (v : WithBot ℚ) := by
  cases vLB with
  | bot => exact bot_le
  | coe l =>
    unfold flIsImproving at hi
    rw [Bool.and_eq_true] at hi
    have h2 : v ≥ rd (l + fl64 (1 / 10 ^ 8)) := of_decide_eq_true hi.2
    have h1 := h.lower_range (hl l rfl)
    have h3 := (abs_le.1 (rd_err (l + fl64 (1 / 10 ^ 8)))).1
    have h4 : (1 / 10 ^ 8 : ℚ) * (1 - 1 / 2 ^ 53) ≤ fl64 (1 / 10 ^ 8) := le_fl64 (by norm_num)
    have h5 : fl64 (1 / 10 ^ 8) ≤ 1 / 10 ^ 8 * (1 + 1 / 2 ^ 53) := fl64_le (by norm_num)
    generalize fl64 (1 / 10 ^ 8) = e at *
    have h6 : |l + e| ≤ 3 * 10 ^ 7 := by
      norm_num at h4 h5
      exact abs_le.2 ⟨by linarith, by linarith⟩
    have h7 : ulp * |l + e| ≤ ulp * (3 * 10 ^ 7) := mul_le_mul_of_nonneg_left h6 ulp_pos.le
    norm_num [ulp] at h7 h3 h4
    exact WithBot.coe_le_coe.2 (by linarith)

/-- What pruning removes is covered by the lower bound. -/
theorem prune_cost (h : FlRun I p d) {costs : List ℚ} {vLB : WithBot ℚ} {x : Option Vec}
    (hl : ∀ l : ℚ, vLB = l → LowerOk I d l x) {c : ℕ} (hc : c ∈ flPrune costs vLB) :
    c < costs.length ∧ ∃ l : ℚ, vLB = l ∧ costs.getD c 0 ≤ l := by
  cases vLB with
  | bot => simp [flPrune] at hc
  | coe l =>
    obtain ⟨c1, c2⟩ := List.mem_filter.1 hc
    refine ⟨List.mem_range.1 c1, l, rfl, (of_decide_eq_true c2).trans ?_⟩
    have h1 := h.lower_range (hl l rfl)
    have h3 := (abs_le.1 (rd_err (l - fl64 (1 / 10 ^ 3)))).2
    have h4 : (1 / 10 ^ 3 : ℚ) * (1 - 1 / 2 ^ 53) ≤ fl64 (1 / 10 ^ 3) := le_fl64 (by norm_num)
    have h5 : fl64 (1 / 10 ^ 3) ≤ 1 / 10 ^ 3 * (1 + 1 / 2 ^ 53) := fl64_le (by norm_num)
    generalize fl64 (1 / 10 ^ 3) = e at *
    have h6 : |l - e| ≤ 3 * 10 ^ 7 := by
      norm_num at h4 h5
      exact abs_le.2 ⟨by linarith, by linarith⟩
    have h7 : ulp * |l - e| ≤ ulp * (3 * 10 ^ 7) := mul_le_mul_of_nonneg_left h6 ulp_pos.le
    norm_num [ulp] at h7 h3 h4
    linarith

theorem part_lt {P : List (List ℕ)} (hP : P.flatten.Perm (List.range I.N)) {c : ℕ} (hc : c < P.length) :
    ∀ s ∈ P.getD c [], s < I.N := fun s hs => by
  rw [List.getD_eq_getElem _ _ hc] at hs
  exact List.mem_range.1 (hP.mem_iff.1 (List.mem_flatten.2 ⟨_, List.getElem_mem hc, hs⟩))

/-- The cost of a subset bounds the points that satisfy it. -/
theorem part_cost (h : FlRun I p d) {P : List (List ℕ)} (hP : P.flatten.Perm (List.range I.N)) {costs : List ℚ}
    (hcosts : FlCosts I P costs) {c : ℕ} (hc : c < P.length) {y : Vec} (hy : InX I y)
    (hsat : SatAll I (P.getD c []) y) : obj I y ≤ (1 + 1 / 10 ^ 4) * costs.getD c 0 + objErr I := by
  obtain ⟨x, hx⟩ := hcosts.2 c hc
  have h1 := (flSubset_spec h.ab h.size (part_lt hP hc) hx).1 y hy hsat
  have h2 := (abs_le.1 (h.obj_feas hy)).1
  dsimp only at h1
  linarith

/-! ## The steps -/

theorem step_first (h : FlRun I p d) {P : List (List ℕ)} {costs : List ℚ} {c : ℕ}
    (hP : P.flatten.Perm (List.range I.N)) (hne : ∀ q ∈ P, q ≠ []) (hlen : (P.length : ℤ) = flFloor (dbl I) + 1)
    (hcosts : FlCosts I P costs) (hmax : ∀ c' < P.length, costs.getD c' 0 ≤ costs.getD c 0)
    (vLB : WithBot ℚ) : UpperOk I ((costs.getD c 0 : ℚ) : WithTop ℚ) vLB := by
  intro y hy u hu
  have hu : costs.getD c 0 = u := WithTop.coe_injective hu
  rw [h.floor] at hlen
  have hlen : P.length = kmax I + 1 := by exact_mod_cast hlen
  have h1 := (feas_partFeas h.equi h.eps0 ⟨hP, hne⟩ hy).2
  rw [nbViolParts_card] at h1
  have h2 : ∃ c' < P.length, SatAll I (P.getD c' []) y := by
    by_contra hno
    push Not at hno
    rw [Finset.filter_true_of_mem fun c' hc' => hno c' (Finset.mem_range.1 hc'), Finset.card_range] at h1
    omega
  obtain ⟨c', hc', hsat⟩ := h2
  have h3 := part_cost h hP hcosts hc' hy.1 hsat
  have h4 := hmax c' hc'
  rw [hu] at h4
  exact .inl (by linarith)

theorem partition_bound_fl (h : FlRun I p d) {P : List (List ℕ)} {costs : List ℚ} {D : PartData} {zs : List ℕ}
    {g : GModel} {r : GResult} {vLB : WithBot ℚ} {x : Option Vec} (hl : ∀ l : ℚ, vLB = l → LowerOk I d l x)
    (hP : P.flatten.Perm (List.range I.N)) (hne : ∀ q ∈ P, q ≠ []) (hlen : flFloor (dbl I) + 1 < (P.length : ℤ))
    (hcosts : FlCosts I P costs) (hD' : FlLoadPartition I P D)
    (hg : flBuildCCLP (partCI (dbl I) D) none zs (flPrune costs vLB) (1 / 10 ^ 8) = .ok g)
    (hr : GResult.FlValid cclpTols (2 / 10 ^ 10) g r) {y : Vec} (hy : Feas I y) :
    (0 ≤ r.objBnd ∧ obj I y ≤ r.objBnd + objErr I)
    ∨ ∃ l : ℚ, vLB = l ∧ obj I y ≤ (1 + 1 / 10 ^ 4) * l + objErr I := by
  have hPart : IsPartition I.N P := ⟨hP, hne⟩
  have hk : kmax I < P.length := by rw [h.floor] at hlen; omega
  by_cases hcov : ∃ l : ℚ, vLB = l ∧ obj I y ≤ (1 + 1 / 10 ^ 4) * l + objErr I
  · exact .inr hcov
  left
  have hD := loadPartition_ok I P hne
  set D0 : PartData := _ with hD0
  have hnb := nbScen_part hPart hD
  have hprune : ∀ c ∈ flPrune costs vLB, c < P.length := fun c hc => hcosts.1 ▸ (prune_cost h hl hc).1
  have hnb' : (partCI (dbl I) D).nbScen = (partCI I D0).nbScen :=
    (rowsNear_part h.equi h.ab h.size hPart hD hD').scen
  have hz : ∀ c ∈ zs, c < P.length := fun c hc => by
    by_contra hno
    have hex : ∃ s ∈ zs, ¬ s < (partCI (dbl I) D).nbScen := ⟨c, hc, by rw [hnb', hnb]; exact hno⟩
    unfold flBuildCCLP at hg
    simp only [if_pos hex, bind, Except.bind] at hg
    cases hg
  obtain ⟨g1, hg1, o1, -, -, hf1⟩ := buildCCLP_ok (partCI I D0) none (by rintro _ ⟨⟩) zs
    (flPrune costs vLB) (1 / 10 ^ 8) (by rw [hnb]; exact hz) (by rw [hnb]; exact hprune)
  obtain ⟨g2, hg2, -, -, -, hf2⟩ := buildCCLP_ok (partCI I D0) none (by rintro _ ⟨⟩) zs
    [] (1 / 10 ^ 8) (by rw [hnb]; exact hz) (by simp)
  obtain ⟨-, -, -, o4⟩ := cclp_points h.equi h.eps0 hPart hD (by rintro _ ⟨⟩) hz hg2
  have hpf := feas_partFeas h.equi h.eps0 hPart hy
  have hρ := (hf2 _).1 (o4 y hpf)
  have hfeas : g1.Feas (pointOf I P y) := by
    refine (hf1 _).2 ⟨⟨hρ.1.1, hρ.1.2.1, hρ.1.2.2.1, fun c hc => ?_⟩, hρ.2⟩
    obtain ⟨c1, l, c2, c3⟩ := prune_cost h hl hc
    show (if SatAll I (P.getD c []) y then (1 : ℚ) else 0) = 0
    rw [if_neg]
    intro hsat
    refine hcov ⟨l, c2, ?_⟩
    have := part_cost h hP hcosts (hprune c hc) hy.1 hsat
    linarith
  have hS := C97_partitioned h.equi h.eps0 h.scen h.ab h.size P hPart hk D0 D hD hD' none
    (by rintro _ ⟨⟩) zs (flPrune costs vLB) (1 / 10 ^ 8) g1 g hg1 hg
  have hb := hr.bound _ (hS.accepted _ hfeas)
  have hobj : g.obj = objExpr (partCI (dbl I) D) := by
    rw [flBuildCCLP_shape (by rintro _ ⟨⟩) hg]
    exact (ccShape_fields _ _ _ _ _).1
  rw [hobj, eval_objExpr] at hb
  have hb : obj (dbl I) y ≤ r.objBnd := hb
  have h0 : 0 ≤ obj (dbl I) y := obj_nonneg (I := dbl I) (fun j _ => fl64_nonneg _) hy.1
  have h1 := (abs_le.1 (h.obj_feas hy.1)).1
  exact ⟨h0.trans hb, by linarith⟩

/-- The points of the deterministic problem. -/
theorem lower_point (h : FlRun I p d) {sorted scen : List ℕ} (hsort : sorted.Perm (List.range I.N))
    (hsel : flSelected (dbl I) sorted = some scen) {dm : Deter} {cuts : List ℚ}
    (hd : DetInv (instCI (dbl I)) dm scen cuts) {ρ : V → ℚ} (hρ : dm.g.NearFeas defaultTols ρ) :
    NearDom defaultTols (instCI I) (fun j => ρ (.x j))
    ∧ (violBy I (2 / 10 ^ 6) fun j => ρ (.x j)).card ≤ kmax I := by
  obtain ⟨h1, h2⟩ := hd.near hρ
  have h1 : NearDom defaultTols (instCI I) (fun j => ρ (.x j)) := h1
  refine ⟨h1, ?_⟩
  rw [C91_selected I h.equi p h.pct h.eps h.scen sorted hsort] at hsel
  have hsel : sorted.take (I.N - p * I.N / 100) = scen := Option.some.inj hsel
  have hk : kmax I = p * I.N / 100 :=
    (C91_floor_partial I p h.pct.le h.eps (h.scen.trans (by norm_num)) h.notDown).2
  have hsub : (violBy I (2 / 10 ^ 6) fun j => ρ (.x j)) ⊆ (sorted.drop (I.N - p * I.N / 100)).toFinset := by
    intro s hs
    obtain ⟨s1, s2⟩ := Finset.mem_filter.1 hs
    have hmem : s ∈ sorted := hsort.mem_iff.2 (List.mem_range.2 (Finset.mem_range.1 s1))
    rw [← List.take_append_drop (I.N - p * I.N / 100) sorted, List.mem_append] at hmem
    rcases hmem with hm | hm
    · exfalso
      rw [hsel] at hm
      obtain ⟨i, hi, hv⟩ := s2
      have hs' := Finset.mem_range.1 s1
      have hrow := h2 s hm i hi
      have hR := rowsNear_inst h.ab h.size
      have e1 := abs_le.1 (hR.lhs (ρ := ρ) (s := s) (i := i) (nearDom_abs h1) hs' hi)
      have e2 := abs_le.1 (hR.rhs_err (s := s) (i := i) hs' hi)
      rw [eval_lhsExpr, eval_lhsExpr] at e1
      norm_num [ulp, defaultTols] at e1 e2 hrow
      have e3 : dot I.n (I.A s i) (fun j => ρ (.x j)) - I.b s i = dot (instCI I).n ((instCI I).row s i)
        (fun j => ρ (.x j)) - (instCI I).rhs s i := rfl
      rw [e3] at hv
      linarith
    · exact List.mem_toFinset.2 hm
  refine (Finset.card_le_card hsub).trans ((List.toFinset_card_le _).trans ?_)
  rw [List.length_drop, hsort.length_eq, List.length_range, hk]
  omega

theorem step_lower (h : FlRun I p d) {st : FlSt} (hst : FlInv I d st) {sorted scen : List ℕ}
    {solve : GModel → GResult} {lb : LBState} {out : LBOut} (hsort : sorted.Perm (List.range I.N))
    (hsel : flSelected (dbl I) sorted = some scen)
    (hsolve : solveDeter (dbl I) solve st.lb st.vLB scen = .ok (lb, out))
    (hr : GResult.FlValid defaultTols (2 / 10 ^ 10) lb.deter.g (solve lb.deter.g)) :
    FlInv I d (flStoreLB { st with lb } out) := by
  obtain ⟨cuts, hd, hbot⟩ := hst.det
  have hnd : scen.Nodup := by
    rw [C91_selected I h.equi p h.pct h.eps h.scen sorted hsort] at hsel
    rw [← Option.some.inj hsel]
    exact (hsort.nodup_iff.2 List.nodup_range).sublist (List.take_sublist _ _)
  obtain ⟨lb', hu, hs', -, -, hd'⟩ := updateDeter_spec (vLB := st.vLB) hd hnd
  unfold solveDeter at hsolve
  rw [hu] at hsolve
  simp only [bind, Except.bind, pure, Except.pure] at hsolve
  unfold optimize at hsolve
  split at hsolve
  · cases hsolve
  rename_i r hopt
  split at hopt
  · cases hopt
  cases hopt
  split at hsolve
  · cases hsolve
  rename_i out' hread
  cases hsolve
  have hbot' : st.vLB = ⊥ → cuts ++ keptCuts st.lb.prevVLB [st.vLB] = [] := fun hb => by
    rw [hbot hb, hb]; rfl
  have hscen : ∀ s ∈ scen, s < I.N := fun s hs => by
    rw [C91_selected I h.equi p h.pct h.eps h.scen sorted hsort] at hsel
    rw [← Option.some.inj hsel] at hs
    exact List.mem_range.1 (hsort.mem_iff.1 (List.mem_of_mem_take hs))
  have hdet : ∃ cuts, DetInv (instCI (dbl I)) lb.deter lb.scenarios cuts ∧ (st.vLB = ⊥ → cuts = []) :=
    ⟨_, hs' ▸ hd', hbot'⟩
  unfold flStoreLB
  split
  swap
  · exact ⟨hst.upper, hst.lower, hdet⟩
  rename_i hlt
  have hlt : st.vLB < (out.v : WithBot ℚ) := hlt
  refine ⟨hst.upper.mono hlt.le, fun l hl => ?_, ?_⟩
  swap
  · obtain ⟨k, k1, -⟩ := hdet
    exact ⟨k, k1, fun hb => by simp at hb⟩
  have hl : out.v = l := WithBot.coe_injective hl
  subst hl
  unfold readDeter at hread
  split at hread
  · rename_i h3
    exfalso
    cases hread
    by_cases hb : st.vLB = ⊥
    · rw [hbot' hb] at hd'
      refine (hr.infeasible h3).2 (vecPoint fun _ => 0) ?_
      refine near_of_feas (t := ⟨0, 2 / 10 ^ 10⟩) le_rfl (by norm_num) (by norm_num) (indBinary_det hd') ?_
      rw [hd'.feas]
      refine ⟨zero_inX I, fun s hs i hi => ?_, by simp⟩
      show dot I.n ((dbl I).A s i) (fun _ => 0) ≤ (dbl I).b s i
      have : dot I.n ((dbl I).A s i) (fun _ => 0) = 0 := by unfold dot; simp
      rw [this]
      exact fl64_nonneg _
    · obtain ⟨l, hl⟩ := WithBot.ne_bot_iff_exists.1 hb
      have h1 := (h.lower_range (hst.lower l hl.symm)).1
      rw [← hl] at hlt
      have := WithBot.coe_lt_coe.1 hlt
      norm_num at this
      linarith
  · simp only [bind, Except.bind, pure, Except.pure] at hread
    unfold getX getSol getObjVal at hread
    cases hsol : (solve lb.deter.g).sol with
    | none => simp only [hsol, bind, Except.bind] at hread; cases hread
    | some ρ =>
      simp only [hsol, bind, Except.bind, pure, Except.pure] at hread
      cases hread
      obtain ⟨f1, f2⟩ := hr.feas ρ hsol
      obtain ⟨n1, n2⟩ := lower_point h hsort hsel hd' f1
      refine h.lowerOk n1 n2 ?_
      rw [hd'.obj, eval_objExpr] at f2
      have f2 : obj (dbl I) (fun j => ρ (.x j)) = (solve lb.deter.g).objVal := f2
      rw [← f2]
      refine (obj_dbl h.c (nearDom_abs n1)).trans ?_
      exact mul_le_mul_of_nonneg_right (by norm_num) h.c0

theorem step_inv (h : FlRun I p d) {st st' : FlSt} (hst : FlInv I d st) (hstep : FlStep I st st') : FlInv I d st' := by
  cases hstep with
  | @improve l q v flags hl hsub hdot himp hf hv =>
    have hle := improving_le h hst.lower himp
    obtain ⟨-, -, hx⟩ := flSubset_spec h.ab h.size hl hsub
    refine ⟨hst.upper.mono hle, fun w hw => ?_, ?_⟩
    · have hw : v = w := WithBot.coe_injective hw
      subst hw
      refine h.lowerOk hx (fl_accepted h.pct.le h.eps h.scen h.notDown h.ab h.size h.items
        (nearDom_abs hx) hf hv) ?_
      refine (flDot_err h.items h.c (nearDom_abs hx) hdot).trans ?_
      exact mul_le_mul_of_nonneg_right (by norm_num) h.c0
    · obtain ⟨k, k1, -⟩ := hst.det
      exact ⟨k, k1, fun hb => by simp at hb⟩
  | first hP hne hlen hcosts hc hmax => exact storeUB_inv hst (step_first h hP hne hlen hcosts hmax _)
  | partition hP hne hlen hcosts hD hg hr hs =>
    refine storeUB_inv hst fun y hy u hu => ?_
    rw [← WithTop.coe_injective hu]
    rcases partition_bound_fl h hst.lower hP hne hlen hcosts hD hg hr hy with ⟨h1, h2⟩ | h1
    · exact .inl (by linarith)
    · exact .inr h1
  | lower hsort hsel hsolve hr => exact step_lower h hst hsort hsel hsolve hr
  | counter c =>
    obtain ⟨k, k1, k2⟩ := hst.det
    exact ⟨hst.upper, hst.lower, k, k1, k2⟩

theorem reach_inv (h : FlRun I p d) {st : FlSt} (hst : FlReach I st) : FlInv I d st := by
  induction hst with
  | start =>
    refine ⟨fun y _ u hu => ?_, fun l hl => ?_, [], lbInit_inv _, fun _ => rfl⟩
    · exact absurd hu (by simp [FlSt.start])
    · exact absurd hl (by simp [FlSt.start])
  | @quantile costs argsort t hlen hcosts ht =>
    refine ⟨fun y hy u hu => ?_, fun l hl => absurd hl (by simp [FlSt.start]), [],
      lbInit_inv _, fun _ => rfl⟩
    have hu : costs.getD t 0 = u := WithTop.coe_injective hu
    obtain ⟨s, hs, hsat, hle⟩ := flQuantile_scenario argsort h.equi h.pct h.eps h.scen hlen ht hy.2
    obtain ⟨x, hx⟩ := hcosts s hs
    have h1 := (flSubset_spec h.ab h.size (l := [s]) (by simpa using hs) hx).1 y hy.1
      (by intro s' hs'; rw [List.mem_singleton.1 hs']; exact hsat)
    have h2 := (abs_le.1 (h.obj_feas hy.1)).1
    dsimp only at h1
    rw [hu] at hle
    exact .inl (by linarith)
  | step _ hstep ih => exact step_inv h ih hstep

/-! ## The end of a run -/

theorem run_gap_stop (h : FlRun I p d) (st : FlSt) (hst : FlReach I st) (np : Bool) (g : Gap) (gap : ℚ)
    (hgap : 0 ≤ gap) (hg : flComputeGap st.vUB st.vLB np = .ok g) (hle : g.le gap = true)
    (hpos : (0 : WithBot ℚ) < st.vLB) :
    ∃ (l : ℚ) (x : Vec), st.vLB = l ∧ st.xLB = some x
      ∧ (∃ y, Feas I y ∧ (∀ j < I.n, |x j - y j| ≤ d)
        ∧ |l - obj I y| ≤ (d + 1 / 10 ^ 10) * ∑ j ∈ range I.n, I.c j)
      ∧ ∀ y, Feas I y → obj I y ≤ (1 + 1 / 10 ^ 4) * (1 + gap * (1 + 1 / 2 ^ 50)) * l + objErr I := by
  obtain ⟨h1, h2⟩ := And.intro (reach_inv h hst).upper (reach_inv h hst).lower
  cases hl : st.vLB with
  | bot => rw [hl] at hpos; exact absurd hpos (by simp)
  | coe l =>
    rw [hl] at hg hpos
    have hpos : 0 < l := by exact_mod_cast hpos
    cases hu : st.vUB with
    | top =>
      rw [hu] at hg
      have : g = .posInf := by cases hg; rfl
      rw [this] at hle
      cases hle
    | coe u =>
      rw [hu] at hg
      obtain ⟨g', e1, -, -, e2⟩ := C109_gap u l np hpos.ne'
      have e1 : flComputeGap (u : WithTop ℚ) (l : WithBot ℚ) np = .ok (.fin g') := e1
      rw [e1] at hg
      cases hg
      have hul := ((e2 hpos gap hgap).1 hle)
      obtain ⟨x, x1, x2⟩ := h2 l hl
      refine ⟨l, x, rfl, x1, x2, fun y hy => ?_⟩
      have h0 : 0 ≤ gap * (1 + 1 / 2 ^ 50) * l := by positivity
      rcases h1 y hy u hu with h3 | ⟨l', h3, h4⟩
      · linarith
      · rw [hl] at h3
        rw [← WithBot.coe_injective h3] at h4
        linarith

theorem run_feasible_stop (h : FlRun I p d) (st : FlSt) (hst : FlReach I st) (P : List (List ℕ)) (costs : List ℚ)
    (D : PartData) (zs : List ℕ) (g : GModel) (r : GResult) (ρ : V → ℚ) (flags : List Bool)
    (hP : IsPartition I.N P) (hlen : flFloor (dbl I) + 1 < (P.length : ℤ)) (hcosts : FlCosts I P costs)
    (hD : FlLoadPartition I P D)
    (hg : flBuildCCLP (partCI (dbl I) D) none zs (flPrune costs st.vLB) (1 / 10 ^ 8) = .ok g)
    (hr : GResult.FlAnswers cclpTols (2 / 10 ^ 10) g r) (hopt : r.status = 2) (hs : r.sol = some ρ)
    (hf : FlFlags (dbl I) (fun j => ρ (.x j)) flags) (hv : flVerdict (dbl I) flags = true) {d' : ℚ}
    (hnear : NearDom cclpTols (instCI I) (fun j => ρ (.x j)) → (violBy I (2 / 10 ^ 6) fun j => ρ (.x j)).card ≤ kmax I →
      ∃ y, Feas I y ∧ ∀ j < I.n, |ρ (.x j) - y j| ≤ d') :
    (∃ y, Feas I y ∧ (∀ j < I.n, |ρ (.x j) - y j| ≤ d')
      ∧ |r.objVal - obj I y| ≤ d' * ∑ j ∈ range I.n, I.c j + objErr I)
    ∧ ∀ y, Feas I y → obj I y ≤ r.objVal + 1 / 10 ^ 8 * |r.objVal| + objErr I
      ∨ ∃ l : ℚ, st.vLB = l ∧ obj I y ≤ (1 + 1 / 10 ^ 4) * l + objErr I := by
  have hsh := flBuildCCLP_shape (by rintro _ ⟨⟩) hg
  have hgap := hr.gap hopt
  obtain ⟨f1, f2⟩ := hr.feas ρ hs
  have hmg : g.mipGap = 1 / 10 ^ 8 := by rw [hsh]; rfl
  rw [hmg] at hgap
  have hdom : NearDom cclpTols (instCI I) fun j => ρ (.x j) := by
    rw [hsh, nearCC] at f1
    exact near_varX f1.1
  have hdom' : NearDom defaultTols (instCI I) fun j => ρ (.x j) :=
    nearDom_mono (by norm_num [cclpTols, defaultTols]) (by norm_num [cclpTols, defaultTols]) hdom
  have hobj : obj (dbl I) (fun j => ρ (.x j)) = r.objVal := by
    rw [hsh, (ccShape_fields _ _ _ _ _).1, eval_objExpr] at f2
    exact f2
  obtain ⟨y, hy, hxy⟩ := hnear hdom
    (fl_accepted h.pct.le h.eps h.scen h.notDown h.ab h.size h.items (nearDom_abs hdom') hf hv)
  refine ⟨⟨y, hy, hxy, ?_⟩, fun y hy => ?_⟩
  · have h1 := abs_le.1 (shrink_obj h.c hxy)
    have h2 := abs_le.1 (obj_dbl h.c (nearDom_abs hdom'))
    rw [hobj] at h2
    exact abs_le.2 ⟨by linarith, by linarith⟩
  · rcases partition_bound_fl h (reach_inv h hst).lower hP.1 hP.2 hlen hcosts hD hg hr.toFlValid hy with
      ⟨-, h1⟩ | h1
    · have := le_abs_self (r.objBnd - r.objVal)
      exact .inl (by linarith)
    · exact .inr h1

theorem stopFeasible_stored {st : FlSt} {xUB : Option Vec} {x : Vec} {vObj vBnd : ℚ}
    (h1 : flLeTol vBnd st.vUB = true) (h2 : flLeTol vObj st.vUB = true) :
    (flStopFeasible st xUB x vObj vBnd).vUB = (vBnd : WithTop ℚ)
    ∧ (flStopFeasible st xUB x vObj vBnd).vLB = (vBnd : WithBot ℚ)
    ∧ (flStopFeasible st xUB x vObj vBnd).xLB = some x := by
  have e : flStoreUB st vBnd = { st with vUB := (vBnd : WithTop ℚ) } := by unfold flStoreUB; rw [if_pos h1]
  refine ⟨?_, ?_, ?_⟩
  · unfold flStopFeasible; rw [e]
  · unfold flStopFeasible; rw [e]
  · unfold flStopFeasible; rw [h1, h2]; rfl

theorem run_finish (h : FlRun I p d) (st : FlSt) (hst : FlReach I st) (P : List (List ℕ)) (costs : List ℚ)
    (D : PartData) (zs : List ℕ) (g : GModel) (r : GResult) (ρ : V → ℚ) (flags : List Bool) (xUB : Option Vec)
    (hP : IsPartition I.N P) (hlen : flFloor (dbl I) + 1 < (P.length : ℤ)) (hcosts : FlCosts I P costs)
    (hD : FlLoadPartition I P D)
    (hg : flBuildCCLP (partCI (dbl I) D) none zs (flPrune costs st.vLB) (1 / 10 ^ 8) = .ok g)
    (hr : GResult.FlAnswers cclpTols (2 / 10 ^ 10) g r) (hopt : r.status = 2) (hs : r.sol = some ρ)
    (hf : FlFlags (dbl I) (fun j => ρ (.x j)) flags) (hv : flVerdict (dbl I) flags = true)
    (hb : flLeTol r.objBnd st.vUB = true) (ho : flLeTol r.objVal st.vUB = true) {d' : ℚ} (hd' : d' ≤ 9 / 10 ^ 5)
    (hnear : NearDom cclpTols (instCI I) (fun j => ρ (.x j)) → (violBy I (2 / 10 ^ 6) fun j => ρ (.x j)).card ≤ kmax I →
      ∃ y, Feas I y ∧ ∀ j < I.n, |ρ (.x j) - y j| ≤ d') :
    ∃ (u : ℚ) (x y : Vec), (flStopFeasible st xUB (fun j => ρ (.x j)) r.objVal r.objBnd).vUB = (u : WithTop ℚ)
      ∧ (flStopFeasible st xUB (fun j => ρ (.x j)) r.objVal r.objBnd).vLB = (u : WithBot ℚ)
      ∧ (flStopFeasible st xUB (fun j => ρ (.x j)) r.objVal r.objBnd).xLB = some x
      ∧ Feas I y ∧ (∀ j < I.n, |x j - y j| ≤ d')
      ∧ |u - obj I y| ≤ (d' + 19 / 10 ^ 9) * ∑ j ∈ range I.n, I.c j
      ∧ ∀ y', Feas I y' → obj I y' ≤ u + objErr I
        ∨ ∃ l : ℚ, st.vLB = l ∧ obj I y' ≤ (1 + 1 / 10 ^ 4) * l + objErr I := by
  obtain ⟨e1, e2, e3⟩ := stopFeasible_stored (xUB := xUB) (x := fun j => ρ (.x j)) hb ho
  obtain ⟨⟨y, hy, hxy, hoy⟩, -⟩ := run_feasible_stop h st hst P costs D zs g r ρ flags hP hlen hcosts hD hg hr
    hopt hs hf hv hnear
  refine ⟨_, _, y, e1, e2, e3, hy, hxy, ?_, fun y' hy' => ?_⟩
  · have hgap := hr.gap hopt
    have hmg : g.mipGap = 1 / 10 ^ 8 := by rw [flBuildCCLP_shape (by rintro _ ⟨⟩) hg]; rfl
    rw [hmg] at hgap
    have h0 := obj_nonneg h.c hy.1
    have h1 := obj_le_total h.c hy.1
    have hC := h.c0
    unfold objErr at hoy
    generalize ∑ j ∈ range I.n, I.c j = C at *
    have h4 : d' * C ≤ 9 / 10 ^ 5 * C := mul_le_mul_of_nonneg_right hd' hC
    have hoy := abs_le.1 hoy
    have h2 : |r.objVal| ≤ 11 / 10 * C := by
      norm_num at hoy
      exact abs_le.2 ⟨by linarith, by linarith⟩
    have h3 := abs_le.1 (hgap.trans (mul_le_mul_of_nonneg_left h2 (by norm_num)))
    norm_num at hoy h3 ⊢
    exact abs_le.2 ⟨by linarith, by linarith⟩
  · rcases partition_bound_fl h (reach_inv h hst).lower hP.1 hP.2 hlen hcosts hD hg hr.toFlValid hy' with
      ⟨-, h1⟩ | h1
    · exact .inl h1
    · exact .inr h1

/-- The value of a subset is the objective of its solution. -/
theorem flSubset_obj {l : List ℕ} {q : ℚ × Vec} (h : FlSubset I l q) : obj (dbl I) q.2 = q.1 := by
  obtain ⟨solve, h, hr⟩ := h
  unfold subsetCost at hr
  rw [optimize, if_neg h.notInterrupted] at hr
  simp only [bind, Except.bind] at hr
  cases hs : (solve (Deter.build (instCI (dbl I)) l).g).sol with
  | none => simp only [getObjVal, hs] at hr; cases hr
  | some ρ =>
    simp only [getObjVal, getX, getSol, hs, bind, Except.bind, pure, Except.pure] at hr
    cases hr
    have := (h.feas ρ hs).2
    rwa [build_obj] at this

theorem run_first_stop (h : FlRun I p d) (st : FlSt) (P : List (List ℕ)) (costs : List ℚ) (c : ℕ)
    (x : Vec) (flags : List Bool) (xUB : Option Vec) (hP : IsPartition I.N P)
    (hlen : (P.length : ℤ) = flFloor (dbl I) + 1) (hcosts : FlCosts I P costs) (hc : c < P.length)
    (hmax : ∀ c' < P.length, costs.getD c' 0 ≤ costs.getD c 0)
    (hx : FlSubset I (P.getD c []) (costs.getD c 0, x))
    (hf : FlFlags (dbl I) x flags) (hv : flVerdict (dbl I) flags = true)
    (hb : flLeTol (costs.getD c 0) st.vUB = true) :
    ∃ (u : ℚ) (y : Vec), (flStopFeasible st xUB x (costs.getD c 0) (costs.getD c 0)).vUB = (u : WithTop ℚ)
      ∧ (flStopFeasible st xUB x (costs.getD c 0) (costs.getD c 0)).vLB = (u : WithBot ℚ)
      ∧ (flStopFeasible st xUB x (costs.getD c 0) (costs.getD c 0)).xLB = some x
      ∧ Feas I y ∧ (∀ j < I.n, |x j - y j| ≤ d)
      ∧ |u - obj I y| ≤ (d + 1 / 10 ^ 10) * ∑ j ∈ range I.n, I.c j
      ∧ ∀ y', Feas I y' → obj I y' ≤ (1 + 1 / 10 ^ 4) * u + objErr I
        ∨ ∃ l : ℚ, st.vLB = l ∧ obj I y' ≤ (1 + 1 / 10 ^ 4) * l + objErr I := by
  obtain ⟨e1, e2, e3⟩ := stopFeasible_stored (xUB := xUB) (x := x) hb hb
  have hd := (flSubset_spec h.ab h.size (part_lt hP.1 hc) hx).2.2
  have hl : LowerOk I d (costs.getD c 0) (some x) := by
    refine h.lowerOk hd (fl_accepted h.pct.le h.eps h.scen h.notDown h.ab h.size h.items
      (nearDom_abs hd) hf hv) ?_
    have h1 := obj_dbl h.c (nearDom_abs hd)
    rw [flSubset_obj hx] at h1
    refine h1.trans ?_
    exact mul_le_mul_of_nonneg_right (by norm_num) h.c0
  obtain ⟨_, hx', y, hy, h1, h2⟩ := hl
  cases hx'
  exact ⟨_, y, e1, e2, e3, hy, h1, h2, fun y' hy' =>
    step_first h hP.1 hP.2 hlen hcosts hmax st.vLB y' hy' _ rfl⟩

theorem storeUB_le {st : FlSt} {v u u' : ℚ} (hu : st.vUB = u) (hu' : (flStoreUB st v).vUB = u') :
    u' ≤ u + 1 / 10 ^ 8 + (|u| + 1) / 2 ^ 52 := by
  have h0 : 0 ≤ |u| := abs_nonneg _
  unfold flStoreUB at hu'
  split_ifs at hu' with h
  · have hv : v = u' := WithTop.coe_injective hu'
    subst hv
    unfold flLeTol at h
    rw [hu] at h
    have h1 : v ≤ rd (u + fl64 (1 / 10 ^ 8)) := of_decide_eq_true h
    have h2 := (abs_le.1 (rd_err (u + fl64 (1 / 10 ^ 8)))).2
    have h3 : fl64 (1 / 10 ^ 8) ≤ 1 / 10 ^ 8 * (1 + 1 / 2 ^ 53) := fl64_le (by norm_num)
    have h4 : 0 ≤ fl64 (1 / 10 ^ 8) := fl64_nonneg _
    generalize fl64 (1 / 10 ^ 8) = e at *
    have h5 : |u + e| ≤ |u| + e := (abs_add_le u e).trans (by rw [abs_of_nonneg h4])
    unfold ulp at h2
    norm_num at h3 ⊢
    linarith
  · rw [hu] at hu'
    rw [← WithTop.coe_injective hu']
    norm_num
    linarith

theorem run_monotone (h : FlRun I p d) (st st' : FlSt) (hst : FlReach I st) (hstep : FlStep I st st') :
    st.vLB ≤ st'.vLB
    ∧ (∀ u : ℚ, st.vUB = u → ∃ u' : ℚ, st'.vUB = u' ∧ u' ≤ u + 1 / 10 ^ 8 + (|u| + 1) / 2 ^ 52)
    ∧ ∀ v : ℚ, flIsImproving st.vUB st.vLB v = true → (v : WithTop ℚ) ≤ st.vUB ∧ st.vLB ≤ (v : WithBot ℚ) := by
  have hinv := reach_inv h hst
  have hid : ∀ u : ℚ, st.vUB = u → ∃ u' : ℚ, st.vUB = u' ∧ u' ≤ u + 1 / 10 ^ 8 + (|u| + 1) / 2 ^ 52 :=
    fun u hu => ⟨u, hu, by
      have h0 : 0 ≤ |u| := abs_nonneg _
      norm_num
      linarith⟩
  have hub : ∀ v u : ℚ, st.vUB = u → ∃ u' : ℚ, (flStoreUB st v).vUB = u'
      ∧ u' ≤ u + 1 / 10 ^ 8 + (|u| + 1) / 2 ^ 52 := fun v u hu => by
    obtain ⟨u', hu'⟩ : ∃ u' : ℚ, (flStoreUB st v).vUB = u' := by
      unfold flStoreUB
      split_ifs
      · exact ⟨v, rfl⟩
      · exact ⟨u, hu⟩
    exact ⟨u', hu', storeUB_le hu hu'⟩
  have hlb : ∀ v, (flStoreUB st v).vLB = st.vLB := fun v => by unfold flStoreUB; split_ifs <;> rfl
  refine ⟨?_, ?_, fun v hv => ⟨?_, improving_le h hinv.lower hv⟩⟩
  · cases hstep with
    | improve _ _ _ himp _ _ => exact improving_le h hinv.lower himp
    | first _ _ _ _ _ _ => exact (hlb _).ge
    | partition _ _ _ _ _ _ _ _ => exact (hlb _).ge
    | lower _ _ _ _ =>
      unfold flStoreLB
      split_ifs with hlt
      · exact hlt.le
      · exact le_rfl
    | counter _ => exact le_rfl
  · cases hstep with
    | improve _ _ _ _ _ _ => exact hid
    | first _ _ _ _ _ _ => exact hub _
    | partition _ _ _ _ _ _ _ _ => exact hub _
    | lower _ _ _ _ =>
      unfold flStoreLB
      split_ifs <;> exact hid
    | counter _ => exact hid
  · unfold flIsImproving at hv
    rw [Bool.and_eq_true] at hv
    exact of_decide_eq_true hv.1

/-- Points of the partitioned problem. -/
theorem FlOk.cclp (h : FlOk I p) {x : Vec} (hx : NearDom cclpTols (instCI I) x)
    (hcard : (violBy I (2 / 10 ^ 6) x).card ≤ kmax I) : ∃ y, Feas I y ∧ ∀ j < I.n, |x j - y j| ≤ 1 / 10 ^ 9 :=
  ⟨roundVec x, round_feas h.equi h.run.eps0 h.one h.size h.binary
    (nearDom_mono (by norm_num [cclpTols, defaultTols]) (by norm_num [cclpTols, defaultTols]) hx)
    (violBy_card_mono (by norm_num) hcard), fun j hj => round_abs (by norm_num [cclpTols]) h.binary hx hj⟩

/-! ## C112 -/

/-- **C112 (bounds).**  Binary instance with data of one decimal digit, capacities up to 5000, rows up to
20000, values adding up to at most `10^7`, at most 90000 equiprobable scenarios, a risk level of whole percent
whose product with the number of scenarios is not rounded below an integer (C91); indicator constraints,
arithmetic in doubles, points and bounds of Gurobi within its tolerances and its default gap.  In every state of
a run, whatever partitions are visited: no feasible objective exceeds both `(1 + 1e-4) * vUB` and
`(1 + 1e-4) * vLB` by more than the rounding of the objective, and `vLB`, once set, is within a little
more than `1e-5` times the sum of all values of the objective of a feasible point, to which `xLB` rounds. -/
theorem C112_bounds (h : FlOk I p) (st : FlSt) (hst : FlReach I st) :
    (∀ y, Feas I y → ∀ u : ℚ, st.vUB = u → obj I y ≤ (1 + 1 / 10 ^ 4) * u + objErr I
      ∨ ∃ l : ℚ, st.vLB = l ∧ obj I y ≤ (1 + 1 / 10 ^ 4) * l + objErr I)
    ∧ ∀ l : ℚ, st.vLB = l → ∃ x, st.xLB = some x ∧ ∃ y, Feas I y ∧ (∀ j < I.n, |x j - y j| ≤ 1 / 10 ^ 5)
      ∧ |l - obj I y| ≤ (1 / 10 ^ 5 + 1 / 10 ^ 10) * ∑ j ∈ range I.n, I.c j :=
  ⟨(reach_inv h.run hst).upper, (reach_inv h.run hst).lower⟩

/-- **C112 (stop on the gap).**  If the gap that is computed in doubles from finite bounds, the lower one
positive, is at most `gap`, then `xLB` rounds to a feasible point, and no feasible point exceeds `vLB` by more
than the factor `(1 + 1e-4) * (1 + gap)`, up to rounding. -/
theorem C112_gap_stop (h : FlOk I p) (st : FlSt) (hst : FlReach I st) (np : Bool) (g : Gap) (gap : ℚ)
    (hgap : 0 ≤ gap) (hg : flComputeGap st.vUB st.vLB np = .ok g) (hle : g.le gap = true)
    (hpos : (0 : WithBot ℚ) < st.vLB) :
    ∃ (l : ℚ) (x : Vec), st.vLB = l ∧ st.xLB = some x
      ∧ (∃ y, Feas I y ∧ (∀ j < I.n, |x j - y j| ≤ 1 / 10 ^ 5)
        ∧ |l - obj I y| ≤ (1 / 10 ^ 5 + 1 / 10 ^ 10) * ∑ j ∈ range I.n, I.c j)
      ∧ ∀ y, Feas I y → obj I y ≤ (1 + 1 / 10 ^ 4) * (1 + gap * (1 + 1 / 2 ^ 50)) * l + objErr I :=
  run_gap_stop h.run st hst np g gap hgap hg hle hpos

/-- **C112 (stop on a feasible point).**  If Gurobi finishes the partitioned problem within the gap `1e-8` and
`check_feasibility` accepts its point in doubles, the point rounds to a feasible one, with the reported
objective up to `1e-9` times the sum of all values, and no feasible objective exceeds both the reported one by more
than the factor `1 + 1e-8` and `vLB` by more than the factor `1 + 1e-4`, up to rounding. -/
theorem C112_feasible_stop (h : FlOk I p) (st : FlSt) (hst : FlReach I st) (P : List (List ℕ)) (costs : List ℚ)
    (D : PartData) (zs : List ℕ) (g : GModel) (r : GResult) (ρ : V → ℚ) (flags : List Bool)
    (hP : IsPartition I.N P) (hlen : flFloor (dbl I) + 1 < (P.length : ℤ)) (hcosts : FlCosts I P costs)
    (hD : FlLoadPartition I P D)
    (hg : flBuildCCLP (partCI (dbl I) D) none zs (flPrune costs st.vLB) (1 / 10 ^ 8) = .ok g)
    (hr : GResult.FlAnswers cclpTols (2 / 10 ^ 10) g r) (hopt : r.status = 2) (hs : r.sol = some ρ)
    (hf : FlFlags (dbl I) (fun j => ρ (.x j)) flags) (hv : flVerdict (dbl I) flags = true) :
    (∃ y, Feas I y ∧ (∀ j < I.n, |ρ (.x j) - y j| ≤ 1 / 10 ^ 9)
      ∧ |r.objVal - obj I y| ≤ 1 / 10 ^ 9 * ∑ j ∈ range I.n, I.c j + objErr I)
    ∧ ∀ y, Feas I y → obj I y ≤ r.objVal + 1 / 10 ^ 8 * |r.objVal| + objErr I
      ∨ ∃ l : ℚ, st.vLB = l ∧ obj I y ≤ (1 + 1 / 10 ^ 4) * l + objErr I :=
  run_feasible_stop h.run st hst P costs D zs g r ρ flags hP hlen hcosts hD hg hr hopt hs hf hv h.cclp

/-- **C112 (result after a stop on a feasible point).**  If the value and the bound of the partitioned problem
are stored (otherwise an old `xUB` is left as result, C78), `vLB` and `vUB` are equal and within `2e-8` times the
sum of all values of the objective of a feasible point to which `xLB` rounds, and no feasible objective exceeds
both them by more than rounding and the lower bound before the stop by more than the factor `1 + 1e-4`. -/
theorem C112_finish (h : FlOk I p) (st : FlSt) (hst : FlReach I st) (P : List (List ℕ)) (costs : List ℚ)
    (D : PartData) (zs : List ℕ) (g : GModel) (r : GResult) (ρ : V → ℚ) (flags : List Bool) (xUB : Option Vec)
    (hP : IsPartition I.N P) (hlen : flFloor (dbl I) + 1 < (P.length : ℤ)) (hcosts : FlCosts I P costs)
    (hD : FlLoadPartition I P D)
    (hg : flBuildCCLP (partCI (dbl I) D) none zs (flPrune costs st.vLB) (1 / 10 ^ 8) = .ok g)
    (hr : GResult.FlAnswers cclpTols (2 / 10 ^ 10) g r) (hopt : r.status = 2) (hs : r.sol = some ρ)
    (hf : FlFlags (dbl I) (fun j => ρ (.x j)) flags) (hv : flVerdict (dbl I) flags = true)
    (hb : flLeTol r.objBnd st.vUB = true) (ho : flLeTol r.objVal st.vUB = true) :
    ∃ (u : ℚ) (x y : Vec), (flStopFeasible st xUB (fun j => ρ (.x j)) r.objVal r.objBnd).vUB = (u : WithTop ℚ)
      ∧ (flStopFeasible st xUB (fun j => ρ (.x j)) r.objVal r.objBnd).vLB = (u : WithBot ℚ)
      ∧ (flStopFeasible st xUB (fun j => ρ (.x j)) r.objVal r.objBnd).xLB = some x
      ∧ Feas I y ∧ (∀ j < I.n, |x j - y j| ≤ 1 / 10 ^ 9)
      ∧ |u - obj I y| ≤ 2 / 10 ^ 8 * ∑ j ∈ range I.n, I.c j
      ∧ ∀ y', Feas I y' → obj I y' ≤ u + objErr I
        ∨ ∃ l : ℚ, st.vLB = l ∧ obj I y' ≤ (1 + 1 / 10 ^ 4) * l + objErr I := by
  obtain ⟨u, x, y, h1, h2, h3, h4, h5, h6, h7⟩ := run_finish h.run st hst P costs D zs g r ρ flags xUB hP hlen
    hcosts hD hg hr hopt hs hf hv hb ho (by norm_num) h.cclp
  refine ⟨u, x, y, h1, h2, h3, h4, h5, h6.trans (le_of_eq ?_), h7⟩
  norm_num

/-- **C112 (result after a stop in the first iteration).**  If the solution of the subset with the largest cost is
accepted by `check_feasibility` in doubles and its cost is stored, `vLB` and `vUB` are equal to it and within a
little more than `1e-5` times the sum of all values of the objective of a feasible point to which `xLB` rounds, and
no feasible objective exceeds both them and the lower bound before by more than the factor `1 + 1e-4`, up to
rounding. -/
theorem C112_first_stop (h : FlOk I p) (st : FlSt) (P : List (List ℕ)) (costs : List ℚ) (c : ℕ)
    (x : Vec) (flags : List Bool) (xUB : Option Vec) (hP : IsPartition I.N P)
    (hlen : (P.length : ℤ) = flFloor (dbl I) + 1) (hcosts : FlCosts I P costs) (hc : c < P.length)
    (hmax : ∀ c' < P.length, costs.getD c' 0 ≤ costs.getD c 0)
    (hx : FlSubset I (P.getD c []) (costs.getD c 0, x))
    (hf : FlFlags (dbl I) x flags) (hv : flVerdict (dbl I) flags = true)
    (hb : flLeTol (costs.getD c 0) st.vUB = true) :
    ∃ (u : ℚ) (y : Vec), (flStopFeasible st xUB x (costs.getD c 0) (costs.getD c 0)).vUB = (u : WithTop ℚ)
      ∧ (flStopFeasible st xUB x (costs.getD c 0) (costs.getD c 0)).vLB = (u : WithBot ℚ)
      ∧ (flStopFeasible st xUB x (costs.getD c 0) (costs.getD c 0)).xLB = some x
      ∧ Feas I y ∧ (∀ j < I.n, |x j - y j| ≤ 1 / 10 ^ 5)
      ∧ |u - obj I y| ≤ (1 / 10 ^ 5 + 1 / 10 ^ 10) * ∑ j ∈ range I.n, I.c j
      ∧ ∀ y', Feas I y' → obj I y' ≤ (1 + 1 / 10 ^ 4) * u + objErr I
        ∨ ∃ l : ℚ, st.vLB = l ∧ obj I y' ≤ (1 + 1 / 10 ^ 4) * l + objErr I :=
  run_first_stop h.run st P costs c x flags xUB hP hlen hcosts hc hmax hx hf hv hb

/-- **C112 (single steps).**  The lower bound never falls, the upper one rises in a step by no more than `1e-8`
and the rounding errors, once set it stays, and a candidate that replaces the lower bound does not exceed the
upper one. -/
theorem C112_monotone (h : FlOk I p) (st st' : FlSt) (hst : FlReach I st) (hstep : FlStep I st st') :
    st.vLB ≤ st'.vLB
    ∧ (∀ u : ℚ, st.vUB = u → ∃ u' : ℚ, st'.vUB = u' ∧ u' ≤ u + 1 / 10 ^ 8 + (|u| + 1) / 2 ^ 52)
    ∧ ∀ v : ℚ, flIsImproving st.vUB st.vLB v = true → (v : WithTop ℚ) ≤ st.vUB ∧ st.vLB ≤ (v : WithBot ℚ) :=
  run_monotone h.run st st' hst hstep

/-! ### Example -/

theorem flSum_exact : ∀ l : List ℚ, FlSum l l.sum
  | [] => .nil
  | [a] => by simpa using FlSum.single a
  | a :: b :: l => by
    have := FlSum.add (l := [a]) (l' := b :: l) (by simp) (by simp) (.single a) (flSum_exact (b :: l))
      (w := (a :: b :: l).sum) (by simp [Rounds])
    simpa using this

theorem flDot_exact (n : ℕ) (a x : Vec) : FlDot n a x (dot n a x) :=
  ⟨fun j => a j * x j, fun j _ => by simp only [Rounds, sub_self, abs_zero]; positivity, flSum_exact _⟩

/-- Flags without rounding errors in the sums are among the possible ones. -/
theorem flFlags_exact (I : Inst) (x : Vec) : FlFlags I x ((List.range I.N).map fun s =>
    decide (∃ i < I.m, fl64 (1 / 10 ^ 6) < max (dot I.n (I.A s i) x - I.b s i) 0)) :=
  ⟨fun s i => max (dot I.n (I.A s i) x - I.b s i) 0, fun s _ i _ =>
    ⟨_, _, flDot_exact _ _ _, by simp [Rounds], rfl⟩, rfl⟩

theorem exFlMilp_ok : FlOk exFlMilp 25 where
  equi := exFlMilp_equi
  pct := by norm_num
  eps := by norm_num [exFlMilp]
  notDown := .inl (by decide)
  scen := by decide
  items := by decide
  one := exFlMilp_grid
  size := by unfold Model.Moderate; decide +kernel
  c := by unfold NonnegC; decide +kernel
  sum := by decide +kernel
  binary := rfl

theorem exFlMilp_subset (norm : Norm) {s : ℕ} (hs : s < 4) : FlSubset exFlMilp [s]
    ([(4 : ℚ), 3, 3, 3].getD s 0, fun j => pairPoint 1 (if s = 0 then 1 else 0) (.x j)) := by
  refine ⟨pairAnswer 1 (if s = 0 then 1 else 0) 0, exFlBelotti_sub norm s hs, ?_⟩
  have : ∀ v : ℚ, (Deter.build (instCI (dbl exFlMilp)) [s]).g.obj.eval
      (pairPoint 1 (if s = 0 then 1 else 0)) = v →
      subsetCost (dbl exFlMilp) (pairAnswer 1 (if s = 0 then 1 else 0) 0) [s]
        = .ok (v, fun j => pairPoint 1 (if s = 0 then 1 else 0) (.x j)) := by
    rintro v rfl
    rfl
  apply this
  interval_cases s <;> decide +kernel

/-- The quantile bound 3 of the instance with rounded data is reached, then the lower bound 3 by the solution of
scenario 1; the gap is zero, and the stop certifies the point `(1, 0)`. -/
example (norm : Norm) : ∃ st, FlReach exFlMilp st ∧ st.vUB = ((3 : ℚ) : WithTop ℚ)
    ∧ st.vLB = ((3 : ℚ) : WithBot ℚ) ∧ flComputeGap st.vUB st.vLB true = .ok (.fin 0)
    ∧ ∀ y, Feas exFlMilp y → obj exFlMilp y ≤ (1 + 1 / 10 ^ 4) * 3 + objErr exFlMilp := by
  obtain ⟨t, ht, hq⟩ := Option.map_eq_some_iff.1 exFlBelotti_quantile
  have h1 := FlReach.quantile (I := exFlMilp) (costs := [4, 3, 3, 3]) (argsort := .default) rfl
    (fun s hs => ⟨_, exFlMilp_subset norm hs⟩) ht
  rw [hq] at h1
  have hg : flComputeGap ((3 : ℚ) : WithTop ℚ) ((3 : ℚ) : WithBot ℚ) true = .ok (.fin 0) := by decide +kernel
  have h2 := h1.step (.improve (l := [1]) (p := (3, fun j => pairPoint 1 0 (.x j))) (by decide)
    (exFlMilp_subset norm (by decide : 1 < 4)) (flDot_exact _ _ _) (by decide +kernel)
    (flFlags_exact _ _) (by decide +kernel))
  have hv : dot exFlMilp.n (dbl exFlMilp).c (fun j => pairPoint 1 0 (.x j)) = 3 := by decide +kernel
  dsimp only at h2
  rw [hv] at h2
  refine ⟨_, h2, rfl, rfl, hg, ?_⟩
  obtain ⟨l, x, hl, -, -, hy⟩ := C112_gap_stop exFlMilp_ok _ h2 true (.fin 0) 0 le_rfl hg
    (by decide +kernel) (WithBot.coe_lt_coe.2 (by norm_num : (0 : ℚ) < 3))
  have hl : (3 : ℚ) = l := WithBot.coe_injective hl
  intro y h
  have := hy y h
  rw [← hl] at this
  linarith

/-- Each scenario alone. -/
def exSinglesData : PartData :=
  { nbSubsets := 4, partition := [[0], [1], [2], [3]], nbConPart := [1, 1, 1, 1]
    probaPart := [1 / 4, 1 / 4, 1 / 4, 1 / 4], epsPart := 1 / 4 }

/-- The hypotheses of `C112_feasible_stop` and `C112_finish` are met: the problem with each scenario alone, of which the point
`(1, 0)` is optimal with value 3. -/
example (norm : Norm) : ∃ (g : GModel) (flags : List Bool), IsPartition exFlMilp.N [[0], [1], [2], [3]]
    ∧ FlCosts exFlMilp [[0], [1], [2], [3]] [4, 3, 3, 3]
    ∧ FlLoadPartition exFlMilp [[0], [1], [2], [3]] exSinglesData
    ∧ flBuildCCLP (partCI (dbl exFlMilp) exSinglesData) none [0] (flPrune [4, 3, 3, 3] (FlSt.start exFlMilp).vLB)
      (1 / 10 ^ 8) = .ok g
    ∧ GResult.FlAnswers cclpTols (2 / 10 ^ 10) g (pairAnswer 1 0 0 g)
    ∧ FlFlags (dbl exFlMilp) (fun j => pairPoint 1 0 (.x j)) flags ∧ flVerdict (dbl exFlMilp) flags = true
    ∧ (∀ y, Feas exFlMilp y → obj exFlMilp y ≤ 3 + 3 / 10 ^ 8 + objErr exFlMilp)
    ∧ ∃ u x y, (flStopFeasible (FlSt.start exFlMilp) none (fun j => pairPoint 1 0 (.x j)) 3 3).vLB
        = ((u : ℚ) : WithBot ℚ)
      ∧ (flStopFeasible (FlSt.start exFlMilp) none (fun j => pairPoint 1 0 (.x j)) 3 3).xLB = some x
      ∧ Feas exFlMilp y ∧ (∀ j < 2, |x j - y j| ≤ 1 / 10 ^ 9) ∧ |u - obj exFlMilp y| ≤ 8 / 10 ^ 8 := by
  obtain ⟨g, hg⟩ : ∃ g, flBuildCCLP (partCI (dbl exFlMilp) exSinglesData) none [0]
      (flPrune [4, 3, 3, 3] (FlSt.start exFlMilp).vLB) (1 / 10 ^ 8) = .ok g := ⟨_, rfl⟩
  have hsh := flBuildCCLP_shape (by rintro _ ⟨⟩) hg
  have hP : IsPartition exFlMilp.N [[0], [1], [2], [3]] := ⟨by decide, by decide⟩
  have hC : FlCosts exFlMilp [[0], [1], [2], [3]] [4, 3, 3, 3] := by
    refine ⟨rfl, fun c hc => ?_⟩
    have hc : c < 4 := hc
    have := exFlMilp_subset norm hc
    interval_cases c <;> exact ⟨_, this⟩
  have hD : FlLoadPartition exFlMilp [[0], [1], [2], [3]] exSinglesData :=
    ⟨[1 / 4, 1 / 4, 1 / 4, 1 / 4], [1 / 4, 1 / 4, 1 / 4, (1 / 4 : ℚ)].sum, by decide +kernel, flSum_exact _, by
      have h1 : rd (1 / 4 / [1 / 4, 1 / 4, 1 / 4, (1 / 4 : ℚ)].sum) = 1 / 4 := by decide +kernel
      have h2 : (dbl exFlMilp).eps = 1 / 4 := by decide +kernel
      rw [h2]
      simp only [List.map_cons, List.map_nil, h1]
      rfl⟩
  have hobj : g.obj.eval (pairPoint 1 0) = 3 := by
    rw [hsh]
    decide +kernel
  have hans : GResult.FlAnswers cclpTols (2 / 10 ^ 10) g (pairAnswer 1 0 0 g) := by
    refine pairAnswer_answers ?_ (by rw [hobj, hsh]; decide +kernel) (by rw [hobj]; decide +kernel)
    rw [hsh]
    refine pairAnswer_valid (nearCC.2 (by unfold NearCC; decide +kernel)) (fun ρ h =>
      pair_vars (J := partCI (dbl exFlMilp) exSinglesData) rfl rfl (near_varX (nearCC.1 h).1)) fun ρ h h0 h1 => ?_
    obtain ⟨-, k2, k3, k4, -⟩ := nearCC.1 h
    have c0 : (partCI (dbl exFlMilp) exSinglesData).c 0 = 3 := by decide +kernel
    have c1 : (partCI (dbl exFlMilp) exSinglesData).c 1 = 1 := by decide +kernel
    have hn : (partCI (dbl exFlMilp) exSinglesData).n = 2 := rfl
    rw [(ccShape_fields _ _ _ _ _).1, eval_objExpr, eval_objExpr, hn, pair_dot, pair_dot, c0, c1]
    by_cases hx : ρ (.x 0) = 1 ∧ ρ (.x 1) = 1
    · exfalso
      have hz : ∀ c < 4, ρ (.z c) = 0 ∨ ρ (.z c) = 1 := fun c hc =>
        (near_varZ k2 c hc).1.imp (fun e => abs_nonpos_iff.1 e) fun e => by
          have := abs_nonpos_iff.1 e
          linarith
      have hz0 : ∀ c < 4, 0 < c → ρ (.z c) = 0 := by
        intro c hc h0
        refine (hz c hc).resolve_right fun e => ?_
        have h2 := k3 (.ind (.z c) true ⟨lhsExpr (partCI (dbl exFlMilp) exSinglesData) c 0, .le,
          ofConst ((partCI (dbl exFlMilp) exSinglesData).rhs c 0)⟩) (by
            simp only [flRowConstrs, allIndicators, List.mem_flatten, List.mem_map, List.mem_range]
            refine ⟨_, ⟨c, hc, rfl⟩, ?_⟩
            simp only [List.mem_map, List.mem_range]
            exact ⟨0, by interval_cases c <;> decide, rfl⟩)
        have h2 := h2 (by simp [e])
        simp only [Lin.Near, eval_lhsExpr, hn, pair_dot, hx, eval_ofConst] at h2
        revert h2
        interval_cases c <;> decide +kernel
      have k4 : (flChanceConstr (partCI (dbl exFlMilp) exSinglesData)).Near ⟨0, 2 / 10 ^ 10⟩ ρ := k4
      simp only [flChanceConstr, Constr.Near, Lin.Near, eval_quicksum_range, eval_ofConst] at k4
      rw [show (partCI (dbl exFlMilp) exSinglesData).nbScen = 4 from rfl] at k4
      have e1 : ∀ c < 4, (partCI (dbl exFlMilp) exSinglesData).proba c = 1 / 4 := by decide +kernel
      have e2 : rd (1 - (partCI (dbl exFlMilp) exSinglesData).eps) = 3 / 4 := by decide +kernel
      rw [e2] at k4
      simp only [Finset.sum_range_succ, Finset.sum_range_zero, e1 0 (by decide), e1 1 (by decide), e1 2 (by decide),
        e1 3 (by decide), hz0 1 (by decide) (by decide), hz0 2 (by decide) (by decide),
        hz0 3 (by decide) (by decide)] at k4
      rcases hz 0 (by decide) with e | e <;> rw [e] at k4 <;> norm_num at k4
    · have p0 : pairPoint 1 0 (.x 0) = 1 := rfl
      have p1 : pairPoint 1 0 (.x 1) = 0 := rfl
      rw [p0, p1]
      rcases h0 with h0 | h0 <;> rcases h1 with h1 | h1 <;> rw [h0, h1]
      any_goals norm_num
      exact hx ⟨h0, h1⟩
  refine ⟨g, _, hP, hC, hD, hg, hans, flFlags_exact _ _, by decide +kernel, fun y hy => ?_, ?_⟩
  swap
  · obtain ⟨u, x, y, -, e2, e3, e4, e5, e6, -⟩ := C112_finish exFlMilp_ok _ .start _ _ _ _ _ _ _ _ none hP
      (by decide +kernel) hC hD hg hans rfl rfl (flFlags_exact _ _) (by decide +kernel) rfl rfl
    have hv : (pairAnswer 1 0 0 g).objVal = 3 := hobj
    have hb : (pairAnswer 1 0 0 g).objBnd = 3 := by simp [pairAnswer, hobj]
    rw [hv, hb] at e2 e3
    refine ⟨u, x, y, e2, e3, e4, e5, e6.trans ?_⟩
    decide +kernel
  have := (C112_feasible_stop exFlMilp_ok _ .start _ _ _ _ _ _ _ _ hP (by decide +kernel) hC hD hg hans rfl rfl
    (flFlags_exact _ _) (by decide +kernel)).2 y hy
  rcases this with h | ⟨l, h, -⟩
  · simp only [pairAnswer, hobj] at h
    rw [abs_of_pos (by norm_num)] at h
    linarith
  · exact absurd h (by simp [FlSt.start])

/-- The instance at the risk level 0.75, so that the first partition has each scenario alone. -/
def exFlFirst : Inst := { exFlMilp with eps := 3 / 4 }

/-- The hypotheses of `C112_first_stop` are met: both items, the solution of scenario 0, violate three of four
scenarios. -/
example (norm : Norm) : ∃ flags, FlOk exFlFirst 75 ∧ IsPartition exFlFirst.N [[0], [1], [2], [3]]
    ∧ FlCosts exFlFirst [[0], [1], [2], [3]] [4, 3, 3, 3]
    ∧ FlFlags (dbl exFlFirst) (fun j => pairPoint 1 1 (.x j)) flags ∧ flVerdict (dbl exFlFirst) flags = true
    ∧ ∀ y, Feas exFlFirst y → obj exFlFirst y ≤ (1 + 1 / 10 ^ 4) * 4 + objErr exFlFirst := by
  have hok : FlOk exFlFirst 75 :=
    { exFlMilp_ok with
      equi := ⟨by decide, fun s _ => by norm_num [exFlFirst, exFlMilp]⟩
      pct := by norm_num
      eps := by norm_num [exFlFirst]
      notDown := .inl (by decide) }
  have hP : IsPartition exFlFirst.N [[0], [1], [2], [3]] := ⟨by decide, by decide⟩
  have hC : FlCosts exFlFirst [[0], [1], [2], [3]] [4, 3, 3, 3] := by
    refine ⟨rfl, fun c hc => ?_⟩
    have hc : c < 4 := hc
    have := exFlMilp_subset norm hc
    interval_cases c <;> exact ⟨_, this⟩
  refine ⟨_, hok, hP, hC, flFlags_exact _ _, by decide +kernel, fun y hy => ?_⟩
  obtain ⟨u, -, e1, -, -, -, -, -, e2⟩ := C112_first_stop hok (FlSt.start exFlFirst) _ _ 0
    (fun j => pairPoint 1 1 (.x j)) _ none hP (by decide +kernel) hC (by decide) (by decide +kernel)
    (exFlMilp_subset norm (by decide : 0 < 4)) (flFlags_exact _ _) (by decide +kernel) rfl
  have hu : (4 : ℚ) = u := WithTop.coe_injective e1
  rw [hu]
  exact (e2 y hy).resolve_right fun ⟨l, hl, _⟩ => absurd hl (by simp [FlSt.start])

/-! ### Percentages that are rounded down -/

/-- An answer with no item taken. -/
def emptyAnswer (_ : GModel) : GResult := { status := 2, sol := some (vecPoint fun _ => 0), objVal := 0, objBnd := 0 }

/-- A subset with one of the scenarios that forbid the item. -/
theorem exTwentyNine_subset {l : List ℕ} (h : ∃ s ∈ l, s < 29) :
    FlSubset exTwentyNine l (0, fun _ => 0) := by
  have hf : (Deter.build (instCI (dbl exTwentyNine)) l).g.NearFeas defaultTols (vecPoint fun _ => 0) := by
    refine near_of_feas (by norm_num [defaultTols]) (by norm_num [defaultTols]) (by norm_num [defaultTols])
      (indBinary_build _ _) ((build_feas _ _ _).2 ⟨fun j _ => by simp [exTwentyNine, dbl, vecPoint], fun s _ i _ => ?_⟩)
    simp only [vecPoint, dot, mul_zero, Finset.sum_const_zero]
    exact fl64_nonneg _
  refine ⟨emptyAnswer, ⟨⟨?_, ?_, fun h => absurd h (show ¬ 2 = 3 by decide), fun _ => rfl⟩,
    by simp [emptyAnswer], fun _ => rfl, fun _ => by simp [emptyAnswer], rd_zero⟩, rfl⟩
  · rintro _ ⟨⟩
    exact ⟨hf, by rw [build_obj]; simp [obj, dot, emptyAnswer, vecPoint]⟩
  · intro ρ hρ
    obtain ⟨h1, h2⟩ := build_near hρ
    obtain ⟨s, hs, hs9⟩ := h
    have h3 := (h1 0 (by decide)).1 rfl
    have h4 := h2 s hs
    have hA : (dbl exTwentyNine).A s 0 0 = 1 := by simp only [dbl, exTwentyNine]; decide +kernel
    have hb : (dbl exTwentyNine).b s 0 = 0 := by
      simp only [dbl, exTwentyNine, if_pos hs9]; decide +kernel
    have hc : (dbl exTwentyNine).c 0 = 1 := by simp only [dbl, exTwentyNine]; decide +kernel
    have h5 : ρ (.x 0) ≤ 2 / 10 ^ 10 := by
      by_contra h6
      refine h4 ⟨0, by decide, ?_⟩
      rw [hb, show (dbl exTwentyNine).n = 1 from rfl]
      simp only [dot, Finset.sum_range_one, hA]
      linarith [not_le.1 h6]
    rw [build_obj]
    unfold obj
    rw [show (dbl exTwentyNine).n = 1 from rfl]
    simp only [dot, Finset.sum_range_one, hc, one_mul, emptyAnswer]
    rcases h3 with h3 | h3
    · exact (abs_nonpos_iff.1 h3).le
    · have := abs_nonpos_iff.1 h3
      linarith

/-- `C112_bounds` fails for risk levels that are rounded down: all hypotheses but this one are met, and in the
first iteration the upper bound becomes 0, although a feasible point has the objective 1. -/
theorem C112_counterexample :
    (∀ p : ℕ, exTwentyNine.eps = p / 100 → p < 100 ∧ p ∈ roundedDown) ∧ Equi exTwentyNine
    ∧ OneDecimal exTwentyNine ∧ Model.Moderate exTwentyNine ∧ exTwentyNine.cont = false
    ∧ FlReach exTwentyNine { FlSt.start exTwentyNine with vUB := ((0 : ℚ) : WithTop ℚ) }
    ∧ Feas exTwentyNine (fun _ => 1) ∧ obj exTwentyNine (fun _ => 1) = 1
    ∧ ¬ (obj exTwentyNine (fun _ => 1) ≤ (1 + 1 / 10 ^ 4) * 0 + objErr exTwentyNine) := by
  obtain ⟨h1, h2, -, h4, h5, -, -, -, ⟨⟨k1, k2⟩, k3, -⟩, -⟩ := C91_counterexample
  have h3 : Model.Moderate exTwentyNine := by unfold Model.Moderate; decide +kernel
  refine ⟨?_, h1, h2, h3, rfl, ?_, h4, h5, ?_⟩
  · intro p hp
    have hp : (29 : ℚ) / 100 = p / 100 := hp
    have : (29 : ℚ) = p := by linarith
    have : 29 = p := by exact_mod_cast this
    subst this
    decide
  · have hz : ∀ c < exTwentyNineParts.length, ∃ s ∈ exTwentyNineParts.getD c [], s < 29 := by decide +kernel
    have hl : exTwentyNineParts.length = 29 := by decide
    have h0 : ∀ c, (List.replicate 29 (0 : ℚ)).getD c 0 = 0 := fun c => by
      generalize 29 = k
      rw [List.getD_eq_getElem?_getD, List.getElem?_replicate]
      split_ifs <;> rfl
    have hC : FlCosts exTwentyNine exTwentyNineParts (List.replicate 29 0) := by
      refine ⟨by rw [hl]; simp, fun c hc => ⟨fun _ => 0, ?_⟩⟩
      rw [h0]
      exact exTwentyNine_subset (hz c hc)
    have := FlReach.step .start (.first (st := FlSt.start exTwentyNine) k1 k2 k3 hC (c := 0) (by decide) (by
      intro c' _
      rw [h0, h0]))
    rw [h0] at this
    exact this
  · rw [h5]
    unfold objErr
    simp only [exTwentyNine, Finset.sum_range_one]
    norm_num

end Verif.Props
