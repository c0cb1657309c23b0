import Verif.Props.GurobiTol

/-!
# Continuous variables within Gurobi's tolerances

A point that violates bounds and rows within tolerances is clipped to the unit box and scaled down to a
feasible point.
-/

namespace Verif.Props
open Spec Model Finset LinExpr

variable {I : Inst}

/-- Capacities are at least 1 and every row sums up to at most `κ` times its capacity. -/
def RowRatio (κ : ℚ) (I : Inst) : Prop :=
  ∀ s < I.N, ∀ i < I.m, 1 ≤ I.b s i ∧ ∑ j ∈ range I.n, I.A s i j ≤ κ * I.b s i

/-- `x` clipped to the unit box and scaled down by `1 + θ`. -/
def shrinkVec (θ : ℚ) (x : Vec) : Vec := fun j => max 0 (min 1 (x j)) / (1 + θ)

theorem clip_bounds (v : ℚ) : 0 ≤ max 0 (min 1 v) ∧ max 0 (min 1 v) ≤ 1 :=
  ⟨le_max_left _ _, max_le zero_le_one (min_le_left _ _)⟩

theorem clip_le {f v : ℚ} (hf : 0 ≤ f) (h : -f ≤ v) : max 0 (min 1 v) ≤ v + f :=
  max_le (by linarith) ((min_le_right _ _).trans (by linarith))

theorem shrink_box {θ : ℚ} (hθ : 0 ≤ θ) (x : Vec) (j : ℕ) : 0 ≤ shrinkVec θ x j ∧ shrinkVec θ x j ≤ 1 := by
  obtain ⟨h1, h2⟩ := clip_bounds (x j)
  unfold shrinkVec
  exact ⟨by positivity, by rw [div_le_one (by linarith)]; linarith⟩

theorem shrink_abs {θ f : ℚ} (hθ : 0 ≤ θ) (hf : 0 ≤ f) {x : Vec} {j : ℕ} (h1 : -f ≤ x j) (h2 : x j ≤ 1 + f) :
    |x j - shrinkVec θ x j| ≤ θ + f := by
  obtain ⟨c1, c2⟩ := clip_bounds (x j)
  have c3 := clip_le hf h1
  have c4 : x j - f ≤ max 0 (min 1 (x j)) := by
    rcases le_total 1 (x j) with h | h
    · rw [min_eq_left h]; exact le_max_of_le_right (by linarith)
    · rw [min_eq_right h]; exact le_max_of_le_right (by linarith)
  unfold shrinkVec
  set c := max 0 (min 1 (x j))
  have hp : 0 < 1 + θ := by linarith
  have c5 : c / (1 + θ) ≤ c := div_le_self c1 (by linarith)
  have c6 : c - θ ≤ c / (1 + θ) := by
    rw [le_div_iff₀ hp]
    nlinarith [mul_nonneg hθ hθ, mul_nonneg hθ (sub_nonneg.2 c2)]
  exact abs_le.2 ⟨by linarith, by linarith⟩

theorem shrink_row {θ f τ κ b : ℚ} {a x : Vec} (hθ : 0 ≤ θ) (hf : 0 ≤ f) (ha : ∀ j < I.n, 0 ≤ a j)
    (hx : ∀ j < I.n, -f ≤ x j) (hs : ∑ j ∈ range I.n, a j ≤ κ * b) (hr : dot I.n a x ≤ b + τ)
    (hle : τ + f * (κ * b) ≤ θ * b) : dot I.n a (shrinkVec θ x) ≤ b := by
  have hp : 0 < 1 + θ := by linarith
  have h1 : dot I.n a (shrinkVec θ x) = (∑ j ∈ range I.n, a j * max 0 (min 1 (x j))) / (1 + θ) := by
    unfold dot shrinkVec
    rw [Finset.sum_div]
    exact Finset.sum_congr rfl fun j _ => by ring
  have h2 : ∑ j ∈ range I.n, a j * max 0 (min 1 (x j)) ≤ dot I.n a x + f * ∑ j ∈ range I.n, a j := by
    unfold dot
    rw [Finset.mul_sum, ← Finset.sum_add_distrib]
    refine Finset.sum_le_sum fun j hj => ?_
    have hj := Finset.mem_range.1 hj
    have := mul_le_mul_of_nonneg_left (clip_le hf (hx j hj)) (ha j hj)
    linarith
  rw [h1, div_le_iff₀ hp]
  have h3 := mul_le_mul_of_nonneg_left hs hf
  linarith

theorem shrink_inX (hb : I.cont = true) {θ : ℚ} (hθ : 0 ≤ θ) (x : Vec) : InX I (shrinkVec θ x) := fun j _ => by
  rw [if_pos hb]; exact shrink_box hθ x j

theorem shrink_obj (hc : NonnegC I) {x y : Vec} {d : ℚ} (h : ∀ j < I.n, |x j - y j| ≤ d) :
    |obj I x - obj I y| ≤ d * ∑ j ∈ range I.n, I.c j := by
  have : obj I x - obj I y = ∑ j ∈ range I.n, I.c j * (x j - y j) := by
    unfold Spec.obj dot
    rw [← Finset.sum_sub_distrib]
    exact Finset.sum_congr rfl fun j _ => by ring
  rw [this, Finset.mul_sum]
  refine (Finset.abs_sum_le_sum_abs _ _).trans (Finset.sum_le_sum fun j hj => ?_)
  have hj := Finset.mem_range.1 hj
  rw [abs_mul, abs_of_nonneg (hc j hj)]
  have := mul_le_mul_of_nonneg_left (h j hj) (hc j hj)
  linarith

/-- Points accepted by the evaluator. -/
theorem feasWithin_cont (hE : Equi I) (heps : 0 ≤ I.eps) (hI : NonnegAb I) (hc : NonnegC I)
    (hb : I.cont = true) {κ : ℚ} (hκ : 0 ≤ κ) (hR : RowRatio κ I) {x : Vec}
    (h : NearDom defaultTols (instCI I) x) (ha : Accepted I x) : FeasWithin ((κ + 2) / 10 ^ 6) I x := by
  have hdom : ∀ j < I.n, -(1 / 10 ^ 6) ≤ x j ∧ x j ≤ 1 + 1 / 10 ^ 6 := fun j hj => (h j hj).2
  set θ := (κ + 1) / 10 ^ 6 with hθd
  have hθ : 0 ≤ θ := by positivity
  have hd : ∀ j < I.n, |x j - shrinkVec θ x j| ≤ (κ + 2) / 10 ^ 6 := fun j hj => by
    refine (shrink_abs hθ (f := 1 / 10 ^ 6) (by norm_num) (hdom j hj).1 (hdom j hj).2).trans (le_of_eq ?_)
    rw [hθd]; ring
  refine ⟨shrinkVec θ x, ⟨shrink_inX hb hθ x, (chance_iff_card I hE heps _).2
    (le_trans (Finset.card_le_card ?_) (accepted_card (I := I) (τ := 1 / 10 ^ 6) le_rfl ha))⟩, hd, shrink_obj hc hd⟩
  intro s hs
  obtain ⟨a1, a2⟩ := Finset.mem_filter.1 hs
  have hs := Finset.mem_range.1 a1
  refine Finset.mem_filter.2 ⟨a1, ?_⟩
  by_contra hno
  refine a2 fun i hi => ?_
  obtain ⟨r1, r2⟩ := hR s hs i hi
  refine shrink_row (τ := 1 / 10 ^ 6) (f := 1 / 10 ^ 6) hθ (by norm_num) (hI s hs i hi).2
    (fun j hj => (hdom j hj).1) r2 ?_ ?_
  · by_contra hv
    push Not at hv
    exact hno ⟨i, hi, by linarith⟩
  · rw [hθd]
    linarith

/-! ## Big-M rows -/

theorem near_kept {J : CI} {Ms : List (List ℚ)} {ρ : V → ℚ}
    (h : ∀ c ∈ ((List.range J.nbScen).map fun s =>
      ((List.range (J.nbCon s)).map fun i =>
        bigMConstrs J s i (bigMAt Ms s i)).flatten).flatten, c.Near wideTols ρ)
    {s i : ℕ} (hs : s < J.nbScen) (hi : i < J.nbCon s) (hM : bigMAt Ms s i ≥ -(1 / 10 ^ 6)) {m : ℚ}
    (hm : bigMAt Ms s i ≤ m) (hm1 : 1 / 10 ^ 6 ≤ m) (hz : |ρ (.z s) - 1| ≤ 1 / 10 ^ 9) :
    dot J.n (J.row s i) (fun j => ρ (.x j)) ≤ J.rhs s i + (2 / 10 ^ 9 + m / 10 ^ 9) := by
  have h1 : ∀ c ∈ bigMConstrs J s i (bigMAt Ms s i), c.Near wideTols ρ := fun c hc =>
    h c (List.mem_flatten.2 ⟨_, List.mem_map.2 ⟨s, List.mem_range.2 hs, rfl⟩,
      List.mem_flatten.2 ⟨_, List.mem_map.2 ⟨i, List.mem_range.2 hi, rfl⟩, hc⟩⟩)
  unfold bigMConstrs at h1
  rw [if_pos hM] at h1
  have h2 := h1 (bigMConstr J s i (bigMAt Ms s i)) (by simp)
  simp only [bigMConstr, Constr.Near, Lin.Near, wideTols] at h2
  simp [eval_lhsExpr] at h2
  have h3 : bigMAt Ms s i * (1 - ρ (.z s)) ≤ m / 10 ^ 9 := by
    refine (le_abs_self _).trans ?_
    rw [abs_mul, abs_sub_comm]
    have : |bigMAt Ms s i| ≤ m := abs_le.2 ⟨by linarith, hm⟩
    calc |bigMAt Ms s i| * |ρ (.z s) - 1| ≤ m * (1 / 10 ^ 9) :=
          mul_le_mul this hz (abs_nonneg _) (by linarith)
      _ = m / 10 ^ 9 := by ring
  linarith

/-- The distance of reported points from feasible ones. -/
def contTol (κ : ℚ) : ℚ := (3 * κ + 5) / 10 ^ 9

/-- Reported points of the extended formulation; big-Ms may be wrong by up to `1e-6`. -/
theorem cont_answer (hE : Equi I) (heps : 0 ≤ I.eps) (htol : TolOk I) (hI : NonnegAb I) (hc : NonnegC I)
    (hb : I.cont = true) {κ : ℚ} (hκ : 0 ≤ κ) (hR : RowRatio κ I) {bigM : Option (List (List ℚ))} {e : ℚ}
    (he : e ≤ 1 / 10 ^ 6)
    (hM : ∀ Ms, bigM = some Ms → Shape (instCI I) Ms
      ∧ (∀ x z, InDom (instCI I) x → ZOk (instCI I) z x → ∀ s < I.N, ∀ i < I.m,
        dot I.n (I.A s i) x ≤ I.b s i + bigMAt Ms s i + e)
      ∧ ∀ s < I.N, ∀ i < I.m, bigMAt Ms s i ≤ ∑ j ∈ range I.n, I.A s i j + 1)
    {gap : ℚ} {g : GModel} (hg : buildCCLP (instCI I) bigM [] [] gap = .ok g) {ρ : V → ℚ}
    (hρ : g.Feas ρ ∨ g.NearFeas wideTols ρ) :
    ∃ y, Feas I y ∧ (∀ j < I.n, |ρ (.x j) - y j| ≤ contTol κ) := by
  have hN : (0 : ℚ) < I.N := by exact_mod_cast hE.1
  have hnn := nonnegCI_inst hI hc
  set θ := (3 * κ + 3) / 10 ^ 9 with hθd
  have hθ : 0 ≤ θ := by positivity
  set y := shrinkVec θ fun j => ρ (.x j) with hyd
  have hy := shrink_inX hb hθ fun j => ρ (.x j)
  -- what the two kinds of models have in common
  suffices key : NearDom wideTols (instCI I) (fun j => ρ (.x j))
      ∧ (∀ s < I.N, |ρ (.z s)| ≤ wideTols.int ∨ |ρ (.z s) - 1| ≤ wideTols.int)
      ∧ 1 - I.eps - wideTols.feas ≤ ∑ s ∈ range I.N, I.proba s * ρ (.z s)
      ∧ ((∀ j < I.n, -(2 / 10 ^ 9) ≤ ρ (.x j)) →
        ((range I.N).filter fun c => ¬ |ρ (.z c) - 1| ≤ 1 / 10 ^ 9).card ≤ kmax I →
        ∀ s < I.N, |ρ (.z s) - 1| ≤ 1 / 10 ^ 9 → Sat I s y) by
    obtain ⟨k1, k2, k3, k4⟩ := key
    have hcard := near_count_core (I := I) (t := wideTols) htol hE.1 le_rfl (ep := I.eps) rfl
      (pr := I.proba) hE.2 (by norm_num [wideTols]) (z := fun c => ρ (.z c)) k2 k3
    have hdom : ∀ j < I.n, -(2 / 10 ^ 9) ≤ ρ (.x j) ∧ ρ (.x j) ≤ 1 + 2 / 10 ^ 9 := fun j hj => (k1 j hj).2
    refine ⟨y, ⟨hy, (chance_iff_card I hE heps _).2 (le_trans (Finset.card_le_card ?_) hcard)⟩,
      fun j hj => ?_⟩
    · intro s hs
      obtain ⟨c1, c2⟩ := Finset.mem_filter.1 hs
      exact Finset.mem_filter.2 ⟨c1, fun hz => c2 (k4 (fun j hj => (hdom j hj).1) hcard s
        (Finset.mem_range.1 c1) hz)⟩
    · refine (shrink_abs (x := fun j => ρ (.x j)) hθ (f := 2 / 10 ^ 9) (by norm_num) (hdom j hj).1
        (hdom j hj).2).trans (le_of_eq ?_)
      rw [hθd, contTol]; ring
  have row : (∀ j < I.n, -(2 / 10 ^ 9) ≤ ρ (.x j)) → ∀ s < I.N, ∀ i < I.m,
      dot I.n (I.A s i) (fun j => ρ (.x j)) ≤ I.b s i
        + (2 / 10 ^ 9 + (∑ j ∈ range I.n, I.A s i j + 1) / 10 ^ 9) → dot I.n (I.A s i) y ≤ I.b s i := by
    intro hx s hs i hi hr
    obtain ⟨r1, r2⟩ := hR s hs i hi
    refine shrink_row (f := 2 / 10 ^ 9) hθ (by norm_num) (hI s hs i hi).2 hx r2 hr ?_
    rw [hθd]
    linarith
  unfold buildCCLP at hg
  cases bigM with
  | none =>
    simp only [List.not_mem_nil, false_and, exists_false, if_false, bind, Except.bind, pure, Except.pure] at hg
    have hg' : g = cclpModel (instCI I) (allIndicators (instCI I)) [] gap := by cases hg; rfl
    rw [hg'] at hρ
    obtain ⟨h1, h2, h3, h4⟩ := near_cclp (near_or wideTols_pos (indBinary_cclp ind_indicators) hρ)
    refine ⟨h1, fun s hs => (h2 s hs).1, h3, fun hx _ s hs hz i hi => row hx s hs i hi ?_⟩
    have h5 : dot I.n (I.A s i) (fun j => ρ (.x j)) ≤ I.b s i + 2 / 10 ^ 9 :=
      near_indicators h4 s hs hz i hi
    have h6 : 0 ≤ ∑ j ∈ range I.n, I.A s i j :=
      Finset.sum_nonneg fun j hj => (hI s hs i hi).2 j (Finset.mem_range.1 hj)
    have : 0 ≤ (∑ j ∈ range I.n, I.A s i j + 1) / 10 ^ 9 := by positivity
    linarith
  | some Ms =>
    obtain ⟨m1, m2, m3⟩ := hM Ms rfl
    simp only [List.not_mem_nil, false_and, exists_false, if_false, allBigM_ok m1, bind, Except.bind, pure,
      Except.pure] at hg
    have hg' : g = cclpModel (instCI I) ((List.range I.N).map fun s =>
      ((List.range I.m).map fun i =>
        bigMConstrs (instCI I) s i (bigMAt Ms s i)).flatten).flatten [] gap := by cases hg; rfl
    rw [hg'] at hρ
    obtain ⟨h1, h2, h3, h4⟩ := near_cclp (near_or wideTols_pos (indBinary_cclp ind_bigM) hρ)
    refine ⟨h1, fun s hs => (h2 s hs).1, h3, fun hx hcard s hs hz i hi => ?_⟩
    -- rows that are in the model
    have kept : ∀ s < I.N, |ρ (.z s) - 1| ≤ 1 / 10 ^ 9 → ∀ i < I.m, bigMAt Ms s i ≥ -(1 / 10 ^ 6) →
        dot I.n (I.A s i) y ≤ I.b s i := fun s hs hz i hi hge => by
      have h6 : 0 ≤ ∑ j ∈ range I.n, I.A s i j :=
        Finset.sum_nonneg fun j hj => (hI s hs i hi).2 j (Finset.mem_range.1 hj)
      exact row hx s hs i hi (near_kept (J := instCI I) h4 hs hi hge (m3 s hs i hi) (by linarith) hz)
    by_cases hge : bigMAt Ms s i ≥ -(1 / 10 ^ 6)
    · exact kept s hs hz i hi hge
    · let z : ℕ → ℚ := fun s => if |ρ (.z s) - 1| ≤ 1 / 10 ^ 9 then 1 else 0
      refine skipped_rows_err (J := instCI I) hnn hb he (z := z) m2 (x := y) hy
        (fun s _ => by
          by_cases h : |ρ (.z s) - 1| ≤ 1 / 10 ^ 9
          · exact Or.inr (if_pos h)
          · exact Or.inl (if_neg h)) ?_ ?_ hs hi hge
      · -- the rounded indicators satisfy the chance constraint
        show ∑ s ∈ range I.N, I.proba s * z s ≥ 1 - I.eps
        have h7 : ∑ s ∈ range I.N, I.proba s * z s
            = 1 - ((range I.N).filter fun c => ¬ |ρ (.z c) - 1| ≤ 1 / 10 ^ 9).card / I.N := by
          have h8 : ∀ s ∈ range I.N, I.proba s * z s
              = I.proba s - (if ¬ |ρ (.z s) - 1| ≤ 1 / 10 ^ 9 then 1 else 0) / I.N := fun s hs => by
            rw [hE.2 s (Finset.mem_range.1 hs)]
            by_cases h : |ρ (.z s) - 1| ≤ 1 / 10 ^ 9
            · simp only [z, if_pos h, not_true_eq_false, if_false, h]; ring
            · simp only [z, if_neg h, not_false_eq_true, if_true, h]; ring
          rw [Finset.sum_congr rfl h8, Finset.sum_sub_distrib, equi_sum hE, ← Finset.sum_div,
            Finset.sum_boole]
        have h9 : (((range I.N).filter fun c => ¬ |ρ (.z c) - 1| ≤ 1 / 10 ^ 9).card : ℚ) ≤ I.eps * I.N :=
          le_trans (by exact_mod_cast hcard) (Nat.floor_le (mul_nonneg heps hN.le))
        rw [h7]
        have := (div_le_iff₀ hN).2 h9
        linarith
      · intro s hs hz1 i hi hge
        refine kept s hs ?_ i hi hge
        by_contra h
        simp only [z, if_neg h] at hz1
        exact absurd hz1 (by norm_num)

end Verif.Props
