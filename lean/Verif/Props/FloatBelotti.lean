import Verif.Props.FloatMilp
import Verif.Props.BelottiTol

/-!
# C105: method 2 of main.py on doubles
-/

namespace Verif.Props
open Spec Model Finset LinExpr

variable {env : Env} {I : Inst} {t : Tols}

/-- A vector as a point of a problem. -/
def vecPoint (x : Vec) : V → ℚ
  | .x j => x j
  | _ => 0

/-! ## Costs of the scenarios -/

theorem near_add_of {J : CI} {t : Tols} (ss : List ℕ) : ∀ (d : Deter) (ρ : V → ℚ),
    d.g.NearFeas t ρ → (∀ s ∈ ss, ∀ c ∈ rowsC J s, c.Near t ρ) → (Deter.add J d ss).g.NearFeas t ρ := by
  induction ss with
  | nil => intro d ρ h _; exact h
  | cons s ss ih =>
    intro d ρ h h2
    refine ih (d.add1 J s) ρ ?_ fun s' hs' => h2 s' (List.mem_cons_of_mem _ hs')
    exact (near_addConstrs d.g (rowsC J s) ρ).2 ⟨h, h2 s (by simp)⟩

/-- Rows of the exact instance and of the doubles, for points of the box. -/
theorem dbl_row (hI : NonnegAb I) (hM : Model.Moderate I) {y : Vec} (hy : InX I y) {s i : ℕ} (hs : s < I.N)
    (hi : i < I.m) : |dot I.n (I.A s i) y - dot I.n ((dbl I).A s i) y| ≤ 1 / 10 ^ 10
      ∧ |I.b s i - (dbl I).b s i| ≤ 1 / 10 ^ 10 := by
  have hR := rowsNear_inst hI hM
  have h1 := hR.lhs (ρ := vecPoint y) (s := s) (i := i) (fun j hj => by
    obtain ⟨y0, y1⟩ := inX_box hy j hj
    show |y j| ≤ 2
    exact abs_le.2 ⟨by linarith, by linarith⟩) hs hi
  rw [eval_lhsExpr, eval_lhsExpr] at h1
  have h2 := hR.rhs_err (s := s) (i := i) hs hi
  exact ⟨h1.trans (by norm_num [ulp]), h2.trans (by norm_num [ulp])⟩

theorem scenario_near (hI : NonnegAb I) (hM : Model.Moderate I) {y : Vec} (hy : InX I y) {s : ℕ}
    (hs : s < I.N) (hsat : Sat I s y) :
    (Deter.build (instCI (dbl I)) [s]).g.NearFeas ⟨0, 2 / 10 ^ 10⟩ (vecPoint y) := by
  refine near_add_of [s] _ _ ?_ fun t ht c hc => ?_
  · refine near_of_feas (t := ⟨0, 2 / 10 ^ 10⟩) le_rfl (by norm_num) (by norm_num) ?_ ?_
    · intro c hc
      simp [GModel.setObjective, GModel.addVars, GModel.empty] at hc
    · rw [feas_setObjective, feas_addVars, varX_ok]
      exact ⟨feas_empty _, hy⟩
  · rw [List.mem_singleton.1 ht] at hc
    obtain ⟨i, hi, rfl⟩ := List.mem_map.1 hc
    have hi : i < I.m := List.mem_range.1 hi
    obtain ⟨e1, e2⟩ := dbl_row hI hM hy hs hi
    have h := hsat i hi
    have e1 := abs_le.1 e1
    have e2 := abs_le.1 e2
    simp only [rowC, Constr.Near, Lin.Near, eval_lhsExpr]
    have : dot (instCI (dbl I)).n ((instCI (dbl I)).row s i) (fun j => vecPoint y (.x j))
        ≤ (instCI (dbl I)).rhs s i + 2 / 10 ^ 10 := by
      show dot I.n ((dbl I).A s i) y ≤ (dbl I).b s i + _
      linarith
    simpa using this

/-- The reported cost of a scenario against the points that satisfy it. -/
theorem flCost (hI : NonnegAb I) (hM : Model.Moderate I) {solve : GModel → GResult} {s : ℕ}
    (hs : s < I.N) (h : GResult.FlAnswers defaultTols (2 / 10 ^ 10) (Deter.build (instCI (dbl I)) [s]).g
      (solve (Deter.build (instCI (dbl I)) [s]).g))
    {p : ℚ × Vec} (hr : subsetCost (dbl I) solve [s] = .ok p) {y : Vec} (hy : InX I y) (hsat : Sat I s y) :
    obj (dbl I) y ≤ (1 + 1 / 10 ^ 4) * p.1 := by
  have hn := scenario_near hI hM hy hs hsat
  have hb := h.bound _ hn
  have hg := h.gap (h.status ⟨_, hn⟩)
  rw [build_mipGap] at hg
  rw [build_obj] at hb
  have hb : obj (dbl I) y ≤ _ := hb
  have h0 : 0 ≤ obj (dbl I) y := obj_nonneg (I := dbl I) (fun j _ => fl64_nonneg _) hy
  have hp : p.1 = (solve (Deter.build (instCI (dbl I)) [s]).g).objVal := by
    unfold subsetCost at hr
    rw [optimize, if_neg h.notInterrupted] at hr
    simp only [bind, Except.bind] at hr
    cases hs : (solve (Deter.build (instCI (dbl I)) [s]).g).sol with
    | none => simp only [getObjVal, hs] at hr; cases hr
    | some ρ =>
      simp only [getObjVal, getX, getSol, hs, bind, Except.bind, pure, Except.pure] at hr
      cases hr
      rfl
  rw [hp]
  generalize (solve (Deter.build (instCI (dbl I)) [s]).g).objVal = v at hg
  generalize (solve (Deter.build (instCI (dbl I)) [s]).g).objBnd = u at hg hb
  have h1 := le_abs_self (u - v)
  have hv : 0 ≤ v := by
    by_contra hneg
    rw [abs_of_neg (not_le.1 hneg)] at hg
    linarith [not_le.1 hneg]
  rw [abs_of_nonneg hv] at hg
  linarith

/-! ## The quantile -/

/-- A point that violates at most `⌊p N / 100⌋` scenarios satisfies one whose cost is not above the
quantile computed in doubles. -/
theorem flQuantile_scenario (argsort : Argsort) (hE : Equi I) {p : ℕ} (hp : p < 100) (heps : I.eps = p / 100)
    (hN : I.N ≤ 90000) {costs : List ℚ} (hl : costs.length = I.N) {t : ℕ}
    (ht : flQuantile (dbl I) (argsort.run costs) = some t) {x : Vec} (hx : Chance I x) :
    ∃ s < I.N, Sat I s x ∧ costs.getD s 0 ≤ costs.getD t 0 := by
  obtain ⟨hperm, hsort⟩ := argsort.spec costs
  rw [hl] at hperm
  obtain ⟨hlt, hq⟩ := C91_quantile I hE p hp heps hN _ hperm
  rw [hq] at ht
  set k := p * I.N / 100 with hk
  set l := argsort.run costs with hll
  have hlen : l.length = I.N := by rw [hperm.length_eq, List.length_range]
  have hkl : k < l.length := by omega
  rw [List.getElem?_eq_getElem hkl] at ht
  have ht : l[k] = t := Option.some.inj ht
  by_contra hno
  push Not at hno
  have hsub : (l.take (k + 1)).toFinset ⊆ viol I x := by
    intro s hs
    rw [List.mem_toFinset] at hs
    have hsN : s < I.N := List.mem_range.1 (hperm.mem_iff.1 (List.mem_of_mem_take hs))
    refine Finset.mem_filter.2 ⟨Finset.mem_range.2 hsN, fun hsat => ?_⟩
    refine absurd (hno s hsN hsat) (not_lt.2 ?_)
    obtain ⟨i, hi, rfl⟩ := List.getElem_of_mem hs
    rw [List.getElem_take, ← ht]
    have hi' : i < k + 1 := by rw [List.length_take] at hi; omega
    rcases Nat.lt_or_ge i k with h | h
    · exact List.pairwise_iff_getElem.1 hsort i k (by omega) hkl h
    · have : i = k := by omega
      subst this
      exact le_rfl
  have hnd : (l.take (k + 1)).Nodup :=
    (hperm.nodup_iff.2 List.nodup_range).sublist (List.take_sublist _ _)
  have hcard := Finset.card_le_card hsub
  rw [List.toFinset_card_of_nodup hnd, List.length_take, Nat.min_eq_left (by omega)] at hcard
  have hch : ((viol I x).card : ℚ) * (1 / I.N) ≤ p / 100 := by
    have h := hx
    unfold Chance at h
    rw [heps] at h
    refine le_trans (le_of_eq ?_) h
    have hc : ∀ s ∈ viol I x, I.proba s = 1 / I.N := fun s hs =>
      hE.2 s (Finset.mem_range.1 (Finset.mem_filter.1 hs).1)
    rw [Finset.sum_congr rfl hc, Finset.sum_const, nsmul_eq_mul]
  have hN0 : (0 : ℚ) < I.N := by exact_mod_cast hE.1
  have h1 : ((viol I x).card : ℚ) * 100 ≤ p * I.N := by
    rw [mul_one_div, div_le_div_iff₀ hN0 (by norm_num)] at hch
    exact hch
  have h2 : (viol I x).card * 100 ≤ p * I.N := by exact_mod_cast h1
  have h3 : (viol I x).card ≤ k := by rw [hk, Nat.le_div_iff_mul_le (by norm_num)]; exact h2
  omega

/-! ## Big-Ms -/

theorem flBelotti_answers (hI : OneDecimal I) (hM : Model.Moderate I)
    {solve : GModel → GResult} {q : ℚ} (hq : 0 ≤ q)
    (hbig : ∀ s < I.N, ∀ i < I.m, GResult.FlAnswers bigTols 0
      (buildBigMKnapsack (instCI (dbl I)) q s i (1 / 10 ^ 8))
      (solve (buildBigMKnapsack (instCI (dbl I)) q s i (1 / 10 ^ 8)))) :
    ∃ Ms, belottiMip solve (instCI (dbl I)) I.N q (1 / 10 ^ 8) = .ok Ms ∧ DoubleMs (instCI I) Ms
      ∧ ∀ y, InX I y → obj (dbl I) y ≤ q → ∀ s < I.N, ∀ i < I.m,
        dot I.n (I.A s i) y ≤ I.b s i + bigMAt Ms s i + 2 / 10 ^ 10 := by
  unfold belottiMip
  obtain ⟨Ms, h1, h2, h3⟩ := table_ok (instCI (dbl I)) (fun s i => do
    let r ← optimize (solve (buildBigMKnapsack (instCI (dbl I)) q s i (1 / 10 ^ 8)))
    pure r.objBnd) (fun s hs i hi =>
      ⟨_, by rw [optimize, if_neg (hbig s hs i hi).notInterrupted]; rfl⟩)
  have hat : ∀ s < I.N, ∀ i < I.m,
      (solve (buildBigMKnapsack (instCI (dbl I)) q s i (1 / 10 ^ 8))).objBnd = bigMAt Ms s i :=
    fun s hs i hi => by
      have h := h3 s hs i hi
      simpa only [optimize, if_neg (hbig s hs i hi).notInterrupted, bind, Except.bind, pure, Except.pure,
        Except.ok.injEq] using h
  have hpt : ∀ s i y, InX I y → obj (dbl I) y ≤ q →
      (buildBigMKnapsack (instCI (dbl I)) q s i (1 / 10 ^ 8)).NearFeas ⟨0, 0⟩ (vecPoint y) := by
    intro s i y hy hv
    refine near_of_feas (t := ⟨0, 0⟩) le_rfl le_rfl (by norm_num) ?_
      ((bigMKnapsack_feas _ q s i _ _).2 ⟨hy, hv⟩)
    intro c hc v val l he
    simp [buildBigMKnapsack, GModel.setObjective, GModel.setMIPGap, GModel.addConstr,
      GModel.addVars, GModel.empty] at hc
    rw [hc] at he
    cases he
  have hcov : ∀ y, InX I y → obj (dbl I) y ≤ q → ∀ s < I.N, ∀ i < I.m,
      dot I.n ((dbl I).A s i) y ≤ (dbl I).b s i + bigMAt Ms s i := by
    intro y hy hv s hs i hi
    have hbd := (hbig s hs i hi).bound _ (hpt s i y hy hv)
    rw [bigMKnapsack_obj, hat s hs i hi] at hbd
    have hbd : dot I.n ((dbl I).A s i) y - (dbl I).b s i ≤ bigMAt Ms s i := hbd
    linarith
  have hobj0 : obj (dbl I) (fun _ => 0) = 0 := by unfold Spec.obj dot; simp
  refine ⟨Ms, h1, ⟨h2, fun s hs i hi => ⟨?_, ?_⟩⟩, fun y hy hv s hs i hi => ?_⟩
  · rw [← hat s hs i hi]
    exact (hbig s hs i hi).double
  · have hs : s < I.N := hs
    have hi : i < I.m := hi
    obtain ⟨m1, m2⟩ := hM s hs i hi
    obtain ⟨n1, n2⟩ := hI.1 s hs i hi
    have b0 : 0 ≤ (dbl I).b s i := fl64_nonneg _
    have b1 : (dbl I).b s i ≤ 5001 := by
      have := (abs_le.1 (dbl_row hI.1 hM (zero_inX I) hs hi).2).1
      linarith
    have hlow := hcov _ (zero_inX I) (by rw [hobj0]; exact hq) s hs i hi
    have hd0 : dot I.n ((dbl I).A s i) (fun _ => 0) = 0 := by unfold dot; simp
    rw [hd0] at hlow
    set g := buildBigMKnapsack (instCI (dbl I)) q s i (1 / 10 ^ 8) with hg
    have hst := (hbig s hs i hi).status ⟨_, hpt s i _ (zero_inX I) (by rw [hobj0]; exact hq)⟩
    obtain ⟨ρ, hρ⟩ := Option.isSome_iff_exists.1 ((hbig s hs i hi).optimal hst)
    obtain ⟨hf, hv⟩ := (hbig s hs i hi).feas ρ hρ
    have hgap := (hbig s hs i hi).gap hst
    change |_ - _| ≤ 1 / 10 ^ 8 * |_| at hgap
    have hd : NearDom bigTols (instCI (dbl I)) fun j => ρ (.x j) := by
      refine near_varX fun d hd => hf.1 d ?_
      simpa [hg, buildBigMKnapsack, GModel.setObjective, GModel.setMIPGap, GModel.addConstr,
        GModel.addVars, GModel.empty] using hd
    have hle : ∀ j ∈ range I.n, |(dbl I).A s i j * ρ (.x j)| ≤ 4 * I.A s i j := fun j hj => by
      have hj := Finset.mem_range.1 hj
      obtain ⟨-, e1, e2⟩ := hd j hj
      have e3 : |ρ (.x j)| ≤ 2 := by
        rw [abs_le]
        norm_num [bigTols] at e1 e2
        constructor <;> linarith
      have e4 : |(dbl I).A s i j| ≤ 2 * I.A s i j := by
        have h := abs_le.1 (fl64_err (n2 j hj))
        show |fl64 (I.A s i j)| ≤ _
        rw [abs_of_nonneg (fl64_nonneg _)]
        have : (1 / 2 ^ 53 : ℚ) * I.A s i j ≤ I.A s i j := by
          nlinarith [n2 j hj]
        nlinarith [h.2, n2 j hj]
      rw [abs_mul]
      have := mul_le_mul e4 e3 (abs_nonneg _) (by linarith [n2 j hj])
      linarith
    have hsum : |∑ j ∈ range I.n, (dbl I).A s i j * ρ (.x j)| ≤ 4 * 20000 := by
      refine (Finset.abs_sum_le_sum_abs _ _).trans ((Finset.sum_le_sum hle).trans ?_)
      rw [← Finset.mul_sum]
      linarith
    rw [bigMKnapsack_obj] at hv
    have hval : (solve g).objVal = ∑ j ∈ range I.n, (dbl I).A s i j * ρ (.x j) - (dbl I).b s i := hv.symm
    have habs : |(solve g).objVal| ≤ 90000 := by
      rw [hval, abs_le]
      rw [abs_le] at hsum
      constructor <;> linarith
    rw [← hat s hs i hi, ← hg] at hlow ⊢
    rw [← hg] at hgap
    have h4 := le_abs_self ((solve g).objBnd - (solve g).objVal)
    have h5 := le_abs_self (solve g).objVal
    exact abs_le.2 ⟨by linarith, by linarith⟩
  · obtain ⟨e1, e2⟩ := dbl_row hI.1 hM hy hs hi
    have e1 := abs_le.1 e1
    have e2 := abs_le.1 e2
    have := hcov y hy hv s hs i hi
    linarith

/-! ## The run -/

/-- The problems that method 2 hands to Gurobi at the end. -/
def IsMethod2Problem (env : Env) (I : Inst) (gap : ℚ) (g : GModel) : Prop :=
  ∃ costs s Ms, allScenarioCosts (dbl I) (env.sub 0) = .ok costs
    ∧ flQuantile (dbl I) (env.argsort.run costs) = some s
    ∧ flRunBelotti env I (costs.getD s 0) = .ok Ms
    ∧ flBuildCCLP (instCI (dbl I)) (some Ms) [] [] gap = .ok g

theorem flRunBelotti_bin (env : Env) {I : Inst} (hb : I.cont = false) (hn : 0 < I.n) (q : ℚ) :
    flRunBelotti env I q = belottiMip (env.big 0) (instCI (dbl I)) I.N q (1 / 10 ^ 8) := by
  unfold flRunBelotti
  rw [if_pos ⟨hb, hn⟩]

/-- **C105 (what holds).**  The full claim, that `vUB` bounds every feasible objective up to the rounding
of the values, is false (`C105_counterexample`).  Method 2 of main.py on doubles, for binary instances with
one decimal digit and moderate capacities, risk levels `p/100` and up to 90000 scenarios; Gurobi answers
the problems with rounded coefficients within its tolerances and gaps.  If `solve` returns, `xLB` is within
`1e-9` of a point that satisfies the exact chance constraint, whose objective is `vLB` up to `1e-9` times
the sum of the values and the rounding of the objective.  Let `q` be the quantile of the scenario costs:
every feasible point with an objective (of the rounded values) up to `q` has an objective up to `vUB`, and
no feasible objective exceeds `(1 + 1e-4) * q`, both up to the rounding of the objective.  So `vUB` bounds
all feasible objectives if no reported scenario cost is below a value of that scenario, and up to the
factor `1 + 1e-4` if `vUB` is at least `q`. -/
theorem C105_method2_partial (hE : Equi I) (p : ℕ) (hp : p < 100) (heps : I.eps = p / 100)
    (htol : TolOk I) (hN : I.N ≤ 90000) (hI : OneDecimal I) (hM : Model.Moderate I) (hc : NonnegC I)
    (hb : I.cont = false) (hn : 0 < I.n) (timeLimit gap : ℚ)
    (hsub : ∀ s < I.N, GResult.FlAnswers defaultTols (2 / 10 ^ 10) (Deter.build (instCI (dbl I)) [s]).g
      (env.sub 0 s (Deter.build (instCI (dbl I)) [s]).g))
    (hbig : ∀ costs t, allScenarioCosts (dbl I) (env.sub 0) = .ok costs →
      flQuantile (dbl I) (env.argsort.run costs) = some t → ∀ s < I.N, ∀ i < I.m,
      GResult.FlAnswers bigTols 0 (buildBigMKnapsack (instCI (dbl I)) (costs.getD t 0) s i (1 / 10 ^ 8))
        (env.big 0 (buildBigMKnapsack (instCI (dbl I)) (costs.getD t 0) s i (1 / 10 ^ 8))))
    (hcc : ∀ g, IsMethod2Problem env I gap g → GResult.FlValid cclpTols (4 / 10 ^ 10) g (env.cc 0 g))
    (r : MilpSt) (h : flMilpBelotti env I timeLimit gap = .ok r) :
    (∃ y, Feas I y ∧ (∀ j < I.n, |r.xLB j - y j| ≤ 1 / 10 ^ 9)
      ∧ |r.vLB - obj I y| ≤ 1 / 10 ^ 9 * ∑ j ∈ range I.n, I.c j + objErr I)
    ∧ ∃ costs t, allScenarioCosts (dbl I) (env.sub 0) = .ok costs
      ∧ flQuantile (dbl I) (env.argsort.run costs) = some t
      ∧ (∀ y, Feas I y → obj (dbl I) y ≤ costs.getD t 0 → obj I y ≤ r.vUB + objErr I)
      ∧ (∀ y, Feas I y → obj I y ≤ (1 + 1 / 10 ^ 4) * costs.getD t 0 + objErr I)
      ∧ ((∀ s < I.N, ∀ y, InX I y → Sat I s y → obj (dbl I) y ≤ costs.getD s 0) →
          ∀ y, Feas I y → obj I y ≤ r.vUB + objErr I)
      ∧ (costs.getD t 0 ≤ r.vUB → ∀ y, Feas I y → obj I y ≤ (1 + 1 / 10 ^ 4) * r.vUB + objErr I) := by
  have heps0 : 0 ≤ I.eps := by rw [heps]; positivity
  have heps1 : I.eps ≤ 1 := by
    rw [heps, div_le_one (by norm_num)]
    exact_mod_cast hp.le
  unfold flMilpBelotti at h
  cases hcs : allScenarioCosts (dbl I) (env.sub 0) with
  | error e => rw [hcs] at h; cases h
  | ok costs =>
  rw [hcs] at h
  cases hq : flQuantile (dbl I) (env.argsort.run costs) with
  | none => simp only [bind, Except.bind, hq] at h; cases h
  | some t =>
  simp only [bind, Except.bind, hq] at h
  have hcs' := hcs
  unfold allScenarioCosts scenarioCosts at hcs'
  obtain ⟨hl, hk⟩ := mapM_inv _ _ _ hcs'
  rw [List.length_zipIdx, List.length_range] at hl
  have hl : costs.length = I.N := hl
  have hcost : ∀ s < I.N, ∀ y, InX I y → Sat I s y →
      obj (dbl I) y ≤ (1 + 1 / 10 ^ 4) * costs.getD s 0 := by
    intro s hs y hy hsat
    have hs2 : s < costs.length := by omega
    have h1 := hk s (by rw [List.length_zipIdx, List.length_range]; exact hs) hs2
    rw [List.getElem_zipIdx, List.getElem_range] at h1
    simp only at h1
    rw [List.getD_eq_getElem _ _ hs2]
    cases hcs : subsetCost (dbl I) (env.sub 0 (0 + s)) [s] with
    | error e => rw [hcs] at h1; cases h1
    | ok p =>
      rw [hcs] at h1
      have he : p.1 = costs[s] := Except.ok.inj h1
      rw [← he]
      rw [Nat.zero_add] at hcs
      exact flCost hI.1 hM hs (hsub s hs) hcs hy hsat
  have hround : ∀ y, InX I y → obj I y ≤ obj (dbl I) y + objErr I := fun y hy => by
    have : obj I y - obj (dbl I) y ≤ objErr I := by
      unfold Spec.obj dot objErr
      show ∑ j ∈ range I.n, _ - ∑ j ∈ range I.n, _ ≤ _
      rw [← Finset.sum_sub_distrib, Finset.mul_sum]
      refine Finset.sum_le_sum fun j hj => ?_
      have hj := Finset.mem_range.1 hj
      obtain ⟨y0, y1⟩ := inX_box hy j hj
      have e1 := abs_le.1 (fl64_err (hc j hj))
      have c0 := hc j hj
      show I.c j * y j - fl64 (I.c j) * y j ≤ _
      rw [← sub_mul]
      have e2 : I.c j - fl64 (I.c j) ≤ 1 / 2 ^ 52 * I.c j := by linarith [e1.1]
      calc (I.c j - fl64 (I.c j)) * y j ≤ (1 / 2 ^ 52 * I.c j) * y j := mul_le_mul_of_nonneg_right e2 y0
        _ ≤ 1 / 2 ^ 52 * I.c j := mul_le_of_le_one_right (by positivity) y1
    linarith
  have hquant : ∀ y, Feas I y → obj (dbl I) y ≤ (1 + 1 / 10 ^ 4) * costs.getD t 0 := fun y hy => by
    obtain ⟨s, hs, hsat, hle⟩ := flQuantile_scenario env.argsort hE hp heps hN hl hq hy.2
    have := hcost s hs y hy.1 hsat
    linarith
  have hzero : Feas I fun _ => 0 := by
    refine ⟨zero_inX I, ?_⟩
    have : viol I (fun _ => 0) = ∅ := by
      refine Finset.filter_eq_empty_iff.2 fun s hs => not_not.2 ?_
      exact zero_satAll (l := [s]) hI.1 (by simpa using hs) s (by simp)
    unfold Chance
    rw [this]
    simpa using heps0
  have hq0 : 0 ≤ costs.getD t 0 := by
    have := hquant _ hzero
    have h0 : obj (dbl I) (fun _ => 0) = 0 := by unfold Spec.obj dot; simp
    rw [h0] at this
    linarith
  obtain ⟨Ms, m1, m2, m3⟩ := flBelotti_answers hI hM hq0 (hbig costs t hcs hq)
  rw [flRunBelotti_bin env hb hn, m1] at h
  simp only [pure, Except.pure] at h
  split at h
  · cases h
  rename_i out ho
  cases h
  obtain ⟨g, ρ, b1, b2, b3, b4, b5⟩ := flSolveCclp_inv ho
  have hr := hcc g ⟨costs, t, Ms, hcs, hq, (flRunBelotti_bin env hb hn _).trans m1, b1⟩
  obtain ⟨k1, -, k3⟩ := big_m_error_on hE heps0 heps1 htol hI hM hc hb Ms m2 (2 / 10 ^ 10) (by norm_num)
    (by norm_num) (fun y => obj (dbl I) y ≤ costs.getD t 0) (fun y hy hle => m3 y hy.1 hle) gap g b1
    (env.cc 0 g) (by convert hr using 1; norm_num)
  dsimp only
  rw [b3, b4, b5]
  refine ⟨k3 ρ b2, costs, t, rfl, hq, k1, fun y hy => ?_, fun hex y hy => ?_, fun hle y hy => ?_⟩
  · have := hquant y hy
    have := hround y hy.1
    linarith
  · obtain ⟨s, hs, hsat, hle⟩ := flQuantile_scenario env.argsort hE hp heps hN hl hq hy.2
    exact k1 y hy ((hex s hs y hy.1 hsat).trans hle)
  · have := hquant y hy
    have := hround y hy.1
    linarith

/-! ## Example and counterexample -/

/-- The point with the given values of two items; all scenarios are satisfied. -/
def pairPoint (a b : ℚ) : V → ℚ
  | .x j => if j = 0 then a else b
  | .z _ => 1
  | _ => 0

/-- An answer with this point, the value of the objective there and a bound `d` above it. -/
def pairAnswer (a b d : ℚ) (g : GModel) : GResult :=
  { status := 2, sol := some (pairPoint a b), objVal := g.obj.eval (pairPoint a b)
    objBnd := g.obj.eval (pairPoint a b) + d }

/-- Two binary items: the answer is valid if it is for the four points. -/
theorem pairAnswer_valid {t : Tols} {d a b e : ℚ} {g : GModel}
    (hf : g.NearFeas t (pairPoint a b))
    (hv : ∀ ρ, g.NearFeas ⟨0, d⟩ ρ →
      (ρ (.x 0) = 0 ∨ ρ (.x 0) = 1) ∧ (ρ (.x 1) = 0 ∨ ρ (.x 1) = 1))
    (hb : ∀ ρ, g.NearFeas ⟨0, d⟩ ρ → (ρ (.x 0) = 0 ∨ ρ (.x 0) = 1) → (ρ (.x 1) = 0 ∨ ρ (.x 1) = 1) →
      g.obj.eval ρ ≤ g.obj.eval (pairPoint a b) + e) :
    GResult.FlValid t d g (pairAnswer a b e g) := by
  refine ⟨?_, fun ρ hρ => ?_, fun h => absurd h (show ¬ 2 = 3 by decide), fun _ => rfl⟩
  · rintro _ ⟨⟩
    exact ⟨hf, rfl⟩
  · exact hb ρ hρ (hv ρ hρ).1 (hv ρ hρ).2

theorem pair_vars {J : CI} (hn : J.n = 2) (hb : J.cont = false) {d : ℚ} {ρ : V → ℚ}
    (h0 : NearDom ⟨0, d⟩ J fun j => ρ (.x j)) :
    (ρ (.x 0) = 0 ∨ ρ (.x 0) = 1) ∧ (ρ (.x 1) = 0 ∨ ρ (.x 1) = 1) := by
  have key : ∀ j < J.n, ρ (.x j) = 0 ∨ ρ (.x j) = 1 := fun j hj => by
    rcases (h0 j hj).1 hb with h1 | h1
    · exact .inl (abs_eq_zero.1 (le_antisymm h1 (abs_nonneg _)))
    · exact .inr (sub_eq_zero.1 (abs_eq_zero.1 (le_antisymm h1 (abs_nonneg _))))
  exact ⟨key 0 (by omega), key 1 (by omega)⟩

theorem pair_dot (f x : ℕ → ℚ) : dot 2 f x = f 0 * x 0 + f 1 * x 1 := by
  unfold dot
  rw [Finset.sum_range_succ, Finset.sum_range_one]

/-- The environment of the example: scenario 0 takes both items, the others the first one; the big-Ms come
from the second item. -/
def exFlBelottiEnv (norm : Norm) : Env :=
  { bruteEnv norm 0 with
    sub := fun _ k => pairAnswer 1 (if k = 0 then 1 else 0) 0
    big := fun _ => pairAnswer 0 1 0
    cc := fun _ => pairAnswer 1 0 0 }

theorem pairAnswer_answers {t : Tols} {d a b e : ℚ} {g : GModel}
    (h : GResult.FlValid t d g (pairAnswer a b e g))
    (hg : |e| ≤ g.mipGap * |g.obj.eval (pairPoint a b)|)
    (hd : rd (g.obj.eval (pairPoint a b) + e) = g.obj.eval (pairPoint a b) + e) :
    GResult.FlAnswers t d g (pairAnswer a b e g) where
  toFlValid := h
  notInterrupted := by simp [pairAnswer]
  status := fun _ => rfl
  gap := fun _ => by simpa [pairAnswer] using hg
  double := hd

/-- The rows of a scenario problem with two items. -/
theorem pair_build {I : Inst} (hn : I.n = 2) (hb : I.cont = false) {s : ℕ} {d a b e : ℚ}
    (hf : (Deter.build (instCI I) [s]).g.NearFeas t (pairPoint a b))
    (hv : ∀ x y : ℚ, (x = 0 ∨ x = 1) → (y = 0 ∨ y = 1) →
      (∀ i < I.m, I.A s i 0 * x + I.A s i 1 * y ≤ I.b s i + d) →
      I.c 0 * x + I.c 1 * y ≤ I.c 0 * a + I.c 1 * b + e) :
    GResult.FlValid t d (Deter.build (instCI I) [s]).g (pairAnswer a b e (Deter.build (instCI I) [s]).g) := by
  refine pairAnswer_valid hf (fun ρ h => pair_vars (J := instCI I) hn hb (build_near h).1)
    fun ρ h h0 h1 => ?_
  · obtain ⟨-, h2⟩ := build_near h
    rw [build_obj, build_obj]
    unfold Spec.obj
    rw [hn, pair_dot, pair_dot]
    refine hv _ _ h0 h1 fun i hi => ?_
    by_contra hno
    refine h2 s (by simp) ⟨i, hi, ?_⟩
    rw [hn, pair_dot]
    show d < _
    linarith [not_le.1 hno]

/-- The big-M problem with two items. -/
theorem pair_knapsack {I : Inst} (hn : I.n = 2) (hb : I.cont = false) {q gap : ℚ} {s i : ℕ} {a b e : ℚ}
    (hf : (buildBigMKnapsack (instCI I) q s i gap).NearFeas t (pairPoint a b))
    (hv : ∀ x y : ℚ, (x = 0 ∨ x = 1) → (y = 0 ∨ y = 1) → I.c 0 * x + I.c 1 * y ≤ q →
      I.A s i 0 * x + I.A s i 1 * y ≤ I.A s i 0 * a + I.A s i 1 * b + e) :
    GResult.FlValid t 0 (buildBigMKnapsack (instCI I) q s i gap)
      (pairAnswer a b e (buildBigMKnapsack (instCI I) q s i gap)) := by
  refine pairAnswer_valid hf (fun ρ h => pair_vars (J := instCI I) hn hb
    (near_varX fun v hv => h.1 v (List.mem_append_right _ hv))) fun ρ h h0 h1 => ?_
  · rw [bigMKnapsack_obj, bigMKnapsack_obj]
    have hn' : (instCI I).n = 2 := hn
    rw [hn', pair_dot, pair_dot]
    have h2 := h.2 (0, .lin ⟨quicksum (List.range (instCI I).n) (instCI I).c .x, .le, ofConst q⟩)
      (by simp [buildBigMKnapsack, GModel.setObjective, GModel.setMIPGap, GModel.addConstr,
        GModel.addVars, GModel.empty])
    have h3 : dot (instCI I).n (instCI I).c (fun j => ρ (.x j)) ≤ q := by
      simpa [Constr.Near, Lin.Near, dot] using h2
    rw [hn', pair_dot] at h3
    have := hv _ _ h0 h1 h3
    have e1 : (instCI I).row s i = I.A s i := rfl
    rw [e1]
    simp only [pairPoint] at *
    norm_num
    linarith

/-- The extended formulation with two items and a fixed row. -/
theorem pair_cclp {I : Inst} (hn : I.n = 2) (hb : I.cont = false) {Ms : List (List ℚ)}
    (hS : Shape (instCI I) Ms) {gap : ℚ} {g : GModel}
    (hg : flBuildCCLP (instCI I) (some Ms) [] [] gap = .ok g) {d a b e : ℚ} {s i : ℕ} (hs : s < I.N)
    (hi : i < I.m) (hM : bigMAt Ms s i < -tol6)
    (hf : NearCC t (instCI I) (flRowConstrs (instCI I) (some Ms)) (flChanceConstr (instCI I)) []
      (pairPoint a b))
    (hv : ∀ x y : ℚ, (x = 0 ∨ x = 1) → (y = 0 ∨ y = 1) →
      I.A s i 0 * x + I.A s i 1 * y ≤ rd (I.b s i + bigMAt Ms s i) + d →
      I.c 0 * x + I.c 1 * y ≤ I.c 0 * a + I.c 1 * b + e) :
    GResult.FlValid t d g (pairAnswer a b e g) := by
  have hg2 := flBuildCCLP_shape (J := instCI I) (by rintro _ ⟨⟩; exact hS) hg
  subst hg2
  have hn' : (instCI I).n = 2 := hn
  refine pairAnswer_valid (nearCC.2 hf) (fun ρ h => pair_vars (J := instCI I) hn hb
    (near_varX (nearCC.1 h).1)) fun ρ h h0 h1 => ?_
  rw [(ccShape_fields _ _ _ _ _).1, eval_objExpr, eval_objExpr, hn', pair_dot, pair_dot]
  refine hv _ _ h0 h1 ?_
  have h2 := (nearCC.1 h).2.2.1 (flFixedConstr (instCI I) s i (bigMAt Ms s i)) (by
    simp only [flRowConstrs, List.mem_flatten, List.mem_map, List.mem_range]
    refine ⟨_, ⟨s, hs, rfl⟩, ?_⟩
    simp only [List.mem_flatten, List.mem_map, List.mem_range]
    refine ⟨_, ⟨i, hi, rfl⟩, ?_⟩
    have hb' : (instCI I).cont = false := hb
    unfold flBigMConstrs
    rw [if_neg (not_le.2 hM), if_neg (by rw [hb']; decide)]
    simp)
  simp only [flFixedConstr, Constr.Near, Lin.Near, eval_lhsExpr, hn', pair_dot] at h2
  simpa [instCI] using h2

/-! ### Example -/

/-- Its big-Ms in doubles; the first row is fixed. -/
def exFlBelottiMs : List (List ℚ) :=
  [[-1801439850948199 / 18014398509481984], [0], [900719925474099 / 9007199254740992],
    [900719925474099 / 4503599627370496]]

theorem exFlBelotti_costs (norm : Norm) :
    allScenarioCosts (dbl exFlMilp) ((exFlBelottiEnv norm).sub 0) = .ok [4, 3, 3, 3] := by
  have : ∀ f : ℕ → GModel → GResult, f = (fun k => pairAnswer 1 (if k = 0 then 1 else 0) 0) →
    allScenarioCosts (dbl exFlMilp) f = .ok [4, 3, 3, 3] := by
    rintro _ rfl
    decide +kernel
  exact this _ rfl

theorem exFlBelotti_quantile :
    (flQuantile (dbl exFlMilp) (Argsort.default.run [4, 3, 3, 3])).map (fun t => [(4 : ℚ), 3, 3, 3].getD t 0)
      = some 3 := by decide +kernel

theorem exFlBelotti_ms : belottiMip (pairAnswer 0 1 0) (instCI (dbl exFlMilp)) 4 3 (1 / 10 ^ 8)
    = .ok exFlBelottiMs := by decide +kernel

theorem exFlBelotti_sub (norm : Norm) : ∀ s < exFlMilp.N, GResult.FlAnswers defaultTols (2 / 10 ^ 10)
    (Deter.build (instCI (dbl exFlMilp)) [s]).g
    ((exFlBelottiEnv norm).sub 0 s (Deter.build (instCI (dbl exFlMilp)) [s]).g) := by
  intro s hs
  have hs : s < 4 := hs
  have c0 : (dbl exFlMilp).c 0 = 3 := by decide +kernel
  have c1 : (dbl exFlMilp).c 1 = 1 := by decide +kernel
  interval_cases s
  · refine pairAnswer_answers (pair_build rfl rfl (by decide +kernel) ?_) (by decide +kernel) (by decide +kernel)
    rintro x y (rfl | rfl) (rfl | rfl) - <;> rw [c0, c1] <;> norm_num
  all_goals
    refine pairAnswer_answers (pair_build rfl rfl (by decide +kernel) ?_) (by decide +kernel)
      (by decide +kernel)
    rintro x y (rfl | rfl) (rfl | rfl) h
    any_goals rw [c0, c1]; norm_num
    have := h 0 (by decide)
    revert this
    decide +kernel

theorem exFlBelotti_big : ∀ s < exFlMilp.N, ∀ i < exFlMilp.m, GResult.FlAnswers bigTols 0
    (buildBigMKnapsack (instCI (dbl exFlMilp)) 3 s i (1 / 10 ^ 8))
    (pairAnswer 0 1 0 (buildBigMKnapsack (instCI (dbl exFlMilp)) 3 s i (1 / 10 ^ 8))) := by
  intro s hs i hi
  have hs : s < 4 := hs
  have hi : i < 1 := hi
  have c0 : (dbl exFlMilp).c 0 = 3 := by decide +kernel
  have c1 : (dbl exFlMilp).c 1 = 1 := by decide +kernel
  interval_cases i
  interval_cases s
  all_goals
    refine pairAnswer_answers (pair_knapsack rfl rfl (by decide +kernel) ?_) (by decide +kernel)
      (by decide +kernel)
    rintro x y (rfl | rfl) (rfl | rfl) h
    · decide +kernel
    · decide +kernel
    · decide +kernel
    · rw [c0, c1] at h; norm_num at h

theorem exFlBelotti_cc (norm : Norm) (g : GModel)
    (h : IsMethod2Problem (exFlBelottiEnv norm) exFlMilp 0 g) :
    GResult.FlValid cclpTols (4 / 10 ^ 10) g (pairAnswer 1 0 0 g) := by
  obtain ⟨costs, t, Ms, h1, h2, h3, h4⟩ := h
  rw [exFlBelotti_costs] at h1
  cases h1
  have hq := exFlBelotti_quantile
  have h2 : flQuantile (dbl exFlMilp) (Argsort.default.run [4, 3, 3, 3]) = some t := h2
  rw [h2] at hq
  have hq : [(4 : ℚ), 3, 3, 3].getD t 0 = 3 := Option.some.inj hq
  rw [hq, flRunBelotti_bin _ rfl (by decide)] at h3
  have h3 : belottiMip (pairAnswer 0 1 0) (instCI (dbl exFlMilp)) 4 3 (1 / 10 ^ 8) = .ok Ms := h3
  rw [exFlBelotti_ms] at h3
  cases h3
  have c0 : (dbl exFlMilp).c 0 = 3 := by decide +kernel
  have c1 : (dbl exFlMilp).c 1 = 1 := by decide +kernel
  refine pair_cclp (I := dbl exFlMilp) rfl rfl ⟨by decide, by decide⟩ h4 (s := 0) (i := 0) (by decide) (by decide)
    (by decide +kernel) (by unfold NearCC; decide +kernel) ?_
  rintro x y (rfl | rfl) (rfl | rfl) h
  any_goals rw [c0, c1]; norm_num
  exact absurd h (by decide +kernel)

/-- The hypotheses of `C105_method2_partial` are met by an instance whose data are rounded; one row is
fixed, and the bound, the value and the quantile are 3. -/
example (norm : Norm) : ∃ r, flMilpBelotti (exFlBelottiEnv norm) exFlMilp 10 0 = .ok r ∧ r.vLB = 3
    ∧ r.vUB = 3 ∧ (∀ y, Feas exFlMilp y → obj exFlMilp y ≤ (1 + 1 / 10 ^ 4) * 3 + objErr exFlMilp)
    ∧ ∃ y, Feas exFlMilp y ∧ (∀ j < 2, |r.xLB j - y j| ≤ 1 / 10 ^ 9) := by
  obtain ⟨t, ht, hq⟩ := Option.map_eq_some_iff.1 exFlBelotti_quantile
  obtain ⟨r, hr, hv, hu⟩ : ∃ r, flMilpBelotti (exFlBelottiEnv norm) exFlMilp 10 0 = .ok r ∧ r.vLB = 3
      ∧ r.vUB = 3 := by
    unfold flMilpBelotti
    rw [exFlBelotti_costs]
    simp only [bind, Except.bind]
    rw [show (exFlBelottiEnv norm).argsort = .default from rfl, ht]
    simp only [hq]
    rw [show flRunBelotti (exFlBelottiEnv norm) exFlMilp 3
      = .ok exFlBelottiMs from (flRunBelotti_bin _ rfl (by decide) _).trans exFlBelotti_ms]
    simp only
    obtain ⟨g, hg⟩ : ∃ g, flBuildCCLP (instCI (dbl exFlMilp)) (some exFlBelottiMs) [] [] 0 = .ok g := ⟨_, rfl⟩
    have hobj : g.obj.eval (pairPoint 1 0) = 3 := by
      rw [flBuildCCLP_shape (by rintro _ ⟨⟩; exact ⟨by decide, by decide⟩) hg]
      decide +kernel
    unfold flSolveCclp
    have ht : setTimeLimit (remaining (exFlBelottiEnv norm).clock 10 (milpReads true + 1)
        - ((exFlBelottiEnv norm).clock (milpReads true + 4) - (exFlBelottiEnv norm).clock (milpReads true + 3)))
        = .ok () := by
      unfold setTimeLimit
      rw [if_pos]
      simp [remaining, exFlBelottiEnv, bruteEnv]
    rw [hg]
    simp only [bind, Except.bind, ht]
    exact ⟨_, rfl, hobj, by show _ + 0 = _; rw [hobj]; norm_num⟩
  obtain ⟨⟨y, y1, y2, -⟩, costs, t', k1, k2, -, k3, -⟩ := C105_method2_partial (env := exFlBelottiEnv norm)
    exFlMilp_equi 25 (by norm_num) (by norm_num [exFlMilp]) (by decide +kernel) (by decide) exFlMilp_grid
    (by unfold Model.Moderate; decide +kernel) (by unfold NonnegC; decide +kernel) rfl (by decide) 10 0
    (exFlBelotti_sub norm) (fun costs t' k1 k2 => by
      rw [exFlBelotti_costs] at k1
      cases k1
      have k2 : flQuantile (dbl exFlMilp) (Argsort.default.run [4, 3, 3, 3]) = some t' := k2
      rw [ht] at k2
      cases k2
      rw [hq]
      exact exFlBelotti_big) (exFlBelotti_cc norm) r hr
  refine ⟨r, hr, hv, hu, ?_, y, y1, y2⟩
  rw [exFlBelotti_costs] at k1
  cases k1
  have k2 : flQuantile (dbl exFlMilp) (Argsort.default.run [4, 3, 3, 3]) = some t' := k2
  rw [ht] at k2
  cases k2
  rw [hq] at k3
  exact k3

/-! ### Counterexample -/

/-- The environment of the counterexample: in the problem of the only scenario the first item is
`1 - 2^-17`, an integer within `IntFeasTol`; the answers to the other problems are exact. -/
def exNudgeEnv (norm : Norm) : Env :=
  { bruteEnv norm 0 with
    sub := fun _ _ => pairAnswer (1 - 1 / 2 ^ 17) 0 (100 / 2 ^ 17)
    big := fun _ => pairAnswer 0 1 0
    cc := fun _ => pairAnswer 0 1 0 }

theorem exNudge_costs (norm : Norm) :
    allScenarioCosts (dbl exNudge) ((exNudgeEnv norm).sub 0) = .ok [100 - 100 / 2 ^ 17] := by
  have : ∀ f : ℕ → GModel → GResult, f = (fun _ => pairAnswer (1 - 1 / 2 ^ 17) 0 (100 / 2 ^ 17)) →
    allScenarioCosts (dbl exNudge) f = .ok [100 - 100 / 2 ^ 17] := by
    rintro _ rfl
    decide +kernel
  exact this _ rfl

theorem exNudge_quantile :
    flQuantile (dbl exNudge) (Argsort.default.run [100 - 100 / 2 ^ 17]) = some 0 := by decide +kernel

theorem exNudge_ms : belottiMip (pairAnswer 0 1 0) (instCI (dbl exNudge)) 1 (100 - 100 / 2 ^ 17) (1 / 10 ^ 8)
    = .ok [[0, -1]] := by decide +kernel

/-- **C105 (counterexample).**  All numbers are doubles, the problem of the only scenario is answered
within the default `IntFeasTol`, everything else exactly: method 2 reports 1 as value and bound, although a
feasible point has objective 100. -/
theorem C105_counterexample (norm : Norm) : ∃ (env : Env) (I : Inst) (r : MilpSt),
    Equi I ∧ I.eps = 0 ∧ TolOk I ∧ I.N ≤ 90000 ∧ OneDecimal I ∧ Model.Moderate I ∧ NonnegC I
    ∧ I.cont = false ∧ 0 < I.n ∧ DoubleC I
    ∧ (∀ s < I.N, GResult.FlAnswers defaultTols (2 / 10 ^ 10) (Deter.build (instCI (dbl I)) [s]).g
      (env.sub 0 s (Deter.build (instCI (dbl I)) [s]).g))
    ∧ (∀ costs t, allScenarioCosts (dbl I) (env.sub 0) = .ok costs →
      flQuantile (dbl I) (env.argsort.run costs) = some t → ∀ s < I.N, ∀ i < I.m,
      GResult.FlAnswers bigTols 0 (buildBigMKnapsack (instCI (dbl I)) (costs.getD t 0) s i (1 / 10 ^ 8))
        (env.big 0 (buildBigMKnapsack (instCI (dbl I)) (costs.getD t 0) s i (1 / 10 ^ 8))))
    ∧ (∀ g, IsMethod2Problem env I (1 / 10 ^ 4) g → GResult.FlValid cclpTols (4 / 10 ^ 10) g (env.cc 0 g))
    ∧ flMilpBelotti env I 1800 (1 / 10 ^ 4) = .ok r
    ∧ r.vUB = 1 ∧ r.vLB = 1 ∧ ∃ y, Feas I y ∧ obj I y = 100 := by
  have c0 : (dbl exNudge).c 0 = 100 := by decide +kernel
  have c1 : (dbl exNudge).c 1 = 1 := by decide +kernel
  obtain ⟨r, hr, hv, hu⟩ : ∃ r, flMilpBelotti (exNudgeEnv norm) exNudge 1800 (1 / 10 ^ 4) = .ok r
      ∧ r.vUB = 1 ∧ r.vLB = 1 := by
    unfold flMilpBelotti
    rw [exNudge_costs]
    simp only [bind, Except.bind]
    rw [show (exNudgeEnv norm).argsort = .default from rfl, exNudge_quantile]
    simp only
    rw [show flRunBelotti (exNudgeEnv norm) exNudge ([(100 : ℚ) - 100 / 2 ^ 17].getD 0 0) = .ok [[0, -1]]
      from (flRunBelotti_bin _ rfl (by decide) _).trans exNudge_ms]
    simp only
    obtain ⟨g, hg⟩ : ∃ g, flBuildCCLP (instCI (dbl exNudge)) (some [[0, -1]]) [] [] (1 / 10 ^ 4) = .ok g :=
      ⟨_, rfl⟩
    have hobj : g.obj.eval (pairPoint 0 1) = 1 := by
      rw [flBuildCCLP_shape (by rintro _ ⟨⟩; exact ⟨by decide, by decide⟩) hg]
      decide +kernel
    unfold flSolveCclp
    have ht : setTimeLimit (remaining (exNudgeEnv norm).clock 1800 (milpReads true + 1)
        - ((exNudgeEnv norm).clock (milpReads true + 4) - (exNudgeEnv norm).clock (milpReads true + 3)))
        = .ok () := by
      unfold setTimeLimit
      rw [if_pos]
      simp [remaining, exNudgeEnv, bruteEnv]
    rw [hg]
    simp only [bind, Except.bind, ht]
    exact ⟨_, rfl, by show _ + 0 = _; rw [hobj]; norm_num, hobj⟩
  refine ⟨exNudgeEnv norm, exNudge, r, ⟨by decide, fun s _ => by norm_num [exNudge]⟩, rfl,
    by decide +kernel, by decide, ⟨by unfold NonnegAb; decide +kernel,
      fun s _ i _ => ⟨⟨10, by norm_num [exNudge]⟩, fun j _ => ?_⟩⟩,
    by unfold Model.Moderate; decide +kernel, by unfold NonnegC; decide +kernel, rfl, by decide,
    by unfold DoubleC; decide +kernel, fun s hs => ?_, fun costs t k1 k2 s hs i hi => ?_,
    fun g h => ?_, hr, hv, hu,
    fun j => if j = 0 then 1 else 0, ⟨by unfold InX; decide +kernel, by unfold Chance; decide +kernel⟩,
    by decide +kernel⟩
  · by_cases h : i = 1 ∧ j = 1
    · exact ⟨0, by simp only [exNudge, if_pos h]; norm_num⟩
    · exact ⟨10, by simp only [exNudge, if_neg h]; norm_num⟩
  · have hs : s < 1 := hs
    interval_cases s
    refine pairAnswer_answers (pair_build rfl rfl (by decide +kernel) ?_) (by decide +kernel)
      (by decide +kernel)
    rintro x y (rfl | rfl) (rfl | rfl) h
    any_goals rw [c0, c1]; norm_num
    have := h 0 (by decide)
    revert this
    decide +kernel
  · rw [exNudge_costs] at k1
    cases k1
    have k2 : flQuantile (dbl exNudge) (Argsort.default.run [100 - 100 / 2 ^ 17]) = some t := k2
    rw [exNudge_quantile] at k2
    cases k2
    have hs : s < 1 := hs
    have hi : i < 2 := hi
    interval_cases s
    interval_cases i
    all_goals
      refine pairAnswer_answers (pair_knapsack rfl rfl (by decide +kernel) ?_) (by decide +kernel)
        (by decide +kernel)
      rintro x y (rfl | rfl) (rfl | rfl) h
      · decide +kernel
      · decide +kernel
      · rw [c0, c1] at h; norm_num at h
      · rw [c0, c1] at h; norm_num at h
  · obtain ⟨costs, t, Ms, h1, h2, h3, h4⟩ := h
    rw [exNudge_costs] at h1
    cases h1
    have h2 : flQuantile (dbl exNudge) (Argsort.default.run [100 - 100 / 2 ^ 17]) = some t := h2
    rw [exNudge_quantile] at h2
    cases h2
    rw [flRunBelotti_bin _ rfl (by decide)] at h3
    have h3 : belottiMip (pairAnswer 0 1 0) (instCI (dbl exNudge)) 1 (100 - 100 / 2 ^ 17) (1 / 10 ^ 8)
      = .ok Ms := h3
    rw [exNudge_ms] at h3
    cases h3
    refine pair_cclp (I := dbl exNudge) rfl rfl ⟨by decide, by decide⟩ h4 (s := 0) (i := 1) (by decide)
      (by decide) (by decide +kernel) (by unfold NearCC; decide +kernel) ?_
    rintro x y (rfl | rfl) (rfl | rfl) h
    any_goals rw [c0, c1]; norm_num
    all_goals exact absurd h (by decide +kernel)

end Verif.Props
