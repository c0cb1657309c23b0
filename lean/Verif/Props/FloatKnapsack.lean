import Verif.Props.FloatPipeline2
import Verif.Lemmas.FloatKnapsack

/-!
# C107: method 2 of main.py on doubles for continuous variables
-/

namespace Verif.Props
open Spec Model Finset LinExpr

variable {env : Env} {I : Inst}

/-- The values of the items are whole numbers with a sum below `2^53`. -/
def WholeValues (I : Inst) : Prop :=
  (∀ j < I.n, ∃ k : ℕ, I.c j = k) ∧ ∑ j ∈ range I.n, I.c j < 2 ^ 53

theorem whole_nonneg (hW : WholeValues I) : NonnegC I := fun j hj => by
  obtain ⟨k, hk⟩ := hW.1 j hj
  rw [hk]
  exact Nat.cast_nonneg _

/-- Whole values are doubles. -/
theorem whole_double (hW : WholeValues I) {j : ℕ} (hj : j < I.n) : (dbl I).c j = I.c j := by
  obtain ⟨k, hk⟩ := hW.1 j hj
  have h1 : I.c j ≤ ∑ j ∈ range I.n, I.c j :=
    Finset.single_le_sum (f := I.c) (fun j hj => whole_nonneg hW j (Finset.mem_range.1 hj)) (Finset.mem_range.2 hj)
  have h2 : I.c j < 2 ^ 53 := h1.trans_lt hW.2
  rw [hk] at h2
  show fl64 (I.c j) = I.c j
  rw [hk]
  exact fl64_natCast (by exact_mod_cast h2)

theorem whole_obj (hW : WholeValues I) (y : Vec) : obj (dbl I) y = obj I y := by
  unfold Spec.obj dot
  exact Finset.sum_congr rfl fun j hj => by rw [whole_double hW (Finset.mem_range.1 hj)]

/-- **C107 (big-Ms).**  The continuous knapsack routine on doubles: values of the items are whole numbers,
at most 100 items, one decimal digit, moderate capacities.  For every bound `q` that is not negative, the
routine returns a double for every row; it is at least the violation of this row of the exact instance by
any point of the box whose objective is at most `q`, up to `7e-10`, and at most the sum of the row, up to
1. -/
theorem C107_big_ms (argsort : Argsort) (hn : I.n ≤ 100) (hI : OneDecimal I) (hM : Model.Moderate I)
    (hW : WholeValues I) {q : ℚ} (hq : 0 ≤ q) :
    ∃ Ms, flBelottiContinuous argsort (instCI (dbl I)) I.N q = .ok Ms ∧ DoubleMs (instCI I) Ms
      ∧ (∀ s < I.N, ∀ i < I.m, bigMAt Ms s i ≤ ∑ j ∈ range I.n, I.A s i j + 1)
      ∧ ∀ y, InBox I.n y → obj I y ≤ q → ∀ s < I.N, ∀ i < I.m,
        dot I.n (I.A s i) y ≤ I.b s i + bigMAt Ms s i + 7 / 10 ^ 10 := by
  have hu : ulp = 1 / 2 ^ 53 := rfl
  have hnq : (I.n : ℚ) ≤ 100 := by exact_mod_cast hn
  have hn0 : (0 : ℚ) ≤ I.n := Nat.cast_nonneg _
  have hrow : ∀ s < I.N, ∀ i < I.m,
      (∀ j < I.n, |I.A s i j - (dbl I).A s i j| ≤ ulp * I.A s i j)
      ∧ |I.b s i - (dbl I).b s i| ≤ 1 / 10 ^ 10 := fun s hs i hi => by
    obtain ⟨n1, n2⟩ := hI.1 s hs i hi
    have m1 := (hM s hs i hi).1
    refine ⟨fun j hj => ?_, ?_⟩
    · have := fl64_err (n2 j hj)
      rw [abs_sub_comm]
      exact this
    · have h := fl64_err n1
      rw [abs_sub_comm]
      refine h.trans ?_
      linarith
  have hsum : ∀ s < I.N, ∀ i < I.m, 0 ≤ ∑ j ∈ range I.n, (dbl I).A s i j
      ∧ ∑ j ∈ range I.n, (dbl I).A s i j ≤ ∑ j ∈ range I.n, I.A s i j + 1 / 10 ^ 10
      ∧ ∀ y, InBox I.n y → dot I.n (I.A s i) y ≤ dot I.n ((dbl I).A s i) y + 1 / 10 ^ 10 := by
    intro s hs i hi
    obtain ⟨n1, n2⟩ := hI.1 s hs i hi
    have m2 := (hM s hs i hi).2
    have h9 : ulp * ∑ j ∈ range I.n, I.A s i j ≤ 1 / 10 ^ 10 := by
      rw [hu]; linarith
    refine ⟨Finset.sum_nonneg fun j _ => fl64_nonneg _, ?_, fun y hy => ?_⟩
    · have : ∑ j ∈ range I.n, (dbl I).A s i j
          ≤ ∑ j ∈ range I.n, (I.A s i j + ulp * I.A s i j) := Finset.sum_le_sum fun j hj => by
        have := (abs_le.1 ((hrow s hs i hi).1 j (Finset.mem_range.1 hj))).1
        linarith
      rw [Finset.sum_add_distrib, ← Finset.mul_sum] at this
      linarith
    · have : dot I.n (I.A s i) y ≤ ∑ j ∈ range I.n, ((dbl I).A s i j * y j + ulp * I.A s i j) := by
        unfold dot
        refine Finset.sum_le_sum fun j hj => ?_
        have hj := Finset.mem_range.1 hj
        obtain ⟨y0, y1⟩ := hy j hj
        have h1 := (abs_le.1 ((hrow s hs i hi).1 j hj)).2
        have h2 := mul_le_mul_of_nonneg_right h1 y0
        have h3 : ulp * I.A s i j * y j ≤ ulp * I.A s i j :=
          mul_le_of_le_one_right (mul_nonneg (by rw [hu]; norm_num) (n2 j hj)) y1
        linarith
      rw [Finset.sum_add_distrib, ← Finset.mul_sum] at this
      unfold dot at this ⊢
      linarith
  have hkn : ∀ s < I.N, ∀ i < I.m, ∃ v, flKnapsack argsort I.n ((dbl I).A s i) ((dbl I).b s i) (dbl I).c q = .ok v
      ∧ IsDouble v ∧ -(dbl I).b s i ≤ v
      ∧ v ≤ -(dbl I).b s i + ∑ j ∈ range I.n, (dbl I).A s i j + I.n * (2 * ulp * 26000)
      ∧ ∀ x, InBox I.n x → dot I.n (dbl I).c x ≤ q →
        dot I.n ((dbl I).A s i) x - (dbl I).b s i
          ≤ v + ulp * (26000 * I.n + 6 * ∑ j ∈ range I.n, (dbl I).A s i j) := by
    intro s hs i hi
    obtain ⟨n1, n2⟩ := hI.1 s hs i hi
    obtain ⟨m1, m2⟩ := hM s hs i hi
    obtain ⟨s1, s2, -⟩ := hsum s hs i hi
    have hb := abs_le.1 (hrow s hs i hi).2
    refine flKnapsack_bounds argsort I.n _ _ _ q 26000 (fun j hj => ?_) ?_ (fun j _ => fl64_nonneg _) ?_
      (fl64_nonneg _) (by linarith) ?_ hq
    · rw [whole_double hW hj]; exact hW.1 j hj
    · rw [Finset.sum_congr rfl fun j hj => whole_double hW (Finset.mem_range.1 hj)]; exact hW.2
    · have := isDouble_rd (I.b s i)
      unfold rd at this
      rwa [if_pos n1] at this
    · rw [hu]
      nlinarith
  unfold flBelottiContinuous
  obtain ⟨Ms, h1, h2, h3⟩ := table_ok (instCI (dbl I)) (fun s i =>
    flKnapsack argsort (instCI (dbl I)).n ((instCI (dbl I)).row s i) ((instCI (dbl I)).rhs s i) (instCI (dbl I)).c q)
    fun s hs i hi => by
      obtain ⟨v, hv, -⟩ := hkn s hs i hi
      exact ⟨v, hv⟩
  have hat : ∀ s < I.N, ∀ i < I.m, IsDouble (bigMAt Ms s i) ∧ -(dbl I).b s i ≤ bigMAt Ms s i
      ∧ bigMAt Ms s i ≤ -(dbl I).b s i + ∑ j ∈ range I.n, (dbl I).A s i j + I.n * (2 * ulp * 26000)
      ∧ ∀ x, InBox I.n x → dot I.n (dbl I).c x ≤ q →
        dot I.n ((dbl I).A s i) x - (dbl I).b s i
          ≤ bigMAt Ms s i + ulp * (26000 * I.n + 6 * ∑ j ∈ range I.n, (dbl I).A s i j) := by
    intro s hs i hi
    obtain ⟨v, hv, hrest⟩ := hkn s hs i hi
    have h := h3 s hs i hi
    rw [show flKnapsack argsort (instCI (dbl I)).n ((instCI (dbl I)).row s i) ((instCI (dbl I)).rhs s i)
      (instCI (dbl I)).c q = .ok v from hv] at h
    cases h
    exact hrest
  refine ⟨Ms, h1, ⟨h2, fun s hs i hi => ?_⟩, fun s hs i hi => ?_, fun y hy hle s hs i hi => ?_⟩
  · obtain ⟨a1, a2, a3, -⟩ := hat s hs i hi
    obtain ⟨m1, m2⟩ := hM s hs i hi
    obtain ⟨s1, s2, -⟩ := hsum s hs i hi
    have hb := abs_le.1 (hrow s hs i hi).2
    have b0 : 0 ≤ (dbl I).b s i := fl64_nonneg _
    refine ⟨a1, abs_le.2 ⟨by linarith, ?_⟩⟩
    rw [hu] at a3
    nlinarith
  · obtain ⟨a1, a2, a3, -⟩ := hat s hs i hi
    obtain ⟨s1, s2, -⟩ := hsum s hs i hi
    have b0 : 0 ≤ (dbl I).b s i := fl64_nonneg _
    rw [hu] at a3
    nlinarith
  · obtain ⟨-, -, -, a4⟩ := hat s hs i hi
    obtain ⟨s1, s2, s3⟩ := hsum s hs i hi
    obtain ⟨m1, m2⟩ := hM s hs i hi
    have hb := abs_le.1 (hrow s hs i hi).2
    have h5 := a4 y hy ((whole_obj hW y).le.trans hle)
    have h6 := s3 y hy
    rw [hu] at h5
    have h7 : (1 / 2 ^ 53 : ℚ) * (26000 * I.n + 6 * ∑ j ∈ range I.n, (dbl I).A s i j) ≤ 4 / 10 ^ 10 := by
      nlinarith
    linarith

/-- The reported cost of a scenario whose problem is solved without a gap. -/
theorem flCost_closed (hI : NonnegAb I) (hM : Model.Moderate I) {solve : GModel → GResult} {s : ℕ}
    (hs : s < I.N) (h : GResult.FlAnswers defaultTols (2 / 10 ^ 10) (Deter.build (instCI (dbl I)) [s]).g
      (solve (Deter.build (instCI (dbl I)) [s]).g))
    (hcl : (solve (Deter.build (instCI (dbl I)) [s]).g).objVal = (solve (Deter.build (instCI (dbl I)) [s]).g).objBnd)
    {p : ℚ × Vec} (hr : subsetCost (dbl I) solve [s] = .ok p) {y : Vec} (hy : InX I y) (hsat : Sat I s y) :
    obj (dbl I) y ≤ p.1 := by
  have hb := h.bound _ (scenario_near hI hM hy hs hsat)
  rw [build_obj] at hb
  have hb : obj (dbl I) y ≤ _ := hb
  have hp : p.1 = (solve (Deter.build (instCI (dbl I)) [s]).g).objVal := by
    unfold subsetCost at hr
    rw [optimize, if_neg h.notInterrupted] at hr
    simp only [bind, Except.bind] at hr
    cases hs : (solve (Deter.build (instCI (dbl I)) [s]).g).sol with
    | none => simp only [getObjVal, hs] at hr; cases hr
    | some ρ =>
      simp only [getObjVal, getX, getSol, hs, bind, Except.bind, pure, Except.pure] at hr
      cases hr
      rfl
  rw [hp, hcl]
  exact hb

/-- **C107 (method 2 in doubles).**  Continuous instances with one decimal digit, at most 100 items with whole
values, moderate capacities of at least 1, rows that sum up to at most `κ` times the capacity, risk levels
`p/100` and up to 90000 scenarios.  The big-Ms are computed in Python, in doubles; Gurobi answers the
problems with rounded coefficients within its tolerances and solves the linear problems of the scenarios
without a gap.  If `solve` returns, `vUB` bounds all feasible points of the exact instance up to the
rounding of the objective; `xLB` is within `(3 κ + 5) * 1e-9` of a feasible point whose value is `vLB` up
to that factor of the sum of the values and the rounding of the objective; and if Gurobi reports a gap,
that point is optimal up to that gap and these errors. -/
theorem C107_method2 (hE : Equi I) (p : ℕ) (hp : p < 100) (heps : I.eps = p / 100) (htol : TolOk I)
    (hn : I.n ≤ 100) (hN : I.N ≤ 90000) (hI : OneDecimal I) (hM : Model.Moderate I) (hW : WholeValues I)
    (hb : I.cont = true) (κ : ℚ) (hκ : 0 ≤ κ) (hR : RowRatio κ I) (timeLimit gap : ℚ) (hgap : 0 ≤ gap)
    (hsub : ∀ s < I.N, GResult.FlAnswers defaultTols (2 / 10 ^ 10) (Deter.build (instCI (dbl I)) [s]).g
      (env.sub 0 s (Deter.build (instCI (dbl I)) [s]).g))
    (hlp : ∀ s < I.N, (env.sub 0 s (Deter.build (instCI (dbl I)) [s]).g).objVal
      = (env.sub 0 s (Deter.build (instCI (dbl I)) [s]).g).objBnd)
    (hcc : ∀ g, IsMethod2Problem env I gap g → GResult.FlValid cclpTols (9 / 10 ^ 10) g (env.cc 0 g))
    (r : MilpSt) (h : flMilpBelotti env I timeLimit gap = .ok r) :
    (∀ y, Feas I y → obj I y ≤ r.vUB + objErr I)
    ∧ ∃ y, Feas I y ∧ (∀ j < I.n, |r.xLB j - y j| ≤ contTol κ)
      ∧ |r.vLB - obj I y| ≤ contTol κ * ∑ j ∈ range I.n, I.c j + objErr I
      ∧ (|r.vUB - r.vLB| ≤ gap * |r.vLB| → ∀ y', Feas I y' →
        obj I y' ≤ (1 + gap) * (obj I y + contTol κ * ∑ j ∈ range I.n, I.c j + objErr I) + objErr I) := by
  have hc := whole_nonneg hW
  have heps0 : 0 ≤ I.eps := by rw [heps]; positivity
  have heps1 : I.eps ≤ 1 := by
    rw [heps, div_le_one (by norm_num)]
    exact_mod_cast hp.le
  unfold flMilpBelotti at h
  cases hcs : allScenarioCosts (dbl I) (env.sub 0) with
  | error e => rw [hcs] at h; cases h
  | ok costs =>
  rw [hcs] at h
  cases hq : flQuantile (dbl I) (env.argsort.run costs) with
  | none => simp only [bind, Except.bind, hq] at h; cases h
  | some t =>
  simp only [bind, Except.bind, hq] at h
  have hcs' := hcs
  unfold allScenarioCosts scenarioCosts at hcs'
  obtain ⟨hl, hk⟩ := mapM_inv _ _ _ hcs'
  rw [List.length_zipIdx, List.length_range] at hl
  have hl : costs.length = I.N := hl
  have hcost : ∀ s < I.N, ∀ y, InX I y → Sat I s y → obj I y ≤ costs.getD s 0 := by
    intro s hs y hy hsat
    have hs2 : s < costs.length := by omega
    have h1 := hk s (by rw [List.length_zipIdx, List.length_range]; exact hs) hs2
    rw [List.getElem_zipIdx, List.getElem_range] at h1
    simp only at h1
    rw [List.getD_eq_getElem _ _ hs2]
    cases hcs : subsetCost (dbl I) (env.sub 0 (0 + s)) [s] with
    | error e => rw [hcs] at h1; cases h1
    | ok p =>
      rw [hcs] at h1
      have he : p.1 = costs[s] := Except.ok.inj h1
      rw [← he, ← whole_obj hW]
      rw [Nat.zero_add] at hcs
      exact flCost_closed hI.1 hM hs (hsub s hs) (hlp s hs) hcs hy hsat
  have hquant : ∀ y, Feas I y → obj I y ≤ costs.getD t 0 := fun y hy => by
    obtain ⟨s, hs, hsat, hle⟩ := flQuantile_scenario env.argsort hE hp heps hN hl hq hy.2
    exact (hcost s hs y hy.1 hsat).trans hle
  have hzero : Feas I fun _ => 0 := by
    refine ⟨zero_inX I, ?_⟩
    have : viol I (fun _ => 0) = ∅ := by
      refine Finset.filter_eq_empty_iff.2 fun s hs => not_not.2 ?_
      exact zero_satAll (l := [s]) hI.1 (by simpa using hs) s (by simp)
    unfold Chance
    rw [this]
    simpa using heps0
  have hq0 : 0 ≤ costs.getD t 0 := (obj_nonneg hc (zero_inX I)).trans (hquant _ hzero)
  obtain ⟨Ms, m1, m2, m3, m4⟩ := C107_big_ms env.argsort hn hI hM hW hq0
  have hrun : flRunBelotti env I (costs.getD t 0) = .ok Ms := by
    unfold flRunBelotti
    rw [if_neg (by simp [hb])]
    exact m1
  rw [hrun] at h
  simp only [pure, Except.pure] at h
  split at h
  · cases h
  rename_i out ho
  cases h
  obtain ⟨g, ρ, b1, b2, b3, b4, b5⟩ := flSolveCclp_inv ho
  have hr := hcc g ⟨costs, t, Ms, hcs, hq, hrun, b1⟩
  have hcov : ∀ y, Feas I y → ∀ s < I.N, ∀ i < I.m,
      dot I.n (I.A s i) y ≤ I.b s i + bigMAt Ms s i + 7 / 10 ^ 10 := fun y hy =>
    m4 y (inX_box hy.1) (hquant y hy)
  obtain ⟨k1, -, k3⟩ := big_m_error_within hE heps0 heps1 hI.1 hM hc Ms m2 (7 / 10 ^ 10) (by norm_num)
    (by norm_num) (fun _ => True) (fun y hy _ => hcov y hy) gap (contTol κ)
    (fun g ρ hg hρ => cont_answer hE heps0 htol hI.1 hc hb hκ hR (e := 7 / 10 ^ 10) (by norm_num) (by
      rintro _ ⟨⟩
      exact ⟨m2.1, fun x z hx hz => hcov x ⟨hx, zOk_chance hE hz⟩, m3⟩) hg hρ) g b1 (env.cc 0 g)
    (by convert hr using 1; norm_num)
  have k1 : ∀ y, Feas I y → obj I y ≤ (env.cc 0 g).objBnd + objErr I := fun y hy => k1 y hy trivial
  obtain ⟨y, y1, y2, y3⟩ := k3 ρ b2
  dsimp only
  rw [b3, b4, b5]
  refine ⟨k1, y, y1, y2, y3, fun hg y' hy' => ?_⟩
  have c1 := k1 y' hy'
  have c2 := abs_le.1 y3
  have c0 : 0 ≤ obj I y := obj_nonneg hc y1.1
  have c3 : |(env.cc 0 g).objVal| ≤ obj I y + (contTol κ * ∑ j ∈ range I.n, I.c j + objErr I) :=
    abs_le.2 ⟨by linarith [c2.1], by linarith [c2.2]⟩
  have c4 := (abs_le.1 hg).2
  have c5 := mul_le_mul_of_nonneg_left c3 hgap
  have c6 := le_abs_self (env.cc 0 g).objVal
  linarith

/-- What is assumed about Gurobi in a run of method 2 on a continuous instance of doubles (C107). -/
structure ContAnswers (env : Env) (J : Inst) (gap : ℚ) : Prop where
  sub : ∀ s < J.N, GResult.FlAnswers defaultTols (2 / 10 ^ 10) (Deter.build (instCI J) [s]).g
    (env.sub 0 s (Deter.build (instCI J) [s]).g)
  lp : ∀ s < J.N, (env.sub 0 s (Deter.build (instCI J) [s]).g).objVal
    = (env.sub 0 s (Deter.build (instCI J) [s]).g).objBnd
  cc : ∀ g, IsMethod2Problem env J gap g → GResult.FlValid cclpTols (9 / 10 ^ 10) g (env.cc 0 g)

/-- **C107 (from the text).**  A file of non-negative numbers with at most four decimals, in any notation
that is read back as the doubles of these numbers, read with continuous variables; `I` is the instance that
exact arithmetic makes of the file.  Whatever Gurobi answers within its tolerances to the problems made from
the doubles, the result of method 2 is certified for `I`. -/
theorem C107_text {file : List (List ℚ)} (h : FourDecFile file) {texts : List (List Txt)}
    (ht : ShowsFile texts (flFile file)) {p : ℕ} (hp : p < 100) (hI : parse file true (p / 100) = .ok I)
    (htol : TolOk I) (hn : I.n ≤ 100) (hN : I.N ≤ 90000) (hM : Model.Moderate I) (hW : WholeValues I)
    (κ : ℚ) (hκ : 0 ≤ κ) (hR : RowRatio κ I) :
    ∃ J, readInstance (csvWrite texts) true (fl64 (p / 100)) = .ok J
      ∧ ∀ (env : Env) (timeLimit gap : ℚ), 0 ≤ gap → ContAnswers env J gap →
        ∀ r, flMilpBelotti env J timeLimit gap = .ok r → ContCertified κ I gap r := by
  obtain ⟨hcont, he, hE, hgrid, hc⟩ := parse_grid h hI
  refine ⟨dbl I, by rw [C98_text h ht, hI]; rfl, fun env limit gap hgap hA r hr => ?_⟩
  rw [flMilpBelotti_dbl] at hr
  refine C107_method2 hE p hp he htol hn hN hgrid hM hW hcont κ hκ hR limit gap hgap hA.sub hA.lp
    (fun g hg => hA.cc g ?_) r hr
  unfold IsMethod2Problem flRunBelotti at hg ⊢
  rw [dbl_dbl]
  exact hg

/-! ## Examples -/

/-- A scenario problem with two items that may be split. -/
theorem pair_build_cont {I : Inst} {t : Tols} (hn : I.n = 2) {s : ℕ} {d a b : ℚ}
    (hf : (Deter.build (instCI I) [s]).g.NearFeas t (pairPoint a b))
    (hv : ∀ x y : ℚ, -d ≤ x → x ≤ 1 + d → -d ≤ y → y ≤ 1 + d →
      (∀ i < I.m, I.A s i 0 * x + I.A s i 1 * y ≤ I.b s i + d) →
      I.c 0 * x + I.c 1 * y ≤ I.c 0 * a + I.c 1 * b) :
    GResult.FlValid t d (Deter.build (instCI I) [s]).g (pairAnswer a b 0 (Deter.build (instCI I) [s]).g) := by
  refine ⟨?_, fun ρ h => ?_, fun h => absurd h (show ¬ 2 = 3 by decide), fun _ => rfl⟩
  · rintro _ ⟨⟩
    exact ⟨hf, rfl⟩
  · obtain ⟨h1, h2⟩ := build_near h
    have k0 := h1 0 (by show 0 < I.n; omega)
    have k1 := h1 1 (by show 1 < I.n; omega)
    show _ ≤ _ + 0
    rw [build_obj, build_obj, add_zero]
    unfold Spec.obj
    rw [hn, pair_dot, pair_dot]
    refine hv _ _ k0.2.1 k0.2.2 k1.2.1 k1.2.2 fun i hi => ?_
    by_contra hno
    refine h2 s (by simp) ⟨i, hi, ?_⟩
    rw [hn, pair_dot]
    show d < _
    linarith [not_le.1 hno]

/-- The answers to the problems of the scenarios: slightly too large. -/
def exContSub (k : ℕ) : ℚ :=
  if k = 0 then 1 + 1 / 2 ^ 30 else if k = 1 then 1 / 2 + 1 / 2 ^ 30
  else if k = 2 then 219902325556 / 2 ^ 40 else 0

/-- An environment with these answers; at the end, the point of C106 is reported. -/
def exKnapEnv (norm : Norm) : Env :=
  { bruteEnv norm 0 with
    sub := fun _ k => pairAnswer (1 + 1 / 2 ^ 30) (exContSub k) 0
    cc := fun _ _ => exContAnswer }

theorem exKnap_c : (dbl exCont).c 0 = 3 ∧ (dbl exCont).c 1 = 1 := by decide +kernel

theorem exKnap_sub (norm : Norm) : ∀ s < exCont.N, GResult.FlAnswers defaultTols (2 / 10 ^ 10)
    (Deter.build (instCI (dbl exCont)) [s]).g
    ((exKnapEnv norm).sub 0 s (Deter.build (instCI (dbl exCont)) [s]).g) := by
  intro s hs
  have hs : s < 4 := hs
  have hrow : ∀ s < 4, (dbl exCont).A s 0 0 = 1 + s ∧ (dbl exCont).A s 0 1 = 3 + s ∧ (dbl exCont).b s 0 = 4 := by
    decide +kernel
  obtain ⟨r0, r1, r2⟩ := hrow s hs
  have key : ∀ x y : ℚ, -(2 / 10 ^ 10) ≤ x → x ≤ 1 + 2 / 10 ^ 10 → -(2 / 10 ^ 10) ≤ y → y ≤ 1 + 2 / 10 ^ 10 →
      (∀ i < (dbl exCont).m, (dbl exCont).A s i 0 * x + (dbl exCont).A s i 1 * y ≤ (dbl exCont).b s i + 2 / 10 ^ 10) →
      (dbl exCont).c 0 * x + (dbl exCont).c 1 * y
        ≤ (dbl exCont).c 0 * (1 + 1 / 2 ^ 30) + (dbl exCont).c 1 * exContSub s := by
    intro x y x0 x1 y0 y1 h
    have h := h 0 (by decide)
    rw [r0, r1, r2] at h
    rw [exKnap_c.1, exKnap_c.2]
    interval_cases s <;> norm_num [exContSub] at h ⊢ <;> linarith
  interval_cases s
  all_goals
    exact pairAnswer_answers (pair_build_cont rfl (by decide +kernel) key) (by decide +kernel) (by decide +kernel)

/-- The costs of the scenarios. -/
def exKnapCosts : List ℚ :=
  [4 + 4 / 2 ^ 30, 7 / 2 + 4 / 2 ^ 30, 3 + 3 / 2 ^ 30 + 219902325556 / 2 ^ 40, 3 + 3 / 2 ^ 30]

theorem exKnap_costs (norm : Norm) :
    allScenarioCosts (dbl exCont) ((exKnapEnv norm).sub 0) = .ok exKnapCosts := by
  have : ∀ f : ℕ → GModel → GResult, f = (fun k => pairAnswer (1 + 1 / 2 ^ 30) (exContSub k) 0) →
    allScenarioCosts (dbl exCont) f = .ok exKnapCosts := by
    rintro _ rfl
    decide +kernel
  exact this _ rfl

theorem exKnap_quantile : flQuantile (dbl exCont) (Argsort.default.run exKnapCosts) = some 2 := by
  decide +kernel

/-- Its big-Ms; the first row is left out. -/
def exKnapMs : List (List ℚ) :=
  [[-73300774929 / 274877906944], [201577132015 / 137438953472], [879609302989 / 274877906944],
    [339016085487 / 68719476736]]

theorem exKnap_ms : flBelottiContinuous .default (instCI (dbl exCont)) 4 (exKnapCosts.getD 2 0)
    = .ok exKnapMs := by decide +kernel

theorem exKnap_run (norm : Norm) :
    flRunBelotti (exKnapEnv norm) exCont (exKnapCosts.getD 2 0) = .ok exKnapMs := by
  unfold flRunBelotti
  rw [if_neg (by simp [exCont])]
  exact exKnap_ms

theorem exKnap_valid (norm : Norm) (g : GModel) (h : IsMethod2Problem (exKnapEnv norm) exCont 0 g) :
    GResult.FlValid cclpTols (9 / 10 ^ 10) g exContAnswer := by
  obtain ⟨costs, t, Ms, h1, h2, h3, h4⟩ := h
  rw [exKnap_costs] at h1
  cases h1
  have h2 : flQuantile (dbl exCont) (Argsort.default.run exKnapCosts) = some t := h2
  rw [exKnap_quantile] at h2
  cases h2
  rw [exKnap_run] at h3
  cases h3
  have hg := flBuildCCLP_shape (J := instCI (dbl exCont)) (by rintro _ ⟨⟩; exact ⟨by decide, by decide⟩) h4
  subst hg
  refine ⟨?_, ?_, by simp [exContAnswer], by simp [exContAnswer]⟩
  · rintro _ ⟨⟩
    rw [nearCC]
    exact ⟨by unfold NearCC; decide +kernel, by decide +kernel⟩
  · intro ρ hρ
    have h0 := (near_varX (t := ⟨0, 9 / 10 ^ 10⟩) ((nearCC).1 hρ).1)
    have hx : ∀ j < 2, ρ (.x j) ≤ 1 + 9 / 10 ^ 10 := fun j hj => (h0 j hj).2.2
    rw [(ccShape_fields _ _ _ _ _).1, eval_objExpr]
    have a := hx 0 (by decide)
    have b := hx 1 (by decide)
    rw [show (instCI (dbl exCont)).n = 2 from rfl, pair_dot,
      show (instCI (dbl exCont)).c 0 = 3 from exKnap_c.1, show (instCI (dbl exCont)).c 1 = 1 from exKnap_c.2]
    show _ ≤ (5 : ℚ)
    linarith

theorem exCont_whole : WholeValues exCont :=
  ⟨fun j hj => by
    have hj : j < 2 := hj
    interval_cases j
    · exact ⟨3, by decide +kernel⟩
    · exact ⟨1, by decide +kernel⟩, by decide +kernel⟩

/-- The hypotheses of `C107_method2` are met by an instance on which one row is left out and the method
reports a moved point. -/
example (norm : Norm) : ∃ r, flMilpBelotti (exKnapEnv norm) exCont 10 0 = .ok r
    ∧ r.vLB = 16 / 5 + 6 / 10 ^ 10 ∧ r.xLB 0 = 1 + 2 / 10 ^ 10
    ∧ (∀ y, Feas exCont y → obj exCont y ≤ r.vUB + objErr exCont)
    ∧ ∃ y, Feas exCont y ∧ (∀ j < 2, |r.xLB j - y j| ≤ contTol 3) := by
  obtain ⟨r, hr, hv, hx⟩ : ∃ r, flMilpBelotti (exKnapEnv norm) exCont 10 0
      = .ok r ∧ r.vLB = 16 / 5 + 6 / 10 ^ 10 ∧ r.xLB 0 = 1 + 2 / 10 ^ 10 := by
    unfold flMilpBelotti
    rw [exKnap_costs]
    simp only [bind, Except.bind]
    rw [show (exKnapEnv norm).argsort = .default from rfl, exKnap_quantile]
    simp only [exKnap_run]
    obtain ⟨g, hg⟩ : ∃ g, flBuildCCLP (instCI (dbl exCont)) (some exKnapMs) [] [] 0 = .ok g := ⟨_, rfl⟩
    unfold flSolveCclp
    have ht : setTimeLimit (remaining (exKnapEnv norm).clock 10 (milpReads true + 1)
        - ((exKnapEnv norm).clock (milpReads true + 4) - (exKnapEnv norm).clock (milpReads true + 3)))
        = .ok () := by
      unfold setTimeLimit
      rw [if_pos]
      simp [remaining, exKnapEnv, bruteEnv]
    rw [hg]
    simp only [bind, Except.bind, ht]
    refine ⟨_, rfl, rfl, ?_⟩
    show (if (0 : ℕ) = 0 then (1 + 2 / 10 ^ 10 : ℚ) else 1 / 5) = _
    exact if_pos rfl
  obtain ⟨h1, y, y1, y2, -⟩ := C107_method2 (env := exKnapEnv norm) exCont_equi 25 (by norm_num)
    (by norm_num [exCont]) (by decide +kernel) (by decide) (by decide) exCont_grid
    (by unfold Model.Moderate; decide +kernel) exCont_whole rfl 3 (by norm_num)
    (by decide +kernel) 10 0 le_rfl (exKnap_sub norm) (fun s hs => (add_zero _).symm) (exKnap_valid norm) r hr
  exact ⟨r, hr, hv, hx, h1, y, y1, y2⟩

/-- The hypotheses of `C107_big_ms` are met; here are the big-Ms for another bound, where they are rounded. -/
example : exCont.n ≤ 100 ∧ OneDecimal exCont ∧ Model.Moderate exCont ∧ WholeValues exCont
    ∧ (flBelottiContinuous .default (instCI (dbl exCont)) 4 3).toOption.map (fun Ms => bigMAt Ms 0 0)
      = some (-3002399751580331 / 9007199254740992) :=
  ⟨by decide, exCont_grid, by unfold Model.Moderate; decide +kernel, exCont_whole, by decide +kernel⟩

/-- The hypotheses of `C107_text` are met by the file of C106. -/
example : FourDecFile exContFile ∧ ShowsFile exContTexts (flFile exContFile)
    ∧ parse exContFile true ((25 : ℕ) / 100) = .ok exContParsed
    ∧ TolOk exContParsed ∧ exContParsed.n ≤ 100 ∧ exContParsed.N ≤ 90000 ∧ Model.Moderate exContParsed
    ∧ WholeValues exContParsed ∧ RowRatio 3 exContParsed := by
  refine ⟨fourDec_of (by decide +kernel), ?_, ?_, by decide +kernel, by decide +kernel, by decide +kernel,
    by unfold Model.Moderate; decide +kernel, ⟨fun j hj => ?_, by decide +kernel⟩, by decide +kernel⟩
  · unfold exContTexts exContFile flFile ShowsFile
    repeat' first
      | exact List.Forall₂.nil
      | refine List.Forall₂.cons ?_ ?_
    all_goals
      exact ⟨by decide +kernel, by decide, by decide⟩
  · rw [show (((25 : ℕ) : ℚ) / 100) = 1 / 4 by norm_num]; exact exContParsed_parse
  · have h : exContParsed.n = 2 := by decide +kernel
    have hj : j < 2 := h ▸ hj
    interval_cases j
    · exact ⟨3, by decide +kernel⟩
    · exact ⟨1, by decide +kernel⟩

end Verif.Props
