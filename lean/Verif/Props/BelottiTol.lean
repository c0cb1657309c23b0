import Verif.Props.GurobiTol
import Verif.Props.GridValues

/-!
# C104: Belotti's big-Ms within Gurobi's tolerances
-/

namespace Verif.Props
open Spec Model Finset LinExpr

variable {env : Env} {I : Inst}

/-- The extended formulation with moderate big-Ms that need not be valid: the reported point is
feasible after rounding, and the bound holds for the feasible points that the big-Ms do not cut off. -/
theorem milp_answer (hE : Equi I) (heps : 0 ≤ I.eps) (htol : TolOk I) (hI : OneDecimal I)
    (hM : Model.Moderate I) (hc : NonnegC I) (hb : I.cont = false) {bigM : Option (List (List ℚ))}
    (hM' : ∀ Ms, bigM = some Ms → Shape (instCI I) Ms ∧ ∀ s < I.N, ∀ i < I.m, bigMAt Ms s i ≤ 10 ^ 6)
    {gap limit elapsed : ℚ} {solve : GModel → GResult} {out : UBOut}
    (hcc : ∀ g, GResult.NearValid wideTols g (solve g))
    (h : solveCclp (instCI I) bigM [] [] gap limit elapsed solve = .ok out) :
    FeasWithin (1 / 10 ^ 9) I out.x ∧ obj I out.x = out.vObj
    ∧ (∀ y, Feas I y → (∀ Ms, bigM = some Ms → Covers (instCI I) Ms y) → obj I y ≤ out.vBnd)
    ∧ ∃ g, g.mipGap = gap ∧ (solve g).sol.isSome ∧ out.vObj = (solve g).objVal
        ∧ out.vBnd = (solve g).objBnd := by
  obtain ⟨g, g1, g2, g3, g4, hf⟩ := buildCCLP_ok (instCI I) bigM (fun Ms e => (hM' Ms e).1) [] [] gap
    (by simp) (by simp)
  obtain ⟨g', ρ, b1, b2, b3, b4, b5⟩ := solveCclp_inv h
  rw [g1] at b1
  cases b1
  obtain ⟨f1, f2⟩ := (hcc g).feas ρ b2
  have hbD : (instCI I).cont = false := hb
  obtain ⟨a1, a2, a3, a4, a5⟩ := near_answer hbD hM' (by simp) (by simp) g1 f1
  have hcard := near_count_core (I := I) (t := wideTols) htol hE.1 le_rfl (ep := I.eps) rfl
    (pr := I.proba) hE.2 (by norm_num [wideTols]) (z := fun c => ρ (.z c)) a3 a4
  have hdom : NearDom wideTols (instCI I) fun j => ρ (.x j) := a1
  have ht : wideTols.int < 1 / 2 := by norm_num [wideTols]
  have hev : ∀ ρ, g.obj.eval ρ = obj I fun j => ρ (.x j) := fun ρ => by
    rw [g2, eval_objExpr]; rfl
  have hbd : g.Bounded := by
    refine ⟨∑ j ∈ range I.n, I.c j, fun ρ hρ => ?_⟩
    rw [if_pos g3, hev]
    unfold Spec.obj dot
    refine Finset.sum_le_sum fun j hj => ?_
    have hj := Finset.mem_range.1 hj
    have hX : InX I fun j => ρ (.x j) := ((hf ρ).1 hρ).1.1
    exact mul_le_of_le_one_right (hc j hj) (inX_box hX j hj).2
  have hround : Feas I (roundVec fun j => ρ (.x j)) := by
    refine round_feas hE heps hI hM hb (nearDom_mono
      (by norm_num [wideTols, defaultTols]) (by norm_num [wideTols, defaultTols]) hdom) ?_
    refine le_trans (Finset.card_le_card fun s hs => ?_) hcard
    obtain ⟨c1, c2⟩ := Finset.mem_filter.1 hs
    refine Finset.mem_filter.2 ⟨c1, fun hzc => ?_⟩
    exact nearRows_inst (I := I) (a5 s (Finset.mem_range.1 c1) hzc) (violBy_mono (by norm_num) c2)
  rw [b3, b4, b5]
  refine ⟨⟨_, hround, fun j hj => round_abs ht hb hdom hj, round_obj ht hc hb hdom⟩,
    by rw [← f2, hev], fun y hy hcov => ?_, g, g4, by rw [b2]; rfl, rfl, rfl⟩
  have hpoint : g.Feas (scenPoint I y) := by
    obtain ⟨g0, p1, -, -, -, -, p2⟩ := inst_points hE (bigM := none) (by rintro _ ⟨⟩) gap
    obtain ⟨g0', q1, -, -, -, q2⟩ := buildCCLP_ok (instCI I) none (by rintro _ ⟨⟩) [] [] gap
      (by simp) (by simp)
    rw [p1] at q1
    cases q1
    obtain ⟨h1, h2⟩ := (q2 _).1 (p2 y hy)
    refine (hf _).2 ⟨h1, ?_⟩
    cases bigM with
    | none => exact h2
    | some Ms =>
      intro s hs i hi
      have hcv := hcov Ms rfl s hs i hi
      unfold BigMRow
      split
      · show dot (instCI I).n ((instCI I).row s i) y ≤ _ + _ * (1 - scenPoint I y (.z s))
        rcases h1.2.1 s hs with h0 | h1
        · rw [h0]; linarith
        · rw [h1]
          have := h2 s hs h1 i hi
          change dot (instCI I).n ((instCI I).row s i) y ≤ _ at this
          linarith
      · exact Or.inr hcv
  have := (hcc g).bound hbd _ hpoint
  rw [if_pos g3, hev] at this
  exact this

/-- Belotti's big-Ms of moderate binary instances, computed within tolerances. -/
theorem belotti_answers (hI : OneDecimal I) (hM : Model.Moderate I) (hc : NonnegC I)
    (hb : I.cont = false) (hn : 0 < I.n) {argsort : Argsort} {solve : GModel → GResult}
    (hbig : ∀ g, GResult.NearAnswers bigTols g (solve g)) {q : ℚ} (hq : 0 ≤ q) :
    ∃ Ms, runBelotti argsort solve (instCI I) I.N q = .ok Ms ∧ Shape (instCI I) Ms
      ∧ (∀ s < I.N, ∀ i < I.m, bigMAt Ms s i ≤ 10 ^ 6)
      ∧ ∀ x, InX I x → obj I x ≤ q → Covers (instCI I) Ms x := by
  have hJ := nonnegCI_inst hI.1 hc
  unfold runBelotti
  rw [if_pos ⟨hb, hn⟩]
  unfold belottiMip
  obtain ⟨Ms, h1, h2, h3⟩ := table_ok (instCI I) (fun s i => do
    let r ← optimize (solve (buildBigMKnapsack (instCI I) q s i (1 / 10 ^ 8)))
    pure r.objBnd) (fun s _ i _ =>
      ⟨_, by rw [optimize, if_neg (hbig _).notInterrupted]; rfl⟩)
  refine ⟨Ms, h1, h2, fun s hs i hi => ?_, fun x hx hv s hs i hi => ?_⟩
  all_goals
    have h := h3 s hs i hi
    simp only [optimize, if_neg (hbig _).notInterrupted, bind, Except.bind, pure, Except.pure,
      Except.ok.injEq] at h
  · obtain ⟨x, ⟨hx, hxc⟩, hmax⟩ := dom_attains (instCI I) [((instCI I).c, q)] ((instCI I).row s i)
      ⟨fun _ => 0, inDom_zero _, by
        intro c hc
        rw [List.mem_singleton.1 hc]
        have : dot (instCI I).n (instCI I).c (fun _ => 0) = 0 := by simp [dot]
        rw [this]; exact hq⟩
    have hopt : (buildBigMKnapsack (instCI I) q s i (1 / 10 ^ 8)).Optimal
        (fun v => match v with | .x j => x j | _ => 0) := by
      refine ⟨(bigMKnapsack_feas _ _ s i _ _).2 ⟨hx, hxc (_, q) (List.mem_singleton.2 rfl)⟩,
        fun ρ hρ => ?_⟩
      obtain ⟨hd, hc⟩ := (bigMKnapsack_feas _ _ s i _ _).1 hρ
      rw [if_pos (bigMKnapsack_max _ _ _ _ _), bigMKnapsack_obj, bigMKnapsack_obj]
      have := hmax _ hd (by intro c hcm; rw [List.mem_singleton.1 hcm]; exact hc)
      exact sub_le_sub_right this _
    set g := buildBigMKnapsack (instCI I) q s i (1 / 10 ^ 8) with hg
    have hst := (hbig g).status ⟨_, hopt⟩
    obtain ⟨ρ, hρ⟩ := Option.isSome_iff_exists.1 ((hbig g).valid.optimal hst)
    obtain ⟨hf, hv⟩ := (hbig g).valid.feas ρ hρ
    have hgap := (hbig g).gap (show (0 : ℚ) ≤ 1 / 10 ^ 8 by norm_num) hst
    change |_ - _| ≤ 1 / 10 ^ 8 * |_| at hgap
    have hd : NearDom bigTols (instCI I) fun j => ρ (.x j) := by
      have hnear : g.NearFeas bigTols ρ := near_or
        (by norm_num [bigTols]) (by
          intro c hc v val l he
          simp [hg, buildBigMKnapsack, GModel.setObjective, GModel.setMIPGap, GModel.addConstr,
            GModel.addVars, GModel.empty] at hc
          rw [hc] at he
          cases he) hf
      refine near_varX fun d hd => hnear.1 d ?_
      simpa [hg, buildBigMKnapsack, GModel.setObjective, GModel.setMIPGap, GModel.addConstr,
            GModel.addVars, GModel.empty] using hd
    obtain ⟨m1, m2⟩ := hM s hs i hi
    obtain ⟨n1, n2⟩ := hI.1 s hs i hi
    have hle : ∀ j ∈ range I.n, |I.A s i j * ρ (.x j)| ≤ 2 * I.A s i j := fun j hj => by
      have hj := Finset.mem_range.1 hj
      obtain ⟨-, e1, e2⟩ := hd j hj
      have e3 : |ρ (.x j)| ≤ 2 := by
        rw [abs_le]
        norm_num [bigTols] at e1 e2
        constructor <;> linarith
      rw [abs_mul, abs_of_nonneg (n2 j hj)]
      nlinarith [n2 j hj]
    have hsum : |∑ j ∈ range I.n, I.A s i j * ρ (.x j)| ≤ 2 * 20000 := by
      refine (Finset.abs_sum_le_sum_abs _ _).trans ((Finset.sum_le_sum hle).trans ?_)
      rw [← Finset.mul_sum]
      linarith
    rw [bigMKnapsack_obj] at hv
    have hval : (solve g).objVal = ∑ j ∈ range I.n, I.A s i j * ρ (.x j) - I.b s i := hv.symm
    have habs : |(solve g).objVal| ≤ 45000 := by
      rw [hval, abs_le]
      rw [abs_le] at hsum
      constructor <;> linarith
    rw [← h]
    have := le_abs_self ((solve g).objBnd - (solve g).objVal)
    have := le_abs_self (solve g).objVal
    linarith
  · have hbd := (hbig (buildBigMKnapsack (instCI I) q s i (1 / 10 ^ 8))).valid.bound
      (bigMKnapsack_bounded (hJ.1 s hs i hi).2 _ _)
      (fun v => match v with | .x j => x j | _ => 0)
      ((bigMKnapsack_feas _ q s i _ _).2 ⟨hx, hv⟩)
    rw [if_pos (bigMKnapsack_max _ _ _ _ _), bigMKnapsack_obj, h] at hbd
    linarith

/-- **C104 (what holds).**  The full claim, that `vUB` bounds every feasible objective as with the other
big-Ms (`C94_milp`), is false (`C104_counterexample`).  Binary instances with one decimal digit and
moderate capacities; single-scenario problems answered within the default tolerances and gap, the
problems of the big-Ms within the tolerances `1e-9` and `1e-8` and the gap `1e-8`, the extended
formulation within the tolerances `1e-9`.  When `MilpSolver.solve` with Belotti's big-Ms returns,
rounding the reported point gives a point that satisfies the chance constraint and `vLB` is within
`1e-9` times the sum of all values of its objective.  Let `q` be the quantile of the scenario costs that
was passed to the tightening.  Every feasible point with an objective up to `q` has an objective up to
`vUB`, and no feasible objective exceeds `(1 + 1e-4) * q`.  So `vUB` bounds every feasible objective if
the scenario costs are not below the optimal values of the scenario problems, and up to the factor
`1 + 1e-4` if `vUB` is at least `q`. -/
theorem C104_belotti_partial (hE : Equi I) (heps : 0 ≤ I.eps) (htol : TolOk I) (hn : 0 < I.n)
    (hI : OneDecimal I) (hM : Model.Moderate I) (hc : NonnegC I) (hb : I.cont = false)
    (timeLimit gap : ℚ)
    (hsub : ∀ k g, GResult.NearAnswers defaultTols g (env.sub 0 k g))
    (hbig : ∀ g, GResult.NearAnswers bigTols g (env.big 0 g))
    (hcc : ∀ g, GResult.NearValid wideTols g (env.cc 0 g)) (r : MilpSt)
    (h : milpSolve env I timeLimit gap true "belotti" = .ok r) :
    FeasWithin (1 / 10 ^ 9) I r.xLB ∧ obj I r.xLB = r.vLB
    ∧ (∃ costs q, allScenarioCosts I (env.sub 0) = .ok costs
        ∧ ahmedBound env.argsort costs I.proba I.eps = some q
        ∧ (∀ y, Feas I y → obj I y ≤ q → obj I y ≤ r.vUB)
        ∧ (∀ y, Feas I y → obj I y ≤ (1 + 1 / 10 ^ 4) * q)
        ∧ ((∀ s < I.N, ∀ y, InX I y → Sat I s y → obj I y ≤ costs.getD s 0) →
            ∀ y, Feas I y → obj I y ≤ r.vUB)
        ∧ (q ≤ r.vUB → ∀ y, Feas I y → obj I y ≤ (1 + 1 / 10 ^ 4) * r.vUB))
    ∧ (gap < 1 → (∀ g, g.mipGap = gap → (env.cc 0 g).sol.isSome →
        (env.cc 0 g).status = 2 ∧ GResult.WithinGap g (env.cc 0 g)) →
        r.vUB ≤ (1 + gap) * r.vLB) := by
  have hp : ∀ s < I.N, 0 ≤ I.proba s := fun s hs => by rw [hE.2 s hs]; positivity
  obtain ⟨bigM, out, h1, h2, h3, h4, h5⟩ := milpSolve_inv h
  rw [milpBigMOpt, if_pos rfl] at h1
  unfold milpBigM at h1
  rw [if_pos rfl] at h1
  cases hcs : allScenarioCosts I (env.sub 0) with
  | error e => rw [hcs] at h1; cases h1
  | ok costs =>
  rw [hcs] at h1
  cases hq : ahmedBound env.argsort costs I.proba I.eps with
  | none => simp only [bind, Except.bind, hq] at h1; cases h1
  | some q =>
  simp only [bind, Except.bind, hq] at h1
  have hcs' := hcs
  unfold allScenarioCosts scenarioCosts at hcs'
  obtain ⟨hl, hk⟩ := mapM_inv _ _ _ hcs'
  rw [List.length_zipIdx, List.length_range] at hl
  have hcost : ∀ s < I.N, ∀ y, InX I y → Sat I s y →
      obj I y ≤ (1 + 1 / 10 ^ 4) * costs.getD s 0 := by
    intro s hs y hy hsat
    have hs2 : s < costs.length := by omega
    have h1 := hk s (by simpa using hs) hs2
    rw [List.getElem_zipIdx, List.getElem_range] at h1
    simp only at h1
    rw [List.getD_eq_getElem _ _ hs2]
    cases hcs : subsetCost I (env.sub 0 (0 + s)) [s] with
    | error e => rw [hcs] at h1; cases h1
    | ok p =>
      rw [hcs] at h1
      have he : p.1 = costs[s] := Except.ok.inj h1
      have := (subsetCost_tol hc (hsub _ _) (v := p.1) (x := p.2) hcs).2 y hy
        (by intro t ht; rw [List.mem_singleton.1 ht]; exact hsat)
      rwa [he] at this
  have hzero : Feas I fun _ => 0 := by
    refine ⟨zero_inX I, ?_⟩
    have : viol I (fun _ => 0) = ∅ := by
      refine Finset.filter_eq_empty_iff.2 fun s hs => not_not.2 ?_
      exact zero_satAll (l := [s]) hI.1 (by simpa using hs) s (by simp)
    unfold Chance
    rw [this]
    simpa using heps
  have hobj0 : obj I (fun _ => 0) = 0 := by unfold Spec.obj dot; simp
  have hquant : ∀ y, Feas I y → obj I y ≤ (1 + 1 / 10 ^ 4) * q := fun y hy => by
    obtain ⟨s, hs, hsat, hle⟩ := quantile_scenario env.argsort hl hp hq hy.2
    have := hcost s hs y hy.1 hsat
    linarith
  have hq0 : 0 ≤ q := by
    have := hquant _ hzero
    rw [hobj0] at this
    linarith
  obtain ⟨Ms, m1, m2, m3, m4⟩ := belotti_answers (argsort := env.argsort) hI hM hc hb hn hbig hq0
  rw [m1] at h1
  cases h1
  obtain ⟨a1, a2, a3, g, g4, b2, b4, b5⟩ := milp_answer hE heps htol hI hM hc hb
    (by rintro _ ⟨⟩; exact ⟨m2, m3⟩) hcc h2
  have hbound : ∀ y, Feas I y → obj I y ≤ q → obj I y ≤ r.vUB := fun y hy hle => by
    rw [h5]
    exact a3 y hy (by rintro _ ⟨⟩; exact m4 y hy.1 hle)
  rw [h3, h4]
  refine ⟨a1, a2, ⟨costs, q, rfl, hq, hbound, hquant, fun hex y hy => ?_, fun hle y hy => ?_⟩,
    fun hg1 hst => ?_⟩
  · obtain ⟨s, hs, hsat, hle⟩ := quantile_scenario env.argsort hl hp hq hy.2
    exact hbound y hy ((hex s hs y hy.1 hsat).trans hle)
  · have := hquant y hy
    linarith
  · obtain ⟨st1, st2⟩ := hst g g4 b2
    have hw := st2 st1
    rw [g4, ← b4, ← b5] at hw
    have h0 := hbound _ hzero (by rw [hobj0]; exact hq0)
    rw [hobj0, h5] at h0
    have h1 := le_abs_self (out.vBnd - out.vObj)
    have hv : 0 ≤ out.vObj := by
      by_contra hneg
      have hneg := not_le.1 hneg
      rw [abs_of_neg hneg] at hw
      nlinarith
    rw [abs_of_nonneg hv] at hw
    rw [h5]
    linarith

/-! ## Counterexample and example -/

/-- One scenario, two binary items of values 100 and 1, at most one of them fits; the second row limits
only the first item. -/
def exNudge : Inst :=
  { n := 2, N := 1, m := 2, A := fun _ i j => if i = 1 ∧ j = 1 then 0 else 1, b := fun _ _ => 1
    c := fun j => if j = 0 then 100 else 1, proba := fun _ => 1, eps := 0, cont := false }

/-- A solver that answers the problem of the only scenario with the first item at `0.99999`, which is an
integer within `IntFeasTol`; all other answers are exact. -/
noncomputable def nudgeSolver : GModel → GResult :=
  tableSolver [((Deter.build (instCI exNudge) [0]).g,
    ⟨2, some fun v => if v = .x 0 then 99999 / 10 ^ 5 else 0, 99999 / 1000, 100⟩)]

theorem nudgeSolver_answers (g : GModel) : GResult.NearAnswers defaultTols g (nudgeSolver g) := by
  unfold nudgeSolver tableSolver
  split
  · next hg =>
    subst hg
    have hpl : (Deter.build (instCI exNudge) [0]).g.plain = true := by decide +kernel
    have hb := (brute_exact hpl).answers.valid.bound
    have hbnd : (brute (Deter.build (instCI exNudge) [0]).g).objBnd = 100 := by decide +kernel
    rw [hbnd] at hb
    refine ⟨⟨⟨?_, hb, ?_, ?_⟩, ?_, ?_⟩, fun _ => rfl, fun _ _ => ?_⟩
    · rintro ρ h
      cases h
      constructor
      · exact .inr (by decide +kernel)
      · decide +kernel
    · intro h; cases h
    · intro _; rfl
    · simp
    · intro _ _; rfl
    · rw [build_mipGap, abs_of_nonneg (by norm_num), abs_of_nonneg (by norm_num)]
      norm_num
  · unfold tableSolver
    have h := exactSolver_exact g
    refine ⟨⟨⟨fun ρ hs => ⟨.inl (h.answers.valid.feas ρ hs).1, (h.answers.valid.feas ρ hs).2⟩,
      h.answers.valid.bound, h.answers.valid.infeasible, h.answers.valid.optimal⟩,
      h.answers.notInterrupted, h.answers.solved⟩, fun ho => (h.optimum ho).1, fun h0 h2 => ?_⟩
    rw [exactSolver_closed g h2, sub_self, abs_zero]
    exact mul_nonneg h0 (abs_nonneg _)

/-- **C104 (counterexample).**  Data with one decimal digit, values on a grid whose sum is far below
`10^4` times its unit (the condition under which the default gap alone does no harm, `C102_belotti`), and a
single-scenario problem answered within the default `IntFeasTol`; every other answer is exact.  With
Belotti's big-Ms the solver reports 1 as value and bound, although a feasible point has objective 100. -/
theorem C104_counterexample : ∃ (env : Env) (I : Inst) (r : MilpSt),
    Equi I ∧ 0 ≤ I.eps ∧ TolOk I ∧ OneDecimal I ∧ Model.Moderate I ∧ GridValues I.n I.c 1
    ∧ I.cont = false
    ∧ (∀ k g, GResult.NearAnswers defaultTols g (env.sub 0 k g))
    ∧ (∀ g, GResult.Exact g (env.big 0 g)) ∧ (∀ g, GResult.Exact g (env.cc 0 g))
    ∧ milpSolve env I 1800 (1 / 10 ^ 4) true "belotti" = .ok r
    ∧ r.vUB = 1 ∧ r.vLB = 1 ∧ ∃ y, Feas I y ∧ obj I y = 100 := by
  obtain ⟨r, hr, h1, h2⟩ : ∃ r, milpSolve { exactEnv exNorm 1 with sub := fun _ _ => nudgeSolver }
      exNudge 1800 (1 / 10 ^ 4) true "belotti" = .ok r ∧ r.vUB = 1 ∧ r.vLB = 1 := by
    have : (milpSolve { exactEnv exNorm 1 with sub := fun _ _ => nudgeSolver } exNudge
      1800 (1 / 10 ^ 4) true "belotti").map (fun r => (r.vUB, r.vLB)) = .ok (1, 1) := by
      decide +kernel
    cases hm : milpSolve { exactEnv exNorm 1 with sub := fun _ _ => nudgeSolver } exNudge
      1800 (1 / 10 ^ 4) true "belotti" with
    | error e => rw [hm] at this; cases this
    | ok r =>
      rw [hm] at this
      have := Prod.mk.inj (Except.ok.inj this)
      exact ⟨r, rfl, this.1, this.2⟩
  refine ⟨_, exNudge, r, ⟨by decide, fun s _ => by norm_num [exNudge]⟩, by decide +kernel,
    by decide +kernel, ⟨by unfold NonnegAb; decide +kernel,
      fun s _ i _ => ⟨⟨10, by norm_num [exNudge]⟩, fun j _ => ?_⟩⟩,
    by unfold Model.Moderate; decide +kernel, ⟨by norm_num, fun j _ => ?_, by decide +kernel⟩, rfl,
    fun _ => nudgeSolver_answers, exactSolver_exact, exactSolver_exact, hr, h1, h2,
    fun j => if j = 0 then 1 else 0, ⟨by unfold InX; decide +kernel, by unfold Chance; decide +kernel⟩,
    by decide +kernel⟩
  · by_cases h : i = 1 ∧ j = 1
    · exact ⟨0, by simp only [exNudge, if_pos h]; norm_num⟩
    · exact ⟨10, by simp only [exNudge, if_neg h]; norm_num⟩
  · by_cases h0 : j = 0
    · exact ⟨100, by simp [exNudge, h0]⟩
    · exact ⟨1, by simp [exNudge, h0]⟩

/-- All solutions are moved, also those of the problems of the big-Ms. -/
noncomputable def shakenBigEnv : Env :=
  { shakenEnv (1 / 10 ^ 13) with big := fun _ => shakenSolver bigTols (1 / 10 ^ 10) }

/-- The hypotheses of `C104_belotti_partial` are met by a call in which all reported points are moved;
the quantile is larger than the bound. -/
example : Equi (exShaken 5) ∧ 0 ≤ (exShaken 5).eps ∧ TolOk (exShaken 5) ∧ 0 < (exShaken 5).n
    ∧ OneDecimal (exShaken 5) ∧ Model.Moderate (exShaken 5) ∧ NonnegC (exShaken 5)
    ∧ (exShaken 5).cont = false
    ∧ (∀ k g, GResult.NearAnswers defaultTols g (shakenBigEnv.sub 0 k g))
    ∧ (∀ g, GResult.NearAnswers bigTols g (shakenBigEnv.big 0 g))
    ∧ (∀ g, GResult.NearValid wideTols g (shakenBigEnv.cc 0 g))
    ∧ (milpSolve shakenBigEnv (exShaken 5) 1800 (1 / 10 ^ 4) true "belotti").toOption.map
      (fun r => (r.vLB, r.vUB)) = some (20 + 2 / 10 ^ 12, 20)
    ∧ (allScenarioCosts (exShaken 5) (shakenBigEnv.sub 0)).toOption.bind
        (fun costs => ahmedBound shakenBigEnv.argsort costs (exShaken 5).proba (exShaken 5).eps)
      = some (25 + 25 / 10 ^ 10) :=
  have hC := shaken_contract (1 / 10 ^ 13) (.inl rfl)
  ⟨hC.equi, hC.eps, hC.tolOk, hC.n, (shaken_data (.inl rfl)).1, (shaken_data (.inl rfl)).2, hC.c, rfl,
    fun _ g => shakenSolver_answers _ _ g, fun g => shakenSolver_answers _ _ g,
    fun g => NearValid_wide (shakenSolver_answers _ _ g).valid, by decide +kernel, by decide +kernel⟩

end Verif.Props
