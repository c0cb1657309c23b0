import Verif.Lemmas.GapRun
import Verif.Props.Certificates

/-!
# C78: runs whose subset problems are solved within Gurobi's default gap
-/

namespace Verif.Props
open Spec Model Finset

variable {env : Env} {cfg : Cfg} {I : Inst} {rounds fuel : ℕ}

/-- For binary instances with one decimal digit only the answers of the solver are assumed. -/
theorem gapContract_of_grid (hE : Equi I) (heps : 0 ≤ I.eps) (htol : TolOk I) (hI : OneDecimal I)
    (hc : NonnegC I) (hm : 0 < I.m) (hn : 0 < I.n) (hb : I.cont = false)
    (hsub : ∀ t k g, GapAnswers g (env.sub t k g))
    (hcc : ∀ t g, GResult.Valid g (env.cc t g)) (hlb : ∀ t g, GResult.Valid g (env.lb t g))
    (hacc : ∀ t k g, GResult.Answers g (env.acc t k g)) : GapContract env I :=
  ⟨hE, heps, htol, hI.1, hc, hm, hn, hsub,
    fun t k _ _ _ h => sharp_of_grid hI hb (subsetCost_near hc (hsub t k _) h).1.1, hcc, hlb, hacc⟩

/-- **C78 (what holds).**  With subset problems solved within Gurobi's default gap of `1e-4` and
without Belotti's big-Ms, in every run, however it ends:
after every assignment to a bound, the objective of every feasible point is at most
`1 + 1e-4` times the larger of `vUB` and `vLB`, and `vLB`, once set, is the objective of a feasible
point;
if `solve` stops on the gap, `xLB` is feasible, has objective `vLB`, and no feasible point exceeds
it by more than the factor `(1 + 1e-4) * (1 + gap)`;
if `solve` stops because the upper-bound solution is feasible and the reported value is not below
an earlier lower bound, no feasible point exceeds it by more than the factor `1 + 1e-4`.
Missing from the full claim: after a feasible stop the reported point is feasible, which is false
(`C78_counterexample`). -/
theorem C78_default_gap_partial (hC : GapContract env I)
    (hB : cfg.useBigM = true → cfg.bigMMethod ≠ "belotti") (r : Except PyErr (Bool × Gap)) (s : St)
    (h : run env cfg I rounds fuel = .ok (r, s)) :
    (∀ p ∈ s.trace,
      (∀ y, Feas I y → ∀ u : ℚ, p.1 = u → obj I y ≤ (1 + 1 / 10 ^ 4) * u
        ∨ ∃ l : ℚ, p.2 = l ∧ obj I y ≤ (1 + 1 / 10 ^ 4) * l)
      ∧ ∀ v : ℚ, p.2 = v → ∃ x, Feas I x ∧ obj I x = v)
    ∧ (∀ g, r = .ok (false, g) → 0 ≤ cfg.gap → cfg.gap < 1 → g.le cfg.gap = true →
      ∃ x, s.xLB = some x ∧ Feas I x ∧ s.vLB = (obj I x : WithBot ℚ)
        ∧ ∀ y, Feas I y → obj I y ≤ (1 + 1 / 10 ^ 4) * (1 + cfg.gap) * obj I x)
    ∧ (∀ g, r = .ok (true, g) → (∀ p ∈ s.trace, p.2 ≤ s.vLB) →
      ∀ y, Feas I y → ∀ u : ℚ, s.vUB = u → s.vLB = (u : WithBot ℚ) →
        obj I y ≤ (1 + 1 / 10 ^ 4) * u) := by
  obtain ⟨s', h1, h2, h3, h4, h5, -⟩ := run_near hC.near
    (fun h1 => ⟨trivial, fun h2 => absurd h2 (hB h1)⟩) h
  refine ⟨by rw [h3]; exact h1.trace, fun g hr h0 hgap hg => ?_, fun g hr hle y hy u hu hl => ?_⟩
  · subst hr
    obtain rfl := h4 (by rintro g' ⟨⟩)
    rcases h5 g hgap rfl with hno | ⟨b, hb⟩
    · exact absurd hg hno
    cases hl : s'.vLB with
    | bot => rw [hl] at hb; cases hb; cases hg
    | coe l =>
      obtain ⟨x, x1, x2, x3⟩ := h1.lb l hl
      refine ⟨x, x1, x2, by rw [x3], fun y hy => ?_⟩
      have hl0 : 0 ≤ l := x3 ▸ obj_nonneg hC.c x2.1
      have hy0 := obj_nonneg hC.c hy.1
      have hlow : (1 + 1 / 10 ^ 4) * l ≤ (1 + 1 / 10 ^ 4) * (1 + cfg.gap) * l := by
        have := mul_nonneg h0 hl0
        rw [mul_assoc]
        exact mul_le_mul_of_nonneg_left (by linarith) (by norm_num)
      rw [x3]
      cases hu : s'.vUB with
      | top => rw [hl, hu] at hb; cases hb; cases hg
      | coe u =>
        rcases h1.ub y hy u hu with hc | ⟨l', hl', hc⟩
        · rcases hl0.lt_or_eq with hpos | hz
          · rw [hl, hu] at hb
            unfold computeGap at hb
            simp only [if_neg hpos.ne'] at hb
            cases hb
            simp only [Gap.le, decide_eq_true_eq] at hg
            rw [div_le_iff₀ hpos] at hg
            refine hc.trans ?_
            rw [mul_assoc]
            exact mul_le_mul_of_nonneg_left (by linarith) (by norm_num)
          · exfalso
            subst hz
            rw [hl, hu] at hb
            have hu0 : 0 ≤ u := by
              by_contra hneg
              have : (1 + 1 / 10 ^ 4 : ℚ) * u < 0 := by nlinarith
              linarith
            unfold computeGap at hb
            simp only [if_true] at hb
            split at hb
            · rw [if_neg (not_lt.2 hu0)] at hb
              split at hb <;> cases hb <;> cases hg
            · cases hb
        · rw [hl] at hl'
          obtain rfl := WithBot.coe_injective hl'
          exact hc.trans hlow
  · rcases h1.ub y hy u (h2 ▸ hu) with hc | ⟨l, hl', hc⟩
    · exact hc
    · have hmem := hle _ (h3 ▸ h1.last)
      rw [hl', hl] at hmem
      exact hc.trans (mul_le_mul_of_nonneg_left (WithBot.coe_le_coe.1 hmem) (by norm_num))

/-! ## Counterexample and example -/

/-- Four equiprobable scenarios, `epsilon = 1/4`, three binary items of values 10000, 10001 and 1,
at most one of which fits.  The first fits in the even scenarios, the second in all but the scenario
`k`, the third in all. -/
def exFactor (k : ℕ) : Inst :=
  { n := 3, N := 4, m := 1
    A := fun s _ j => if j = 0 ∧ s % 2 = 1 ∨ j = 1 ∧ s = k then 4 else 2
    b := fun _ _ => 3
    c := fun j => if j = 0 then 10000 else if j = 1 then 10001 else 1
    proba := fun _ => 1 / 4, eps := 1 / 4, cont := false }

/-- A solver that stops at the first item in the problem of the even scenarios: value 10000,
bound 10001. -/
noncomputable def factorSolver (k : ℕ) : GModel → GResult :=
  tableSolver [((Deter.build (instCI (exFactor k)) [0, 2]).g,
    ⟨2, some fun v => if v = .x 0 then 1 else 0, 10000, 10001⟩)]

theorem factorSolver_answers {k : ℕ} (hk : k = 1 ∨ k = 3) (g : GModel) :
    GapAnswers g (factorSolver k g) := by
  unfold factorSolver tableSolver
  split
  · next hg =>
    subst hg
    have hpl : (Deter.build (instCI (exFactor k)) [0, 2]).g.plain = true := by
      rcases hk with rfl | rfl <;> decide +kernel
    have hb := (brute_exact hpl).answers.valid.bound
    have hbnd : (brute (Deter.build (instCI (exFactor k)) [0, 2]).g).objBnd = 10001 := by
      rcases hk with rfl | rfl <;> decide +kernel
    rw [hbnd] at hb
    refine ⟨⟨⟨?_, hb, ?_, ?_⟩, ?_, ?_⟩, fun _ => rfl, fun _ _ => ?_⟩
    · rintro ρ h
      cases h
      rcases hk with rfl | rfl
      · exact ⟨by decide +kernel, by decide +kernel⟩
      · exact ⟨by decide +kernel, by decide +kernel⟩
    · intro h; cases h
    · intro _; rfl
    · simp
    · intro _ _; rfl
    · rw [build_mipGap]; norm_num
  · unfold tableSolver
    have h := exactSolver_exact g
    refine ⟨h.answers, fun ho => (h.optimum ho).1, fun h0 h2 => ?_⟩
    rw [exactSolver_closed g h2, sub_self, abs_zero]
    exact mul_nonneg h0 (abs_nonneg _)

/-- All other problems are solved exactly. -/
noncomputable def factorEnv (k : ℕ) : Env :=
  { exactEnv exNorm 1 with sub := fun _ _ => factorSolver k }

theorem factor_contract {k : ℕ} (hk : k = 1 ∨ k = 3) : GapContract (factorEnv k) (exFactor k) := by
  refine gapContract_of_grid ⟨by show 0 < 4; decide, fun s _ => by norm_num [exFactor]⟩
    (by norm_num [exFactor])
    (by unfold TolOk; rcases hk with rfl | rfl <;> decide +kernel)
    ⟨by unfold NonnegAb; rcases hk with rfl | rfl <;> decide +kernel,
      fun s _ i _ => ⟨⟨30, by norm_num [exFactor]⟩,
      fun j _ => ?_⟩⟩ (by unfold NonnegC; rcases hk with rfl | rfl <;> decide +kernel)
    (by show 0 < 1; decide) (by show 0 < 3; decide)
    rfl
    (fun _ _ g => factorSolver_answers hk g) (fun _ g => (exactSolver_exact g).answers.valid)
    (fun _ g => (exactSolver_exact g).answers.valid) (fun _ _ g => (exactSolver_exact g).answers)
  by_cases h : j = 0 ∧ s % 2 = 1 ∨ j = 1 ∧ s = k
  · exact ⟨40, by simp only [exFactor, if_pos h]; norm_num⟩
  · exact ⟨20, by simp only [exFactor, if_neg h]; norm_num⟩

/-- The configuration of the runs: no merging, no big-Ms. -/
def factorCfg : Cfg := { exCfg with useMerger := false, gap := 1 / 10 ^ 4, timeLimit := 1800 }

/-- **C78 (counterexample).**  A subset problem is answered within the default gap, all other
problems exactly.  `solve` stops with `is_feasible = True` and reports `vLB = vUB = 10000` with the
first item as `xLB`, which violates two of the four scenarios; the optimum is 10001. -/
theorem C78_counterexample : ∃ (env : Env) (cfg : Cfg) (I : Inst) (g : Gap) (s : St) (x : Vec),
    GapContract env I ∧ cfg.useBigM = false
    ∧ run env cfg I 10 10 = .ok (.ok (true, g), s)
    ∧ s.xLB = some x ∧ s.vLB = ((10000 : ℚ) : WithBot ℚ) ∧ s.vUB = ((10000 : ℚ) : WithTop ℚ)
    ∧ ¬ Feas I x ∧ (checkFeasibility env.norm I x).feasible = false
    ∧ ∃ y, Feas I y ∧ obj I y = 10001 := by
  have hrun : (run (factorEnv 1) factorCfg (exFactor 1) 10 10).toOption.bind (fun r =>
      r.1.toOption.bind fun q => r.2.xLB.map fun x =>
        (q.1, r.2.vLB, r.2.vUB,
          decide (∑ s ∈ viol (exFactor 1) x, (exFactor 1).proba s ≤ (exFactor 1).eps),
          (checkFeasibility exNorm (exFactor 1) x).feasible))
      = some (true, ((10000 : ℚ) : WithBot ℚ), ((10000 : ℚ) : WithTop ℚ), false, false) := by
    decide +kernel
  cases hr : run (factorEnv 1) factorCfg (exFactor 1) 10 10 with
  | error e => rw [hr] at hrun; cases hrun
  | ok r =>
    obtain ⟨r, s⟩ := r
    rw [hr] at hrun
    cases r with
    | error e => cases hrun
    | ok q =>
      obtain ⟨b, g⟩ := q
      cases hx : s.xLB with
      | none => simp [Except.toOption, hx] at hrun
      | some x =>
        simp only [Except.toOption, Option.bind_some, hx, Option.map_some, Option.some.injEq,
          Prod.mk.injEq] at hrun
        obtain ⟨rfl, e2, e3, e4, e5⟩ := hrun
        refine ⟨factorEnv 1, factorCfg, exFactor 1, g, s, x, factor_contract (.inl rfl), rfl, hr,
          hx, e2, e3, fun hf => ?_, e5, fun j => if j = 1 then 1 else 0,
          ⟨by unfold InX; decide +kernel, by unfold Chance; decide +kernel⟩, by decide +kernel⟩
        exact (of_decide_eq_false e4) hf.2

/-- The hypotheses of C78 are met by this run and by one that stops on the gap with `vUB` below
`vLB`. -/
example : GapContract (factorEnv 1) (exFactor 1) ∧ GapContract (factorEnv 3) (exFactor 3)
    ∧ (factorCfg.useBigM = true → factorCfg.bigMMethod ≠ "belotti")
    ∧ (outcome (run (factorEnv 1) factorCfg (exFactor 1) 10 10)).map (fun o => (o.error, o.result))
      = some (none, some (true, Gap.fin 9999))
    ∧ (outcome (run (factorEnv 3) factorCfg (exFactor 3) 10 10)).map (fun o => (o.error, o.result))
      = some (none, some (false, Gap.fin (-1 / 10001)))
    ∧ (outcome (run (factorEnv 3) factorCfg (exFactor 3) 10 10)).map (·.trace)
      = some ([(⊤, ⊥), (⊤, (1 : ℚ)), ((10000 : ℚ), (1 : ℚ)), ((10000 : ℚ), (10001 : ℚ))]
        : List (WithTop ℚ × WithBot ℚ)) :=
  ⟨factor_contract (.inl rfl), factor_contract (.inr rfl), by rintro ⟨⟩, by decide +kernel,
    by decide +kernel, by decide +kernel⟩

/-- The instance `exFactor 1` with other weights in the first scenario, where the second item fills the
capacity. -/
def exCut : Inst :=
  { exFactor 1 with
    A := fun s _ j => if s = 0 then (if j = 1 then 3 else 1)
      else if j = 0 ∧ s % 2 = 1 ∨ j = 1 ∧ s = 1 then 4 else 2 }

/-- A solver that stops at the first item in the problem of the even scenarios: value 10000,
bound 10001. -/
noncomputable def cutSolver : GModel → GResult :=
  tableSolver [((Deter.build (instCI exCut) [0, 2]).g,
    ⟨2, some fun v => if v = .x 0 then 1 else 0, 10000, 10001⟩)]

theorem cutSolver_answers (g : GModel) : GapAnswers g (cutSolver g) := by
  unfold cutSolver tableSolver
  split
  · next hg =>
    subst hg
    have hpl : (Deter.build (instCI exCut) [0, 2]).g.plain = true := by decide +kernel
    have hb := (brute_exact hpl).answers.valid.bound
    have hbnd : (brute (Deter.build (instCI exCut) [0, 2]).g).objBnd = 10001 := by decide +kernel
    rw [hbnd] at hb
    refine ⟨⟨⟨?_, hb, ?_, ?_⟩, ?_, ?_⟩, fun _ => rfl, fun _ _ => ?_⟩
    · rintro ρ h
      cases h
      exact ⟨by decide +kernel, by decide +kernel⟩
    · intro h; cases h
    · intro _; rfl
    · simp
    · intro _ _; rfl
    · rw [build_mipGap]; norm_num
  · unfold tableSolver
    have h := exactSolver_exact g
    refine ⟨h.answers, fun ho => (h.optimum ho).1, fun h0 h2 => ?_⟩
    rw [exactSolver_closed g h2, sub_self, abs_zero]
    exact mul_nonneg h0 (abs_nonneg _)

/-- All other problems are solved exactly. -/
noncomputable def cutEnv : Env := { exactEnv exNorm 1 with sub := fun _ _ => cutSolver }

theorem cut_contract : GapContract cutEnv exCut := by
  refine gapContract_of_grid ⟨by show 0 < 4; decide, fun s _ => by norm_num [exCut, exFactor]⟩
    (by norm_num [exCut, exFactor])
    (by unfold TolOk; decide +kernel)
    ⟨by unfold NonnegAb; decide +kernel,
      fun s _ i _ => ⟨⟨30, by norm_num [exCut, exFactor]⟩,
      fun j _ => ?_⟩⟩ (by unfold NonnegC; decide +kernel)
    (by show 0 < 1; decide) (by show 0 < 3; decide)
    rfl
    (fun _ _ g => cutSolver_answers g) (fun _ g => (exactSolver_exact g).answers.valid)
    (fun _ g => (exactSolver_exact g).answers.valid) (fun _ _ g => (exactSolver_exact g).answers)
  by_cases h0 : s = 0
  · by_cases h1 : j = 1
    · exact ⟨30, by simp only [exCut, if_pos h0, if_pos h1]; norm_num⟩
    · exact ⟨10, by simp only [exCut, if_pos h0, if_neg h1]; norm_num⟩
  · by_cases h : j = 0 ∧ s % 2 = 1 ∨ j = 1 ∧ s = 1
    · exact ⟨40, by simp only [exCut, if_neg h0, if_pos h]; norm_num⟩
    · exact ⟨20, by simp only [exCut, if_neg h0, if_neg h]; norm_num⟩

/-- The configuration of the runs: Belotti's big-Ms, no merging. -/
def cutCfg : Cfg := { factorCfg with useBigM := true, bigMMethod := "belotti" }

/-- **C78 (Belotti, counterexample).**  With Belotti's big-Ms the loss is not bounded by the gap of the subset
problems: with one of them answered within the default gap of `1e-4` and all other problems exactly, `solve`
stops with `is_feasible = True` and `vLB = vUB = 1`, while a feasible point has objective 10001. -/
theorem C78_belotti_counterexample : ∃ (env : Env) (cfg : Cfg) (I : Inst) (g : Gap) (s : St),
    GapContract env I ∧ (∀ t h, GResult.Exact h (env.big t h))
    ∧ cfg.useBigM = true ∧ cfg.bigMMethod = "belotti"
    ∧ run env cfg I 10 10 = .ok (.ok (true, g), s)
    ∧ s.vLB = ((1 : ℚ) : WithBot ℚ) ∧ s.vUB = ((1 : ℚ) : WithTop ℚ)
    ∧ ∃ y, Feas I y ∧ obj I y = 10001 := by
  have hrun : (run cutEnv cutCfg exCut 10 10).toOption.bind (fun r =>
      r.1.toOption.map fun q => (q.1, r.2.vLB, r.2.vUB))
      = some (true, ((1 : ℚ) : WithBot ℚ), ((1 : ℚ) : WithTop ℚ)) := by
    decide +kernel
  cases hr : run cutEnv cutCfg exCut 10 10 with
  | error e => rw [hr] at hrun; cases hrun
  | ok r =>
    obtain ⟨r, s⟩ := r
    rw [hr] at hrun
    cases r with
    | error e => cases hrun
    | ok q =>
      obtain ⟨b, g⟩ := q
      simp only [Except.toOption, Option.bind_some, Option.map_some, Option.some.injEq,
        Prod.mk.injEq] at hrun
      obtain ⟨rfl, e2, e3⟩ := hrun
      exact ⟨cutEnv, cutCfg, exCut, g, s, cut_contract, fun _ => exactSolver_exact, rfl, rfl, hr, e2, e3,
        fun j => if j = 1 then 1 else 0,
        ⟨by unfold InX; decide +kernel, by unfold Chance; decide +kernel⟩, by decide +kernel⟩

end Verif.Props
