import Verif.Props.Rows
import Verif.Props.Reported

/-!
# C89: a result row is a certificate
-/

namespace Verif.Props
open Spec Model Finset

/-! ## Specification -/

/-- What the last three columns of a result row (lower bound, upper bound, gap in percent, with
three decimals) say about the problem.  Without a solution the lower bound and the gap are
infinite.  Otherwise there is a feasible point whose objective is the lower bound as printed, up to
the relative error `δ`, and if the gap is finite no feasible point is better than that point by more
than the gap, up to `δ`.  No feasible point is better than the upper bound as printed. -/
def RowSays (I : Inst) (δ : ℚ) (vals : List Val) : Prop :=
  ∃ lo up g : Gap, Back vals 3 lo ∧ Back vals 2 up ∧ Back vals 1 g
    ∧ ((lo = .negInf ∧ g = .posInf)
      ∨ ∃ l x, lo = .fin l ∧ Feas I x ∧ |obj I x - l| ≤ 1 / 2000 + δ * obj I x
          ∧ ∀ γ, g = .fin γ → ∀ y, Feas I y →
              obj I y ≤ (1 + (γ + 1 / 2000) / 100) * ((1 + δ) * obj I x))
    ∧ (up = .posInf ∨ ∃ u, up = .fin u ∧ ∀ y, Feas I y → obj I y ≤ u + 1 / 2000)

/-- Three columns that are printed from a bracket of the optimum. -/
theorem rowSays_of {I : Inst} {vals : List Val} {l : WithBot ℚ} {u : WithTop ℚ} {np : Bool}
    {g : Gap} {δ : ℚ} (hc : NonnegC I) (hg : computeGap u l np = .ok g)
    (h3 : Back vals 3 (roundGap 3 (ofBot l))) (h2 : Back vals 2 (roundGap 3 (ofTop u)))
    (h1 : Back vals 1 (roundGap 3 (g.scale 100)))
    (hl : ∀ v : ℚ, l = v → ∃ x, Feas I x ∧ obj I x ≤ v ∧ v ≤ (1 + δ) * obj I x)
    (hu : ∀ y, Feas I y → (obj I y : WithTop ℚ) ≤ u) : RowSays I δ vals := by
  refine ⟨_, _, _, h3, h2, h1, ?_, ?_⟩
  · cases l with
    | bot =>
      left
      refine ⟨rfl, ?_⟩
      have : g = .posInf := by
        simp only [computeGap, Except.ok.injEq] at hg
        exact hg.symm
      rw [this]; rfl
    | coe a =>
      right
      obtain ⟨x, hx, hxa, hxa'⟩ := hl a rfl
      have hnear := roundDec_near 3 a
      refine ⟨roundDec 3 a, x, rfl, hx, ?_, fun γ hγ y hy => ?_⟩
      · rw [abs_sub_comm, show (1 : ℚ) / (2 * 10 ^ 3) = 1 / 2000 by norm_num] at hnear
        have := abs_le.1 hnear
        exact abs_le.2 ⟨by linarith, by linarith⟩
      · have h0 := obj_nonneg hc hx.1
        cases u with
        | top =>
          simp only [computeGap, Except.ok.injEq] at hg
          rw [← hg] at hγ
          cases hγ
        | coe b =>
          simp only [computeGap] at hg
          by_cases ha : a = 0
          · rw [if_pos ha] at hg
            cases np with
            | false => simp at hg
            | true =>
              simp only [if_true, Except.ok.injEq] at hg
              rw [← hg] at hγ
              split at hγ
              · cases hγ
              · split at hγ <;> cases hγ
          · rw [if_neg ha] at hg
            simp only [Except.ok.injEq] at hg
            rw [← hg] at hγ
            have hγ' : roundDec 3 ((b - a) / a * 100) = γ := by
              simpa [Gap.scale, roundGap, mul_comm] using hγ
            have hn := roundDec_near 3 ((b - a) / a * 100)
            rw [hγ'] at hn
            have hn' := (abs_le.1 hn).1
            have hyb : obj I y ≤ b := WithTop.coe_le_coe.1 (hu y hy)
            have ha' : 0 < a := lt_of_le_of_ne (h0.trans hxa) (Ne.symm ha)
            have h4 : (b - a) / a * 100 ≤ γ + 1 / 2000 := by
              have : (1 : ℚ) / (2 * 10 ^ 3) = 1 / 2000 := by norm_num
              rw [this] at hn'
              linarith
            have h5 : b = (1 + (b - a) / a) * a := by field_simp; ring
            have h6 : (b - a) / a ≤ (γ + 1 / 2000) / 100 := by linarith
            have h7 : (1 + (b - a) / a) * a ≤ (1 + (γ + 1 / 2000) / 100) * a :=
              mul_le_mul_of_nonneg_right (by linarith) ha'.le
            have h8 : 0 ≤ 1 + (b - a) / a := by
              have hxb : obj I x ≤ b := WithTop.coe_le_coe.1 (hu x hx)
              have : 1 + (b - a) / a = b / a := by field_simp; ring
              rw [this]
              exact div_nonneg (by linarith) ha'.le
            have h9 := mul_le_mul_of_nonneg_left hxa' (by linarith : 0 ≤ 1 + (γ + 1 / 2000) / 100)
            linarith
  · cases u with
    | top => exact Or.inl rfl
    | coe b =>
      refine Or.inr ⟨roundDec 3 b, rfl, fun y hy => ?_⟩
      have hyb : obj I y ≤ b := WithTop.coe_le_coe.1 (hu y hy)
      have hn := (abs_le.1 (roundDec_near 3 b)).1
      have : (1 : ℚ) / (2 * 10 ^ 3) = 1 / 2000 := by norm_num
      rw [this] at hn
      linarith

/-! ## C89 -/

/-- **C89 (adaptive solver).** The row written after a run, whether `solve` returned or was
interrupted at any moment, is a certificate, up to the relative error 1e-8 if `solve` stopped with
a feasible upper-bound solution.  Missing from the full claim: such runs without that error, for
which it is false (`C89_stop_counterexample`), and with partitioned problems not solved within
the relative gap 1e-8 that the code sets (`NearTight`); `Tight` gives the certificate without
error.  The row is that of a dictionary that knows the methods of the configuration
(`C61_adaptive_counterexample`). -/
theorem C89_adaptive_row_partial {env : Env} {cfg : Cfg} {I : Inst} {rounds fuel : ℕ}
    (hC : Contract env I) {r : Except PyErr (Bool × Gap)} {s : St}
    (h : run env cfg I rounds fuel = .ok (r, s))
    {δ : ℚ} (hδ : 0 ≤ δ)
    (hstop : ∀ g, r = .ok (true, g) → (Tight env ∨ NearTight env ∧ 1 / 10 ^ 8 ≤ δ)
      ∧ ∀ x, InX I x → Sharp I x)
    {dict : List (String × ℕ)} {name : Txt} {total : Option ℚ} {row : List Cell}
    (hr : adaptiveRowWith dict name I cfg s total = .ok row) :
    ∃ vals, readExperiment (some row) = .ok vals ∧ RowSays I δ vals := by
  obtain ⟨a, b, c, t, g, -, hg, hv⟩ := adaptiveRow_vals hr
  obtain ⟨-, h2, h3⟩ := C50_bounds_bracket_partial hC r s h
  refine ⟨_, hv, rowSays_of hC.c hg rfl rfl rfl ?_ h2⟩
  intro v hv
  by_cases hq : ∃ g, r = .ok (true, g)
  · obtain ⟨g', rfl⟩ := hq
    obtain ⟨ht | ⟨ht, hδ'⟩, hs⟩ := hstop g' rfl
    · obtain ⟨x, -, -, -, a4, -, a6, -, a8⟩ := C51_feasible_stop_optimal hC ht g' s h
      rw [a4] at hv
      rw [← WithBot.coe_injective hv]
      have := mul_nonneg hδ (obj_nonneg hC.c a6)
      exact ⟨x, a8 (hs x a6), le_rfl, by linarith⟩
    · obtain ⟨x, w, -, a2, -, a4, a5, a6, -, a8⟩ := C51_feasible_stop_near hC ht g' s h
      rw [a2] at hv
      rw [← WithBot.coe_injective hv]
      have := mul_le_mul_of_nonneg_right hδ' (obj_nonneg hC.c a6)
      exact ⟨x, a8 (hs x a6), a4, by linarith⟩
  · obtain ⟨x, -, h4, h5⟩ := h3 (fun g e => hq ⟨g, e⟩) v hv
    have := mul_nonneg hδ (obj_nonneg hC.c h4.1)
    exact ⟨x, h4, h5.le, by rw [← h5]; linarith⟩

/-- The row of a correct run of the extended formulation. -/
theorem milpOk_row {I : Inst} {st : MilpSt} (hc : NonnegC I) (hok : MilpOk I st) {limit gap : ℚ}
    {name : Txt} {total : Option ℚ} {row : List Cell}
    (hr : milpRow name I limit gap st total = .ok row) :
    ∃ vals, readExperiment (some row) = .ok vals ∧ RowSays I 0 vals := by
  obtain ⟨t, g, b, -, hg, -, hv⟩ := milpRow_vals hr
  refine ⟨_, hv, rowSays_of hc hg rfl rfl rfl (fun v hv => ⟨st.xLB, hok.feas, ?_⟩)
    fun y hy => WithTop.coe_le_coe.2 (hok.bound y hy)⟩
  rw [hok.obj, ← WithBot.coe_injective hv]
  exact ⟨le_rfl, by linarith⟩

/-- **C89 (main.py).** The row that main.py writes is a certificate, with the big-Ms of Song et al.
whatever valid answer Gurobi gives to the extended formulation (the time limit included).  With
those of Belotti et al. the problems of the scenarios must be solved exactly: missing are those
solved to Gurobi's default gap, for which it is false (`C89_belotti_counterexample`). -/
theorem C89_main_row_partial (env : Env) (I : Inst) (hE : Equi I) (heps : 0 ≤ I.eps) (hm : 0 < I.m)
    (hn : 0 < I.n) (hI : NonnegAb I) (hc : NonnegC I) (hcc : ∀ g, GResult.Valid g (env.cc 0 g))
    {method : ℕ}
    (hbel : method = 2 →
      (∀ k g, GResult.Exact g (env.sub 0 k g)) ∧ ∀ g, GResult.Answers g (env.big 0 g))
    {location : Txt} {rounds fuel : ℕ} {total : ℚ} {row : List Cell}
    (hr : mainRow env location I method rounds fuel total = .ok row) :
    (method = 1 ∨ method = 2) ∧ ∃ vals, readExperiment (some row) = .ok vals ∧ RowSays I 0 vals := by
  have hmeth : method = 1 ∨ method = 2 := by
    by_contra hne
    by_cases h34 : method = 3 ∨ method = 4
    · exact (C62_counterexample env location I method rounds fuel total h34).2.2 row hr
    · unfold mainRow mainRowWith at hr
      rw [if_neg hne, if_neg h34] at hr
      cases hr
  refine ⟨hmeth, ?_⟩
  rw [(C62_partial env location I method rounds fuel total hmeth).2] at hr
  cases hs : milpSolve env I 3600 (1 / 10000) true (if method = 1 then "song" else "belotti") with
  | error e => rw [hs] at hr; cases hr
  | ok st =>
    rw [hs] at hr
    refine milpOk_row hc ?_ hr
    rcases hmeth with rfl | rfl
    · exact ((C57_milp env I hE heps hm hn hI hc 3600 (1 / 10000) true "song"
        (fun _ => Or.inr rfl)).1 hcc st (by simpa using hs)).1
    · obtain ⟨h1, h2⟩ := hbel rfl
      exact ((C57_belotti_partial env I hE heps hI hc h1 h2 3600 (1 / 10000)).1 hcc st
        (by simpa using hs)).1

/-- **C89 (alarm).** The alarm of main.py may interrupt `solve` between any two statements.  Whatever
the state then is, if its bounds are those after one of the assignments of the run, the row written is
a certificate. -/
theorem C89_alarm_partial {env : Env} {cfg : Cfg} {I : Inst} {rounds fuel : ℕ} (hC : Contract env I)
    {r : Except PyErr (Bool × Gap)} {s : St} (h : run env cfg I rounds fuel = .ok (r, s)) {s' : St}
    (hs : (s'.vUB, s'.vLB) ∈ s.trace) {dict : List (String × ℕ)} {name : Txt} {total : Option ℚ}
    {row : List Cell} (hr : adaptiveRowWith dict name I cfg s' total = .ok row) :
    ∃ vals, readExperiment (some row) = .ok vals ∧ RowSays I 0 vals := by
  obtain ⟨a, b, c, t, g, -, hg, hv⟩ := adaptiveRow_vals hr
  obtain ⟨h1, h2⟩ := (C50_bounds_bracket_partial hC r s h).1 _ hs
  refine ⟨_, hv, rowSays_of hC.c hg rfl rfl rfl ?_ h1⟩
  intro v hv
  obtain ⟨x, hx, hx'⟩ := h2 v hv
  exact ⟨x, hx, hx'.le, by rw [hx']; linarith⟩

/-- **C89 (methods 3 and 4).** main.py as it stands writes no row for them (`C62_counterexample`,
`C61_adaptive_counterexample`).  With a signature of `solve` that accepts the call and a dictionary
that knows the methods, it would write a row whenever `solve` returns or is interrupted (unless the
gap cannot be computed), and every row it writes would be a certificate; any other exception of
`solve` ends the program without a row. -/
theorem C89_repaired_partial {env : Env} {I : Inst} {method rounds fuel : ℕ} (hC : Contract env I)
    (hm : method = 3 ∨ method = 4) {sig : Sig} {dict : List (String × ℕ)} {δ : ℚ} (hδ : 0 ≤ δ)
    (hb : pyBind sig 1 (mainKeywords method) = .ok ())
    (hstop : ∀ g s, run env (mainCfg method) I rounds fuel = .ok (.ok (true, g), s) →
      (Tight env ∨ NearTight env ∧ 1 / 10 ^ 8 ≤ δ) ∧ ∀ x, InX I x → Sharp I x)
    (location : Txt) (total : ℚ) :
    (∀ row, mainRowWith sig dict env location I method rounds fuel total = .ok row →
      ∃ vals, readExperiment (some row) = .ok vals ∧ RowSays I δ vals)
    ∧ ((∀ k ∈ ["random", "cost", "rescaled_max_violation"], ∃ v, assocGet dict k = .ok v) →
      ∀ r s, run env (mainCfg method) I rounds fuel = .ok (r, s) →
        (∀ e, r = .error e → e = .keyboardInterrupt) → s.vUBNone = false → s.vLB ≠ (0 : ℚ) →
        ∃ row, mainRowWith sig dict env location I method rounds fuel total = .ok row)
    ∧ ∀ e s, run env (mainCfg method) I rounds fuel = .ok (.error e, s) → e ≠ .keyboardInterrupt →
      mainRowWith sig dict env location I method rounds fuel total = .error e := by
  have hm' : ¬ (method = 1 ∨ method = 2) := by omega
  have heq : mainRowWith sig dict env location I method rounds fuel total
      = (run env (mainCfg method) I rounds fuel).bind fun q => (catchInterrupt q).bind fun s' =>
        adaptiveRowWith dict (fileName location) I (mainCfg method) s' (some total) := by
    unfold mainRowWith run
    rw [if_neg hm', if_pos hm]
    cases construct env (mainCfg method) I with
    | error e => rfl
    | ok s =>
      simp only [bind, Except.bind, hb, pure, Except.pure]
  refine ⟨?_, ?_, ?_⟩
  · intro row h
    rw [heq] at h
    cases hr : run env (mainCfg method) I rounds fuel with
    | error e => rw [hr] at h; cases h
    | ok q =>
      obtain ⟨r, s⟩ := q
      rw [hr] at h
      simp only [Except.bind] at h
      cases hc : catchInterrupt (r, s) with
      | error e => rw [hc] at h; cases h
      | ok s' =>
        rw [hc] at h
        have hs' : s' = s := by
          unfold catchInterrupt at hc
          split at hc <;> cases hc <;> rfl
        subst hs'
        refine C89_adaptive_row_partial hC hr hδ ?_ h
        rintro g rfl
        exact hstop g s' hr
  · intro hd r s hr hint hnone hv
    have hc : catchInterrupt (r, s) = .ok s := by
      unfold catchInterrupt
      cases r with
      | ok v => rfl
      | error e => rw [hint e rfl]
    rw [heq, hr]
    simp only [Except.bind, hc]
    obtain ⟨a, ha⟩ : ∃ a, adaptiveDetails dict (mainCfg method) = .ok a := by
      have h1 : (mainCfg method).splitMethod ∈ ["random", "cost", "rescaled_max_violation"]
          ∧ (mainCfg method).initType ∈ ["random", "cost", "rescaled_max_violation"]
          ∧ (mainCfg method).projection ∈ ["random", "cost", "rescaled_max_violation"] := by
        rcases hm with rfl | rfl <;> decide
      obtain ⟨v1, e1⟩ := hd _ h1.1
      obtain ⟨v2, e2⟩ := hd _ h1.2.1
      obtain ⟨v3, e3⟩ := hd _ h1.2.2
      exact ⟨_, by unfold adaptiveDetails; rw [e1, e2, e3]; rfl⟩
    obtain ⟨g, hg⟩ : ∃ g, computeGap s.vUB s.vLB (s.vUBNumpy || s.vLBNumpy) = .ok g := by
      unfold computeGap
      split
      · exact ⟨_, rfl⟩
      · exact ⟨_, rfl⟩
      · rename_i l u hl hu
        rw [if_neg]
        · exact ⟨_, rfl⟩
        · rintro rfl
          exact hv hl
    unfold adaptiveRowWith computationDetails
    rw [ha, if_neg hC.n.ne', if_neg hC.equi.1.ne', hnone, hg]
    exact ⟨_, rfl⟩
  · intro e s hr he
    have hc : catchInterrupt (Except.error e, s) = .error e := by
      unfold catchInterrupt
      cases e <;> first | rfl | exact absurd rfl he
    rw [heq, hr]
    simp only [Except.bind, hc]

/-! ## Counterexamples and examples -/

/-- Optimal solutions, bounds at the end of the allowed gap. -/
noncomputable def nearSolver (g : GModel) : GResult :=
  { tightSolver g with
    objBnd := if g.maximize then (tightSolver g).objBnd + max g.mipGap 0 * |(tightSolver g).objVal|
      else (tightSolver g).objBnd - max g.mipGap 0 * |(tightSolver g).objVal| }

theorem nearSolver_valid (g : GModel) : GResult.Valid g (nearSolver g) := by
  have h := tightSolver_valid g
  have h0 : 0 ≤ max g.mipGap 0 * |(tightSolver g).objVal| :=
    mul_nonneg (le_max_right _ _) (abs_nonneg _)
  refine ⟨h.feas, fun hb ρ hρ => ?_, h.infeasible, h.optimal⟩
  have := h.bound hb ρ hρ
  cases hm : g.maximize
  · rw [hm] at this
    simp only [nearSolver, hm, Bool.false_eq_true, if_false] at this ⊢
    linarith
  · rw [hm] at this
    simp only [nearSolver, hm, if_true] at this ⊢
    linarith

theorem nearSolver_near (g : GModel) (ρ : V → ℚ) (hg : 0 ≤ g.mipGap)
    (h : (nearSolver g).sol = some ρ) :
    (nearSolver g).status = 2 ∧ GResult.WithinGap g (nearSolver g) := by
  obtain ⟨h1, h2⟩ := tightSolver_solved g ρ h
  refine ⟨h2, fun _ => ?_⟩
  show |_ - (tightSolver g).objVal| ≤ g.mipGap * |(tightSolver g).objVal|
  have h0 : 0 ≤ g.mipGap * |(tightSolver g).objVal| := mul_nonneg hg (abs_nonneg _)
  unfold nearSolver
  rw [max_eq_left hg]
  cases hm : g.maximize
  · simp only [Bool.false_eq_true, if_false]
    rw [← h1, sub_sub_cancel_left, abs_neg, abs_of_nonneg h0]
  · simp only [if_true]
    rw [← h1, add_sub_cancel_left, abs_of_nonneg h0]

/-- `exTie` with costs 3, 2 and 1 million. -/
def exMillion : Inst :=
  { exTie with c := fun j => if j = 0 then 3000000 else if j = 1 then 2000000 else 1000000 }

noncomputable def exNearEnv : Env := { exactEnv exNorm 1 with cc := fun _ => nearSolver }

theorem exMillion_contract : Contract exNearEnv exMillion := by
  have hE : Equi exMillion := ⟨by decide, fun s _ => by norm_num [exMillion, exTie]⟩
  have hI : OneDecimal exMillion := by
    refine ⟨by unfold NonnegAb; decide +kernel, fun s _ i _ => ⟨⟨10, by norm_num [exMillion, exTie]⟩,
      fun j _ => ?_⟩⟩
    by_cases h : j = 2 ∨ s % 2 = 0 ∨ (s = 3 ∧ j = 1)
    · exact ⟨10, by simp only [exMillion, exTie, if_pos h]; norm_num⟩
    · exact ⟨20, by simp only [exMillion, exTie, if_neg h]; norm_num⟩
  exact contract_of_grid hE (by decide +kernel) (by decide +kernel) hI
    (by unfold NonnegC; decide +kernel) (by decide) (by decide) rfl
    (fun _ _ g => exactSolver_exact g) (fun _ g => nearSolver_valid g)
    (fun _ g => (exactSolver_exact g).answers.valid) (fun _ _ g => (exactSolver_exact g).answers)
    (fun _ g => (exactSolver_exact g).answers)

theorem exNear_tight : NearTight exNearEnv := fun _ g ρ hg h =>
  nearSolver_near g ρ (by rw [hg]; norm_num) h

/-- A dictionary that knows the methods of the configurations in the examples. -/
def exDict : List (String × ℕ) := [("random", 2), ("cost", 3), ("counter", 1)]

/-- The number in a column counted from the end, if there is one. -/
def column (vals : List Val) (k : ℕ) : Option Gap :=
  match (vals.reverse[k - 1]? : Option Val) with
  | some (.num g) => some g
  | _ => none

theorem column_of_back {vals : List Val} {k : ℕ} {g : Gap} (h : Back vals k g) :
    column vals k = some g := by
  unfold column
  rw [show vals.reverse[k - 1]? = some (Val.num g) from h]

/-- The number in the lower-bound column of the row of a run, and how the run ended. -/
def lowerColumn (I : Inst) (cfg : Cfg) :
    PyM (Except PyErr (Bool × Gap) × St) → Option (Option Bool × Option Gap)
  | .error _ => none
  | .ok (r, s) => match adaptiveRowWith exDict ['m', 'k'] I cfg s (some 1) with
    | .error _ => none
    | .ok row => match readExperiment (some row) with
      | .error _ => none
      | .ok vals => some (r.toOption.map Prod.fst, column vals 3)

/-- **C89 (counterexample for a stop with a feasible solution).** The partitioned problems are
solved within the relative gap 1e-8 that the code sets, everything else exactly.  The run stops
with a feasible solution of value 2000000, and the row gives the bound 2000000.02 of the last
partitioned problem as the lower bound: no point has that value. -/
theorem C89_stop_counterexample : Contract exNearEnv exMillion ∧ NearTight exNearEnv
    ∧ (∀ x, InX exMillion x → Sharp exMillion x)
    ∧ ∃ g s row vals, run exNearEnv exTieCfg exMillion 10 10 = .ok (.ok (true, g), s)
      ∧ adaptiveRowWith exDict ['m', 'k'] exMillion exTieCfg s (some 1) = .ok row
      ∧ readExperiment (some row) = .ok vals
      ∧ RowSays exMillion (1 / 10 ^ 8) vals ∧ ¬ RowSays exMillion 0 vals := by
  have hsh : ∀ x, InX exMillion x → Sharp exMillion x := by
    intro x hx
    refine sharp_of_grid ⟨by unfold NonnegAb; decide +kernel,
      fun s _ i _ => ⟨⟨10, by norm_num [exMillion, exTie]⟩, fun j _ => ?_⟩⟩ rfl hx
    by_cases h : j = 2 ∨ s % 2 = 0 ∨ (s = 3 ∧ j = 1)
    · exact ⟨10, by simp only [exMillion, exTie, if_pos h]; norm_num⟩
    · exact ⟨20, by simp only [exMillion, exTie, if_neg h]; norm_num⟩
  refine ⟨exMillion_contract, exNear_tight, hsh, ?_⟩
  have h : lowerColumn exMillion exTieCfg (run exNearEnv exTieCfg exMillion 10 10)
      = some (some true, some (.fin (100000001 / 50))) := by decide +kernel
  cases hr : run exNearEnv exTieCfg exMillion 10 10 with
  | error e => rw [hr] at h; cases h
  | ok p =>
    obtain ⟨r, s⟩ := p
    rw [hr] at h
    simp only [lowerColumn] at h
    cases hrow : adaptiveRowWith exDict ['m', 'k'] exMillion exTieCfg s (some 1) with
    | error e => rw [hrow] at h; cases h
    | ok row =>
      rw [hrow] at h
      simp only at h
      cases hv : readExperiment (some row) with
      | error e => rw [hv] at h; cases h
      | ok vals =>
        rw [hv] at h
        simp only [Option.some.injEq, Prod.mk.injEq] at h
        obtain ⟨h1, h2⟩ := h
        cases r with
        | error e => cases h1
        | ok q =>
          obtain ⟨b, g⟩ := q
          obtain rfl : b = true := by simpa [Except.toOption] using h1
          obtain ⟨vals', hv', hsay⟩ := C89_adaptive_row_partial exMillion_contract hr
            (δ := 1 / 10 ^ 8) (by norm_num) (fun _ _ => ⟨.inr ⟨exNear_tight, le_rfl⟩, hsh⟩) hrow
          rw [hv] at hv'
          cases hv'
          refine ⟨g, s, row, vals, rfl, hrow, hv, hsay, ?_⟩
          rintro ⟨lo, up, g', hb, -, -, hlo, -⟩
          rw [column_of_back hb] at h2
          simp only [Option.some.injEq] at h2
          subst h2
          rcases hlo with ⟨h3, -⟩ | ⟨l, x, h3, hx, h4, -⟩
          · cases h3
          · cases h3
            have h5 : obj exMillion x = 3000000 * x 0 + 2000000 * x 1 + 1000000 * x 2 := by
              unfold Spec.obj dot
              rw [show exMillion.n = 3 from rfl, Finset.sum_range_succ, Finset.sum_range_succ,
                Finset.sum_range_succ, Finset.sum_range_zero]
              norm_num [exMillion]
            rw [h5, zero_mul, add_zero] at h4
            have hX : ∀ j < 3, x j = 0 ∨ x j = 1 := fun j hj => hx.1 j hj
            rcases hX 0 (by norm_num) with e0 | e0 <;> rcases hX 1 (by norm_num) with e1 | e1 <;>
              rcases hX 2 (by norm_num) with e2 | e2 <;> rw [e0, e1, e2] at h4 <;>
              norm_num [abs_le] at h4

/-- **C89 (counterexample for method 2).** With the default gap of Gurobi in the problems of the
scenarios and exact answers elsewhere, main.py writes a row with upper bound 10000 although a
feasible point has the value 10001. -/
theorem C89_belotti_counterexample : ∃ (env : Env) (I : Inst) (row : List Cell) (vals : List Val),
    Equi I ∧ 0 ≤ I.eps ∧ 0 < I.m ∧ 0 < I.n ∧ NonnegAb I ∧ NonnegC I
    ∧ (∀ k g, GapAnswers g (env.sub 0 k g)) ∧ (∀ g, GResult.Exact g (env.big 0 g))
    ∧ (∀ g, GResult.Exact g (env.cc 0 g))
    ∧ mainRow env ['m', 'k'] I 2 10 10 1 = .ok row ∧ readExperiment (some row) = .ok vals
    ∧ ¬ RowSays I 0 vals := by
  have h : (match mainRow { exactEnv exNorm 1 with sub := fun _ _ => gapSolver } ['m', 'k'] exGap 2
      10 10 1 with
    | .error _ => none
    | .ok row => match readExperiment (some row) with
      | .error _ => none
      | .ok vals => column vals 2) = some (Gap.fin 10000) := by decide +kernel
  cases hr : mainRow { exactEnv exNorm 1 with sub := fun _ _ => gapSolver } ['m', 'k'] exGap 2
      10 10 1 with
  | error e => rw [hr] at h; cases h
  | ok row =>
    rw [hr] at h
    simp only at h
    cases hv : readExperiment (some row) with
    | error e => rw [hv] at h; cases h
    | ok vals =>
      rw [hv] at h
      simp only at h
      refine ⟨_, exGap, row, vals, ⟨by decide, fun s _ => by norm_num [exGap]⟩, by decide +kernel,
        by decide, by decide, by unfold NonnegAb; decide +kernel, by unfold NonnegC; decide +kernel,
        fun _ => gapSolver_answers, exactSolver_exact, exactSolver_exact, hr, hv, ?_⟩
      rintro ⟨lo, up, g', -, hb, -, -, hup⟩
      rw [column_of_back hb] at h
      simp only [Option.some.injEq] at h
      subst h
      rcases hup with h3 | ⟨u, h3, h4⟩
      · cases h3
      · cases h3
        have := h4 (fun _ => 1) ⟨by unfold InX; decide +kernel, by unfold Chance; decide +kernel⟩
        revert this
        decide +kernel

/-- The user interrupts the second partitioned problem. -/
noncomputable def exInterrupt : Env :=
  { exactEnv exNorm 1 with cc := fun _ g => { tightSolver g with status := 11 } }

/-- Hypotheses of C89: runs of methods 1 and 2 that write a row, a run that stops with a feasible
solution and one that is interrupted, with their lower-bound columns. -/
example : Contract exInterrupt exMillion
    ∧ lowerColumn exMillion exTieCfg (run exInterrupt exTieCfg exMillion 10 10)
      = some (none, some (.fin 2000000))
    ∧ ((mainRow (exactEnv exNorm 1) ['m', 'k'] exMilp 1 10 10 1).map List.length) = .ok 15
    ∧ ((mainRow (exactEnv exNorm 1) ['m', 'k'] exMilp 2 10 10 1).map List.length) = .ok 15
    ∧ lowerColumn exPairs exCfg (run exTight exCfg exPairs 10 10) = some (some true, some (.fin 1)) := by
  refine ⟨?_, by decide +kernel, by decide +kernel, by decide +kernel, by decide +kernel⟩
  have h := exMillion_contract
  exact ⟨h.equi, h.eps, h.tolOk, h.ab, h.c, h.m, h.n, h.sub, h.sharp,
    fun _ g => ⟨(tightSolver_valid g).feas, (tightSolver_valid g).bound, by rintro ⟨⟩,
      by rintro ⟨⟩⟩, h.lb, h.acc, h.big⟩

/-- A signature that accepts the calls of main.py, and a dictionary that knows its methods. -/
def exSig : Sig := adaptiveSolveSig ++ [("use_balancing", true)]

/-- The bounds in a row of main.py with these two. -/
def mainBounds (env : Env) (I : Inst) (method : ℕ) : Option (Option Gap × Option Gap) :=
  match mainRowWith exSig (("rescaled_max_violation", 4) :: exDict) env ['m', 'k'] I method 10 10 1 with
  | .error _ => none
  | .ok row => match readExperiment (some row) with
    | .error _ => none
    | .ok vals => some (column vals 3, column vals 2)

/-- Hypotheses of `C89_repaired_partial`: the calls are accepted, the row is written after a stop
with a feasible solution and after an interrupt. -/
example : pyBind exSig 1 (mainKeywords 3) = .ok () ∧ pyBind exSig 1 (mainKeywords 4) = .ok ()
    ∧ (∀ k ∈ ["random", "cost", "rescaled_max_violation"],
      ∃ v, assocGet (("rescaled_max_violation", 4) :: exDict) k = .ok v)
    ∧ mainBounds exTight exPairs 3 = some (some (.fin 1), some (.fin 1))
    ∧ mainBounds exInterrupt exMillion 4 = some (some (.fin 2000000), some (.fin 2000000)) := by
  refine ⟨by decide, by decide, ?_, by decide +kernel, by decide +kernel⟩
  intro k hk
  simp only [List.mem_cons, List.not_mem_nil, or_false] at hk
  rcases hk with rfl | rfl | rfl
  · exact ⟨2, rfl⟩
  · exact ⟨3, rfl⟩
  · exact ⟨4, rfl⟩

/-- Hypotheses of `C89_alarm_partial`: the bounds after the assignments of a run. -/
example : Contract exTight exPairs
    ∧ (match run exTight exCfg exPairs 10 10 with
      | .ok q => q.2.trace
      | .error _ => []) = ([(⊤, ⊥), ((2 : ℚ), ⊥), ((2 : ℚ), (1 : ℚ)), ((2 : ℚ), (1 : ℚ)),
        ((1 : ℚ), (1 : ℚ))] : List (WithTop ℚ × WithBot ℚ)) := by
  have h := exPairs_contract
  exact ⟨⟨h.equi, h.eps, h.tolOk, h.ab, h.c, h.m, h.n, h.sub, h.sharp,
    fun _ g => tightSolver_valid g, h.lb, h.acc, h.big⟩, by decide +kernel⟩

end Verif.Props
