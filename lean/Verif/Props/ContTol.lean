import Verif.Props.FloatMilp
import Verif.Lemmas.GridSolver

/-!
# C106: continuous variables within Gurobi's tolerances and in double precision
-/

namespace Verif.Props
open Spec Model Finset LinExpr

variable {I : Inst} {env : Env}

/-- **C106 (runs).**  Continuous instances with capacities of at least 1 whose rows sum up to at most `κ`
times the capacity.  All points returned by the solver are feasible only within Gurobi's
tolerances.  In every run of the adaptive method, however it ends: after every assignment to a bound, the
objective of every feasible point is at most `1 + 1e-4` times the larger of `vUB` and `vLB`, and
`vLB`, once set, is the objective of a point within `(κ + 2) * 1e-6` of a feasible one; if `solve`
stops on the gap, this holds for `xLB`, and, unless `vLB` is negative, no feasible point exceeds it by
more than the factor `(1 + 1e-4) * (1 + gap)`. -/
theorem C106_run {cfg : Cfg} {rounds fuel : ℕ} (hC : NearTolContract env I) (hb : I.cont = true) (κ : ℚ)
    (hκ : 0 ≤ κ) (hR : RowRatio κ I) (hB : cfg.useBigM = true → cfg.bigMMethod ≠ "belotti")
    (r : Except PyErr (Bool × Gap)) (s : St) (h : run env cfg I rounds fuel = .ok (r, s)) :
    (∀ p ∈ s.trace,
      (∀ y, Feas I y → ∀ u : ℚ, p.1 = u → obj I y ≤ (1 + 1 / 10 ^ 4) * u
        ∨ ∃ l : ℚ, p.2 = l ∧ obj I y ≤ (1 + 1 / 10 ^ 4) * l)
      ∧ ∀ v : ℚ, p.2 = v → ∃ x, FeasWithin ((κ + 2) / 10 ^ 6) I x ∧ obj I x = v)
    ∧ (∀ g, r = .ok (false, g) → 0 ≤ cfg.gap → cfg.gap < 1 → g.le cfg.gap = true →
      ∃ x, s.xLB = some x ∧ FeasWithin ((κ + 2) / 10 ^ 6) I x ∧ s.vLB = (obj I x : WithBot ℚ)
        ∧ (0 ≤ obj I x →
          ∀ y, Feas I y → obj I y ≤ (1 + 1 / 10 ^ 4) * (1 + cfg.gap) * obj I x)) :=
  run_within hC (fun _ hx => feasWithin_cont hC.equi hC.eps hC.ab hC.c hb hκ hR hx.1 hx.2) hB r s h

/-- **C106 (extended formulation).**  The same kind of instances with one decimal digit, indicator
constraints, naive or Song big-Ms, any answer within the tolerances `1e-9`: when `MilpSolver.solve`
returns, the reported point is within `(3 κ + 5) * 1e-9` of a point that satisfies the chance constraint,
although rows with a negative big-M are missing from the model; `vUB` bounds every feasible objective;
a solve to status `OPTIMAL` leaves a relative gap of at most `gap`. -/
theorem C106_milp (hE : Equi I) (heps : 0 ≤ I.eps) (htol : TolOk I) (hm : 0 < I.m) (hn : 0 < I.n)
    (hI : OneDecimal I) (hc : NonnegC I) (hb : I.cont = true) (κ : ℚ) (hκ : 0 ≤ κ) (hR : RowRatio κ I)
    (timeLimit gap : ℚ) (useBigM : Bool) (method : String)
    (hmeth : useBigM = true → method = "naive" ∨ method = "song")
    (hcc : ∀ g, GResult.NearValid wideTols g (env.cc 0 g)) (r : MilpSt)
    (h : milpSolve env I timeLimit gap useBigM method = .ok r) :
    FeasWithin (contTol κ) I r.xLB ∧ obj I r.xLB = r.vLB ∧ (∀ y, Feas I y → obj I y ≤ r.vUB)
    ∧ (gap < 1 → (∀ g, g.mipGap = gap → (env.cc 0 g).sol.isSome →
        (env.cc 0 g).status = 2 ∧ GResult.WithinGap g (env.cc 0 g)) →
        r.vUB ≤ (1 + gap) * r.vLB) := by
  obtain ⟨bigM, out, h1, h2, h3, h4, h5⟩ := milpSolve_inv h
  have hM' := milp_ms hE heps hm hn hI hmeth h1
  obtain ⟨g, g1, g2, g3, g4, p1, p2⟩ := inst_points hE (fun Ms e => sameSolutions_of_valid
    (nonnegCI_inst hI.1 hc) (hM' Ms e).1 (hM' Ms e).2.1) gap
  obtain ⟨g', ρ, b1, b2, b3, b4, b5⟩ := solveCclp_inv h2
  rw [g1] at b1
  cases b1
  obtain ⟨f1, f2⟩ := (hcc g).feas ρ b2
  obtain ⟨y, y1, y2⟩ := cont_answer hE heps htol hI.1 hc hb hκ hR (e := 0) (by norm_num) (fun Ms e => by
    obtain ⟨m1, m2, m3⟩ := hM' Ms e
    refine ⟨m1, fun x z hx hz s hs i hi => ?_, fun s hs i hi => (m3 s hs i hi).trans (by linarith)⟩
    rw [add_zero]
    exact m2 x z hx hz s hs i hi) g1 f1
  have hev : ∀ ρ, g.obj.eval ρ = obj I fun j => ρ (.x j) := fun ρ => by
    rw [g2, eval_objExpr]; rfl
  have hbd : g.Bounded := by
    refine ⟨∑ j ∈ range I.n, I.c j, fun ρ hρ => ?_⟩
    rw [if_pos g3, hev]
    unfold Spec.obj dot
    refine Finset.sum_le_sum fun j hj => ?_
    have hj := Finset.mem_range.1 hj
    exact mul_le_of_le_one_right (hc j hj) (inX_box (p1 ρ hρ).1 j hj).2
  have hbound : ∀ y, Feas I y → obj I y ≤ (env.cc 0 g).objBnd := fun y hy => by
    have := (hcc g).bound hbd _ (p2 y hy)
    rw [if_pos g3, hev] at this
    exact this
  rw [h3, h4, h5, b3, b4, b5]
  have hval : obj I (fun j => ρ (.x j)) = (env.cc 0 g).objVal := by rw [← f2, hev]
  refine ⟨⟨y, y1, y2, shrink_obj hc y2⟩, hval, hbound, fun hg1 hst => ?_⟩
  obtain ⟨st1, st2⟩ := hst g g4 (by rw [b2]; rfl)
  have hw := st2 st1
  rw [g4] at hw
  have h0 := (obj_nonneg hc y1.1).trans (hbound _ y1)
  have h1 := le_abs_self ((env.cc 0 g).objBnd - (env.cc 0 g).objVal)
  have hv : 0 ≤ (env.cc 0 g).objVal := by
    by_contra hneg
    have hneg := not_le.1 hneg
    rw [abs_of_neg hneg] at hw
    nlinarith
  rw [abs_of_nonneg hv] at hw
  linarith

/-- Big-Ms computed from violations in doubles are at most the sum of their row, up to `1e-9`. -/
theorem flSong_sum (srt : CppSort) (hE : Equi I) (hm : 0 < I.m) (hn : 0 < I.n) (hn' : I.n ≤ 100)
    (hI : OneDecimal I) (hM : Model.Moderate I) (hS : SortsDefined I) {f : ℕ → ℕ → ℕ → WithTop ℚ}
    (hf : flViolations srt I = .ok f) {Ms : List (List ℚ)} (h : flSongBigMs I f = .ok Ms) :
    ∀ s < I.N, ∀ i < I.m, bigMAt Ms s i ≤ ∑ j ∈ range I.n, I.A s i j + 1 := by
  intro s hs i hi
  obtain ⟨-, h2⟩ := flSongBigMs_at h
  obtain ⟨-, f', e1, ha⟩ := C96_accurate srt I hE.1 hm hn hI 20000 5000 (sized_of_moderate hI.1 hM hn') hS
  rw [hf] at e1
  cases e1
  obtain ⟨-, t, ht, hft⟩ := flSongBigM_range (h2 s hs i hi)
  obtain ⟨v, w, e2, e3, e4⟩ := ha s hs t ht i hi
  rw [hft] at e2
  have e2 : bigMAt Ms s i = v := WithTop.coe_injective e2
  have herr := songErr_moderate hn'
  have h4 := (abs_le.1 e4).2
  have h5 := song_sum hI.1 hs hi e3
  rw [e2]
  linarith

/-- **C106 (method 1 in doubles).**  Continuous instances with one decimal digit, capacities of at least 1 and
rows that sum up to at most `κ` times the capacity: violations, big-Ms, data and right-hand sides are
rounded to doubles, Gurobi answers within its tolerances.  If `solve` returns, `vUB` bounds all feasible
points of the exact instance up to the rounding of the objective; `xLB` is within `(3 κ + 5) * 1e-9` of a
feasible point whose value is `vLB` up to that factor of the sum of the values and the rounding of the
objective; and if Gurobi reports a gap, that point is optimal up to that gap and these errors. -/
theorem C106_method1 (hE : Equi I) (heps : 0 ≤ I.eps) (heps1 : I.eps ≤ 1) (htol : TolOk I) (hm : 0 < I.m)
    (hn : 0 < I.n) (hn' : I.n ≤ 100) (hN : I.N ≤ 2 ^ 40) (hI : OneDecimal I) (hM : Model.Moderate I)
    (hc : NonnegC I) (hb : I.cont = true) (κ : ℚ) (hκ : 0 ≤ κ) (hR : RowRatio κ I) (hS : SortsDefined I)
    (env : Env) (timeLimit gap : ℚ) (hgap : 0 ≤ gap)
    (hcc : ∀ g, IsMethod1Problem env.srt I gap g → GResult.FlValid cclpTols (9 / 10 ^ 10) g (env.cc 0 g))
    (r : MilpSt) (h : flMilpSong env I timeLimit gap = .ok r) :
    (∀ y, Feas I y → obj I y ≤ r.vUB + objErr I)
    ∧ ∃ y, Feas I y ∧ (∀ j < I.n, |r.xLB j - y j| ≤ contTol κ)
      ∧ |r.vLB - obj I y| ≤ contTol κ * ∑ j ∈ range I.n, I.c j + objErr I
      ∧ (|r.vUB - r.vLB| ≤ gap * |r.vLB| → ∀ y', Feas I y' →
        obj I y' ≤ (1 + gap) * (obj I y + contTol κ * ∑ j ∈ range I.n, I.c j + objErr I) + objErr I) := by
  unfold flMilpSong at h
  cases hf : flViolations env.srt I with
  | error e => rw [hf] at h; cases h
  | ok f =>
  rw [hf] at h
  simp only [bind, Except.bind, pure, Except.pure] at h
  cases hMs : flSongBigMs I f with
  | error e => rw [hMs] at h; cases h
  | ok Ms =>
  rw [hMs] at h
  simp only at h
  split at h
  · cases h
  rename_i out ho
  cases h
  obtain ⟨g, ρ, b1, b2, b3, b4, b5⟩ := flSolveCclp_inv ho
  obtain ⟨hB, hcov⟩ := C101_big_ms env.srt hE heps hm hn hn' hN hI hM hS f hf Ms hMs
  have hr := hcc g ⟨f, Ms, hf, hMs, b1⟩
  obtain ⟨k1, -, k3⟩ := big_m_error_within hE heps heps1 hI.1 hM hc Ms hB (7 / 10 ^ 10) (by norm_num)
    (by norm_num) (fun _ => True) (fun y hy _ => hcov y (inX_box hy.1) hy.2) gap (contTol κ)
    (fun g ρ hg hρ => cont_answer hE heps htol hI.1 hc hb hκ hR (e := 7 / 10 ^ 10) (by norm_num) (by
      rintro _ ⟨⟩
      exact ⟨hB.1, fun x z hx hz => hcov x (inDom_box hx) (zOk_chance hE hz),
        flSong_sum env.srt hE hm hn hn' hI hM hS hf hMs⟩) hg hρ) g b1 (env.cc 0 g)
    (by convert hr using 1; norm_num)
  have k1 : ∀ y, Feas I y → obj I y ≤ (env.cc 0 g).objBnd + objErr I := fun y hy => k1 y hy trivial
  obtain ⟨y, y1, y2, y3⟩ := k3 ρ b2
  dsimp only
  rw [b3, b4, b5]
  refine ⟨k1, y, y1, y2, y3, fun hg y' hy' => ?_⟩
  have c1 := k1 y' hy'
  have c2 := abs_le.1 y3
  have c0 : 0 ≤ obj I y := obj_nonneg hc y1.1
  have c3 : |(env.cc 0 g).objVal| ≤ obj I y + (contTol κ * ∑ j ∈ range I.n, I.c j + objErr I) :=
    abs_le.2 ⟨by linarith [c2.1], by linarith [c2.2]⟩
  have c4 := (abs_le.1 hg).2
  have c5 := mul_le_mul_of_nonneg_left c3 hgap
  have c6 := le_abs_self (env.cc 0 g).objVal
  linarith

/-! ## Examples -/

/-- A point with items slightly too large. -/
def pushed (d : ℚ) (ρ : V → ℚ) : V → ℚ := fun v => match v with
  | .x j => if 0 < ρ (.x j) then ρ (.x j) + d else ρ (.x j)
  | v => ρ v

/-- The grid search, with solutions moved if the moved point is within the tolerances and the gap. -/
noncomputable def pushedSolver (grid : List ℚ) (t : Tols) (d : ℚ) (g : GModel) : GResult :=
  match (gridSolver grid g).sol with
  | none => gridSolver grid g
  | some ρ =>
    if g.NearFeas t (pushed d ρ) ∧ |(gridSolver grid g).objBnd - g.obj.eval (pushed d ρ)|
        ≤ g.mipGap * |g.obj.eval (pushed d ρ)| then
      { gridSolver grid g with sol := some (pushed d ρ), objVal := g.obj.eval (pushed d ρ) }
    else gridSolver grid g

theorem gridSolver_closed (grid : List ℚ) (g : GModel) (h : (gridSolver grid g).status = 2) :
    (gridSolver grid g).objVal = (gridSolver grid g).objBnd := by
  unfold gridSolver at h ⊢
  split at h
  · unfold gridBrute
    split <;> rfl
  · exact exactSolver_closed g h

theorem pushedSolver_answers {grid : List ℚ} (h1 : (1 : ℚ) ∈ grid) (t : Tols) (d : ℚ) (g : GModel) :
    GResult.NearAnswers t g (pushedSolver grid t d g) := by
  have h := gridSolver_exact h1 g
  have hexact : GResult.NearAnswers t g (gridSolver grid g) := by
    refine ⟨⟨⟨fun ρ hs => ⟨.inl (h.answers.valid.feas ρ hs).1, (h.answers.valid.feas ρ hs).2⟩,
      h.answers.valid.bound, h.answers.valid.infeasible, h.answers.valid.optimal⟩,
      h.answers.notInterrupted, h.answers.solved⟩, fun ho => (h.optimum ho).1, fun h0 h2 => ?_⟩
    rw [gridSolver_closed grid g h2, sub_self, abs_zero]
    exact mul_nonneg h0 (abs_nonneg _)
  unfold pushedSolver
  split
  · exact hexact
  · next ρ hs =>
    split
    · next hn =>
      exact ⟨⟨⟨fun ρ' h' => by cases h'; exact ⟨.inr hn.1, rfl⟩, hexact.valid.bound, (fun h3 => by
        have := (hexact.valid.infeasible h3).1
        rw [hs] at this
        cases this), fun _ => rfl⟩, hexact.notInterrupted, fun _ _ => rfl⟩, hexact.status,
        fun _ _ => hn.2⟩
    · exact hexact

/-- Four scenarios, one of which may be violated, and two items of values 30 and `v` that may be split;
half of the first fits in the even scenarios, half of the second in the odd ones. -/
def exPushed (v : ℚ) : Inst :=
  { n := 2, N := 4, m := 2
    A := fun s i j => if i = j then (if (s + i) % 2 = 0 then 4 else 2) else 0
    b := fun _ _ => 2, c := fun j => if j = 0 then 30 else v, proba := fun _ => 1 / 4
    eps := 1 / 4, cont := true }

/-- The values that its rows allow. -/
def pushedGrid : List ℚ := [0, 1 / 2, 1]

theorem pushed_one : (1 : ℚ) ∈ pushedGrid := by decide +kernel

/-- All solutions are moved. -/
noncomputable def pushedEnv : Env :=
  { exactEnv exNorm 1 with
    sub := fun _ _ => pushedSolver pushedGrid defaultTols (1 / 10 ^ 8)
    lb := fun _ => pushedSolver pushedGrid defaultTols (1 / 10 ^ 8)
    acc := fun _ _ => pushedSolver pushedGrid defaultTols (1 / 10 ^ 8)
    cc := fun _ => pushedSolver pushedGrid cclpTols (1 / 10 ^ 10) }

theorem pushed_contract {v : ℚ} (hv : v = 20 ∨ v = 1 / 1000) : NearTolContract pushedEnv (exPushed v) where
  equi := ⟨by show 0 < 4; decide, fun s _ => by norm_num [exPushed]⟩
  eps := by norm_num [exPushed]
  tolOk := by rcases hv with rfl | rfl <;> decide +kernel
  ab := by unfold NonnegAb; rcases hv with rfl | rfl <;> decide +kernel
  c := by unfold NonnegC; rcases hv with rfl | rfl <;> decide +kernel
  m := by show 0 < 2; decide
  n := by show 0 < 2; decide
  sum := by rcases hv with rfl | rfl <;> decide +kernel
  size := by rcases hv with rfl | rfl <;> decide +kernel
  sub := fun _ _ g => pushedSolver_answers pushed_one _ _ g
  cc := fun _ g => NearValid_wide (pushedSolver_answers pushed_one _ _ g).valid
  lb := fun _ g => (pushedSolver_answers pushed_one _ _ g).valid
  acc := fun _ _ g => (pushedSolver_answers pushed_one _ _ g).toNearSolved

instance (κ : ℚ) (I : Inst) : Decidable (RowRatio κ I) := by unfold RowRatio; infer_instance

/-- The hypotheses of `C106_run` are met by a run in which every reported solution is moved, and by one
that stops on the gap. -/
example : NearTolContract pushedEnv (exPushed 20) ∧ NearTolContract pushedEnv (exPushed (1 / 1000))
    ∧ (exPushed 20).cont = true ∧ RowRatio 2 (exPushed 20) ∧ RowRatio 2 (exPushed (1 / 1000))
    ∧ ((shakenCfg false).useBigM = true → (shakenCfg false).bigMMethod ≠ "belotti")
    ∧ (outcome (run pushedEnv (shakenCfg false) (exPushed 20) 10 10)).map (·.trace)
      = some ([(⊤, ⊥), ((80000001 / 2000000 : ℚ), ⊥),
          ((80000001 / 2000000 : ℚ), (50000001 / 2000000 : ℚ)),
          ((35 : ℚ), (50000001 / 2000000 : ℚ)), ((25 : ℚ), (50000001 / 2000000 : ℚ))]
          : List (WithTop ℚ × WithBot ℚ))
    ∧ (outcome (run pushedEnv (shakenCfg false) (exPushed (1 / 1000)) 10 10)).map
        (fun o => (o.error, o.result.map fun q => (q.1, q.2.le (1 / 10 ^ 4))))
      = some (none, some (false, true)) :=
  ⟨pushed_contract (.inl rfl), pushed_contract (.inr rfl), rfl, by decide +kernel, by decide +kernel,
    by simp [shakenCfg], by decide +kernel, by decide +kernel⟩

/-- Two items that may be split; the first row has a negative big-M. -/
def exCont : Inst :=
  { n := 2, N := 4, m := 1, A := fun s _ j => (1 + s + 2 * j : ℚ)
    b := fun _ _ => 4, c := fun j => 3 - 2 * j, proba := fun _ => 1 / 4
    eps := 1 / 4, cont := true }

/-- All of the first item, slightly too much, and a fifth of the second; the last scenario is given up. -/
def exContPoint : V → ℚ
  | .x j => if j = 0 then 1 + 2 / 10 ^ 10 else 1 / 5
  | .z s => if s = 3 then 0 else 1
  | _ => 0

/-- An answer of Gurobi. -/
def exContAnswer : GResult :=
  { status := 2, sol := some exContPoint, objVal := 16 / 5 + 6 / 10 ^ 10, objBnd := 5 }

theorem exCont_equi : Equi exCont := ⟨by decide, fun s _ => by norm_num [exCont]⟩

theorem exCont_grid : OneDecimal exCont := by
  refine ⟨by unfold NonnegAb; decide +kernel, fun s _ i _ => ⟨⟨40, ?_⟩, fun j _ =>
    ⟨10 * (1 + s + 2 * j), ?_⟩⟩⟩ <;> norm_num [exCont]

set_option synthInstance.maxSize 1000 in
theorem exCont_sorts : SortsDefined exCont := by unfold SortsDefined StrictWeak; decide +kernel

/-- Its big-Ms; here the doubles are exact. -/
def exContMs : List (List ℚ) := [[-1], [0], [3 / 2], [3]]

theorem exCont_ms : (flViolations .default exCont >>= flSongBigMs exCont) = .ok exContMs := by
  decide +kernel

theorem exCont_valid (g : GModel) (h : IsMethod1Problem .default exCont 0 g) :
    GResult.FlValid cclpTols (9 / 10 ^ 10) g exContAnswer := by
  obtain ⟨f, Ms, h1, h2, h3⟩ := h
  have e := exCont_ms
  rw [h1] at e
  have e : flSongBigMs exCont f = .ok exContMs := e
  rw [h2] at e
  cases e
  have hg : flBuildCCLP (instCI (dbl exCont)) (some exContMs) [] [] 0
      = .ok (ccShape (instCI (dbl exCont)) (flRowConstrs (instCI (dbl exCont)) (some exContMs))
        (flChanceConstr (instCI (dbl exCont))) [] 0) := by
    obtain ⟨g', hg'⟩ : ∃ g', flBuildCCLP (instCI (dbl exCont)) (some exContMs) [] [] 0 = .ok g' := ⟨_, h3⟩
    rw [hg', flBuildCCLP_shape (by rintro _ ⟨⟩; exact ⟨by decide, by decide⟩) hg']
  rw [h3] at hg
  cases hg
  refine ⟨?_, ?_, by simp [exContAnswer], by simp [exContAnswer]⟩
  · rintro _ ⟨⟩
    rw [nearCC]
    exact ⟨by unfold NearCC; decide +kernel, by decide +kernel⟩
  · intro ρ hρ
    have h0 := (near_varX (t := ⟨0, 9 / 10 ^ 10⟩) ((nearCC).1 hρ).1)
    have hx : ∀ j < 2, ρ (.x j) ≤ 1 + 9 / 10 ^ 10 := fun j hj => (h0 j hj).2.2
    rw [(ccShape_fields _ _ _ _ _).1, eval_objExpr]
    have a := hx 0 (by decide)
    have b := hx 1 (by decide)
    have c0 : (dbl exCont).c 0 = 3 := by decide +kernel
    have c1 : (dbl exCont).c 1 = 1 := by decide +kernel
    have : dot (instCI (dbl exCont)).n (instCI (dbl exCont)).c (fun j => ρ (.x j))
        = 3 * ρ (.x 0) + 1 * ρ (.x 1) := by
      show ∑ j ∈ range 2, (dbl exCont).c j * ρ (.x j) = _
      rw [Finset.sum_range_succ, Finset.sum_range_one, c0, c1]
    rw [this]
    show _ ≤ (5 : ℚ)
    linarith

/-- An environment with this answer. -/
def exContEnv (norm : Norm) : Env := { bruteEnv norm 0 with cc := fun _ _ => exContAnswer }

/-- The hypotheses of `C106_method1` are met by an instance on which the method reports a moved point. -/
example (norm : Norm) : ∃ r, flMilpSong (exContEnv norm) exCont 10 0 = .ok r
    ∧ r.vLB = 16 / 5 + 6 / 10 ^ 10 ∧ r.xLB 0 = 1 + 2 / 10 ^ 10
    ∧ (∀ y, Feas exCont y → obj exCont y ≤ r.vUB + objErr exCont)
    ∧ ∃ y, Feas exCont y ∧ (∀ j < 2, |r.xLB j - y j| ≤ contTol 3) := by
  obtain ⟨f, hf⟩ : ∃ f, flViolations .default exCont = .ok f := ⟨_, rfl⟩
  have e := exCont_ms
  rw [hf] at e
  have e : flSongBigMs exCont f = .ok exContMs := e
  obtain ⟨r, hr, hv, hx⟩ : ∃ r, flMilpSong (exContEnv norm) exCont 10 0
      = .ok r ∧ r.vLB = 16 / 5 + 6 / 10 ^ 10 ∧ r.xLB 0 = 1 + 2 / 10 ^ 10 := by
    unfold flMilpSong
    rw [show (exContEnv norm).srt = .default from rfl, hf]
    simp only [bind, Except.bind, e]
    obtain ⟨g, hg⟩ : ∃ g, flBuildCCLP (instCI (dbl exCont)) (some exContMs) [] [] 0 = .ok g := ⟨_, rfl⟩
    unfold flSolveCclp
    have ht : setTimeLimit (remaining (exContEnv norm).clock 10 (milpReads true + 1)
        - ((exContEnv norm).clock (milpReads true + 4) - (exContEnv norm).clock (milpReads true + 3)))
        = .ok () := by
      unfold setTimeLimit
      rw [if_pos]
      simp [remaining, exContEnv, bruteEnv]
    rw [hg]
    simp only [bind, Except.bind, ht]
    refine ⟨_, rfl, rfl, ?_⟩
    show (if (0 : ℕ) = 0 then (1 + 2 / 10 ^ 10 : ℚ) else 1 / 5) = _
    exact if_pos rfl
  obtain ⟨h1, y, y1, y2, -⟩ := C106_method1 exCont_equi (by decide +kernel) (by decide +kernel)
    (by decide +kernel) (by decide) (by decide) (by decide +kernel) (by decide +kernel) exCont_grid
    (by unfold Model.Moderate; decide +kernel) (by unfold NonnegC; decide +kernel) rfl 3 (by norm_num)
    (by decide +kernel) exCont_sorts (exContEnv norm) 10 0 le_rfl exCont_valid r hr
  exact ⟨r, hr, hv, hx, h1, y, y1, y2⟩

open Classical in
/-- A solver that gives this answer where it is valid. -/
noncomputable def contSolver (g : GModel) : GResult :=
  if GResult.NearValid wideTols g exContAnswer then exContAnswer else exactSolver g

theorem contSolver_valid (g : GModel) : GResult.NearValid wideTols g (contSolver g) := by
  unfold contSolver
  split
  · assumption
  · have h := (exactSolver_exact g).answers.valid
    exact ⟨fun ρ hs => ⟨.inl (h.feas ρ hs).1, (h.feas ρ hs).2⟩, h.bound, h.infeasible, h.optimal⟩

/-- An environment with this solver. -/
noncomputable def contEnv (norm : Norm) : Env := { bruteEnv norm 0 with cc := fun _ => contSolver }

/-- Its naive big-Ms. -/
def exContNaive : List (List ℚ) := [[0], [2], [4], [6]]

theorem exCont_near {bigM : Option (List (List ℚ))}
    (hb : bigM = none ∨ bigM = some exContNaive ∨ bigM = some exContMs) {g : GModel}
    (hg : buildCCLP (instCI exCont) bigM [] [] 0 = .ok g) : GResult.NearValid wideTols g exContAnswer := by
  have hshape : ∀ Ms, bigM = some Ms → Shape (instCI exCont) Ms := by
    rintro Ms rfl
    rcases hb with hb | hb | hb
    · cases hb
    · cases hb; exact ⟨by decide, by decide⟩
    · cases hb; exact ⟨by decide, by decide⟩
  rw [buildCCLP_shape hshape hg]
  refine ⟨?_, ?_, by simp [exContAnswer], by simp [exContAnswer]⟩
  · rintro _ ⟨⟩
    refine ⟨.inr ?_, ?_⟩
    · rw [nearCC]
      rcases hb with rfl | rfl | rfl <;> unfold NearCC <;> decide +kernel
    · rw [(ccShape_fields _ _ _ _ _).1]
      decide +kernel
  · intro _ ρ hρ
    have hi : IndBinary (ccShape (instCI exCont) (rowConstrs (instCI exCont) bigM)
        (chanceConstr (instCI exCont)) [] 0) := by
      rcases hb with rfl | rfl | rfl
      · exact indBinary_cclp ind_indicators
      · exact indBinary_cclp ind_bigM
      · exact indBinary_cclp ind_bigM
    have h0 := near_varX ((nearCC).1 (near_of_feas (t := ⟨0, 0⟩) le_rfl le_rfl (by norm_num) hi hρ)).1
    have hx : ∀ j < 2, ρ (.x j) ≤ 1 := fun j hj => by
      have := (h0 j hj).2.2
      simpa using this
    rw [(ccShape_fields _ _ _ _ _).1, eval_objExpr]
    have a := hx 0 (by decide)
    have b := hx 1 (by decide)
    have : dot (instCI exCont).n (instCI exCont).c (fun j => ρ (.x j)) = 3 * ρ (.x 0) + 1 * ρ (.x 1) := by
      show ∑ j ∈ range 2, exCont.c j * ρ (.x j) = _
      rw [Finset.sum_range_succ, Finset.sum_range_one, show exCont.c 0 = 3 by decide +kernel,
        show exCont.c 1 = 1 by decide +kernel]
    rw [this]
    rw [(ccShape_fields _ _ _ _ _).2, if_pos rfl]
    show _ ≤ (5 : ℚ)
    linarith

/-- The hypotheses of `C106_milp` are met by calls with Song's big-Ms, naive big-Ms and indicator
constraints that report a moved point; with Song's big-Ms a row is missing from the model. -/
example (norm : Norm) (b : Bool) (method : String)
    (hm : b = true → method = "naive" ∨ method = "song") :
    ∃ r, milpSolve (contEnv norm) exCont 10 0 b method = .ok r ∧ r.vLB = 16 / 5 + 6 / 10 ^ 10
      ∧ FeasWithin (contTol 3) exCont r.xLB ∧ ∀ y, Feas exCont y → obj exCont y ≤ r.vUB := by
  obtain ⟨bigM, hM, hb⟩ : ∃ bigM, milpBigMOpt (contEnv norm) exCont b method = .ok bigM
      ∧ (bigM = none ∨ bigM = some exContNaive ∨ bigM = some exContMs) := by
    cases b with
    | false => exact ⟨none, rfl, .inl rfl⟩
    | true =>
      rcases hm rfl with rfl | rfl
      · have : naiveAll (instCI exCont) 4 = exContNaive := by decide +kernel
        exact ⟨some exContNaive, by rw [← this]; rfl, .inr (.inl rfl)⟩
      · have : (cppViolations .default exCont >>= fun v => runSong (instCI exCont) false 4 exCont v none)
            = .ok exContMs := by decide +kernel
        refine ⟨some exContMs, ?_, .inr (.inr rfl)⟩
        show (cppViolations .default exCont >>= fun v =>
          runSong (instCI exCont) false 4 exCont v none).map some = _
        rw [this]
        rfl
  obtain ⟨g, hg⟩ : ∃ g, buildCCLP (instCI exCont) bigM [] [] 0 = .ok g := by
    rcases hb with rfl | rfl | rfl <;> exact ⟨_, rfl⟩
  have hs : contSolver g = exContAnswer := if_pos (exCont_near hb hg)
  have ht : setTimeLimit (remaining (contEnv norm).clock 10 (milpReads b + 1)
      - ((contEnv norm).clock (milpReads b + 4) - (contEnv norm).clock (milpReads b + 3))) = .ok () := by
    unfold setTimeLimit
    rw [if_pos]
    simp [remaining, contEnv, bruteEnv]
  obtain ⟨r, hr, hv⟩ : ∃ r, milpSolve (contEnv norm) exCont 10 0 b method = .ok r
      ∧ r.vLB = 16 / 5 + 6 / 10 ^ 10 := by
    unfold milpSolve milpCall solveCclp
    rw [hM]
    simp only [bind, Except.bind, hg, ht]
    rw [show (contEnv norm).cc 0 g = exContAnswer from hs]
    exact ⟨_, rfl, rfl⟩
  obtain ⟨h1, -, h2, -⟩ := C106_milp exCont_equi (by decide +kernel) (by decide +kernel) (by decide)
    (by decide) exCont_grid (by unfold NonnegC; decide +kernel) rfl 3 (by norm_num) (by decide +kernel)
    10 0 b method hm contSolver_valid r hr
  exact ⟨r, hr, hv, h1, h2⟩

end Verif.Props
