import Verif.Lemmas.Certify
import Verif.Lemmas.ExactSolver
import Verif.Props.Violations

/-!
# C37, C50, C51, C52, C55: what a run of the adaptive solver guarantees
-/

namespace Verif.Props
open Spec Model Finset

variable {env : Env} {cfg : Cfg} {I : Inst} {rounds fuel : ℕ}

/-! ## The assumptions -/

/-- With one decimal digit and binary variables the tolerance of `is_feasible` never matters. -/
theorem sharp_of_grid (hI : OneDecimal I) (hb : I.cont = false) {x : Vec} (hx : InX I x) :
    Sharp I x := by
  intro s hs h
  unfold Sat at h
  push Not at h
  obtain ⟨i, hi, h⟩ := h
  refine ⟨i, hi, ?_⟩
  have hx' : ∀ j < I.n, x j = 0 ∨ x j = 1 := fun j hj => by
    have := hx j hj
    rw [hb] at this
    simpa using this
  exact (grid_gt_tol (dot_grid (fun j hj => (hI.2 s hs i hi).2 j hj) (hI.2 s hs i hi).1 hx')).2
    (sub_pos.2 h)

/-- For binary instances with one decimal digit, exact subset costs and valid other answers are
all that is assumed. -/
theorem contract_of_grid (hE : Equi I) (heps : 0 ≤ I.eps) (htol : TolOk I) (hI : OneDecimal I)
    (hc : NonnegC I) (hm : 0 < I.m) (hn : 0 < I.n) (hb : I.cont = false)
    (hsub : ∀ t k g, GResult.Exact g (env.sub t k g))
    (hcc : ∀ t g, GResult.Valid g (env.cc t g)) (hlb : ∀ t g, GResult.Valid g (env.lb t g))
    (hacc : ∀ t k g, GResult.Answers g (env.acc t k g))
    (hbig : ∀ t g, GResult.Answers g (env.big t g)) : Contract env I :=
  ⟨hE, heps, htol, hI.1, hc, hm, hn, hsub,
    fun t k _ _ _ h => sharp_of_grid hI hb
      ((subsetCost_spec (I := I) (hsub t k _)).1 _ _ h).1.1, hcc, hlb, hacc, hbig⟩

/-! ## C50 -/

/-- **C50.** In every run, however it ends (also by an exception, and at the start of every
iteration): after every assignment to a bound `vUB` was at least the objective of every feasible
point and `vLB`, once set, the objective of a feasible point; the final `vUB` is a valid bound
and, before the final report of a feasible stop, `xLB` is a feasible point of objective `vLB`.
Missing from the full claim: solutions of subset problems with violations within the tolerance of
`is_feasible` (`Contract.sharp`), for which it is false (`C50_counterexample`). -/
theorem C50_bounds_bracket_partial (hC : Contract env I) (r : Except PyErr (Bool × Gap)) (s : St)
    (h : run env cfg I rounds fuel = .ok (r, s)) :
    (∀ p ∈ s.trace, (∀ y, Feas I y → (obj I y : WithTop ℚ) ≤ p.1)
      ∧ ∀ v : ℚ, p.2 = v → ∃ x, Feas I x ∧ obj I x = v)
    ∧ (∀ y, Feas I y → (obj I y : WithTop ℚ) ≤ s.vUB)
    ∧ ((∀ g, r ≠ .ok (true, g)) →
        ∀ v : ℚ, s.vLB = v → ∃ x, s.xLB = some x ∧ Feas I x ∧ obj I x = v) := by
  obtain ⟨h1, h2⟩ := run_bounds hC h
  cases r with
  | error e =>
    obtain ⟨h3, -⟩ := h2 e rfl
    exact ⟨h3.trace, h3.ub, fun _ => h3.lb⟩
  | ok q =>
    obtain ⟨s', a1, a2, -, -, a5, a6, -⟩ := (h1 q rfl).before
    refine ⟨by rw [a6]; exact a2.br.trace, by rw [a5]; exact a2.br.ub, fun hq => ?_⟩
    obtain ⟨b, g⟩ := q
    cases b
    · rw [← a1 rfl]; exact a2.br.lb
    · exact absurd rfl (hq g)

/-! ## C51 -/

/-- **C51.** If `solve` stops because the upper-bound solution is feasible and the partitioned
problems are solved to optimality, then `xUB = xLB`, its objective is `vUB = vLB`, no feasible
point is better, at most `epsilon * N` scenarios are violated by more than the tolerance, and if
no violation is within the tolerance (always with binary variables and one decimal digit,
`sharp_of_grid`) it is feasible, hence optimal. -/
theorem C51_feasible_stop_optimal (hC : Contract env I) (ht : Tight env) (g : Gap) (s : St)
    (h : run env cfg I rounds fuel = .ok (.ok (true, g), s)) :
    ∃ x, s.xUB = some x ∧ s.xLB = some x ∧ s.vUB = (obj I x : WithTop ℚ)
      ∧ s.vLB = (obj I x : WithBot ℚ) ∧ (∀ y, Feas I y → obj I y ≤ obj I x) ∧ InX I x
      ∧ ((violBy I (1 / 10 ^ 6) x).card : ℚ) ≤ I.eps * I.N
      ∧ (Sharp I x → Feas I x) := by
  obtain ⟨s', -, a2, a3, -, a5, -, -, a8, -⟩ := ((run_bounds hC h).1 _ rfl).before
  obtain ⟨⟨out, o1, o2, -, o4, -⟩, a3, a4⟩ := a3 rfl
  obtain ⟨o4, o5⟩ := o4 ht
  have hv : ((violBy I (1 / 10 ^ 6) out.x).card : ℚ) ≤ I.eps * I.N := by
    have := (C01_is_feasible_verdict env.norm I out.x).1.1 o2
    rw [show (1 : ℚ) / 10 ^ 6 = 1 / 1000000 by norm_num]
    exact this
  refine ⟨out.x, a8.trans o5, a3.trans o5, a5.trans o4, a4 _ o4, fun y hy => ?_, o1.point.1, hv,
    fun hs => sharp_feas hC.equi hC.eps o1.point.1 hs hv⟩
  have := a2.br.ub y hy
  rw [o4] at this
  exact WithTop.coe_le_coe.1 this

/-- **C51 (gap of the solver).** Without assuming more than the relative gap 1e-8 that the code sets
for the partitioned problems: if `solve` stops because the upper-bound solution is feasible, the
reported value `vLB = vUB` is at most the factor `1 + 1e-8` above the objective of that solution,
which satisfies the constraints of the last partition, violates at most `epsilon * N` scenarios by
more than the tolerance, and is feasible if no violation is within the tolerance; no feasible point
is better than the reported value. -/
theorem C51_feasible_stop_near (hC : Contract env I) (ht : NearTight env) (g : Gap) (s : St)
    (h : run env cfg I rounds fuel = .ok (.ok (true, g), s)) :
    ∃ (x : Vec) (v : ℚ), s.vUB = (v : WithTop ℚ) ∧ s.vLB = (v : WithBot ℚ)
      ∧ (∀ y, Feas I y → obj I y ≤ v) ∧ obj I x ≤ v ∧ v ≤ (1 + 1 / 10 ^ 8) * obj I x ∧ InX I x
      ∧ ((violBy I (1 / 10 ^ 6) x).card : ℚ) ≤ I.eps * I.N
      ∧ (Sharp I x → Feas I x) := by
  obtain ⟨s', -, a2, a3, -, a5, -, a7, -⟩ := ((run_bounds hC h).1 _ rfl).before
  obtain ⟨⟨out, o1, o2, o3, -, -, o6⟩, -, a4⟩ := a3 rfl
  obtain ⟨v, hv⟩ := WithTop.ne_top_iff_exists.1 o3
  have hviol : ((violBy I (1 / 10 ^ 6) out.x).card : ℚ) ≤ I.eps * I.N := by
    have := (C01_is_feasible_verdict env.norm I out.x).1.1 o2
    rw [show (1 : ℚ) / 10 ^ 6 = 1 / 1000000 by norm_num]
    exact this
  refine ⟨out.x, v, a5.trans hv.symm, a4 v hv.symm, fun y hy => ?_, ?_, ?_, o1.point.1, hviol,
    fun hs => sharp_feas hC.equi hC.eps o1.point.1 hs hviol⟩
  · have := a2.br.ub y hy
    rw [← hv] at this
    exact WithTop.coe_le_coe.1 this
  · have := a2.ub out.x o1.point
    rw [← hv] at this
    exact WithTop.coe_le_coe.1 this
  · rw [← hv] at o6
    have h1 : v ≤ out.vBnd := WithTop.coe_le_coe.1 o6
    have h2 := (abs_le.1 (o1.near ht)).2
    have h3 := obj_nonneg hC.c o1.point.1
    rw [← o1.obj, abs_of_nonneg h3] at h2
    linarith

/-! ## C52 -/

/-- The bounds after a stop on the gap criterion. -/
theorem gap_stop (hC : Contract env I) (hgap : cfg.gap < 1) (g : Gap) (s : St)
    (h : run env cfg I rounds fuel = .ok (.ok (false, g), s)) (hg : g.le cfg.gap = true) :
    ∃ x, s.xLB = some x ∧ Feas I x ∧ s.vLB = (obj I x : WithBot ℚ) ∧ 0 < obj I x
      ∧ ∃ u : ℚ, s.vUB = u ∧ u ≤ (1 + cfg.gap) * obj I x ∧ ∀ y, Feas I y → obj I y ≤ u := by
  obtain ⟨s', a1, a2, -, a4, -⟩ := ((run_bounds hC h).1 _ rfl).before
  have a1 := a1 rfl
  subst a1
  rcases a4 hgap rfl with h1 | ⟨b, h1⟩
  · exact absurd hg h1
  · have hbr := a2.br
    -- the lower bound is known and positive
    cases hl : s'.vLB with
    | bot => rw [hl] at h1; cases h1; cases hg
    | coe l =>
      obtain ⟨x, x1, x2, x3⟩ := hbr.lb l hl
      have hl0 : 0 ≤ l := x3 ▸ obj_nonneg hC.c x2.1
      have hpos : 0 < l := by
        rcases hl0.lt_or_eq with h0 | h0
        · exact h0
        · exfalso
          subst h0
          rw [hl] at h1
          cases hu : s'.vUB with
          | top => rw [hu] at h1; cases h1; cases hg
          | coe u =>
            rw [hu] at h1
            have hu0 : 0 ≤ u := by
              have := hbr.ub x x2
              rw [hu, x3] at this
              exact WithTop.coe_le_coe.1 this
            unfold computeGap at h1
            simp only [if_true] at h1
            split at h1
            · rw [if_neg (not_lt.2 hu0)] at h1
              split at h1 <;> cases h1 <;> cases hg
            · cases h1
      obtain ⟨u, l', e1, e2, e3⟩ := (C21_gap_certifies_partial _ _ _ _ h1).1 cfg.gap
        (fun l' hl' => by rw [hl] at hl'; cases hl'; exact hpos) hg
      rw [hl] at e2
      cases e2
      refine ⟨x, x1, x2, by rw [x3], by rw [x3]; exact hpos, u, e1, by rw [x3]; exact e3,
        fun y hy => ?_⟩
      have := hbr.ub y hy
      rw [e1] at this
      exact WithTop.coe_le_coe.1 this

/-- **C52.** If `solve` stops with a gap at most the required one (which is less than 1), and not
because the upper-bound solution is feasible, then `vLB` is positive and the objective of the
feasible point `xLB`, and every feasible point has objective at most `(1 + gap) * vLB`. -/
theorem C52_gap_stop_certifies (hC : Contract env I) (hgap : cfg.gap < 1) (g : Gap) (s : St)
    (h : run env cfg I rounds fuel = .ok (.ok (false, g), s)) (hg : g.le cfg.gap = true) :
    ∃ x, s.xLB = some x ∧ Feas I x ∧ s.vLB = (obj I x : WithBot ℚ) ∧ 0 < obj I x
      ∧ ∀ y, Feas I y → obj I y ≤ (1 + cfg.gap) * obj I x := by
  obtain ⟨x, h1, h2, h3, h4, u, -, h6, h7⟩ := gap_stop hC hgap g s h hg
  exact ⟨x, h1, h2, h3, h4, fun y hy => (h7 y hy).trans h6⟩

/-! ## C55, C37 -/

/-- **C55.** With non-negative data, a solver that answers every problem and one of the accepted
configurations, for every number of iterations: construction succeeds, and the only exceptions
that `solve` raises are the `ZeroDivisionError` of the gap, if the lower bound is 0, with
continuous variables the 'same solution' check, and Gurobi's error about a negative time limit, if
the time limit has passed.  (`.fuel` is not an exception: it says that the run goes on after `fuel`
iterations.)  Missing from the full claim: solutions of subset problems with violations within the
tolerance (`Contract.sharp`), and the random refiner with accurate objective, which always raises
`AttributeError` (`C55_random_accurate_counterexample`). -/
theorem C55_no_internal_error_partial (hC : Contract env I) (hS : Strong env cfg I rounds)
    (heps : I.eps < 1) : ∃ r s, run env cfg I rounds fuel = .ok (r, s)
      ∧ ∀ e, r = .error e → (e = .zeroDivisionError ∧ s.vLB = ((0 : ℚ) : WithBot ℚ))
        ∨ (e = .assertion "UpperBounder.py:27" ∧ I.cont = true)
        ∨ (e = .gurobiErrorAt "Solver.py:113"
          ∧ cfg.timeLimit ≤ env.clock s.reads - env.clock 0)
        ∨ e = .fuel := by
  have hk : kmax I + 1 ≤ I.N := by
    have hN : (0 : ℚ) < I.N := by exact_mod_cast hC.equi.1
    have : kmax I < I.N := by
      unfold kmax
      rw [Nat.floor_lt (mul_nonneg hC.eps hN.le)]
      nlinarith
    omega
  obtain ⟨s0, h0⟩ := construct_ok hC hS hk
  have hrun : run env cfg I rounds fuel = .ok (solve env cfg I rounds fuel s0) := by
    unfold run
    rw [h0]
    rfl
  refine ⟨_, _, hrun, fun e he => ?_⟩
  have := (run_bounds hC hrun).2 e he
  rcases this.2 hS with (h | h | h) | h
  · exact .inl h
  · exact .inr (.inl h)
  · refine .inr (.inr (.inl ⟨h.1, ?_⟩))
    exact sub_nonpos.1 ((le_max_left _ _).trans_eq h.2)
  · exact .inr (.inr (.inr h.1))

/-- **C37.** In every run, whatever the data of the bounds, the clock, the configuration and the
answers of the solver to all problems but those of the cost refiner: the dispatch of `_merge`
never reaches its `ValueError` (line 239), always finds an infeasible subset to merge with (the
variable of line 188 is bound) and passes its assertion (line 193). -/
theorem C37_merge_total (heps : 0 ≤ I.eps)
    (hA : cfg.splitMethod = "random" ∨ ((∀ s < I.N, ∀ i < I.m, 0 ≤ I.b s i)
      ∧ ∀ t k g, GResult.Answers g (env.acc t k g)))
    (r : Except PyErr (Bool × Gap)) (s : St) (h : run env cfg I rounds fuel = .ok (r, s)) :
    r ≠ .error (.valueErrorAt "AdaptivePartitioner.py:239")
      ∧ r ≠ .error (.unboundLocalErrorAt "AdaptivePartitioner.py:188")
      ∧ r ≠ .error (.assertion "AdaptivePartitioner.py:193") := by
  have hA' : SplitsOk env cfg I := hA.imp id fun h t => splitter_any h.1 (h.2 t)
  exact ⟨fun he => run_sites heps hA' h _ he (.inl rfl),
    fun he => run_sites heps hA' h _ he (.inr (.inl rfl)),
    fun he => run_sites heps hA' h _ he (.inr (.inr rfl))⟩

/-! ## C69 -/

/-- **C69.** On an instance read from a file, with binary variables and non-negative data, if the
subset problems are solved exactly and all other answers are valid, in every run: every pair of
bounds brackets the optimal value; a stop on the gap criterion gives a feasible `xLB` within the
required gap of the optimum; a feasible stop after partitioned problems solved to optimality gives
an optimal solution `xUB = xLB` with `vUB = vLB`. -/
theorem C69_parsed_binary_certificates (file : List (List ℚ)) (eps : ℚ) (I : Inst)
    (hI : parse file false eps = .ok I) (heps : 0 ≤ eps) (htol : TolOk I) (hab : NonnegAb I)
    (hc : NonnegC I) (hm : 0 < I.m) (hn : 0 < I.n)
    (hsub : ∀ t k g, GResult.Exact g (env.sub t k g))
    (hcc : ∀ t g, GResult.Valid g (env.cc t g)) (hlb : ∀ t g, GResult.Valid g (env.lb t g))
    (hacc : ∀ t k g, GResult.Answers g (env.acc t k g))
    (hbig : ∀ t g, GResult.Answers g (env.big t g)) (hgap : cfg.gap < 1)
    (r : Except PyErr (Bool × Gap)) (s : St) (h : run env cfg I rounds fuel = .ok (r, s)) :
    (∀ p ∈ s.trace, (∀ y, Feas I y → (obj I y : WithTop ℚ) ≤ p.1)
      ∧ ∀ v : ℚ, p.2 = v → ∃ x, Feas I x ∧ obj I x = v)
    ∧ (∀ g, r = .ok (false, g) → g.le cfg.gap = true → ∃ x, s.xLB = some x ∧ Feas I x
        ∧ ∀ y, Feas I y → obj I y ≤ (1 + cfg.gap) * obj I x)
    ∧ (∀ g, r = .ok (true, g) → Tight env → ∃ x, s.xUB = some x ∧ s.xLB = some x ∧ Feas I x
        ∧ (∀ y, Feas I y → obj I y ≤ obj I x)
        ∧ s.vUB = (obj I x : WithTop ℚ) ∧ s.vLB = (obj I x : WithBot ℚ)) := by
  obtain ⟨hcont, he, hE, hA, hb, -⟩ := parse_ok hI
  have hgrid : OneDecimal I := ⟨hab, fun s _ i _ => ⟨hb s i, fun j _ => hA s i j⟩⟩
  have hC : Contract env I := contract_of_grid hE (by rw [he]; exact heps) htol hgrid hc hm hn hcont
    hsub hcc hlb hacc hbig
  refine ⟨(C50_bounds_bracket_partial hC r s h).1, ?_, ?_⟩
  · rintro g rfl hg
    obtain ⟨x, h1, h2, -, -, h3⟩ := C52_gap_stop_certifies hC hgap g s h hg
    exact ⟨x, h1, h2, h3⟩
  · rintro g rfl ht
    obtain ⟨x, h1, h2, h3, h4, h5, h6, -, h8⟩ := C51_feasible_stop_optimal hC ht g s h
    exact ⟨x, h1, h2, h8 (sharp_of_grid hgrid hcont h6), h5, h3, h4⟩

/-! ## A case in point -/

theorem exPairs_contract : Contract (exactEnv exNorm 1) exPairs := by
  have hE : Equi exPairs := ⟨by decide, fun s _ => by norm_num [exPairs]⟩
  have hI : OneDecimal exPairs := by
    refine ⟨by unfold NonnegAb; decide +kernel, fun s _ i _ => ⟨⟨10, by norm_num [exPairs]⟩,
      fun j _ => ?_⟩⟩
    by_cases h : j = 2 ∨ ((s % 2 = 0) ↔ (j = 0))
    · exact ⟨10, by simp only [exPairs, if_pos h]; norm_num⟩
    · exact ⟨20, by simp only [exPairs, if_neg h]; norm_num⟩
  exact contract_of_grid hE (by decide +kernel) (by decide +kernel) hI
    (by unfold NonnegC; decide +kernel) (by decide) (by decide) rfl
    (fun _ _ g => exactSolver_exact g) (fun _ g => (exactSolver_exact g).answers.valid)
    (fun _ g => (exactSolver_exact g).answers.valid) (fun _ _ g => (exactSolver_exact g).answers)
    (fun _ g => (exactSolver_exact g).answers)

theorem exPairs_strong : Strong (exactEnv exNorm 1) exCfg exPairs 10 where
  cc _ g := (exactSolver_exact g).answers
  lb _ g := (exactSolver_exact g).answers
  lbInf _ g := (exactSolver_exact g).noPoint
  clock := fun a b h => by
    show ((a : ℕ) : ℚ) * 1 ≤ ((b : ℕ) : ℚ) * 1
    simpa using h
  method := .inl ⟨rfl, rfl⟩
  init := .inl rfl
  proj := .inl rfl
  bigM := by rintro ⟨⟩
  rounds := by decide +kernel

/-- The hypotheses of C50, C37 and C55 are met by a run with two splits and merges that ends with
a feasible solution. -/
example : Contract (exactEnv exNorm 1) exPairs ∧ Strong (exactEnv exNorm 1) exCfg exPairs 10
    ∧ exPairs.eps < 1
    ∧ outcome (run (exactEnv exNorm 1) exCfg exPairs 10 10) = some
    { error := none, result := some (true, .fin 1), partition := [[0, 3], [1, 2]], iteration := 3
      reads := 12, steps := [99, 97, 94, 92, 89]
      trace := [(⊤, ⊥), ((2 : ℚ), ⊥), ((2 : ℚ), (1 : ℚ)), ((2 : ℚ), (1 : ℚ)),
        ((1 : ℚ), (1 : ℚ))] } :=
  ⟨exPairs_contract, exPairs_strong, by decide +kernel, by decide +kernel⟩

/-- The same with a solver for C51. -/
noncomputable def exTight : Env := { exactEnv exNorm 1 with cc := fun _ => tightSolver }

example : Contract exTight exPairs ∧ Tight exTight
    ∧ (outcome (run exTight exCfg exPairs 10 10)).map (fun o => (o.error, o.result))
      = some (none, some (true, Gap.fin 1)) := by
  refine ⟨?_, fun _ g ρ h => tightSolver_tight g ρ h, by decide +kernel⟩
  have h := exPairs_contract
  exact ⟨h.equi, h.eps, h.tolOk, h.ab, h.c, h.m, h.n, h.sub, h.sharp,
    fun _ g => tightSolver_valid g, h.lb, h.acc, h.big⟩

/-- The contract does not depend on the objective, as long as it is not negative. -/
theorem exPairs_contract' (c : Vec) (hc : ∀ j < 3, 0 ≤ c j) :
    Contract (exactEnv exNorm 1) { exPairs with c } := by
  have h := exPairs_contract
  have hI : OneDecimal { exPairs with c } := by
    refine ⟨h.ab, fun s _ i _ => ⟨⟨10, by norm_num [exPairs]⟩, fun j _ => ?_⟩⟩
    by_cases h : j = 2 ∨ ((s % 2 = 0) ↔ (j = 0))
    · exact ⟨10, by simp only [exPairs, if_pos h]; norm_num⟩
    · exact ⟨20, by simp only [exPairs, if_neg h]; norm_num⟩
  exact contract_of_grid h.equi h.eps h.tolOk hI hc h.m h.n rfl
    (fun _ _ g => exactSolver_exact g) (fun _ g => (exactSolver_exact g).answers.valid)
    (fun _ g => (exactSolver_exact g).answers.valid) (fun _ _ g => (exactSolver_exact g).answers)
    (fun _ g => (exactSolver_exact g).answers)

/-- A run that stops on the gap criterion, for C52: the bounds are 3 and 2. -/
example : Contract (exactEnv exNorm 1) { exPairs with c := fun j => if j = 2 then 2 else 3 }
    ∧ outcome (run (exactEnv exNorm 1) { exCfg with gap := 1 / 2 }
        { exPairs with c := fun j => if j = 2 then 2 else 3 } 10 10) = some
    { error := none, result := some (false, .fin (1 / 2)), partition := [[0, 2], [1, 3]]
      iteration := 1, reads := 3, steps := [99, 97]
      trace := [(⊤, ⊥), ((3 : ℚ), ⊥), ((3 : ℚ), (2 : ℚ))] } :=
  ⟨exPairs_contract' _ (by decide +kernel), by decide +kernel⟩

/-- A generated file meets the hypotheses of C69, and the run exists. -/
example : ∃ I, parse (generatedRows 3 1 4 (fun _ => 2) (fun s _ j => s + j) fun _ => 1) false (1 / 4)
      = .ok I ∧ TolOk I ∧ NonnegAb I ∧ NonnegC I ∧ 0 < I.m ∧ 0 < I.n
    ∧ ∃ r s, run (exactEnv exNorm 1) exCfg I 10 10 = .ok (r, s) := by
  obtain ⟨I, h, e1, e2, e3, e4, e5, e6, e7, e8, e9⟩ := C04_parse_generated 3 1 4 (by decide)
    (fun _ => 2) (fun s _ j => (s + j : ℚ)) (fun _ => 1) false (1 / 4)
  have htol : TolOk I := by
    have : (⌊(1 / 4 : ℚ) * ((4 : ℕ) : ℚ)⌋₊ : ℚ) = 1 := by norm_num
    unfold TolOk
    rw [e3, e5, this]
    norm_num
  have hab : NonnegAb I := by
    intro s hs i hi
    rw [e3] at hs
    rw [e2] at hi
    refine ⟨?_, fun j hj => ?_⟩
    · rw [e9 s hs i hi]; exact (C05_round1 _).2.2.2.2.1 (by norm_num)
    · rw [e1] at hj
      rw [e8 s hs i hi j hj]; exact (C05_round1 _).2.2.2.2.1 (by positivity)
  have hc : NonnegC I := by
    intro j hj
    rw [e1] at hj
    rw [e7 j hj]; exact (C05_round1 _).2.2.2.2.1 (by norm_num)
  refine ⟨I, h, htol, hab, hc, by omega, by omega, ?_⟩
  obtain ⟨-, -, -, hA, hb, -⟩ := parse_ok h
  have hC : Contract (exactEnv exNorm 1) I := contract_of_grid e6 (by rw [e5]; norm_num) htol
    ⟨hab, fun s _ i _ => ⟨hb s i, fun j _ => hA s i j⟩⟩ hc (by omega) (by omega) e4
    (fun _ _ g => exactSolver_exact g) (fun _ g => (exactSolver_exact g).answers.valid)
    (fun _ g => (exactSolver_exact g).answers.valid) (fun _ _ g => (exactSolver_exact g).answers)
    (fun _ g => (exactSolver_exact g).answers)
  have hk : kmax I = 1 := by
    unfold kmax
    rw [e3, e5]
    norm_num
  have hS : Strong (exactEnv exNorm 1) exCfg I 10 :=
    { cc := exPairs_strong.cc, lb := exPairs_strong.lb, lbInf := exPairs_strong.lbInf
      clock := exPairs_strong.clock, method := exPairs_strong.method, init := exPairs_strong.init
      proj := exPairs_strong.proj, bigM := exPairs_strong.bigM, rounds := by rw [hk]; norm_num }
  obtain ⟨r, s, hr, -⟩ := C55_no_internal_error_partial (fuel := 10) hC hS (by rw [e5]; norm_num)
  exact ⟨r, s, hr⟩

/-- The `ZeroDivisionError` that C55 leaves is raised in a run with exact answers: no item fits
everywhere, so the lower-bound problem has the optimal value 0. -/
theorem C55_zero_division :
    (outcome (run (exactEnv exNorm 1) exCfg { exPairs with n := 2, c := fun _ => 1 } 10 10)).map
      (fun o => o.error) = some (some .zeroDivisionError) := by
  decide +kernel

/-- The random refiner with accurate objective fails in its first split. -/
theorem C55_random_accurate_counterexample :
    (outcome (run (exactEnv exNorm 1) { exCfg with useAccObj := true } exPairs 10 10)).map
      (fun o => o.error) = some (some .attributeError) := by
  decide +kernel

/-! ## Continuous variables and the tolerance -/

/-- One continuous variable; even scenarios `1000000 x ≤ 500001`, odd ones `x ≤ 1/2`. -/
def exFine : Inst :=
  { n := 1, N := 4, m := 1, A := fun s _ _ => if s % 2 = 0 then 1000000 else 1
    b := fun s _ => if s % 2 = 0 then 500001 else 1 / 2
    c := fun _ => 1, proba := fun _ => 1 / 4, eps := 1 / 4, cont := true }

/-- The exact answer to the problem of a subset whose scenarios require `x ≤ q`. -/
def exFineAnswer (q : ℚ) : GResult := ⟨2, some fun v => if v = .x 0 then q else 0, q, q⟩

theorem exFine_exact (l : List ℕ) (q : ℚ) (h0 : 0 ≤ q) (h1 : q ≤ 1) (hl : l ≠ [])
    (hq : ∀ s ∈ l, ∀ x : ℚ, exFine.A s 0 0 * x ≤ exFine.b s 0 ↔ x ≤ q) :
    GResult.Exact (Deter.build (instCI exFine) l).g (exFineAnswer q) := by
  have hfeas : ∀ ρ, (Deter.build (instCI exFine) l).g.Feas ρ ↔ 0 ≤ ρ (.x 0) ∧ ρ (.x 0) ≤ q := by
    intro ρ
    rw [build_feas]
    have hsat : ∀ s, Sat exFine s (fun j => ρ (.x j))
        ↔ exFine.A s 0 0 * ρ (.x 0) ≤ exFine.b s 0 := by
      intro s
      unfold Sat
      constructor
      · intro h
        have := h 0 (by decide)
        simpa [dot, exFine] using this
      · intro h i hi
        have : i = 0 := by
          have : i < 1 := hi
          omega
        subst this
        simpa [dot, exFine] using h
    constructor
    · rintro ⟨hx, hs⟩
      obtain ⟨s, hsl⟩ := List.exists_mem_of_ne_nil _ hl
      exact ⟨(inX_box hx 0 (by decide)).1, (hq s hsl _).1 ((hsat s).1 (hs s hsl))⟩
    · rintro ⟨hx, hs⟩
      refine ⟨fun j hj => ?_, fun s hsl => (hsat s).2 ((hq s hsl _).2 hs)⟩
      have : j = 0 := by
        have : j < 1 := hj
        omega
      subst this
      exact ⟨hx, hs.trans h1⟩
  have hobj : ∀ ρ, (Deter.build (instCI exFine) l).g.obj.eval ρ = ρ (.x 0) := by
    intro ρ
    rw [build_obj]
    simp [obj, dot, exFine]
  have hmax : (Deter.build (instCI exFine) l).g.maximize = true := build_max _ _
  have hself : (Deter.build (instCI exFine) l).g.Feas fun v => if v = .x 0 then q else 0 :=
    (hfeas _).2 ⟨by simpa using h0, by simp⟩
  refine ⟨⟨⟨?_, ?_, ?_, ?_⟩, ?_, ?_⟩, ?_, ?_⟩
  · rintro ρ ⟨⟩
    exact ⟨hself, by rw [hobj]; simp [exFineAnswer]⟩
  · intro _ ρ hρ
    rw [hmax, if_pos rfl, hobj]
    exact ((hfeas ρ).1 hρ).2
  · intro h; cases h
  · intro _; rfl
  · simp [exFineAnswer]
  · intro _ _; rfl
  · intro _; exact ⟨rfl, rfl⟩
  · intro h; exact absurd hself (h _)

/-- An exact solver for all models. -/
noncomputable def exFineSolver : GModel → GResult :=
  tableSolver [((Deter.build (instCI exFine) [0, 2]).g, exFineAnswer (500001 / 1000000)),
    ((Deter.build (instCI exFine) [1, 3]).g, exFineAnswer (1 / 2))]

theorem exFineSolver_exact (g : GModel) : GResult.Exact g (exFineSolver g) := by
  refine tableSolver_exact (fun p hp => ?_) g
  simp only [List.mem_cons, List.not_mem_nil, or_false] at hp
  rcases hp with rfl | rfl
  · refine exFine_exact _ _ (by norm_num) (by norm_num) (by simp) fun s hs x => ?_
    simp only [List.mem_cons, List.not_mem_nil, or_false] at hs
    rcases hs with rfl | rfl <;> simp only [exFine] <;> norm_num <;>
      constructor <;> intro h <;> linarith
  · refine exFine_exact _ _ (by norm_num) (by norm_num) (by simp) fun s hs x => ?_
    simp only [List.mem_cons, List.not_mem_nil, or_false] at hs
    rcases hs with rfl | rfl <;> simp only [exFine] <;> norm_num

/-- **C50 fails with continuous variables**, also with a solver that is exact on all models: at the
start of the first iteration `vLB = 0.500001`, but every feasible point has a smaller objective.
The solution of the even scenarios violates the two odd ones by exactly the tolerance, and is
taken for feasible. -/
theorem C50_counterexample : ∃ env : Env, (∀ t k g, GResult.Exact g (env.sub t k g))
    ∧ (∀ t g, GResult.Exact g (env.cc t g)) ∧ (∀ t g, GResult.Exact g (env.lb t g))
    ∧ Equi exFine ∧ TolOk exFine ∧ NonnegAb exFine ∧ NonnegC exFine
    ∧ ∃ r s, run env exCfg exFine 10 0 = .ok (r, s)
      ∧ s.vLB = ((500001 / 1000000 : ℚ) : WithBot ℚ)
      ∧ ∀ y, Feas exFine y → obj exFine y < 500001 / 1000000 := by
  have hE : Equi exFine := ⟨by decide, fun s _ => by norm_num [exFine]⟩
  refine ⟨{ exactEnv exNorm 1 with sub := fun _ _ => exFineSolver },
    fun _ _ g => exFineSolver_exact g, fun _ g => exactSolver_exact g,
    fun _ g => exactSolver_exact g, hE, by decide +kernel, by unfold NonnegAb; decide +kernel,
    by unfold NonnegC; decide +kernel, ?_⟩
  have hrun : (outcome (run { exactEnv exNorm 1 with sub := fun _ _ => exFineSolver } exCfg exFine
      10 0)).map (fun o => o.trace) = some [(⊤, ⊥), (⊤, ((500001 / 1000000 : ℚ) : WithBot ℚ))] := by
    decide +kernel
  cases hr : run { exactEnv exNorm 1 with sub := fun _ _ => exFineSolver } exCfg exFine 10 0 with
  | error e => rw [hr] at hrun; cases hrun
  | ok p =>
    obtain ⟨r, s⟩ := p
    rw [hr] at hrun
    have htr : s.trace = [(⊤, ⊥), (⊤, ((500001 / 1000000 : ℚ) : WithBot ℚ))] :=
      Option.some.inj hrun
    obtain ⟨-, l, h1, h2⟩ := C66_bounds_monotone _ _ _ _ _ _ _ hr
    refine ⟨r, s, rfl, ?_, fun y hy => ?_⟩
    · rw [htr] at h1
      simp only [List.getLast?_cons_cons, List.getLast?_singleton, Option.some.injEq,
        Prod.mk.injEq] at h1
      rcases h2 with h2 | ⟨g, h2⟩
      · rw [← h2, ← h1.2]
      · exfalso
        have h3 : (outcome (run { exactEnv exNorm 1 with sub := fun _ _ => exFineSolver } exCfg
          exFine 10 0)).map (fun o => o.error) = some (some .fuel) := by decide +kernel
        rw [hr, h2] at h3
        cases h3
    · -- one of the odd scenarios is satisfied
      have hk : kmax exFine = 1 := by decide +kernel
      have h1 := (chance_iff_card exFine hE (by decide +kernel) y).1 hy.2
      rw [hk] at h1
      have : Sat exFine 1 y ∨ Sat exFine 3 y := by
        by_contra hno
        push Not at hno
        have : ({1, 3} : Finset ℕ) ⊆ viol exFine y := by
          intro t ht
          simp only [Finset.mem_insert, Finset.mem_singleton] at ht
          unfold viol
          rw [Finset.mem_filter, Finset.mem_range]
          rcases ht with rfl | rfl
          · exact ⟨by decide, hno.1⟩
          · exact ⟨by decide, hno.2⟩
        have := Finset.card_le_card this
        rw [Finset.card_pair (by decide)] at this
        omega
      have hy0 : y 0 ≤ 1 / 2 := by
        rcases this with h | h <;>
        · have := h 0 (by decide)
          simpa [dot, exFine] using this
      have : obj exFine y = y 0 := by simp [obj, dot, exFine]
      rw [this]
      norm_num
      linarith

end Verif.Props
