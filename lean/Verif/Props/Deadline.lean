import Verif.Lemmas.TimeError
import Verif.Props.Certificates
import Verif.Props.Milp

/-!
# C77: running out of time
-/

namespace Verif.Props
open Spec Model Finset

variable {env : Env} {cfg : Cfg} {I : Inst} {rounds fuel : ℕ}

/-- **C77 (what holds, adaptive solver).**  With a clock that does not go back, for every instance,
configuration and solver: Gurobi refuses the time limit only if the limit has passed.  Missing from
the full claim: that `solve` returns in this case, which is false (`C77_counterexample`). -/
theorem C77_deadline_partial (hclock : Monotone env.clock) (s : St)
    (h : run env cfg I rounds fuel = .ok (.error (.gurobiErrorAt "Solver.py:113"), s)) :
    cfg.timeLimit ≤ env.clock s.reads - env.clock 0 := by
  obtain ⟨s0, -, hs⟩ := run_inv h
  have := wp_error (er_solve hclock fuel s0) hs rfl
  exact sub_nonpos.1 ((le_max_left _ _).trans_eq this)

theorem nf_milpBigMOpt (useBigM : Bool) (method : String) :
    NF TimeErr (milpBigMOpt env I useBigM method) := by
  have hmap : ∀ m : PyM (List (List ℚ)), NF TimeErr m → NF TimeErr (m.map some) := by
    intro m hm
    cases m with
    | ok a => exact nf_ok _
    | error e => exact ⟨fun e' h => hm.no _ (by cases h; rfl)⟩
  unfold milpBigMOpt
  split
  · refine hmap _ ?_
    unfold milpBigM
    split
    · refine nf_bind ?_ fun c => ?_
      · unfold allScenarioCosts scenarioCosts
        refine nf_mapM (fun _ => ?_) _
        exact nf_bind (nf_subsetCost _ _) fun _ => nf_pure _
      · split
        · next v _ =>
          exact nf_updateBigM env.argsort env.srt (env.big 0) (instCI I) false I.N (some v) "belotti"
            none none
        · exact nf_err (by nsp)
    · split
      · exact nf_updateBigM env.argsort env.srt (env.big 0) (instCI I) false I.N none "song"
          (some I) none
      · split
        · exact nf_ok _
        · exact nf_err (by nsp)
  · exact nf_ok _

/-- **C77 (what holds, extended formulation).**  The same: within the limit at the fifth reading
of the clock, Gurobi accepts its time limit, whatever the instance, the method and the solver.
Missing from the full claim: `C77_milp_counterexample`, `C77_milp_no_point`. -/
theorem C77_milp_deadline_partial (hclock : Monotone env.clock) (limit gap : ℚ) (useBigM : Bool)
    (method : String) (hin : env.clock 5 - env.clock 0 ≤ limit) :
    milpSolve env I limit gap useBigM method ≠ .error (.gurobiErrorAt "Solver.py:113") := by
  intro h
  unfold milpSolve at h
  cases h1 : milpBigMOpt env I useBigM method with
  | error e =>
    rw [h1] at h
    cases h
    exact (nf_milpBigMOpt useBigM method).no _ h1 rfl
  | ok bigM =>
    rw [h1] at h
    simp only [bind, Except.bind] at h
    cases h2 : milpCall env I limit gap useBigM bigM with
    | ok out => rw [h2] at h; cases h
    | error e =>
      rw [h2] at h
      cases h
      exact absurd (cclp_timeErr h2 rfl) (not_lt.2 (milp_inTime hclock hin useBigM))

/-- **C77** fails for the adaptive solver: every answer exact, a clock that advances by one second
per reading, a limit of 7.5 seconds.  In its second iteration the run has bounds 2 and 1; the
model of the partitioned problem is ready after the deadline, and Gurobi refuses the negative
limit: the exception leaves `solve`, neither bounds nor row are written. -/
theorem C77_counterexample :
    Contract (exactEnv exNorm 1) exPairs
    ∧ Strong (exactEnv exNorm 1) { exCfg with timeLimit := 15 / 2, useMerger := false } exPairs 10
    ∧ outcome (run (exactEnv exNorm 1) { exCfg with timeLimit := 15 / 2, useMerger := false }
        exPairs 10 10) = some
      { error := some (.gurobiErrorAt "Solver.py:113"), result := none
        partition := [[0, 2], [1], [3]], iteration := 2, reads := 9, steps := [13 / 2, 9 / 2, 3 / 2]
        trace := [(⊤, ⊥), ((2 : ℚ), ⊥), ((2 : ℚ), (1 : ℚ))] } := by
  refine ⟨exPairs_contract, ?_, by decide +kernel⟩
  obtain ⟨a, b, c, d, e, f, g, h, i⟩ := exPairs_strong
  exact ⟨a, b, c, d, e, f, g, h, i⟩

/-- **C77** fails for the extended formulation on every instance: if the limit has passed when the
naive big-Ms are ready and building the model takes any time, `solve` raises. -/
theorem C77_milp_counterexample (env : Env) (I : Inst) (limit gap : ℚ)
    (hlate : limit ≤ env.clock 2 - env.clock 0) (hbuild : env.clock 4 < env.clock 5) :
    milpSolve env I limit gap true "naive" = .error (.gurobiErrorAt "Solver.py:113") := by
  have hb : milpBigMOpt env I true "naive" = .ok (some (naiveAll (instCI I) I.N)) := rfl
  unfold milpSolve
  rw [hb]
  simp only [bind, Except.bind]
  unfold milpCall solveCclp
  obtain ⟨g, hg, -⟩ := buildCCLP_ok (instCI I) (some (naiveAll (instCI I) I.N))
    (by rintro _ ⟨⟩; exact naive_shape (instCI I)) [] [] gap (by simp) (by simp)
  rw [hg]
  simp only [bind, Except.bind]
  have h0 : remaining env.clock limit (milpReads true + 1) = 0 := max_eq_right (by
    show limit - (env.clock 2 - env.clock 0) ≤ 0
    linarith)
  rw [h0, setTimeLimit, if_neg (by
    show ¬ (0 ≤ 0 - (env.clock 5 - env.clock 4))
    linarith)]

/-- **C77** fails as well if Gurobi reaches its time limit before it has found a point: the
answer is valid, and `solve` raises instead of reporting no solution.  (Indicator constraints; for
every instance on which the model can be built.) -/
theorem C77_milp_no_point (env : Env) (I : Inst) (limit gap : ℚ) (hclock : Monotone env.clock)
    (hin : env.clock 5 - env.clock 0 ≤ limit)
    (hsol : ∀ g, (env.cc 0 g).sol = none ∧ (env.cc 0 g).status = 9) :
    milpSolve env I limit gap false "" = .error .attributeError := by
  have hb : milpBigMOpt env I false "" = .ok none := rfl
  have h0 := milp_inTime hclock hin false
  unfold milpSolve
  rw [hb]
  simp only [bind, Except.bind]
  unfold milpCall solveCclp
  obtain ⟨g, hg, -⟩ := buildCCLP_ok (instCI I) none (by rintro _ ⟨⟩) [] [] gap (by simp) (by simp)
  rw [hg]
  simp only [bind, Except.bind]
  rw [setTimeLimit, if_pos (by linarith)]
  simp only [optimize, (hsol g).2, if_neg (show ¬ (9 = 11) by decide), getSol, (hsol g).1]

/-- The hypotheses of the theorems on the extended formulation, with the limits 1, 5 and 5; with
the limit 5 and an exact solver `solve` returns. -/
example : Monotone (exactEnv exNorm 1).clock
    ∧ 1 ≤ (exactEnv exNorm 1).clock 2 - (exactEnv exNorm 1).clock 0
    ∧ (exactEnv exNorm 1).clock 4 < (exactEnv exNorm 1).clock 5
    ∧ (exactEnv exNorm 1).clock 5 - (exactEnv exNorm 1).clock 0 ≤ 5
    ∧ (milpSolve (exactEnv exNorm 1) exMilp 5 (1 / 10 ^ 4) true "naive").map (fun r => (r.vUB, r.vLB))
      = .ok (3, 3)
    ∧ (milpSolve (exactEnv exNorm 1) exMilp 1 (1 / 10 ^ 4) true "naive").map (fun r => (r.vUB, r.vLB))
      = .error (.gurobiErrorAt "Solver.py:113") :=
  ⟨exPairs_strong.clock, by decide +kernel, by decide +kernel, by decide +kernel,
    by decide +kernel, by decide +kernel⟩

/-- An answer without a point is valid: Gurobi reached its limit (status 9). -/
example (g : GModel) (b : ℚ) (hb : g.Bounded → ∀ ρ, g.Feas ρ →
    if g.maximize then g.obj.eval ρ ≤ b else b ≤ g.obj.eval ρ) :
    GResult.Valid g ⟨9, none, 0, b⟩ :=
  ⟨by rintro ρ ⟨⟩, hb, by rintro ⟨⟩, by rintro ⟨⟩⟩

end Verif.Props
