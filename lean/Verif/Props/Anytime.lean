import Verif.Lemmas.Twin
import Verif.Props.Trajectory
import Verif.Lemmas.ExactSolver

/-!
# C83: the time limit only cuts a run off
-/

namespace Verif.Props
open Spec Model Finset SM

theorem construct_limit (env : Env) (cfg : Cfg) (I : Inst) (L : ℚ) :
    construct env (cfg.withLimit L) I
      = (construct env cfg I).map fun s => { s with lastRem := L } := by
  have h1 : initRefiner (cfg.withLimit L) = initRefiner cfg := rfl
  have h2 : initCosts env (cfg.withLimit L) I = initCosts env cfg I := rfl
  have h3 : (cfg.withLimit L).initType = cfg.initType := rfl
  unfold construct
  rw [h1, h2, h3]
  cases initRefiner cfg with
  | error e => rfl
  | ok _ =>
    cases initCosts env cfg I with
    | error e => rfl
    | ok scen =>
      simp only [bind, Except.bind]
      cases createFirstPartition (env.shuffle 0 0) env.argsort scen I.N (minSize I) cfg.initType with
      | error e => rfl
      | ok P =>
        simp only
        cases loadPartition I (minSize I) P <;> rfl

theorem run_map (env : Env) (cfg : Cfg) (I : Inst) (rounds fuel : ℕ) :
    run env cfg I rounds fuel = (construct env cfg I).map (solve env cfg I rounds fuel) := by
  unfold run
  generalize construct env cfg I = p
  cases p <;> rfl

theorem map_pair {α β ε : Type} (p : Except ε α) (q : α → α) (f g : α → β)
    (R : β → β → Prop) (h : ∀ a, R (f a) (g (q a))) :
    (∀ e, p.map f = .error e ↔ (p.map q).map g = .error e)
    ∧ ∀ o, p.map f = .ok o → ∃ o', (p.map q).map g = .ok o' ∧ R o o' := by
  cases p with
  | error e => exact ⟨fun _ => Iff.rfl, fun o h => by cases h⟩
  | ok a =>
    refine ⟨fun e => ⟨fun h => (by cases h), fun h => (by cases h)⟩, fun o ho => ?_⟩
    cases ho
    exact ⟨_, rfl, h a⟩

theorem par_run (env : Env) (cfg : Cfg) (I : Inst) (rounds fuel : ℕ) (L : ℚ)
    (hclock : Monotone env.clock) (hL : cfg.timeLimit ≤ L) :
    (∀ e, run env cfg I rounds fuel = .error e ↔ run env (cfg.withLimit L) I rounds fuel = .error e)
    ∧ ∀ o, run env cfg I rounds fuel = .ok o →
      ∃ o', run env (cfg.withLimit L) I rounds fuel = .ok o' ∧ Par env cfg (· = ·) LateLoop o o' := by
  rw [run_map, run_map, construct_limit]
  exact map_pair (construct env cfg I) (fun s => { s with lastRem := L })
    (solve env cfg I rounds fuel) (solve env (cfg.withLimit L) I rounds fuel) _
    fun s => par_solve hclock hL rounds fuel ⟨L, s.steps, rfl⟩

/-- **C83.** Take a run and a run on the same instance with a larger time limit that sees the same
clock, the same random choices and the same answers of Gurobi.  Construction succeeds for both or
for none.  Either both runs end in the same way and in the same state (up to the remaining times
that were read), or the time limit of the first one has passed: then it ended without a feasible
solution or with Gurobi's error about a negative limit, and the second run has passed through the
same bounds, rows of the log included, before it went on. -/
theorem C83_anytime (env : Env) (cfg : Cfg) (I : Inst) (rounds fuel : ℕ) (L : ℚ)
    (hclock : Monotone env.clock) (hL : cfg.timeLimit ≤ L) :
    (∀ e, run env cfg I rounds fuel = .error e
      ↔ run env { cfg with timeLimit := L } I rounds fuel = .error e)
    ∧ ∀ r s, run env cfg I rounds fuel = .ok (r, s) →
      ∃ r' s', run env { cfg with timeLimit := L } I rounds fuel = .ok (r', s')
        ∧ ((r' = r ∧ ∃ a l, s' = { s with lastRem := a, steps := l })
          ∨ (cfg.timeLimit ≤ env.clock s.reads - env.clock 0
            ∧ (r = .error (.gurobiErrorAt "Solver.py:113") ∨ ∃ g, r = .ok (false, g))
            ∧ s.trace <+: s'.trace ∧ s.info <+: s'.info)) := by
  have e : { cfg with timeLimit := L } = cfg.withLimit L := rfl
  rw [e]
  obtain ⟨h1, h2⟩ := par_run env cfg I rounds fuel L hclock hL
  refine ⟨h1, fun r s h => ?_⟩
  obtain ⟨⟨r', s'⟩, h3, h4⟩ := h2 _ h
  refine ⟨r', s', h3, ?_⟩
  rcases h4 with ⟨k1, a, b, k2⟩ | ⟨k1, k2, k3⟩
  · exact .inl ⟨k1.symm, a, b, k2⟩
  · exact .inr ⟨k2, k1, k3⟩

theorem chain_last {l l' : List (WithTop ℚ × WithBot ℚ)} (h : l'.IsChain BoundStep)
    (hp : l <+: l') {p q : WithTop ℚ × WithBot ℚ} (h1 : l.getLast? = some p)
    (h2 : l'.getLast? = some q) : p.2 ≤ q.2 := by
  obtain ⟨m, rfl⟩ := hp
  induction m using List.reverseRecOn generalizing q with
  | nil =>
    rw [List.append_nil, h1] at h2
    cases h2
    exact le_rfl
  | append_singleton m a ih =>
    rw [← List.append_assoc, List.getLast?_concat] at h2
    cases h2
    rw [← List.append_assoc] at h
    obtain ⟨h3, -, h4⟩ := List.isChain_append.1 h
    cases hm : (l ++ m).getLast? with
    | none =>
      rw [List.getLast?_eq_none_iff, List.append_eq_nil_iff] at hm
      rw [hm.1] at h1
      cases h1
    | some w => exact (ih h3 hm).trans (h4 w hm a (by simp)).1

/-- **C83, consequence.** If the first run ends in time out, the lower bound of the second one is
at least as good when its main loop ends. -/
theorem C83_more_time_no_worse (env : Env) (cfg : Cfg) (I : Inst) (rounds fuel : ℕ) (L : ℚ)
    (hclock : Monotone env.clock) (hL : cfg.timeLimit ≤ L) (g : Gap) (s : St)
    (r' : Except PyErr (Bool × Gap)) (s' : St)
    (h : run env cfg I rounds fuel = .ok (.ok (false, g), s))
    (h' : run env { cfg with timeLimit := L } I rounds fuel = .ok (r', s')) :
    ∃ l, s'.trace.getLast? = some (s'.vUB, l) ∧ s.vLB ≤ l := by
  obtain ⟨-, h2⟩ := C83_anytime env cfg I rounds fuel L hclock hL
  obtain ⟨r2, s2, h3, h4⟩ := h2 _ _ h
  rw [h'] at h3
  cases h3
  obtain ⟨-, l, k1, k2⟩ := C66_bounds_monotone _ _ _ _ _ _ _ h
  obtain ⟨c1, l', k3, -⟩ := C66_bounds_monotone _ _ _ _ _ _ _ h'
  have hl : l = s.vLB := by
    rcases k2 with k2 | ⟨g', k2⟩
    · exact k2
    · cases k2
  subst hl
  refine ⟨l', k3, ?_⟩
  have hp : s.trace <+: s'.trace := by
    rcases h4 with ⟨-, a, b, rfl⟩ | ⟨-, -, h5, -⟩
    · exact List.prefix_rfl
    · exact h5
  exact chain_last c1 hp k1 k3

/-- With 6 seconds the example is cut off, with 100 seconds it ends with a feasible solution. -/
example : (outcome (run (exactEnv exNorm 1) { exCfg with timeLimit := 6 } exPairs 10 10)).map
      (fun o => o.result) = some (some (false, .fin 1))
    ∧ (outcome (run (exactEnv exNorm 1) exCfg exPairs 10 10)).map (fun o => o.result)
      = some (some (true, .fin 1)) := by
  constructor <;> decide +kernel

example : Monotone (exactEnv exNorm 1).clock := fun a b h => by
  show (a : ℚ) * 1 ≤ (b : ℚ) * 1
  have : (a : ℚ) ≤ b := by exact_mod_cast h
  linarith

end Verif.Props
