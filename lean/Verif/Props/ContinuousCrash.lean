import Verif.Props.Certificates
import Verif.Lemmas.GridSolver

/-!
# C50, C55: an instance file with continuous variables on which the adaptive method fails

All numbers of the file have at most one decimal, the solver is exact on every model.  Scenarios
0 to 5 require `x 0 ≤ 2q, p, p, q, q/2, 2q` with `q = 1/100001` and `p = 10/1000011`, and
`x 1 ≤ 1/2, 1, 1/2, 3/4, 1, 1/16`.  The point `(q, 1/2)` violates scenarios 1 and 2 by less than
the tolerance 1e-6, so it passes `is_feasible`, but its objective exceeds the optimum by more than
the 1e-3 that the pruning of subsets leaves.
-/

namespace Verif.Props
open Spec Model Finset

/-- The file: sizes, objective, the two rows of each scenario, right-hand side. -/
def exCrashFile : List (List ℚ) :=
  [[2, 2, 6], [200000000, 6000],
    [100001 / 2, 0], [0, 6],
    [1000011 / 10, 0], [0, 3],
    [1000011 / 10, 0], [0, 6],
    [100001, 0], [0, 4],
    [200002, 0], [0, 3],
    [100001 / 2, 0], [0, 48],
    [1, 3]]

/-- The instance read from the file with `continuous_var=True, epsilon=0.4`. -/
def exCrash : Inst :=
  { n := 2, N := 6, m := 2
    A := fun s i j => round1 (rowVec (([[[100001 / 2, 0], [0, 6]], [[1000011 / 10, 0], [0, 3]],
      [[1000011 / 10, 0], [0, 6]], [[100001, 0], [0, 4]], [[200002, 0], [0, 3]],
      [[100001 / 2, 0], [0, 48]]].getD s []).getD i []) j)
    b := fun _ i => round1 (rowVec [1, 3] i)
    c := fun j => round1 (rowVec [200000000, 6000] j)
    proba := fun _ => 1 / ((6 : ℕ) : ℚ)
    eps := 2 / 5
    cont := true }

theorem exCrash_parsed : parse exCrashFile true (2 / 5) = .ok exCrash := by
  rfl

/-- The values that the rows allow. -/
def exCrashGrid : List ℚ :=
  [0, 1 / 200002, 10 / 1000011, 1 / 100001, 2 / 100001, 1 / 16, 1 / 2, 3 / 4, 1]

/-- The random refiner with merging, the rescaled projection and the gap of the experiments. -/
def exCrashCfg : Cfg :=
  { splitMethod := "random", initType := "random", projection := "rescaled_max_violation"
    useAccObj := false, useBigM := false, bigMMethod := "", useMerger := true
    timeLimit := 3600, gap := 1 / 10 ^ 4 }

theorem exCrash_one : (1 : ℚ) ∈ exCrashGrid := by decide +kernel

theorem exCrash_nonneg : NonnegAb exCrash ∧ NonnegC exCrash := by
  unfold NonnegAb NonnegC
  decide +kernel

/-- How the run ends: the exception, the partition, the iteration, the lower bound. -/
theorem exCrash_run : (match run (gridEnv exNorm 1 exCrashGrid) exCrashCfg exCrash 10 10 with
      | .ok (.error e, s) => some (e, s.partition, s.iteration, s.vLB)
      | _ => none)
    = some (.attributeError, [[0, 1], [2], [3, 4], [5]], 4,
      ((500003000 / 100001 : ℚ) : WithBot ℚ)) := by
  decide +kernel

/-- A feasible point satisfies one of any three scenarios. -/
theorem exCrash_three {y : Vec} (hy : Feas exCrash y) (a b c : ℕ) (ha : a < 6) (hb : b < 6)
    (hc : c < 6) (hab : a ≠ b) (hac : a ≠ c) (hbc : b ≠ c) :
    Sat exCrash a y ∨ Sat exCrash b y ∨ Sat exCrash c y := by
  have hE : Equi exCrash := ⟨by decide, fun s _ => by norm_num [exCrash]⟩
  have hk : kmax exCrash = 2 := by decide +kernel
  have h1 := (chance_iff_card exCrash hE (by decide +kernel) y).1 hy.2
  rw [hk] at h1
  by_contra hno
  push Not at hno
  have : ({a, b, c} : Finset ℕ) ⊆ viol exCrash y := by
    intro t ht
    simp only [Finset.mem_insert, Finset.mem_singleton] at ht
    unfold viol
    rw [Finset.mem_filter, Finset.mem_range]
    rcases ht with rfl | rfl | rfl
    · exact ⟨ha, hno.1⟩
    · exact ⟨hb, hno.2.1⟩
    · exact ⟨hc, hno.2.2⟩
  have := Finset.card_le_card this
  rw [Finset.card_eq_three.2 ⟨a, b, c, hab, hac, hbc, rfl⟩] at this
  omega

theorem exCrash_row0 {s : ℕ} {y : Vec} (h : Sat exCrash s y) :
    exCrash.A s 0 0 * y 0 + exCrash.A s 0 1 * y 1 ≤ exCrash.b s 0 := by
  have := h 0 (by decide)
  simpa [dot, exCrash, Finset.sum_range_succ] using this

theorem exCrash_row1 {s : ℕ} {y : Vec} (h : Sat exCrash s y) :
    exCrash.A s 1 0 * y 0 + exCrash.A s 1 1 * y 1 ≤ exCrash.b s 1 := by
  have := h 1 (by decide)
  simpa [dot, exCrash, Finset.sum_range_succ] using this

/-- Every feasible point has an objective below the lower bound of the run. -/
theorem exCrash_bound {y : Vec} (hy : Feas exCrash y) : obj exCrash y < 500003000 / 100001 := by
  have h0 : y 0 ≤ 10 / 1000011 := by
    rcases exCrash_three hy 1 2 4 (by decide) (by decide) (by decide) (by decide) (by decide)
      (by decide) with h | h | h
    all_goals have := exCrash_row0 h
    · rw [show exCrash.A 1 0 0 = 1000011 / 10 by decide +kernel,
        show exCrash.A 1 0 1 = 0 by decide +kernel,
        show exCrash.b 1 0 = 1 by decide +kernel] at this
      linarith
    · rw [show exCrash.A 2 0 0 = 1000011 / 10 by decide +kernel,
        show exCrash.A 2 0 1 = 0 by decide +kernel,
        show exCrash.b 2 0 = 1 by decide +kernel] at this
      linarith
    · rw [show exCrash.A 4 0 0 = 200002 by decide +kernel,
        show exCrash.A 4 0 1 = 0 by decide +kernel,
        show exCrash.b 4 0 = 1 by decide +kernel] at this
      linarith
  have h1 : y 1 ≤ 1 / 2 := by
    rcases exCrash_three hy 0 2 5 (by decide) (by decide) (by decide) (by decide) (by decide)
      (by decide) with h | h | h
    all_goals have := exCrash_row1 h
    · rw [show exCrash.A 0 1 1 = 6 by decide +kernel,
        show exCrash.A 0 1 0 = 0 by decide +kernel,
        show exCrash.b 0 1 = 3 by decide +kernel] at this
      linarith
    · rw [show exCrash.A 2 1 1 = 6 by decide +kernel,
        show exCrash.A 2 1 0 = 0 by decide +kernel,
        show exCrash.b 2 1 = 3 by decide +kernel] at this
      linarith
    · rw [show exCrash.A 5 1 1 = 48 by decide +kernel,
        show exCrash.A 5 1 0 = 0 by decide +kernel,
        show exCrash.b 5 1 = 3 by decide +kernel] at this
      linarith
  have ho : obj exCrash y = exCrash.c 0 * y 0 + exCrash.c 1 * y 1 := by
    simp [obj, dot, Finset.sum_range_succ, show exCrash.n = 2 from rfl]
  rw [ho, show exCrash.c 0 = 200000000 by decide +kernel,
    show exCrash.c 1 = 6000 by decide +kernel]
  norm_num
  linarith

/-- **C50 and C55 fail with continuous variables.**  On an instance read from a file whose numbers
have at most one decimal, with exact answers to all problems, the run ends in its fourth iteration
with the `AttributeError` of reading a solution that does not exist: three of the four subsets are
pruned, since their costs are below a lower bound that no feasible point reaches, and the
partitioned problem allows only two. -/
theorem C55_continuous_counterexample : ∃ (file : List (List ℚ)) (I : Inst) (env : Env),
    parse file true (2 / 5) = .ok I
    ∧ (∀ t k g, GResult.Exact g (env.sub t k g)) ∧ (∀ t g, GResult.Exact g (env.cc t g))
    ∧ (∀ t g, GResult.Exact g (env.lb t g)) ∧ NonnegAb I ∧ NonnegC I
    ∧ ∃ s, run env exCrashCfg I 10 10 = .ok (.error .attributeError, s) ∧ s.iteration = 4
      ∧ s.partition = [[0, 1], [2], [3, 4], [5]]
      ∧ s.vLB = ((500003000 / 100001 : ℚ) : WithBot ℚ)
      ∧ ∀ y, Feas I y → obj I y < 500003000 / 100001 := by
  refine ⟨exCrashFile, exCrash, gridEnv exNorm 1 exCrashGrid, exCrash_parsed,
    fun _ _ g => gridSolver_exact exCrash_one g, fun _ g => gridSolver_exact exCrash_one g,
    fun _ g => gridSolver_exact exCrash_one g, exCrash_nonneg.1, exCrash_nonneg.2, ?_⟩
  have hp := exCrash_run
  cases hq : run (gridEnv exNorm 1 exCrashGrid) exCrashCfg exCrash 10 10 with
  | error e => rw [hq] at hp; cases hp
  | ok p =>
    obtain ⟨r, s⟩ := p
    rw [hq] at hp
    cases r with
    | ok r => cases hp
    | error e =>
      have hp := Option.some.inj hp
      rw [Prod.mk.injEq, Prod.mk.injEq, Prod.mk.injEq] at hp
      obtain ⟨h1, h2, h3, h4⟩ := hp
      subst h1
      exact ⟨s, rfl, h3, h2, h4, fun y hy => exCrash_bound hy⟩

end Verif.Props
