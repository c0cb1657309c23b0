import Verif.Lemmas.Loop
import Verif.Props.Bounding

/-!
# C36, C53: the costs stay aligned with the partition; termination without merging
-/

namespace Verif.Props
open Spec Model

/-! ## Alignment -/

/-- The number of iterations of a run that used up its `fuel` is `fuel`: the state it leaves is
the one at the start of the next iteration.  So the states of `run … fuel` for all values of
`fuel` are the states at the start of every iteration and the final ones. -/
def BetweenIterations (r : Except PyErr (Bool × Gap)) : Prop := ∀ e, r = .error e → e = .fuel

/-- **C36.** In every run, with any answers of the solver, at the start of every iteration and at
the end: the partition is a partition of the scenarios into `nbSubsets` non-empty subsets, the
partitioned instance is the one of this partition, and there is exactly one cost and one solution
per subset, both being the answer to the deterministic problem of this very subset. -/
theorem C36_costs_aligned (env : Env) (cfg : Cfg) (I : Inst) (rounds fuel : ℕ)
    (r : Except PyErr (Bool × Gap)) (s : St) (h : run env cfg I rounds fuel = .ok (r, s))
    (hr : BetweenIterations r) :
    IsPartition I.N s.partition ∧ s.nbSubsets = s.partition.length
    ∧ loadPartition I s.partition.length s.partition = .ok s.part
    ∧ s.costs.length = s.partition.length ∧ s.sols.length = s.partition.length
    ∧ ∀ c < s.partition.length, ∃ t k, subsetCost I (env.sub t k) (s.partition.getD c [])
        = .ok (s.costs.getD c 0, s.sols.getD c fun _ => 0) := by
  obtain ⟨hs, -⟩ := run_shape h hr
  exact ⟨hs.part, hs.nb, hs.load, hs.aligned.lenC, hs.aligned.lenS, hs.aligned.comp⟩

/-- **C36, with exact answers**: the `c`-th cost is the optimal value of the deterministic problem
of the `c`-th subset and the `c`-th solution attains it. -/
theorem C36_costs_optimal (env : Env) (cfg : Cfg) (I : Inst)
    (hsub : ∀ t k g, GResult.Exact g (env.sub t k g)) (rounds fuel : ℕ)
    (r : Except PyErr (Bool × Gap)) (s : St) (h : run env cfg I rounds fuel = .ok (r, s))
    (hr : BetweenIterations r) :
    s.costs.length = s.partition.length ∧ s.sols.length = s.partition.length
    ∧ ∀ c < s.partition.length,
        DetOpt I (s.partition.getD c []) (s.costs.getD c 0) (s.sols.getD c fun _ => 0) := by
  obtain ⟨-, -, -, h1, h2, h3⟩ := C36_costs_aligned env cfg I rounds fuel r s h hr
  refine ⟨h1, h2, fun c hc => ?_⟩
  obtain ⟨t, k, h4⟩ := h3 c hc
  exact (subsetCost_spec (I := I) (hsub t k _)).1 _ _ h4

/-- The end of a run: how, partition, costs. -/
def costsAt : PyM (Except PyErr (Bool × Gap) × St) → Option (Option PyErr × List (List ℕ) × List ℚ)
  | .error _ => none
  | .ok (.ok _, s) => some (none, s.partition, s.costs)
  | .ok (.error e, s) => some (some e, s.partition, s.costs)

/-- The run of the example reaches its second and third iteration with other partitions: a split
and a merge happen in each of the first two. -/
example : costsAt (run (bruteEnv exNorm 1) exCfg exPairs 10 0)
      = some (some .fuel, [[0, 2], [1, 3]], [2, 2])
    ∧ costsAt (run (bruteEnv exNorm 1) exCfg exPairs 10 1)
      = some (some .fuel, [[0, 2, 3], [1]], [1, 2])
    ∧ costsAt (run (bruteEnv exNorm 1) exCfg exPairs 10 2)
      = some (some .fuel, [[0, 3], [1, 2]], [1, 1])
    ∧ costsAt (run (bruteEnv exNorm 1) exCfg exPairs 10 3)
      = some (none, [[0, 3], [1, 2]], [1, 1]) := by
  refine ⟨?_, ?_, ?_, ?_⟩ <;> decide +kernel

/-! ## Termination without merging -/

/-- **C53.** Without merging, for all answers of the solver and all random choices, and for every
clock: `N - floor(epsilon * N)` iterations of the main loop and `floor(epsilon * N) + 1` rounds of
every refinement always suffice (no run is cut off by these bounds), and the counter
`iteration` of a finished run does not exceed the first number. -/
theorem C53_terminates_without_merging (env : Env) (cfg : Cfg) (I : Inst) (heps : 0 ≤ I.eps)
    (hm : cfg.useMerger = false) (rounds fuel : ℕ) (hrounds : kmax I + 1 ≤ rounds)
    (hfuel : I.N - kmax I ≤ fuel) (r : Except PyErr (Bool × Gap)) (s : St)
    (h : run env cfg I rounds fuel = .ok (r, s)) :
    r ≠ .error .fuel ∧ ((∃ q, r = .ok q) → s.iteration ≤ I.N - kmax I) := by
  have hk := minSize_eq heps (I := I)
  have hN : minSize I ≤ I.N := by
    obtain ⟨s0, hc, -⟩ := run_inv h
    obtain ⟨p1, -, p3, -⟩ := construct_part hc
    rw [← p3]; exact partition_length_le p1
  constructor
  · rintro rfl
    exact (run_shape h (fun e he => (Except.error.inj he).symm)).2.1 rfl
      ⟨heps, by omega, hm, by omega⟩
  · rintro ⟨q, rfl⟩
    obtain ⟨h1, -, h2⟩ := run_shape h (fun e he => by cases he)
    have h3 := h2 ⟨q, rfl⟩ hm
    have h4 := partition_length_le h1.part
    omega

/-- The bound is attained: the example without merging stops in its third and last possible
iteration. -/
example : (kmax exPairs = 1 ∧ exPairs.N - kmax exPairs = 3)
    ∧ (outcome (run (bruteEnv exNorm 1) { exCfg with useMerger := false } exPairs 2 3)).map
        (fun o => (o.error, o.partition.length, o.iteration)) = some (none, 4, 3) := by
  decide +kernel

end Verif.Props
