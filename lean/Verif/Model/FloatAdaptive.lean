import Verif.Model.Solve
import Verif.Model.FloatMilp
import Verif.Model.FloatRow

/-!
# The bounds of `AdaptivePartitioner` in double precision

The assignments to `vUB`, `vLB` and `xLB` (src/solver/AdaptivePartitioner.py), with the comparisons, sums and
products that lead to them computed in doubles.  The states of a run are over-approximated: the partition and
the order of the scenarios may be any at every step, so refiner, merger, initializer and the sorting of
scenarios and candidates need not be followed in doubles, and the steps may be taken in any order.  Indicator
constraints.
-/

namespace Verif.Model

/-- The attributes that the bounds depend on: `vUB`, `vLB`, `xLB` and the lower bounder
(src/solver/Solver.py:16-23, src/solver/AdaptivePartitioner.py:30-42). -/
structure FlSt where
  vUB : WithTop ℚ
  vLB : WithBot ℚ
  xLB : Option Vec
  lb : LBState

/-- After `_create_components` (src/solver/Solver.py:17-18, src/solver/AdaptivePartitioner.py:60-72). -/
def FlSt.start (I : Inst) : FlSt := { vUB := ⊤, vLB := ⊥, xLB := none, lb := LBState.init (dbl I) }

/-- A possible result of `subset_cost` on doubles (src/Evaluator.py:21-38). -/
def FlSubset (I : Inst) (l : List ℕ) (p : ℚ × Vec) : Prop :=
  ∃ solve : GModel → GResult,
    GResult.FlAnswers defaultTols (2 / 10 ^ 10) (Deter.build (instCI (dbl I)) l).g
      (solve (Deter.build (instCI (dbl I)) l).g)
    ∧ subsetCost (dbl I) solve l = .ok p

/-- `subset_costs` for a partition (src/Evaluator.py:62-80, src/solver/AdaptivePartitioner.py:203-218,
246-257). -/
def FlCosts (I : Inst) (P : List (List ℕ)) (costs : List ℚ) : Prop :=
  costs.length = P.length ∧ ∀ c < P.length, ∃ x, FlSubset I (P.getD c []) (costs.getD c 0, x)

/-- `isImproving[i]` on doubles (src/LowerBounder.py:107-108). -/
def flIsImproving (vUB : WithTop ℚ) (vLB : WithBot ℚ) (v : ℚ) : Bool :=
  decide ((v : WithTop ℚ) ≤ vUB) &&
    match vLB with
    | ⊥ => true
    | (l : ℚ) => decide (v ≥ rd (l + fl64 (1 / 10 ^ 8)))

/-- `prune_indices` on doubles (src/UpperBounder.py:110-112). -/
def flPrune (costs : List ℚ) (vLB : WithBot ℚ) : List ℕ :=
  match vLB with
  | ⊥ => []
  | (v : ℚ) => (List.range costs.length).filter fun c => costs.getD c 0 ≤ rd (v - fl64 (1 / 10 ^ 3))

/-- `v <= vUB + 1e-8` on doubles (src/solver/AdaptivePartitioner.py:147-148). -/
def flLeTol (v : ℚ) (vUB : WithTop ℚ) : Bool :=
  match vUB with
  | ⊤ => true
  | (u : ℚ) => decide (v ≤ rd (u + fl64 (1 / 10 ^ 8)))

/-- Storing the bound of `_upper_bound` (src/solver/AdaptivePartitioner.py:147-150). -/
def flStoreUB (st : FlSt) (vBnd : ℚ) : FlSt :=
  if flLeTol vBnd st.vUB then { st with vUB := (vBnd : WithTop ℚ) } else st

/-- Storing the bound of `_lower_bound` (src/solver/AdaptivePartitioner.py:165-168). -/
def flStoreLB (st : FlSt) (out : LBOut) : FlSt :=
  if st.vLB < (out.v : WithBot ℚ) then { st with vLB := (out.v : WithBot ℚ), xLB := out.x } else st

/-- A step of a run on doubles. -/
inductive FlStep (I : Inst) : FlSt → FlSt → Prop
  /-- `_improve_vlb_with_candidate_sols` (src/solver/AdaptivePartitioner.py:100-107) with
  `_find_best_incumbent` (src/LowerBounder.py:96-119): any improving candidate accepted by `is_feasible` may be
  the one that is found.  The candidates are solutions of subset problems. -/
  | improve {st : FlSt} {l : List ℕ} {p : ℚ × Vec} {v : ℚ} {flags : List Bool} :
      (∀ s ∈ l, s < I.N) → FlSubset I l p → FlDot I.n (dbl I).c p.2 v →
      flIsImproving st.vUB st.vLB v = true → FlFlags (dbl I) p.2 flags → flVerdict (dbl I) flags = true →
      FlStep I st { st with vLB := (v : WithBot ℚ), xLB := some p.2 }
  /-- `_upper_bound` with `first_iteration_bound` (src/solver/AdaptivePartitioner.py:131-134, 147-150,
  src/UpperBounder.py:65-78). -/
  | first {st : FlSt} {P : List (List ℕ)} {costs : List ℚ} {c : ℕ} :
      P.flatten.Perm (List.range I.N) → (∀ q ∈ P, q ≠ []) → (P.length : ℤ) = flFloor (dbl I) + 1 →
      FlCosts I P costs → c < P.length →
      (∀ c' < P.length, costs.getD c' 0 ≤ costs.getD c 0) → FlStep I st (flStoreUB st (costs.getD c 0))
  /-- `_upper_bound` with `partition_bound` (src/solver/AdaptivePartitioner.py:135-150,
  src/UpperBounder.py:80-128); Gurobi may stop at the time limit. -/
  | partition {st : FlSt} {P : List (List ℕ)} {costs : List ℚ} {D : PartData} {zs : List ℕ} {g : GModel}
      {r : GResult} {ρ : V → ℚ} :
      P.flatten.Perm (List.range I.N) → (∀ q ∈ P, q ≠ []) → flFloor (dbl I) + 1 < (P.length : ℤ) →
      FlCosts I P costs → FlLoadPartition I P D →
      flBuildCCLP (partCI (dbl I) D) none zs (flPrune costs st.vLB) (1 / 10 ^ 8) = .ok g →
      GResult.FlValid cclpTols (2 / 10 ^ 10) g r → r.sol = some ρ → FlStep I st (flStoreUB st r.objBnd)
  /-- `_lower_bound` with `deterministic_bound` (src/solver/AdaptivePartitioner.py:159-170,
  src/LowerBounder.py:181-191). -/
  | lower {st : FlSt} {sorted scen : List ℕ} {solve : GModel → GResult} {lb : LBState} {out : LBOut} :
      sorted.Perm (List.range I.N) → flSelected (dbl I) sorted = some scen →
      solveDeter (dbl I) solve st.lb st.vLB scen = .ok (lb, out) →
      GResult.FlValid defaultTols (2 / 10 ^ 10) lb.deter.g (solve lb.deter.g) →
      FlStep I st (flStoreLB { st with lb } out)
  /-- `save_feasible_scenarios` (src/LowerBounder.py:145-152). -/
  | counter {st : FlSt} (counter : List ℚ) : FlStep I st { st with lb := { st.lb with counter } }

/-- The states of a run on doubles; `_setup_initial_partition` (src/solver/AdaptivePartitioner.py:74-98) may set
`vUB` to the quantile bound (src/UpperBounder.py:42-63). -/
inductive FlReach (I : Inst) : FlSt → Prop
  | start : FlReach I (FlSt.start I)
  | quantile {costs : List ℚ} {argsort : Argsort} {t : ℕ} :
      costs.length = I.N → (∀ s < I.N, ∃ x, FlSubset I [s] (costs.getD s 0, x)) →
      flQuantile (dbl I) (argsort.run costs) = some t →
      FlReach I { FlSt.start I with vUB := ((costs.getD t 0 : ℚ) : WithTop ℚ) }
  | step {st st' : FlSt} : FlReach I st → FlStep I st st' → FlReach I st'

/-- The bounds and the solution that `solve` leaves after a stop on a feasible point `x` with values `vObj` and
`vBnd`: `xUB` is replaced only if both are within the tolerance of the old bound
(src/solver/AdaptivePartitioner.py:147-150), and `vLB`, `xLB` become `vUB`, `xUB` (lines 328-330).  After
`flStoreUB` the upper bound is finite. -/
def flStopFeasible (st : FlSt) (xUB : Option Vec) (x : Vec) (vObj vBnd : ℚ) : FlSt :=
  let st' := flStoreUB st vBnd
  { st' with
    vLB := match st'.vUB with
      | ⊤ => ⊥
      | (u : ℚ) => (u : WithBot ℚ)
    xLB := if flLeTol vBnd st.vUB && flLeTol vObj st.vUB then some x else xUB }

end Verif.Model
