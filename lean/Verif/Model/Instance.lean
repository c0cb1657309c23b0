import Verif.Spec

/-!
# Model of `ChanceKnapInstance`: feasibility checks and parser
-/

namespace Verif.Model

/-- `np.linalg.norm` of the first `n` entries of a row, as a parameter: the only facts
used are that it depends on these entries only, is non-negative and vanishes exactly on zero rows
(src/instance/ChanceKnapInstance.py:93, src/LowerBounder.py:47, src/Merger.py:24).
Simplification: the Euclidean norm (an irrational number) is not computed. -/
structure Norm where
  val : ℕ → Vec → ℚ
  nonneg : ∀ n a, 0 ≤ val n a
  eq_zero : ∀ n a, val n a = 0 ↔ ∀ j < n, a j = 0
  congr : ∀ n a a', (∀ j < n, a j = a' j) → val n a = val n a'

/-- `_get_constraint_violation` (src/instance/ChanceKnapInstance.py:62-68). -/
def constraintViolation (n : ℕ) (a x : Vec) (b : ℚ) : ℚ := max (dot n a x - b) 0

/-- The feasibility tolerance `TOLERANCE = 1e-6`
(src/instance/ChanceKnapInstance.py:90). -/
def feasTol : ℚ := 1 / 1000000

/-- Inner loop of `_get_scenario_infeasibility`
(src/instance/ChanceKnapInstance.py:86-96) for one scenario: the list of rescaled
violations above tolerance. -/
def scenarioViolations (norm : Norm) (I : Inst) (x : Vec) (s : ℕ) : List ℚ :=
  (List.range I.m).filterMap fun i =>
    let violation := constraintViolation I.n (I.A s i) x (I.b s i)
    if violation > feasTol then
      let rescaling := norm.val I.n (I.A s i)
      some (if rescaling ≠ 0 then violation / rescaling else violation)
    else none

/-- `_get_scenario_infeasibility` (src/instance/ChanceKnapInstance.py:81-97); the dict
with keys `0..N-1` is a list. -/
def scenarioInfeasibility (norm : Norm) (I : Inst) (x : Vec) : List (List ℚ) :=
  (List.range I.N).map (scenarioViolations norm I x)

/-- `_is_scenario_infeasible` (src/instance/ChanceKnapInstance.py:70-79). -/
def isScenarioInfeasible (l : List ℚ) : Bool := decide (l.length > 0)

/-- `_get_infeasible_scenarios` (src/instance/ChanceKnapInstance.py:99-105). -/
def infeasibleFlags (l : List (List ℚ)) : List Bool := l.map isScenarioInfeasible

/-- The tuple returned by `is_feasible` (src/instance/ChanceKnapInstance.py:108-123). -/
structure FeasOut where
  feasible : Bool
  nbInf : ℕ
  nbTol : ℚ
  flags : List Bool
  infeasibility : List (List ℚ)

/-- `is_feasible` (src/instance/ChanceKnapInstance.py:108-123). -/
def isFeasible (norm : Norm) (I : Inst) (x : Vec) : FeasOut :=
  let infeasibility := scenarioInfeasibility norm I x
  let flags := infeasibleFlags infeasibility
  let nbInf : ℕ := (flags.map fun f => if f then 1 else 0).sum
  let nbTol := I.eps * (I.N : ℚ)
  { feasible := decide ((nbInf : ℚ) ≤ nbTol), nbInf, nbTol, flags, infeasibility }

/-- `np.max` of a list known to be non-empty (0 for the empty list, never read)
(src/instance/ChanceKnapInstance.py:142-143). -/
def npMax : List ℚ → ℚ
  | [] => 0
  | a :: l => l.foldl max a

/-- The attributes written by `check_feasibility` (src/instance/ChanceKnapInstance.py:125-152). -/
structure CheckOut where
  feasible : Bool
  isScenarioInfeasible : List Bool
  infeasibleScenarios : List ℕ
  maxInfeasibility : List ℚ

/-- `check_feasibility` (src/instance/ChanceKnapInstance.py:125-152), printing left
out. -/
def checkFeasibility (norm : Norm) (I : Inst) (x : Vec) : CheckOut :=
  let o := isFeasible norm I x
  { feasible := o.feasible
    isScenarioInfeasible := o.flags
    infeasibleScenarios := (o.flags.zipIdx.filter fun p => p.1).map fun p => p.2
    maxInfeasibility := (List.range I.N).map fun s =>
      if (o.infeasibility.getD s []).length > 0 then npMax (o.infeasibility.getD s []) else 0 }

/-- `get_feasible_scenarios` (src/instance/ChanceKnapInstance.py:154-164). -/
def getFeasibleScenarios (o : CheckOut) : List Bool :=
  o.maxInfeasibility.map fun v => decide (v = 0)

/-! ## Parser -/

/-- `np.rint`: round half to even (src/instance/ChanceKnapInstance.py:42-44). -/
def rint (x : ℚ) : ℤ :=
  let f := ⌊x⌋
  if x - f < 1 / 2 then f
  else if 1 / 2 < x - f then f + 1
  else if f % 2 = 0 then f else f + 1

/-- `np.round(x, decimals=1)` (src/instance/ChanceKnapInstance.py:42-44): numpy computes
`rint(x * 10) / 10`. -/
def round1 (x : ℚ) : ℚ := (rint (x * 10) : ℚ) / 10

/-- `complete_file[k]` for a non-negative index (src/instance/ChanceKnapInstance.py:22, 31-38). -/
def getRow (file : List (List ℚ)) (k : ℕ) : PyM (List ℚ) :=
  match file[k]? with
  | some r => .ok r
  | none => .error .indexError

/-- `int(instance_info[k])`: truncation of a non-negative float
(src/instance/ChanceKnapInstance.py:23-24, 53). -/
def infoAt (info : List ℚ) (k : ℕ) : PyM ℕ :=
  match info[k]? with
  | some r => .ok ⌊r⌋₊
  | none => .error .indexError

/-- A row as a vector (src/instance/ChanceKnapInstance.py:31-38). -/
def rowVec (r : List ℚ) : Vec := fun j => r.getD j 0

/-- `parse_data` (src/instance/ChanceInstance.py:29-34) =
`_parse_indices`, `_parse_additional_parameters`, `_parse_model_data`
(src/instance/ChanceKnapInstance.py:17-59) on the rows of the csv file.

`np.array` of rows of unequal lengths and `np.broadcast_to` of a last row whose length
is not `m` (or 1) raise `ValueError`; an empty file or missing rows raise `IndexError`;
`1/nb_scenarios` raises `ZeroDivisionError` for 0 scenarios. -/
def parse (file : List (List ℚ)) (continuousVar : Bool) (epsilon : ℚ) : PyM Inst := do
  let info ← getRow file 0
  let n ← infoAt info 0
  let N ← infoAt info 2
  let m ← infoAt info 1
  let c ← getRow file 1
  let rows ← (List.range N).mapM fun s => (List.range m).mapM fun i =>
    getRow file (2 + s * m + i)
  if ¬ (∀ r ∈ rows.flatten, r.length = (rows.flatten.headD []).length) then
    throw .valueError
  let last ← match file.getLast? with
    | some r => pure r
    | none => throw .indexError
  if ¬ (last.length = m ∨ last.length = 1) then throw .valueError
  if N = 0 then throw .zeroDivisionError
  pure
    { n, N, m
      A := fun s i j => round1 (rowVec ((rows.getD s []).getD i []) j)
      b := fun _ i => round1 (rowVec last (if last.length = 1 then 0 else i))
      c := fun j => round1 (rowVec c j)
      proba := fun _ => 1 / (N : ℚ)
      eps := epsilon
      cont := continuousVar }

/-- The rows written by the generator for one instance
(data/cc-instances/knapsack/instance-generator.py:66-72): header, objective, the
`m` rows of each scenario's matrix, right-hand side.  Random sampling and the text
encoding of numbers are not modelled. -/
def generatedRows (n m N : ℕ) (c : Vec) (A : ℕ → ℕ → ℕ → ℚ) (b : Vec) : List (List ℚ) :=
  [[(n : ℚ), (m : ℚ), (N : ℚ)], (List.range n).map c]
    ++ ((List.range N).map fun s => (List.range m).map fun i => (List.range n).map (A s i)).flatten
    ++ [(List.range m).map b]

end Verif.Model
