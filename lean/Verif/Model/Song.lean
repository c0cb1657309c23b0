import Verif.Model.Knapsack

/-!
# Model of the Python reference for the violations (src/song_big_m.py:34-78)
-/

namespace Verif.Model

/-- `song_min_s_prime_violation` (src/song_big_m.py:34-42). -/
def songMinViolation (argsort : Argsort) (n m : ℕ) (Asp : ℕ → Vec) (bsp : Vec) (Asi : Vec)
    (bsi : ℚ) : PyM (WithTop ℚ) :=
  (List.range m).foldlM (fun (violation : WithTop ℚ) ip => do
    let temp ← solveContinuousKnapsack argsort n Asi bsi (Asp ip) (bsp ip)
    pure (min violation ((temp : ℚ) : WithTop ℚ))) ⊤

/-- `single_scenario_iter` (src/song_big_m.py:45-54). -/
def singleScenarioIter (argsort : Argsort) (I : Inst) (Asi : Vec) (bsi : ℚ) :
    PyM (List (WithTop ℚ)) :=
  (List.range I.N).mapM fun sp => songMinViolation argsort I.n I.m (I.A sp) (I.b sp) Asi bsi

/-- `compute_all_violations` (src/song_big_m.py:57-78): `song_violations[s, :, i]` is entry
`i` of entry `s` of the result. -/
def pyViolations (argsort : Argsort) (I : Inst) : PyM (List (List (List (WithTop ℚ)))) :=
  (List.range I.N).mapM fun s => (List.range I.m).mapM fun i =>
    singleScenarioIter argsort I (I.A s i) (I.b s i)

end Verif.Model
