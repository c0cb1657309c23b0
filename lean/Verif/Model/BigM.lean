import Verif.Model.Optim
import Verif.Model.Violations

/-!
# Model of `BigMFinder` (src/BigMFinder.py)

The finder is built on an instance seen through its getters (`CI`); `isPart` says whether it
is a `PartitionChanceKnapInstance`.  Averages are only printed and left out.  The finder keeps
`nb_scenarios` as its own attribute; it is an argument here.
-/

namespace Verif.Model

/-- `_naive_bigM` (src/BigMFinder.py:28-38).  The assertion on its length holds by the shape of
the arrays and is left out. -/
def naiveBigM (J : CI) (s : ℕ) : List ℚ :=
  (List.range (J.nbCon s)).map fun i => ((List.range J.n).map (J.row s i)).sum - J.rhs s i

/-- The list of naive big-Ms set by `__init__` and `update_big_M`
(src/BigMFinder.py:25, 222). -/
def naiveAll (J : CI) (nb : ℕ) : List (List ℚ) := (List.range nb).map (naiveBigM J)

/-- `run_belotti_et_al_big_M` with continuous variables (src/BigMFinder.py:40-61, 134-141). -/
def belottiContinuous (argsort : Argsort) (J : CI) (nb : ℕ) (vUB : ℚ) : PyM (List (List ℚ)) :=
  (List.range nb).mapM fun s => (List.range (J.nbCon s)).mapM fun i =>
    solveContinuousKnapsack argsort J.n (J.row s i) (J.rhs s i) J.c vUB

/-- `run_belotti_et_al_big_M` with binary variables (src/BigMFinder.py:71-86, 123-133):
`get_obj_bnd` is read after each solve; `gap` is the `MIPGap` 1e-8. -/
def belottiMip (solve : GModel → GResult) (J : CI) (nb : ℕ) (vUB gap : ℚ) :
    PyM (List (List ℚ)) :=
  (List.range nb).mapM fun s => (List.range (J.nbCon s)).mapM fun i => do
    let r ← optimize (solve (buildBigMKnapsack J vUB s i gap))
    pure r.objBnd

/-- `run_belotti_et_al_big_M` (src/BigMFinder.py:102-146): `integer_vars` is true when some
entry of `var_type` is 0, i.e. the variables are binary and there is at least one. -/
def runBelotti (argsort : Argsort) (solve : GModel → GResult) (J : CI) (nb : ℕ) (vUB : ℚ) :
    PyM (List (List ℚ)) :=
  if J.cont = false ∧ 0 < J.n then belottiMip solve J nb vUB (1 / 10 ^ 8)
  else belottiContinuous argsort J nb vUB

/-- `array[q]` of numpy: negative indices count from the end (src/BigMFinder.py:99). -/
def npGet {α : Type} (l : List α) (q : ℤ) : PyM α :=
  if 0 ≤ q then pyGet l q.toNat
  else if -q ≤ l.length then pyGet l (l.length - (-q).toNat) else .error .indexError

/-- `_quantile_big_m` (src/BigMFinder.py:94-99); `eps` is `self.chance_instance.get_epsilon()`.
An infinite quantile would be refused later by Gurobi; here it raises at once. -/
def quantileBigM (eps : ℚ) (nb : ℕ) (violations : List (WithTop ℚ)) : PyM ℚ := do
  let sorted := violations.insertionSort (· ≤ ·)
  let v ← npGet sorted (⌊eps * nb⌋ + 1)
  match v with
  | some q => pure q
  | none => throw .gurobiError

/-- `min` of a Python list: `ValueError` when empty (src/BigMFinder.py:198-199). -/
def pyMinTop : List (WithTop ℚ) → PyM (WithTop ℚ)
  | [] => .error .valueError
  | a :: l => .ok (l.foldl min a)

/-- `run_song_et_al_big_m` (src/BigMFinder.py:148-207).  `I` is the argument
`chance_instance` (the original instance), `viols` the cached array `song_violations`. -/
def runSong (J : CI) (isPart : Bool) (nb : ℕ) (I : Inst) (viols : ℕ → ℕ → ℕ → WithTop ℚ)
    (partition : Option (List (List ℕ))) : PyM (List (List ℚ)) := do
  if isPart then pyAssert "BigMFinder.py:176" (partition.isSome = true)
  else pyAssert "BigMFinder.py:178" (partition.isNone = true)
  (List.range nb).mapM fun c => (List.range (J.nbCon c)).mapM fun j =>
    match partition with
    | some P => do
      let subset ← pyGet P c
      let scenario ← pyGet subset (j / I.m)
      let violations ← P.mapM fun subset =>
        pyMinTop (subset.map fun sp => viols scenario sp (j % I.m))
      quantileBigM J.eps nb violations
    | none => quantileBigM J.eps nb ((List.range I.N).map fun sp => viols c sp j)

/-- `update_big_M` (src/BigMFinder.py:215-235); the C++ violations are computed on the first
use of `'song'` and cached (lines 166-172), so they are those of `I`. -/
def updateBigM (argsort : Argsort) (srt : CppSort) (solve : GModel → GResult) (J : CI)
    (isPart : Bool) (nb : ℕ) (vUB : Option ℚ) (method : String) (I : Option Inst)
    (partition : Option (List (List ℕ))) : PyM (List (List ℚ)) :=
  if method = "belotti" then
    match vUB with
    | some v => runBelotti argsort solve J nb v
    | none => .error (.assertion "BigMFinder.py:228")
  else if method = "song" then
    match I with
    | some I => do
      let viols ← cppViolations srt I
      runSong J isPart nb I viols partition
    | none => .error (.assertion "BigMFinder.py:231")
  else if method = "naive" then .ok (naiveAll J nb)
  else .error .valueError

end Verif.Model
