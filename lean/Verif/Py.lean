import Verif.Basic
import Mathlib.Data.List.Sort
import Mathlib.Data.List.Dedup
import Mathlib.Data.List.GetD

/-!
# Python and numpy primitives
-/

namespace Verif

/-- `range(start, stop, step)` for `step ≥ 1` (src/Initializer.py:44). -/
def pyRange (start stop step : ℕ) : List ℕ :=
  (List.range ((stop - start + (step - 1)) / step)).map fun k => start + k * step

/-- `l[start::step]` for `step ≥ 1` (src/Initializer.py:24). -/
def sliceStep {α : Type} (l : List α) (start step : ℕ) : List α :=
  (pyRange start l.length step).filterMap fun k => l[k]?

/-- `l[k]` on a list: `IndexError` out of range (e.g. src/solver/AdaptivePartitioner.py:254-264). -/
def pyGet {α : Type} (l : List α) (k : ℕ) : PyM α :=
  match l[k]? with
  | some a => .ok a
  | none => .error .indexError

/-- `l[k] = v` on a list: `IndexError` out of range
(e.g. src/solver/AdaptivePartitioner.py:215-219). -/
def pySet {α : Type} (l : List α) (k : ℕ) (v : α) : PyM (List α) :=
  if k < l.length then .ok (l.set k v) else .error .indexError

/-- `del l[k]`: `IndexError` out of range
(src/Merger.py:35, src/solver/AdaptivePartitioner.py:211-212). -/
def pyDel {α : Type} (l : List α) (k : ℕ) : PyM (List α) :=
  if k < l.length then .ok (l.eraseIdx k) else .error .indexError

/-- `[a for a in l if f(a)]` where the test may raise (e.g. src/refiner/Refiner.py:62-75). -/
def pyFilter {α : Type} (f : α → PyM Bool) : List α → PyM (List α)
  | [] => .ok []
  | a :: l => do
    let b ← f a
    let r ← pyFilter f l
    pure (if b then a :: r else r)

/-- `dict[k] = v` on an insertion-ordered association list
(e.g. src/refiner/CostRefiner.py:29-52). -/
def assocSet {κ β : Type} [DecidableEq κ] (d : List (κ × β)) (k : κ) (v : β) : List (κ × β) :=
  if k ∈ d.map Prod.fst then d.map fun p => if p.1 = k then (k, v) else p else d ++ [(k, v)]

/-- `dict[k]`: `KeyError` for a missing key (e.g. src/refiner/CostRefiner.py:29-52). -/
def assocGet {κ β : Type} [DecidableEq κ] (d : List (κ × β)) (k : κ) : PyM β :=
  match d.find? fun p => p.1 = k with
  | some p => .ok p.2
  | none => .error .keyError

/-- `dict.pop(k)`: `KeyError` for a missing key (src/refiner/CostRefiner.py:104). -/
def assocPop {κ β : Type} [DecidableEq κ] (d : List (κ × β)) (k : κ) : PyM (List (κ × β)) :=
  if k ∈ d.map Prod.fst then .ok (d.filter fun p => p.1 ≠ k) else .error .keyError

/-- `l` is an order of the indices of `v` by increasing value; ties in any order
(src/LowerBounder.py:82). -/
def IsArgsort (v : List ℚ) (l : List ℕ) : Prop :=
  l.Perm (List.range v.length) ∧ l.Pairwise fun a b => v.getD a 0 ≤ v.getD b 0

/-- `np.argsort`: any sorting permutation of the indices (numpy's default quicksort is
not stable)
(src/LowerBounder.py:82, 105, src/UpperBounder.py:52, src/Initializer.py:39, src/song_big_m.py:17). -/
structure Argsort where
  run : List ℚ → List ℕ
  spec : ∀ v, IsArgsort v (run v)

/-- A sorting permutation exists for every input (src/LowerBounder.py:82). -/
def Argsort.default : Argsort where
  run v := (List.range v.length).insertionSort fun a b => v.getD a 0 ≤ v.getD b 0
  spec v := by
    refine ⟨List.perm_insertionSort _ _, ?_⟩
    have : Std.Total (fun a b : ℕ => v.getD a 0 ≤ v.getD b 0) := ⟨fun a b => le_total _ _⟩
    have : IsTrans ℕ (fun a b : ℕ => v.getD a 0 ≤ v.getD b 0) := ⟨fun a b c => le_trans⟩
    exact List.pairwise_insertionSort _ _

/-- `random.sample(l, len(l))` / `random.shuffle(l)`: any permutation
(src/Initializer.py:23, src/refiner/RandomRefiner.py:14, 23). -/
structure Shuffle where
  run : List ℕ → List ℕ
  perm : ∀ l, (run l).Perm l

/-- The identity is an admissible shuffle (src/Initializer.py:23). -/
def Shuffle.id : Shuffle := ⟨fun l => l, fun _ => List.Perm.refl _⟩

end Verif
