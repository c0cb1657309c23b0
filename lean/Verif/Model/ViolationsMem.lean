import Verif.Model.Violations

/-!
# The compiled violation routine with its machine integers and memory

`Model/Violations.lean` computes addresses with unbounded integers in memory without end.  Here the
same code is modelled with what the C++ standard leaves undefined as errors: an `int` outside its
32 bits, an access outside an array, and a comparison that `std::sort` does not allow.
-/

namespace Verif.Model

/-- What may go wrong in the compiled routine.  `tooLarge` is the `OverflowError` that Cython raises
when a shape does not fit an `int`, `empty` the `IndexError` for an empty array
(violations.pyx:8-10, 19); `noFuel` is a loop of the model that was given too few rounds, which
does not happen (`C92_memory_safe`). -/
inductive CppErr
  | overflow
  | outOfBounds
  | badCompare
  | noFuel
  | tooLarge
  | empty
  deriving DecidableEq

abbrev CM := Except CppErr

/-- The value of an `int` expression: undefined outside 32 bits, that is unless
`-2^31 ≤ z < 2^31` (violations.h:41-145). -/
def cInt (z : ℤ) : CM ℤ :=
  if z.natAbs < 2147483648 ∨ z = -2147483648 then .ok z else .error .overflow

/-- An array (violations.h:100-107); a pointer into it is an offset. -/
structure Buf (α : Type) where
  size : ℕ
  val : ℕ → α

/-- `a[z]` (violations.h:49-82). -/
def Buf.read {α : Type} (b : Buf α) (z : ℤ) : CM α :=
  if 0 ≤ z ∧ z < b.size then .ok (b.val z.toNat) else .error .outOfBounds

/-- `a[z] = v` (violations.h:81, 113). -/
def Buf.write {α : Type} (b : Buf α) (z : ℤ) (v : α) : CM (Buf α) :=
  if 0 ≤ z ∧ z < b.size then .ok { b with val := Function.update b.val z.toNat v }
  else .error .outOfBounds

/-- `&a[z]` (violations.h:119-123, 134-138): at most one past the end. -/
def Buf.ptr {α : Type} (b : Buf α) (z : ℤ) : CM ℤ :=
  if 0 ≤ z ∧ z ≤ b.size then .ok z else .error .outOfBounds

/-- `for (int j = start; cond(j); j += step) body` (violations.h:48, 60, 112-132); the body says
whether it ended with `break`. -/
def cFor {σ : Type} (cond : ℤ → Bool) (step : ℤ) (body : ℤ → σ → CM (σ × Bool)) :
    ℕ → ℤ → σ → CM σ
  | 0, _, _ => .error .noFuel
  | k + 1, j, s =>
    if cond j then
      match body j s with
      | .error e => .error e
      | .ok r =>
        if r.2 then .ok r.1
        else match cInt (j + step) with
          | .error e => .error e
          | .ok j' => cFor cond step body k j' r.1
    else .ok s

/-- The body of the first loop of `update` (violations.h:49-52); `pp` and `wp` are the pointers
`profits` and `weights`. -/
def memZeroBody (lhs : Buf ℚ) (pp wp : ℤ) (indices : Buf ℕ) (ii : ℤ) (v : ℚ) : CM (ℚ × Bool) := do
  let i ← indices.read ii
  let w ← lhs.read (wp + i)
  if w ≤ 1 / 10 ^ 6 then do
    let p ← lhs.read (pp + i)
    pure (v + p, false)
  else pure (v, false)

/-- The body of the second loop of `update` (violations.h:61-77) on `violation` and `weight`. -/
def memLoopBody (lhs rhs : Buf ℚ) (pp wp capp : ℤ) (viols : Buf (WithTop ℚ)) (mnp : ℤ)
    (indices : Buf ℕ) (jj : ℤ) (s : ℚ × ℚ) : CM ((ℚ × ℚ) × Bool) := do
  let j ← indices.read jj
  let w ← lhs.read (wp + j)
  if w ≤ 1 / 10 ^ 6 then pure (s, false)
  else do
    let cap ← rhs.read capp
    let p ← lhs.read (pp + j)
    if s.2 + w ≥ cap - 1 / 10 ^ 6 then
      pure ((s.1 + p * (cap - (s.2 + w - w)) / w, s.2 + w), true)
    else do
      let mn ← viols.read mnp
      pure ((s.1 + p, s.2 + w),
        decide (mn + ((1 / 10 ^ 6 : ℚ) : WithTop ℚ) ≤ ((s.1 + p : ℚ) : WithTop ℚ)))

/-- `update` (violations.h:37-83). -/
def memUpdate (lhs rhs : Buf ℚ) (pp lossp wp capp n : ℤ) (viols : Buf (WithTop ℚ)) (mnp : ℤ)
    (indices : Buf ℕ) (reverse : Bool) : CM (Buf (WithTop ℚ)) := do
  let loss ← rhs.read lossp
  let v ← cFor (fun ii => decide (ii < n)) 1 (memZeroBody lhs pp wp indices) (n.toNat + 1) 0 (-loss)
  let jstart ← cInt (if reverse then n - 1 else 0)
  let jend ← cInt (if reverse then -1 else n)
  let r ← cFor (fun jj => decide (jj ≠ jend)) (if reverse then -1 else 1)
    (memLoopBody lhs rhs pp wp capp viols mnp indices) (n.toNat + 1) jstart (v, 0)
  let mn ← viols.read mnp
  if ((r.1 : ℚ) : WithTop ℚ) < mn then viols.write mnp ((r.1 : ℚ) : WithTop ℚ) else pure viols

instance (c : ℕ → ℕ → Bool) (l : List ℕ) : Decidable (StrictWeak c l) := by
  unfold StrictWeak; infer_instance

/-- `std::sort(indices, indices + n, comp)` (violations.h:95): the range lies in the array, the
comparison may read the data of every element, and is a strict weak order. -/
def memSort (srt : CppSort) (lhs : Buf ℚ) (pp wp n : ℤ) (indices : Buf ℕ) : CM (Buf ℕ) :=
  let l := (List.range n.toNat).map indices.val
  let p : Vec := fun j => lhs.val (pp + j).toNat
  let w : Vec := fun j => lhs.val (wp + j).toNat
  if n ≤ indices.size ∧ ∀ a ∈ l, (0 ≤ pp + a ∧ pp + a < lhs.size) ∧ (0 ≤ wp + a ∧ wp + a < lhs.size)
  then
    if StrictWeak (cppComp p w) l then
      .ok { indices with val := fun i => (srt.run (cppComp p w) l).getD i 0 }
    else .error .badCompare
  else .error .outOfBounds

/-- `violations` and `indices` (violations.h:106-111). -/
structure MemState where
  viols : Buf (WithTop ℚ)
  indices : Buf ℕ

/-- `compute` (violations.h:85-98). -/
def memCompute (srt : CppSort) (lhs rhs : Buf ℚ) (slhs srhs tlhs trhs n sViol tViol : ℤ)
    (st : MemState) : CM MemState := do
  let indices ← memSort srt lhs slhs tlhs n st.indices
  let v1 ← memUpdate lhs rhs slhs srhs tlhs trhs n st.viols sViol indices false
  let v2 ← memUpdate lhs rhs tlhs trhs slhs srhs n v1 tViol indices true
  pure ⟨v2, indices⟩

/-- `&lhs[s * m * n + i * n]` (violations.h:122-123, 137-138). -/
def lhsPtr (lhs : Buf ℚ) (m n s i : ℤ) : CM ℤ := do
  let a ← cInt (s * m)
  let a ← cInt (a * n)
  let b ← cInt (i * n)
  let z ← cInt (a + b)
  lhs.ptr z

/-- `&rhs[s * m + i]` (violations.h:122-123, 137-138). -/
def rhsPtr (rhs : Buf ℚ) (m s i : ℤ) : CM ℤ := do
  let a ← cInt (s * m)
  let z ← cInt (a + i)
  rhs.ptr z

/-- `&violations[s * k * m + t * m + i]` (violations.h:119-120, 134-135). -/
def violPtr (viols : Buf (WithTop ℚ)) (k m s t i : ℤ) : CM ℤ := do
  let a ← cInt (s * k)
  let a ← cInt (a * m)
  let b ← cInt (t * m)
  let c ← cInt (a + b)
  let z ← cInt (c + i)
  viols.ptr z

/-- The innermost body of the loops for rows `i` of `s` and `l` of `t` (violations.h:119-125 with
`t = s`, 134-140). -/
def memBody (srt : CppSort) (lhs rhs : Buf ℚ) (k n m s t i l : ℤ) (st : MemState) :
    CM (MemState × Bool) := do
  let sV ← violPtr st.viols k m s t i
  let tV ← violPtr st.viols k m t s l
  let sl ← lhsPtr lhs m n s i
  let sr ← rhsPtr rhs m s i
  let tl ← lhsPtr lhs m n t l
  let tr ← rhsPtr rhs m t l
  let st' ← memCompute srt lhs rhs sl sr tl tr n sV tV st
  pure (st', false)

/-- A loop as the body of another (violations.h:116-118, 130-133). -/
def andGoOn {σ : Type} (r : CM σ) : CM (σ × Bool) := do
  let s ← r
  pure (s, false)

/-- `for (int j = start; j < stop; j++)` (violations.h:112, 116-118, 130-133). -/
def cForUp {σ : Type} (start stop : ℤ) (body : ℤ → σ → CM (σ × Bool)) : σ → CM σ :=
  cFor (fun j => decide (j < stop)) 1 body (stop.toNat + 1) start

/-- `computeAllViolations` (violations.h:100-146). -/
def memComputeAll (srt : CppSort) (lhs rhs : Buf ℚ) (k n m : ℤ) (viols : Buf (WithTop ℚ)) :
    CM (Buf (WithTop ℚ)) := do
  let indices ← cForUp 0 n (fun j b => andGoOn (b.write j j.toNat)) ⟨n.toNat, fun _ => 0⟩
  let st ← cForUp 0 k (fun s st => andGoOn (cForUp 0 m (fun i st => andGoOn (do
    let l ← cInt (i + 1)
    cForUp l m (fun l st => memBody srt lhs rhs k n m s s i l st) st)) st)) ⟨viols, indices⟩
  let st ← cForUp 0 k (fun s st => andGoOn (do
    let t ← cInt (s + 1)
    cForUp t k (fun t st => andGoOn (cForUp 0 m (fun i st => andGoOn
      (cForUp 0 m (fun l st => memBody srt lhs rhs k n m s t i l st) st)) st)) st)) st
  pure st.viols

/-- `compute_all_violations` (violations.pyx:7-21): the three arrays have `N * m * n`, `N * m` and
`N * N * m` elements. -/
def memViolations (srt : CppSort) (I : Inst) : CM (Buf (WithTop ℚ)) :=
  if 2147483648 ≤ I.N ∨ 2147483648 ≤ I.m ∨ 2147483648 ≤ I.n then .error .tooLarge
  else if I.N = 0 ∨ I.m = 0 ∨ I.n = 0 then .error .empty
  else memComputeAll srt ⟨I.N * I.m * I.n, memA I⟩ ⟨I.N * I.m, memB I⟩ I.N I.n I.m
    ⟨I.N * I.N * I.m, cppInit I.N I.m⟩

end Verif.Model
