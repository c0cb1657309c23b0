import Verif.Model.Knapsack

/-!
# Model of the compiled violation routine (violations.h, violations.pyx)

`double` arrays are flat memory (`ℕ → ℚ`), pointers are addresses.  `bind` and the `Comp`
object only carry the two profit/weight pointers, which are arguments here.
-/

namespace Verif.Model

/-- `Comp::operator()` (violations.h:17-25). -/
def cppComp (profits weights : Vec) (i j : ℕ) : Bool :=
  if profits i = 0 ∧ weights i = 0 then false
  else if profits j = 0 ∧ weights j = 0 then true
  else decide (profits i * weights j > profits j * weights i)

/-- The requirement of `std::sort` on its comparison: a strict weak order of the elements
(violations.h:95). -/
def StrictWeak (c : ℕ → ℕ → Bool) (l : List ℕ) : Prop :=
  (∀ a ∈ l, c a a = false)
  ∧ (∀ a ∈ l, ∀ b ∈ l, ∀ d ∈ l, c a b = true → c b d = true → c a d = true)
  ∧ (∀ a ∈ l, ∀ b ∈ l, ∀ d ∈ l, c a b = false → c b d = false → c a d = false)

/-- `std::sort`: if the comparison is a strict weak order, the result is a permutation without
inversion (elements that compare equal in any order); otherwise nothing is known
(violations.h:95). -/
structure CppSort where
  run : (ℕ → ℕ → Bool) → List ℕ → List ℕ
  spec : ∀ c l, StrictWeak c l →
    (run c l).Perm l ∧ (run c l).Pairwise fun a b => c b a = false

/-- A sort as required exists (violations.h:95). -/
def CppSort.default : CppSort where
  run c l := (l.attach.insertionSort fun a b => c b.1 a.1 = false).map Subtype.val
  spec c l h := by
    obtain ⟨h1, h2, h3⟩ := h
    let r : {x // x ∈ l} → {x // x ∈ l} → Prop := fun a b => c b.1 a.1 = false
    have ht : Std.Total r := ⟨fun a b => by
      by_contra hh
      push Not at hh
      simp only [r, Bool.not_eq_false] at hh
      have := h2 _ a.2 _ b.2 _ a.2 hh.2 hh.1
      rw [h1 _ a.2] at this
      cases this⟩
    have htr : IsTrans _ r := ⟨fun a b d hab hbd => h3 _ d.2 _ b.2 _ a.2 hbd hab⟩
    refine ⟨?_, ?_⟩
    · have := (List.perm_insertionSort r l.attach).map Subtype.val
      rwa [List.attach_map_subtype_val] at this
    · rw [List.pairwise_map]
      exact @List.pairwise_insertionSort _ r _ ht htr _

/-- First loop of `update` (violations.h:48-54): all items of weight at most 1e-6. -/
def cppZero (profits weights : Vec) (indices : List ℕ) (loss : ℚ) : ℚ :=
  indices.foldl (fun v i => if weights i ≤ 1 / 10 ^ 6 then v + profits i else v) (-loss)

/-- Second loop of `update` (violations.h:56-78) over the indices in the order visited;
`mn` is `*minViolPtr`. -/
def cppLoop (profits weights : Vec) (cap : ℚ) (mn : WithTop ℚ) : List ℕ → ℚ → ℚ → ℚ
  | [], v, _ => v
  | j :: js, v, wt =>
    if weights j ≤ 1 / 10 ^ 6 then cppLoop profits weights cap mn js v wt
    else if wt + weights j ≥ cap - 1 / 10 ^ 6 then
      v + profits j * (cap - (wt + weights j - weights j)) / weights j
    else if mn + ((1 / 10 ^ 6 : ℚ) : WithTop ℚ) ≤ ((v + profits j : ℚ) : WithTop ℚ) then
      v + profits j
    else cppLoop profits weights cap mn js (v + profits j) (wt + weights j)

/-- `update` (violations.h:37-83): the new value of `*minViolPtr`. -/
def cppUpdate (profits : Vec) (loss : ℚ) (weights : Vec) (cap : ℚ) (mn : WithTop ℚ)
    (indices : List ℕ) (reverse : Bool) : WithTop ℚ :=
  let v := cppLoop profits weights cap mn (if reverse then indices.reverse else indices)
    (cppZero profits weights indices loss) 0
  if ((v : ℚ) : WithTop ℚ) < mn then ((v : ℚ) : WithTop ℚ) else mn

/-- The output array and the scratch array `indices` (violations.h:100-114). -/
structure CppState where
  viols : ℕ → WithTop ℚ
  indices : List ℕ

/-- The addresses passed to one call of `compute` (violations.h:119-124, 134-139). -/
structure CppOp where
  slhs : ℕ
  srhs : ℕ
  tlhs : ℕ
  trhs : ℕ
  sViol : ℕ
  tViol : ℕ

/-- `compute` (violations.h:85-98). -/
def cppCompute (srt : CppSort) (lhs rhs : Vec) (st : CppState) (op : CppOp) : CppState :=
  let p : Vec := fun j => lhs (op.slhs + j)
  let w : Vec := fun j => lhs (op.tlhs + j)
  let indices := srt.run (cppComp p w) st.indices
  let v1 := Function.update st.viols op.sViol
    (cppUpdate p (rhs op.srhs) w (rhs op.trhs) (st.viols op.sViol) indices false)
  let v2 := Function.update v1 op.tViol
    (cppUpdate w (rhs op.trhs) p (rhs op.srhs) (v1 op.tViol) indices true)
  { viols := v2, indices }

/-- First group of loops of `computeAllViolations` (violations.h:116-128). -/
def cppOps1 (k n m : ℕ) : List CppOp :=
  (List.range k).flatMap fun s => (List.range m).flatMap fun i =>
    (pyRange (i + 1) m 1).map fun l =>
      { slhs := s * m * n + i * n, srhs := s * m + i
        tlhs := s * m * n + l * n, trhs := s * m + l
        sViol := s * k * m + s * m + i, tViol := s * k * m + s * m + l }

/-- Second group of loops of `computeAllViolations` (violations.h:130-144). -/
def cppOps2 (k n m : ℕ) : List CppOp :=
  (List.range k).flatMap fun s => (pyRange (s + 1) k 1).flatMap fun t =>
    (List.range m).flatMap fun i => (List.range m).map fun l =>
      { slhs := s * m * n + i * n, srhs := s * m + i
        tlhs := t * m * n + l * n, trhs := t * m + l
        sViol := s * k * m + t * m + i, tViol := t * k * m + s * m + l }

/-- `computeAllViolations` (violations.h:100-146). -/
def cppComputeAll (srt : CppSort) (lhs rhs : Vec) (k n m : ℕ) (viols : ℕ → WithTop ℚ) :
    ℕ → WithTop ℚ :=
  ((cppOps1 k n m ++ cppOps2 k n m).foldl (cppCompute srt lhs rhs)
    { viols, indices := List.range n }).viols

/-- The C-contiguous memory of `matrices_A`, of shape `(N, m, n)` (violations.pyx:7, 19). -/
def memA (I : Inst) (a : ℕ) : ℚ := I.A (a / (I.m * I.n)) (a / I.n % I.m) (a % I.n)

/-- The C-contiguous memory of `vectors_b`, of shape `(N, m)` (violations.pyx:7, 19). -/
def memB (I : Inst) (a : ℕ) : ℚ := I.b (a / I.m) (a % I.m)

/-- The initial output array (violations.pyx:11-16): infinite, with zero diagonal
`viols[s, s, i]`. -/
def cppInit (k m : ℕ) (a : ℕ) : WithTop ℚ :=
  if a / (k * m) = a / m % k then 0 else ⊤

/-- `compute_all_violations` (violations.pyx:7-21); entry `(s, t, i)` of the returned array
of shape `(N, N, m)`.  Taking the address of element 0 of an empty array raises
`IndexError`. -/
def cppViolations (srt : CppSort) (I : Inst) : PyM (ℕ → ℕ → ℕ → WithTop ℚ) :=
  if I.N = 0 ∨ I.m = 0 ∨ I.n = 0 then .error .indexError
  else .ok fun s t i =>
    cppComputeAll srt (memA I) (memB I) I.N I.n I.m (cppInit I.N I.m) (s * (I.N * I.m) + t * I.m + i)

end Verif.Model
