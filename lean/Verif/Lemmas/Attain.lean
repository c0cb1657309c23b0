import Verif.Lemmas.LP
import Verif.Lemmas.BigM

/-!
# Deterministic problems attain their optimum, for continuous and binary variables
-/

open Finset

namespace Verif.Model
open Spec Props

theorem holds_congr {n : ℕ} {cs : List (Vec × ℚ)} {x y : Vec} (h : ∀ j < n, x j = y j)
    (hx : LP.Holds n cs x) : LP.Holds n cs y := by
  intro c hc
  have : dot n c.1 y = dot n c.1 x := Finset.sum_congr rfl fun j hj => by
    rw [h j (Finset.mem_range.1 hj)]
  rw [this]; exact hx c hc

theorem dot_unit (n : ℕ) (q : ℚ) (x : Vec) {j : ℕ} (hj : j < n) :
    dot n (fun k => if k = j then q else 0) x = q * x j := by
  unfold dot
  rw [Finset.sum_eq_single_of_mem j (Finset.mem_range.2 hj)]
  · simp
  · intro k _ hk; simp [hk]

/-- The box constraints as rows. -/
def boxRows (n : ℕ) : List (Vec × ℚ) :=
  ((List.range n).map fun j => ((fun k => if k = j then 1 else 0 : Vec), (1 : ℚ)))
    ++ (List.range n).map fun j => ((fun k => if k = j then -1 else 0 : Vec), (0 : ℚ))

theorem holds_boxRows (n : ℕ) (x : Vec) : LP.Holds n (boxRows n) x ↔ InBox n x := by
  unfold LP.Holds boxRows InBox
  simp only [List.mem_append, List.mem_map, List.mem_range]
  constructor
  · intro h j hj
    have h1 := h _ (Or.inl ⟨j, hj, rfl⟩)
    have h2 := h _ (Or.inr ⟨j, hj, rfl⟩)
    simp only [dot_unit n _ x hj] at h1 h2
    exact ⟨by linarith, by linarith⟩
  · rintro h c (⟨j, hj, rfl⟩ | ⟨j, hj, rfl⟩)
    · simp only [dot_unit n _ x hj]; linarith [(h j hj).2]
    · simp only [dot_unit n _ x hj]; linarith [(h j hj).1]

/-- A linear objective attains its maximum over the points of the domain that satisfy finitely
many rows. -/
theorem dom_attains (J : CI) (cs : List (Vec × ℚ)) (a : Vec)
    (hne : ∃ x, InDom J x ∧ LP.Holds J.n cs x) :
    ∃ x, (InDom J x ∧ LP.Holds J.n cs x)
      ∧ ∀ y, InDom J y → LP.Holds J.n cs y → dot J.n a y ≤ dot J.n a x := by
  cases hc : J.cont
  · -- binary: finitely many points
    let ind : Finset ℕ → Vec := fun S j => if j ∈ S then 1 else 0
    have hdom : ∀ S, InDom J (ind S) := fun S j _ => by
      rw [hc]; simp only [Bool.false_eq_true, if_false, ind]; split <;> simp
    have hrep : ∀ x, InDom J x →
        ∀ j < J.n, x j = ind ((range J.n).filter fun j => x j = 1) j := by
      intro x hx j hj
      have := hx j hj
      rw [hc] at this
      simp only [Bool.false_eq_true, if_false] at this
      rcases this with h | h <;> simp [ind, hj, h]
    classical
    obtain ⟨x0, hx0, hh0⟩ := hne
    obtain ⟨S, hS, hmax⟩ := ((range J.n).powerset.filter fun S =>
        LP.Holds J.n cs (ind S)).exists_max_image (fun S => dot J.n a (ind S))
      ⟨(range J.n).filter fun j => x0 j = 1, by
        rw [Finset.mem_filter, Finset.mem_powerset]
        exact ⟨Finset.filter_subset _ _, holds_congr (hrep x0 hx0) hh0⟩⟩
    refine ⟨ind S, ⟨hdom S, (Finset.mem_filter.1 hS).2⟩, fun y hy hhy => ?_⟩
    have : dot J.n a y = dot J.n a (ind ((range J.n).filter fun j => y j = 1)) :=
      Finset.sum_congr rfl fun j hj => by rw [← hrep y hy j (Finset.mem_range.1 hj)]
    rw [this]
    refine hmax _ ?_
    rw [Finset.mem_filter, Finset.mem_powerset]
    exact ⟨Finset.filter_subset _ _, holds_congr (hrep y hy) hhy⟩
  · have hdom : ∀ x, InDom J x ↔ InBox J.n x := fun x => by
      unfold InDom InBox; rw [hc]; simp
    have hall : ∀ x, LP.Holds J.n (boxRows J.n ++ cs) x ↔ InDom J x ∧ LP.Holds J.n cs x := by
      intro x
      rw [hdom, ← holds_boxRows]
      unfold LP.Holds
      simp only [List.mem_append]
      exact ⟨fun h => ⟨fun c hc => h c (Or.inl hc), fun c hc => h c (Or.inr hc)⟩,
        fun ⟨h1, h2⟩ c hc => hc.elim (h1 c) (h2 c)⟩
    obtain ⟨x, hx, hmax⟩ := LP.attains J.n (boxRows J.n ++ cs) a
      (hne.imp fun x hx => (hall x).2 hx) ⟨∑ j ∈ range J.n, |a j|, fun x hx => by
        have hb := (hdom x).1 ((hall x).1 hx).1
        refine Finset.sum_le_sum fun j hj => ?_
        have hj := Finset.mem_range.1 hj
        calc a j * x j ≤ |a j| * x j := mul_le_mul_of_nonneg_right (le_abs_self _) (hb j hj).1
          _ ≤ |a j| := mul_le_of_le_one_right (abs_nonneg _) (hb j hj).2⟩
    exact ⟨x, (hall x).1 hx, fun y hy hhy => hmax y ((hall y).2 ⟨hy, hhy⟩)⟩

/-- The rows of a list of scenarios. -/
def rowsOf (J : CI) (l : List ℕ) : List (Vec × ℚ) :=
  l.flatMap fun s => (List.range (J.nbCon s)).map fun i => (J.row s i, J.rhs s i)

theorem holds_rowsOf (J : CI) (l : List ℕ) (x : Vec) :
    LP.Holds J.n (rowsOf J l) x ↔ ∀ s ∈ l, RowsHold J s x := by
  unfold LP.Holds rowsOf RowsHold
  simp only [List.mem_flatMap, List.mem_map, List.mem_range]
  constructor
  · intro h s hs i hi
    exact h _ ⟨s, hs, i, hi, rfl⟩
  · rintro h c ⟨s, hs, i, hi, rfl⟩
    exact h s hs i hi

theorem rowsHold_inst (I : Inst) (s : ℕ) (x : Vec) : RowsHold (instCI I) s x ↔ Sat I s x := Iff.rfl

/-- The deterministic problem of a list of scenarios has an optimal solution as soon as it has a
feasible one. -/
theorem detOpt_exists (I : Inst) (l : List ℕ) (h : ∃ x, InX I x ∧ SatAll I l x) :
    ∃ v x, DetOpt I l v x := by
  obtain ⟨x, ⟨hx1, hx2⟩, hmax⟩ := dom_attains (instCI I) (rowsOf (instCI I) l) I.c
    (h.imp fun x hx => ⟨hx.1, (holds_rowsOf _ _ _).2 hx.2⟩)
  exact ⟨obj I x, x, ⟨hx1, (holds_rowsOf _ _ _).1 hx2, rfl⟩, fun y hy hs =>
    hmax y hy ((holds_rowsOf _ _ _).2 hs)⟩

theorem satAll_zero {I : Inst} (hb : ∀ s < I.N, ∀ i < I.m, 0 ≤ I.b s i) {l : List ℕ}
    (hl : ∀ s ∈ l, s < I.N) : SatAll I l fun _ => 0 := by
  intro s hs i hi
  have : dot I.n (I.A s i) (fun _ => 0) = 0 := by simp [dot]
  rw [this]; exact hb s (hl s hs) i hi

end Verif.Model
