import Verif.Spec
import Mathlib.Algebra.BigOperators.Ring.Finset

/-!
# Linear programs over the rationals attain their optimum (Fourier–Motzkin elimination)
-/

open Finset

namespace Verif.LP

/-- A finite system `a.x <= b` in the first `n` variables. -/
def Holds (n : ℕ) (cs : List (Vec × ℚ)) (x : Vec) : Prop := ∀ c ∈ cs, dot n c.1 x ≤ c.2

theorem dot_succ (n : ℕ) (a x : Vec) : dot (n + 1) a x = dot n a x + a n * x n := by
  unfold dot; rw [Finset.sum_range_succ]

theorem dot_update (n : ℕ) (a x : Vec) (t : ℚ) : dot n a (Function.update x n t) = dot n a x := by
  unfold dot
  refine Finset.sum_congr rfl fun j hj => ?_
  rw [Function.update_of_ne (Finset.mem_range.1 hj).ne]

theorem exists_max (l : List ℚ) (h : l ≠ []) : ∃ m ∈ l, ∀ a ∈ l, a ≤ m := by
  induction l with
  | nil => exact absurd rfl h
  | cons a l ih =>
    by_cases hl : l = []
    · subst hl; exact ⟨a, by simp, by simp⟩
    · obtain ⟨m, hm, hmax⟩ := ih hl
      rcases le_total a m with h | h
      · exact ⟨m, by simp [hm], by simpa using ⟨h, hmax⟩⟩
      · exact ⟨a, by simp, by simpa using fun b hb => (hmax b hb).trans h⟩

theorem exists_min (l : List ℚ) (h : l ≠ []) : ∃ m ∈ l, ∀ a ∈ l, m ≤ a := by
  obtain ⟨m, hm, hmax⟩ := exists_max (l.map fun a => -a) (by simpa using h)
  obtain ⟨a, ha, rfl⟩ := List.mem_map.1 hm
  refine ⟨a, ha, fun b hb => ?_⟩
  have := hmax (-b) (List.mem_map.2 ⟨b, hb, rfl⟩)
  linarith

theorem exists_between_lists (lo up : List ℚ) (h : ∀ a ∈ lo, ∀ b ∈ up, a ≤ b) :
    ∃ t, (∀ a ∈ lo, a ≤ t) ∧ ∀ b ∈ up, t ≤ b := by
  by_cases hl : lo = []
  · subst hl
    by_cases hu : up = []
    · subst hu; exact ⟨0, by simp, by simp⟩
    · obtain ⟨m, _, hmin⟩ := exists_min up hu
      exact ⟨m, by simp, hmin⟩
  · obtain ⟨m, hm, hmax⟩ := exists_max lo hl
    exact ⟨m, hmax, fun b hb => h m hm b hb⟩

/-- Combination of a constraint with positive and one with negative last coefficient. -/
def combine (n : ℕ) (p q : Vec × ℚ) : Vec × ℚ :=
  (fun j => -q.1 n * p.1 j + p.1 n * q.1 j, -q.1 n * p.2 + p.1 n * q.2)

theorem dot_combine (n : ℕ) (p q : Vec × ℚ) (x : Vec) :
    dot n (combine n p q).1 x = -q.1 n * dot n p.1 x + p.1 n * dot n q.1 x := by
  unfold dot combine
  rw [Finset.mul_sum, Finset.mul_sum, ← Finset.sum_add_distrib]
  exact Finset.sum_congr rfl fun j _ => by ring

/-- Elimination of the last variable. -/
theorem eliminate (n : ℕ) (cs : List (Vec × ℚ)) :
    ∃ cs', ∀ x, Holds n cs' x ↔ ∃ t, Holds (n + 1) cs (Function.update x n t) := by
  refine ⟨(cs.filter fun c => c.1 n = 0) ++
    ((cs.filter fun c => 0 < c.1 n).flatMap fun p =>
      (cs.filter fun c => c.1 n < 0).map fun q => combine n p q), fun x => ?_⟩
  have hrow : ∀ (c : Vec × ℚ) (t : ℚ), dot (n + 1) c.1 (Function.update x n t)
      = dot n c.1 x + c.1 n * t := fun c t => by
    rw [dot_succ, dot_update, Function.update_self]
  unfold Holds
  constructor
  · intro h
    obtain ⟨t, ht1, ht2⟩ := exists_between_lists
      ((cs.filter fun c => c.1 n < 0).map fun q => (q.2 - dot n q.1 x) / q.1 n)
      ((cs.filter fun c => 0 < c.1 n).map fun p => (p.2 - dot n p.1 x) / p.1 n) (by
        intro a ha b hb
        obtain ⟨q, hq, rfl⟩ := List.mem_map.1 ha
        obtain ⟨p, hp, rfl⟩ := List.mem_map.1 hb
        have hq' : q.1 n < 0 := by simpa using (List.mem_filter.1 hq).2
        have hp' : 0 < p.1 n := by simpa using (List.mem_filter.1 hp).2
        have := h (combine n p q) (List.mem_append_right _
          (List.mem_flatMap.2 ⟨p, hp, List.mem_map.2 ⟨q, hq, rfl⟩⟩))
        rw [dot_combine] at this
        simp only [combine] at this
        rw [div_le_iff_of_neg hq', div_mul_eq_mul_div, div_le_iff₀ hp']
        nlinarith)
    refine ⟨t, fun c hc => ?_⟩
    rw [hrow]
    rcases lt_trichotomy (c.1 n) 0 with h0 | h0 | h0
    · have := ht1 _ (List.mem_map.2 ⟨c, List.mem_filter.2 ⟨hc, by simpa using h0⟩, rfl⟩)
      rw [div_le_iff_of_neg h0] at this
      linarith
    · have := h c (List.mem_append_left _ (List.mem_filter.2 ⟨hc, by simpa using h0⟩))
      rw [h0]; linarith
    · have := ht2 _ (List.mem_map.2 ⟨c, List.mem_filter.2 ⟨hc, by simpa using h0⟩, rfl⟩)
      rw [le_div_iff₀ h0] at this
      linarith
  · rintro ⟨t, ht⟩ c hc
    have hr := fun c hc => hrow c t ▸ ht c hc
    rcases List.mem_append.1 hc with hc | hc
    · obtain ⟨hc1, hc2⟩ := List.mem_filter.1 hc
      have := hr c hc1
      have h0 : c.1 n = 0 := by simpa using hc2
      rw [h0] at this; linarith
    · obtain ⟨p, hp, hc⟩ := List.mem_flatMap.1 hc
      obtain ⟨q, hq, rfl⟩ := List.mem_map.1 hc
      have hp' : 0 < p.1 n := by simpa using (List.mem_filter.1 hp).2
      have hq' : q.1 n < 0 := by simpa using (List.mem_filter.1 hq).2
      have h1 := hr p (List.mem_filter.1 hp).1
      have h2 := hr q (List.mem_filter.1 hq).1
      rw [dot_combine]
      simp only [combine]
      nlinarith

/-- Projection on the first variable. -/
theorem project (n : ℕ) (cs : List (Vec × ℚ)) :
    ∃ cs', ∀ v : ℚ, (Holds 1 cs' fun _ => v) ↔ ∃ x, x 0 = v ∧ Holds (n + 1) cs x := by
  induction n generalizing cs with
  | zero =>
    refine ⟨cs, fun v => ?_⟩
    have : ∀ x : Vec, x 0 = v → (Holds 1 cs x ↔ Holds 1 cs fun _ => v) := by
      intro x hx
      unfold Holds dot
      simp [hx]
    exact ⟨fun h => ⟨fun _ => v, rfl, h⟩, fun ⟨x, hx, h⟩ => (this x hx).1 h⟩
  | succ n ih =>
    obtain ⟨cs1, h1⟩ := eliminate (n + 1) cs
    obtain ⟨cs2, h2⟩ := ih cs1
    refine ⟨cs2, fun v => (h2 v).trans ?_⟩
    constructor
    · rintro ⟨x, hx, h⟩
      obtain ⟨t, ht⟩ := (h1 x).1 h
      exact ⟨_, by rw [Function.update_of_ne (by omega)]; exact hx, ht⟩
    · rintro ⟨x, hx, h⟩
      exact ⟨x, hx, (h1 x).2 ⟨x (n + 1), by rw [Function.update_eq_self]; exact h⟩⟩

/-- The negated vector. -/
def neg (a : Vec) : Vec := fun j => -a j

/-- A value as variable 0, the others shifted by one. -/
def shift (a : Vec) (v : ℚ) : Vec := fun j => if j = 0 then v else a (j - 1)

/-- **Attainment.** A linear objective that is bounded above on a non-empty polyhedron has a
maximal point. -/
theorem attains (n : ℕ) (cs : List (Vec × ℚ)) (c : Vec) (hne : ∃ x, Holds n cs x)
    (hb : ∃ B, ∀ x, Holds n cs x → dot n c x ≤ B) :
    ∃ x, Holds n cs x ∧ ∀ y, Holds n cs y → dot n c y ≤ dot n c x := by
  have hdot : ∀ (a : Vec) (v : ℚ) (x : Vec),
      dot (n + 1) (shift a v) x = v * x 0 + dot n a fun j => x (j + 1) := by
    intro a v x
    unfold dot
    rw [Finset.sum_range_succ']
    simp [shift, add_comm]
  obtain ⟨cs', h'⟩ := project n
    ((shift c (-1), 0) :: (shift (neg c) 1, 0) :: cs.map fun k => (shift k.1 0, k.2))
  have hneg : ∀ x : Vec, dot n (neg c) x = -dot n c x := fun x => by
    unfold dot neg; rw [← Finset.sum_neg_distrib]; exact Finset.sum_congr rfl fun j _ => by ring
  have hset : ∀ v : ℚ, (Holds 1 cs' fun _ => v) ↔ ∃ x, Holds n cs x ∧ dot n c x = v := by
    intro v
    rw [h']
    constructor
    · rintro ⟨x, hx, h⟩
      unfold Holds at h
      simp only [List.forall_mem_cons, List.forall_mem_map] at h
      obtain ⟨ha, hb, hc⟩ := h
      rw [hdot] at ha hb
      rw [hneg] at hb
      refine ⟨fun j => x (j + 1), fun k hk => ?_, ?_⟩
      · have := hc k hk
        rw [hdot] at this; linarith
      · rw [hx] at ha hb; linarith
    · rintro ⟨x, h, hx⟩
      refine ⟨shift x v, by simp [shift], ?_⟩
      have hsh : (fun j => shift x v (j + 1)) = x := by funext j; simp [shift]
      have h0 : shift x v 0 = v := by simp [shift]
      unfold Holds
      simp only [List.forall_mem_cons, List.forall_mem_map]
      refine ⟨?_, ?_, fun k hk => ?_⟩
      · rw [hdot, hsh, h0, hx]; linarith
      · rw [hdot, hsh, h0, hneg, hx]; linarith
      · rw [hdot, hsh]; have := h k hk; linarith
  have hone : ∀ v : ℚ, (Holds 1 cs' fun _ => v) ↔ ∀ k ∈ cs', k.1 0 * v ≤ k.2 := by
    intro v; unfold Holds dot; simp
  obtain ⟨x0, hx0⟩ := hne
  obtain ⟨B, hB⟩ := hb
  have hv0 : ∀ k ∈ cs', k.1 0 * dot n c x0 ≤ k.2 := (hone _).1 ((hset _).2 ⟨x0, hx0, rfl⟩)
  have hup : (cs'.filter fun k => 0 < k.1 0).map (fun k => k.2 / k.1 0) ≠ [] := by
    intro hnil
    rw [List.map_eq_nil_iff, List.filter_eq_nil_iff] at hnil
    have hbig : Holds 1 cs' fun _ => max (dot n c x0) B + 1 := by
      rw [hone]
      intro k hk
      have h1 : k.1 0 ≤ 0 := by simpa using hnil k hk
      have h2 : dot n c x0 ≤ max (dot n c x0) B + 1 := by
        linarith [le_max_left (dot n c x0) B]
      exact (mul_le_mul_of_nonpos_left h2 h1).trans (hv0 k hk)
    obtain ⟨x, hx, hxe⟩ := (hset _).1 hbig
    have := hB x hx
    linarith [le_max_right (dot n c x0) B]
  obtain ⟨m, hm, hmin⟩ := exists_min _ hup
  have hle : ∀ v : ℚ, (Holds 1 cs' fun _ => v) → v ≤ m := by
    intro v hv
    obtain ⟨k, hk, rfl⟩ := List.mem_map.1 hm
    obtain ⟨hk1, hk2⟩ := List.mem_filter.1 hk
    have hpos : 0 < k.1 0 := by simpa using hk2
    rw [le_div_iff₀ hpos]
    have := (hone v).1 hv k hk1
    linarith
  have hmem : Holds 1 cs' fun _ => m := by
    rw [hone]
    intro k hk
    rcases lt_or_ge 0 (k.1 0) with h | h
    · have := hmin _ (List.mem_map.2 ⟨k, List.mem_filter.2 ⟨hk, by simpa using h⟩, rfl⟩)
      rw [le_div_iff₀ h] at this
      linarith
    · have := hle _ ((hset _).2 ⟨x0, hx0, rfl⟩)
      exact (mul_le_mul_of_nonpos_left this h).trans (hv0 k hk)
  obtain ⟨x, hx, hxe⟩ := (hset _).1 hmem
  refine ⟨x, hx, fun y hy => ?_⟩
  rw [hxe]
  exact hle _ ((hset _).2 ⟨y, hy, rfl⟩)

end Verif.LP
