import Verif.Model.Violations
import Verif.Lemmas.Knapsack
import Verif.Lemmas.Parse
import Verif.Lemmas.PartInst

/-!
# The compiled violation routine: sorting, one update
-/

open Finset

namespace Verif.Model
open Spec

/-! ## The comparison -/

theorem cppComp_false {p w : Vec} {a b : ℕ} :
    cppComp p w a b = false ↔
      (p a = 0 ∧ w a = 0) ∨ (¬ (p b = 0 ∧ w b = 0) ∧ p a * w b ≤ p b * w a) := by
  unfold cppComp
  by_cases ha : p a = 0 ∧ w a = 0
  · simp [ha]
  · by_cases hb : p b = 0 ∧ w b = 0
    · rw [if_neg ha, if_pos hb]; simp only [ha, hb]; simp
    · rw [if_neg ha, if_neg hb]; simp only [ha, hb]; simp

/-- On non-negative data the comparison is a strict weak order, as `std::sort` requires. -/
theorem cppComp_strictWeak (p w : Vec) (l : List ℕ) (hp : ∀ a ∈ l, 0 ≤ p a)
    (hw : ∀ a ∈ l, 0 ≤ w a) : StrictWeak (cppComp p w) l := by
  have hneg : ∀ a ∈ l, ∀ b ∈ l, ∀ d ∈ l, cppComp p w a b = false → cppComp p w b d = false →
      cppComp p w a d = false := by
    intro a ha b hb d hd h1 h2
    rw [cppComp_false] at h1 h2 ⊢
    rcases h1 with h1 | ⟨h1, h1'⟩
    · exact Or.inl h1
    rcases h2 with h2 | ⟨h2, h2'⟩
    · exact absurd h2 h1
    right
    refine ⟨h2, ?_⟩
    have hpa := hp a ha
    have hpb := hp b hb
    have hpd := hp d hd
    have hwa := hw a ha
    have hwb := hw b hb
    have hwd := hw d hd
    rcases hwb.lt_or_eq with hwb' | hwb'
    · have e1 := mul_le_mul_of_nonneg_right h1' hwd
      have e2 := mul_le_mul_of_nonneg_right h2' hwa
      have : (p a * w d) * w b ≤ (p d * w a) * w b := by nlinarith
      exact le_of_mul_le_mul_right this hwb'
    · have hpb' : 0 < p b := lt_of_le_of_ne hpb fun h => h1 ⟨h.symm, hwb'.symm⟩
      have : w d = 0 := by
        rw [← hwb', mul_zero] at h2'
        by_contra hne
        have : 0 < w d := lt_of_le_of_ne hwd (Ne.symm hne)
        have := mul_pos hpb' this
        linarith
      rw [this, mul_zero]
      exact mul_nonneg hpd hwa
  have hasym : ∀ a b, cppComp p w a b = true → cppComp p w b a = false := by
    intro a b h
    rw [cppComp_false]
    by_cases hb : p b = 0 ∧ w b = 0
    · exact Or.inl hb
    · right
      have h' : ¬ cppComp p w a b = false := by simp [h]
      rw [cppComp_false] at h'
      push Not at h'
      refine ⟨fun h0 => h'.1 h0.1 h0.2, ?_⟩
      have := h'.2 (fun h1 h2 => hb ⟨h1, h2⟩)
      linarith
  refine ⟨?_, ?_, hneg⟩
  · intro a _
    rw [cppComp_false]
    by_cases h : p a = 0 ∧ w a = 0
    · exact Or.inl h
    · exact Or.inr ⟨h, le_refl _⟩
  · intro a ha b hb d hd h1 h2
    by_contra h3
    have h3' : cppComp p w a d = false := by simpa using h3
    have := hneg a ha d hd b hb h3' (hasym b d h2)
    rw [h1] at this; cases this

theorem cppComp_ratio {p w : Vec} {a b : ℕ} (ha : 0 ≤ p a) (hwb : 0 ≤ w b)
    (h : cppComp p w b a = false) : p b * w a ≤ p a * w b := by
  rw [cppComp_false] at h
  rcases h with ⟨h1, h2⟩ | ⟨_, h⟩
  · rw [h1, zero_mul]; exact mul_nonneg ha hwb
  · exact h

/-! ## One update -/

/-- Items heavier than the tolerance. -/
def heavy (w : Vec) (l : List ℕ) : List ℕ := l.filter fun j => ¬ w j ≤ 1 / 10 ^ 6

/-- Items counted as weightless. -/
def light (w : Vec) (l : List ℕ) : List ℕ := l.filter fun j => w j ≤ 1 / 10 ^ 6

theorem cppZero_eq (p w : Vec) (l : List ℕ) (loss : ℚ) :
    cppZero p w l loss = -loss + ((light w l).map p).sum := by
  unfold cppZero light
  generalize -loss = v
  induction l generalizing v with
  | nil => simp
  | cons a l ih =>
    rw [List.foldl_cons, ih, List.filter_cons]
    by_cases h : w a ≤ 1 / 10 ^ 6
    · rw [if_pos h, if_pos (by simpa using h), List.map_cons, List.sum_cons]; ring
    · rw [if_neg h, if_neg (by simpa using h)]

theorem heavy_cons_light {w : Vec} {j : ℕ} {js : List ℕ} (h : w j ≤ 1 / 10 ^ 6) :
    heavy w (j :: js) = heavy w js := by
  unfold heavy; rw [List.filter_cons, if_neg (by simpa using h)]

theorem heavy_cons_heavy {w : Vec} {j : ℕ} {js : List ℕ} (h : ¬ w j ≤ 1 / 10 ^ 6) :
    heavy w (j :: js) = j :: heavy w js := by
  unfold heavy; rw [List.filter_cons, if_pos (by simpa using h)]

theorem mem_heavy {w : Vec} {j : ℕ} {js : List ℕ} :
    j ∈ heavy w js ↔ j ∈ js ∧ 1 / 10 ^ 6 < w j := by
  unfold heavy; rw [List.mem_filter]; simp

/-- The loop either stops above the current minimum or ends with a dual certificate. -/
theorem cppLoop_dual (p w : Vec) (cap : ℚ) (mn : WithTop ℚ) (js : List ℕ)
    (hp : ∀ j ∈ js, 0 ≤ p j) (hs : js.Pairwise fun a b => p b * w a ≤ p a * w b) (v wt : ℚ) :
    mn + ((1 / 10 ^ 6 : ℚ) : WithTop ℚ) ≤ ((cppLoop p w cap mn js v wt : ℚ) : WithTop ℚ)
    ∨ ∃ lam, 0 ≤ lam ∧ cppLoop p w cap mn js v wt
          = v + (lam * (cap - wt) + ((heavy w js).map fun j => max (p j - lam * w j) 0).sum)
        ∧ (lam = 0 ∨ ∃ j ∈ heavy w js, lam * w j ≤ p j) := by
  induction js generalizing v wt with
  | nil => right; exact ⟨0, le_refl _, by simp [cppLoop, heavy], Or.inl rfl⟩
  | cons j js ih =>
    obtain ⟨hs1, hs2⟩ := List.pairwise_cons.1 hs
    have hp' : ∀ k ∈ js, 0 ≤ p k := fun k hk => hp k (by simp [hk])
    unfold cppLoop
    by_cases hl : w j ≤ 1 / 10 ^ 6
    · rw [if_pos hl, heavy_cons_light hl]
      exact ih hp' hs2 v wt
    rw [if_neg hl, heavy_cons_heavy hl]
    have hwj : 0 < w j := lt_trans (by norm_num) (not_le.1 hl)
    have hpj := hp j (by simp)
    split_ifs with h1 h2
    · right
      refine ⟨p j / w j, div_nonneg hpj hwj.le, ?_, Or.inr ⟨j, by simp, ?_⟩⟩
      · have h0 : ((heavy w js).map fun k => max (p k - p j / w j * w k) 0).sum = 0 := by
          apply List.sum_eq_zero
          intro a ha
          obtain ⟨k, hk, rfl⟩ := List.mem_map.1 ha
          have := hs1 k (mem_heavy.1 hk).1
          apply max_eq_right
          rw [sub_nonpos, div_mul_eq_mul_div, le_div_iff₀ hwj]
          exact this
        rw [List.map_cons, List.sum_cons, h0, div_mul_cancel₀ _ hwj.ne', sub_self, max_self]
        field_simp
        ring
      · rw [div_mul_cancel₀ _ hwj.ne']
    · exact Or.inl h2
    · rcases ih hp' hs2 (v + p j) (wt + w j) with h | ⟨lam, hlam, he, hex⟩
      · exact Or.inl h
      · right
        have hle : lam * w j ≤ p j := by
          rcases hex with rfl | ⟨k, hk, hkl⟩
          · simpa using hpj
          · have hk' := mem_heavy.1 hk
            have hwk : 0 < w k := lt_trans (by norm_num) hk'.2
            have := hs1 k hk'.1
            have h3 : lam * w j * w k ≤ p j * w k := by nlinarith
            exact le_of_mul_le_mul_right h3 hwk
        refine ⟨lam, hlam, ?_, Or.inr ⟨j, by simp, hle⟩⟩
        rw [he, List.map_cons, List.sum_cons, max_eq_left (sub_nonneg.2 hle)]
        ring

theorem sum_light_heavy (w f : Vec) (n : ℕ) (l : List ℕ) (hl : l.Perm (List.range n)) :
    ((light w l).map f).sum + ((heavy w l).map f).sum = ∑ j ∈ range n, f j := by
  rw [list_sum_range, ← (hl.map f).sum_eq]
  unfold light heavy
  clear hl
  induction l with
  | nil => simp
  | cons a l ih =>
    rw [List.filter_cons, List.filter_cons, List.map_cons, List.sum_cons, ← ih]
    by_cases h : w a ≤ 1 / 10 ^ 6
    · rw [if_pos (by simpa using h), if_neg (by simpa using h), List.map_cons, List.sum_cons]; ring
    · rw [if_neg (by simpa using h), if_pos (by simpa using h), List.map_cons, List.sum_cons]; ring

theorem heavy_perm {w : Vec} {l l' : List ℕ} (h : l.Perm l') : (heavy w l).Perm (heavy w l') :=
  h.filter _

/-- What the updates need of the index list: a permutation of the items by decreasing ratio. -/
structure Ordered (n : ℕ) (p w : Vec) (l : List ℕ) : Prop where
  perm : l.Perm (List.range n)
  ratio : l.Pairwise fun a b => p b * w a ≤ p a * w b

theorem Ordered.reverse {n : ℕ} {p w : Vec} {l : List ℕ} (h : Ordered n p w l) :
    Ordered n w p l.reverse :=
  ⟨(List.reverse_perm l).trans h.perm, by
    rw [List.pairwise_reverse]
    exact h.ratio.imp fun {a b} hab => by linarith [mul_comm (w a) (p b), mul_comm (w b) (p a)]⟩

/-- The order in which `update` visits the items. -/
def visit (l : List ℕ) (reverse : Bool) : List ℕ := if reverse then l.reverse else l

/-- The value found by `update` before the comparison with the stored minimum. -/
def cppValue (p : Vec) (loss : ℚ) (w : Vec) (cap : ℚ) (mn : WithTop ℚ) (l : List ℕ)
    (reverse : Bool) : ℚ :=
  cppLoop p w cap mn (visit l reverse) (cppZero p w l loss) 0

theorem cppUpdate_eq (p : Vec) (loss : ℚ) (w : Vec) (cap : ℚ) (mn : WithTop ℚ) (l : List ℕ)
    (reverse : Bool) :
    cppUpdate p loss w cap mn l reverse
      = min mn ((cppValue p loss w cap mn l reverse : ℚ) : WithTop ℚ) := by
  have : cppUpdate p loss w cap mn l reverse
      = if ((cppValue p loss w cap mn l reverse : ℚ) : WithTop ℚ) < mn
        then ((cppValue p loss w cap mn l reverse : ℚ) : WithTop ℚ) else mn := rfl
  rw [this]
  by_cases h : ((cppValue p loss w cap mn l reverse : ℚ) : WithTop ℚ) < mn
  · rw [if_pos h, min_eq_right h.le]
  · rw [if_neg h, min_eq_left (not_lt.1 h)]

/-- Either the value is above the current minimum or it bounds the violation. -/
theorem cppValue_bound (n : ℕ) (p : Vec) (loss : ℚ) (w : Vec) (cap : ℚ) (mn : WithTop ℚ)
    (l : List ℕ) (reverse : Bool) (hp : ∀ j < n, 0 ≤ p j) (hw : ∀ j < n, 0 ≤ w j)
    (ho : Ordered n p w (visit l reverse)) :
    mn + ((1 / 10 ^ 6 : ℚ) : WithTop ℚ) ≤ ((cppValue p loss w cap mn l reverse : ℚ) : WithTop ℚ)
    ∨ ∀ x, InBox n x → dot n w x ≤ cap → dot n p x - loss ≤ cppValue p loss w cap mn l reverse := by
  have hperm : l.Perm (visit l reverse) := by
    unfold visit; split
    · exact (List.reverse_perm l).symm
    · exact List.Perm.refl _
  have hp' : ∀ j ∈ visit l reverse, 0 ≤ p j := fun j hj =>
    hp j (List.mem_range.1 (ho.perm.mem_iff.1 hj))
  unfold cppValue
  rcases cppLoop_dual p w cap mn (visit l reverse) hp' ho.ratio (cppZero p w l loss) 0 with
    h | ⟨lam, hlam, he, _⟩
  · exact Or.inl h
  · right
    intro x hx hxc
    rw [he, cppZero_eq]
    have h1 := knap_dual_bound n p w x cap lam hlam hx hxc
    have h2 := sum_light_heavy w (fun j => max (p j - lam * w j) 0) n l (hperm.trans ho.perm)
    have h3 : ((light w l).map fun j => max (p j - lam * w j) 0).sum ≤ ((light w l).map p).sum := by
      apply sum_map_le_sum_map
      intro j hj
      have hj' : j < n := List.mem_range.1 ((hperm.trans ho.perm).mem_iff.1
        (List.mem_filter.1 hj).1)
      apply max_le _ (hp j hj')
      have := mul_nonneg hlam (hw j hj')
      linarith
    have h4 : ((heavy w (visit l reverse)).map fun j => max (p j - lam * w j) 0).sum
        = ((heavy w l).map fun j => max (p j - lam * w j) 0).sum :=
      ((heavy_perm hperm.symm).map _).sum_eq
    rw [h4]
    linarith

/-- `update` never lowers the stored minimum below the violation of a point that satisfies the
constraint used as capacity. -/
theorem cppUpdate_valid (n : ℕ) (p : Vec) (loss : ℚ) (w : Vec) (cap : ℚ) (mn : WithTop ℚ)
    (l : List ℕ) (reverse : Bool) (hp : ∀ j < n, 0 ≤ p j) (hw : ∀ j < n, 0 ≤ w j)
    (ho : Ordered n p w (visit l reverse)) (x : Vec) (hx : InBox n x) (hxc : dot n w x ≤ cap)
    (hmn : ((dot n p x - loss : ℚ) : WithTop ℚ) ≤ mn) :
    ((dot n p x - loss : ℚ) : WithTop ℚ) ≤ cppUpdate p loss w cap mn l reverse := by
  rw [cppUpdate_eq]
  apply le_min hmn
  rcases cppValue_bound n p loss w cap mn l reverse hp hw ho with h | h
  · refine hmn.trans (le_trans ?_ h)
    have : (0 : WithTop ℚ) ≤ ((1 / 10 ^ 6 : ℚ) : WithTop ℚ) := by
      exact_mod_cast (by norm_num : (0 : ℚ) ≤ 1 / 10 ^ 6)
    exact le_add_of_nonneg_right this
  · exact_mod_cast h x hx hxc

/-! ## Exactness on one-decimal data -/

/-- A multiple of 1/10. -/
def Grid (q : ℚ) : Prop := ∃ k : ℤ, q = (k : ℚ) / 10

theorem Grid.add {a b : ℚ} (ha : Grid a) (hb : Grid b) : Grid (a + b) := by
  obtain ⟨k, rfl⟩ := ha
  obtain ⟨l, rfl⟩ := hb
  exact ⟨k + l, by push_cast; ring⟩

theorem Grid.sub {a b : ℚ} (ha : Grid a) (hb : Grid b) : Grid (a - b) := by
  obtain ⟨k, rfl⟩ := ha
  obtain ⟨l, rfl⟩ := hb
  exact ⟨k - l, by push_cast; ring⟩

theorem Grid.le_tol {a : ℚ} (ha : Grid a) : a ≤ 1 / 10 ^ 6 ↔ a ≤ 0 := by
  have := grid_gt_tol ha
  rw [← not_lt, ← not_lt (a := (0 : ℚ)), ← this]
  norm_num

/-- On one-decimal weights the value of the loop is attained by fractions of the items. -/
theorem cppLoop_attained (p w : Vec) (cap : ℚ) (mn : WithTop ℚ) (js : List ℕ) (hn : js.Nodup)
    (hw : ∀ j ∈ js, Grid (w j)) (hc : Grid cap) (v wt : ℚ) (hwt : Grid wt) (hle : wt ≤ cap) :
    ∃ y : Vec, (∀ i, 0 ≤ y i ∧ y i ≤ 1)
      ∧ ((heavy w js).map fun j => w j * y j).sum ≤ cap - wt
      ∧ cppLoop p w cap mn js v wt = v + ((heavy w js).map fun j => p j * y j).sum := by
  induction js generalizing v wt with
  | nil => exact ⟨fun _ => 0, by simp, by simpa [heavy] using hle, by simp [cppLoop, heavy]⟩
  | cons j js ih =>
    have hn' := List.nodup_cons.1 hn
    have hw' : ∀ k ∈ js, Grid (w k) := fun k hk => hw k (by simp [hk])
    unfold cppLoop
    by_cases hl : w j ≤ 1 / 10 ^ 6
    · rw [if_pos hl, heavy_cons_light hl]
      exact ih hn'.2 hw' v wt hwt hle
    rw [if_neg hl, heavy_cons_heavy hl]
    have hwj : 0 < w j := lt_trans (by norm_num) (not_le.1 hl)
    have ext : ∀ (q : ℚ) (y : Vec) (f : Vec),
        ((heavy w js).map fun i => f i * (if i = j then q else y i)).sum
          = ((heavy w js).map fun i => f i * y i).sum := by
      intro q y f
      congr 1
      refine List.map_congr_left fun i hi => ?_
      rw [if_neg]
      rintro rfl
      exact hn'.1 (mem_heavy.1 hi).1
    have build : ∀ (q : ℚ) (y : Vec) (r : ℚ), 0 ≤ q → q ≤ 1 → (∀ i, 0 ≤ y i ∧ y i ≤ 1) →
        w j * q + ((heavy w js).map fun i => w i * y i).sum ≤ cap - wt →
        r = v + (p j * q + ((heavy w js).map fun i => p i * y i).sum) →
        ∃ y : Vec, (∀ i, 0 ≤ y i ∧ y i ≤ 1)
          ∧ ((j :: heavy w js).map fun j => w j * y j).sum ≤ cap - wt
          ∧ r = v + ((j :: heavy w js).map fun j => p j * y j).sum := by
      intro q y r hq0 hq1 hy h1 h2
      refine ⟨fun i => if i = j then q else y i, fun i => ?_, ?_, ?_⟩
      · by_cases h : i = j
        · simp [h, hq0, hq1]
        · simp only [if_neg h]; exact hy i
      · rw [List.map_cons, List.sum_cons, ext q y w]; simpa using h1
      · rw [List.map_cons, List.sum_cons, ext q y p]; simpa using h2
    have hiff : wt + w j ≥ cap - 1 / 10 ^ 6 ↔ cap ≤ wt + w j := by
      have := ((hc.sub (hwt.add (hw j (by simp)))).le_tol)
      constructor
      · intro h; have := this.1 (by linarith); linarith
      · intro h; linarith [show (0 : ℚ) ≤ 1 / 10 ^ 6 by norm_num]
    have hzero : ((heavy w js).map fun i => w i * (fun _ => (0 : ℚ)) i).sum = 0
        ∧ ((heavy w js).map fun i => p i * (fun _ => (0 : ℚ)) i).sum = 0 := by simp
    split_ifs with h1 h2
    · rw [hiff] at h1
      refine build ((cap - wt) / w j) (fun _ => 0) _ (div_nonneg (by linarith) hwj.le)
        ((div_le_one hwj).2 (by linarith)) (fun _ => by norm_num) ?_ ?_
      · rw [hzero.1, mul_div_cancel₀ _ hwj.ne']; linarith
      · rw [hzero.2]; field_simp; ring
    · rw [hiff] at h1
      refine build 1 (fun _ => 0) _ zero_le_one (le_refl _) (fun _ => by norm_num) ?_ ?_
      · rw [hzero.1]; linarith
      · rw [hzero.2]; ring
    · rw [hiff] at h1
      obtain ⟨y, hy, hyc, hyr⟩ := ih hn'.2 hw' (v + p j) (wt + w j) (hwt.add (hw j (by simp)))
        (by linarith)
      refine build 1 y _ zero_le_one (le_refl _) hy (by linarith) ?_
      rw [hyr]; ring

/-- On non-negative one-decimal data `update` is an exact minimum: the stored value becomes the
smaller of itself and the maximum of the continuous knapsack. -/
theorem cppUpdate_exact (n : ℕ) (p : Vec) (loss : ℚ) (w : Vec) (cap : ℚ) (mn : WithTop ℚ)
    (l : List ℕ) (reverse : Bool) (hp : ∀ j < n, 0 ≤ p j) (hw : ∀ j < n, 0 ≤ w j)
    (hg : ∀ j < n, Grid (w j)) (hc : Grid cap) (hc0 : 0 ≤ cap)
    (ho : Ordered n p w (visit l reverse)) (K : ℚ)
    (hK : ∀ x, InBox n x → dot n w x ≤ cap → dot n p x - loss ≤ K)
    (hK' : ∃ x, InBox n x ∧ dot n w x ≤ cap ∧ dot n p x - loss = K) :
    cppUpdate p loss w cap mn l reverse = min mn (K : WithTop ℚ) := by
  have hperm : l.Perm (visit l reverse) := by
    unfold visit; split
    · exact (List.reverse_perm l).symm
    · exact List.Perm.refl _
  have hmem : ∀ j ∈ visit l reverse, j < n := fun j hj =>
    List.mem_range.1 (ho.perm.mem_iff.1 hj)
  have hnd : (visit l reverse).Nodup := ho.perm.nodup_iff.2 List.nodup_range
  have hge : cppValue p loss w cap mn l reverse ≤ K := by
    obtain ⟨y, hy, hyc, hyr⟩ := cppLoop_attained p w cap mn (visit l reverse) hnd
      (fun j hj => hg j (hmem j hj)) hc (cppZero p w l loss) 0 ⟨0, by simp⟩ hc0
    unfold cppValue
    rw [hyr, cppZero_eq]
    let x : Vec := fun j => if w j ≤ 1 / 10 ^ 6 then 1 else y j
    have hsum : ∀ f : Vec, dot n f x = ((light w l).map f).sum
        + ((heavy w (visit l reverse)).map fun j => f j * y j).sum := by
      intro f
      unfold dot
      rw [← sum_light_heavy w (fun j => f j * x j) n l (hperm.trans ho.perm)]
      congr 1
      · congr 1
        refine List.map_congr_left fun j hj => ?_
        have : w j ≤ 1 / 10 ^ 6 := by simpa using (List.mem_filter.1 hj).2
        simp only [x]; rw [if_pos this, mul_one]
      · rw [((heavy_perm hperm).map _).sum_eq]
        congr 1
        refine List.map_congr_left fun j hj => ?_
        have := (mem_heavy.1 hj).2
        simp only [x]; rw [if_neg (not_le.2 this)]
    have hlight : ((light w l).map w).sum = 0 := by
      apply List.sum_eq_zero
      intro a ha
      obtain ⟨j, hj, rfl⟩ := List.mem_map.1 ha
      have hj' := List.mem_filter.1 hj
      have hjn := hmem j (hperm.mem_iff.1 hj'.1)
      have : w j ≤ 1 / 10 ^ 6 := by simpa using hj'.2
      exact le_antisymm ((hg j hjn).le_tol.1 this) (hw j hjn)
    have := hK x (fun j _ => by
      by_cases h : w j ≤ 1 / 10 ^ 6
      · simp only [x]; rw [if_pos h]; norm_num
      · simp only [x]; rw [if_neg h]; exact hy j) (by rw [hsum w, hlight]; linarith)
    rw [hsum p] at this
    linarith
  rw [cppUpdate_eq]
  rcases cppValue_bound n p loss w cap mn l reverse hp hw ho with h | h
  · have h1 : mn ≤ ((cppValue p loss w cap mn l reverse : ℚ) : WithTop ℚ) := by
      refine le_trans (le_add_of_nonneg_right ?_) h
      exact_mod_cast (by norm_num : (0 : ℚ) ≤ 1 / 10 ^ 6)
    rw [min_eq_left h1, min_eq_left (h1.trans (by exact_mod_cast hge))]
  · obtain ⟨x, hx, hxc, hxe⟩ := hK'
    have := h x hx hxc
    rw [le_antisymm hge (by linarith)]

/-! ## Memory layout -/

theorem memA_eq (I : Inst) {s i j : ℕ} (hi : i < I.m) (hj : j < I.n) :
    memA I (s * I.m * I.n + i * I.n + j) = I.A s i j := by
  unfold memA
  have hn : 0 < I.n := by omega
  have hm : 0 < I.m := by omega
  have h1 : (s * I.m * I.n + i * I.n + j) / I.n = s * I.m + i := by
    rw [show s * I.m * I.n + i * I.n + j = I.n * (s * I.m + i) + j by ring,
      Nat.mul_add_div hn, Nat.div_eq_of_lt hj, Nat.add_zero]
  have h2 : (s * I.m * I.n + i * I.n + j) % I.n = j := by
    rw [show s * I.m * I.n + i * I.n + j = I.n * (s * I.m + i) + j by ring,
      Nat.mul_add_mod, Nat.mod_eq_of_lt hj]
  rw [mul_comm I.m I.n, ← Nat.div_div_eq_div_mul, h1, h2,
    show s * I.m + i = I.m * s + i by ring, Nat.mul_add_div hm, Nat.div_eq_of_lt hi,
    Nat.mul_add_mod, Nat.mod_eq_of_lt hi, Nat.add_zero]

theorem memB_eq (I : Inst) {s i : ℕ} (hi : i < I.m) : memB I (s * I.m + i) = I.b s i := by
  unfold memB
  have hm : 0 < I.m := by omega
  rw [show s * I.m + i = I.m * s + i by ring, Nat.mul_add_div hm, Nat.div_eq_of_lt hi,
    Nat.mul_add_mod, Nat.mod_eq_of_lt hi, Nat.add_zero]

/-- Address of entry `(s, t, i)` of the output array. -/
def addr (k m s t i : ℕ) : ℕ := s * (k * m) + t * m + i

theorem addr_div {k m s t i : ℕ} (ht : t < k) (hi : i < m) :
    addr k m s t i / (k * m) = s ∧ addr k m s t i / m % k = t ∧ addr k m s t i % m = i := by
  have hm : 0 < m := by omega
  have hk : 0 < k := by omega
  have h1 : addr k m s t i / m = s * k + t := by
    unfold addr
    rw [show s * (k * m) + t * m + i = m * (s * k + t) + i by ring,
      Nat.mul_add_div hm, Nat.div_eq_of_lt hi, Nat.add_zero]
  refine ⟨?_, ?_, ?_⟩
  · rw [mul_comm k m, ← Nat.div_div_eq_div_mul, h1, show s * k + t = k * s + t by ring,
      Nat.mul_add_div hk, Nat.div_eq_of_lt ht, Nat.add_zero]
  · rw [h1, show s * k + t = k * s + t by ring, Nat.mul_add_mod, Nat.mod_eq_of_lt ht]
  · unfold addr
    rw [show s * (k * m) + t * m + i = m * (s * k + t) + i by ring, Nat.mul_add_mod,
      Nat.mod_eq_of_lt hi]

theorem addr_inj {k m s t i s' t' i' : ℕ} (ht : t < k) (hi : i < m) (ht' : t' < k) (hi' : i' < m)
    (h : addr k m s t i = addr k m s' t' i') : s = s' ∧ t = t' ∧ i = i' := by
  obtain ⟨a1, a2, a3⟩ := addr_div (s := s) ht hi
  obtain ⟨b1, b2, b3⟩ := addr_div (s := s') ht' hi'
  rw [h] at a1 a2 a3
  exact ⟨a1.symm.trans b1, a2.symm.trans b2, a3.symm.trans b3⟩

/-! ## The sequence of calls -/

/-- The call made for row `i` of scenario `s` and row `l` of scenario `t`. -/
def mkOp (k n m s i t l : ℕ) : CppOp :=
  { slhs := s * m * n + i * n, srhs := s * m + i, tlhs := t * m * n + l * n, trhs := t * m + l
    sViol := addr k m s t i, tViol := addr k m t s l }

theorem mem_pyRange_one {a b x : ℕ} : x ∈ pyRange a b 1 ↔ a ≤ x ∧ x < b := by
  unfold pyRange
  simp only [List.mem_map, List.mem_range]
  constructor
  · rintro ⟨k, hk, rfl⟩; simp at hk; omega
  · rintro ⟨h1, h2⟩; exact ⟨x - a, by simp; omega, by omega⟩

/-- The calls of `compute`: all pairs of rows of one scenario, then all pairs of rows of two
scenarios. -/
theorem mem_cppOps (k n m : ℕ) (op : CppOp) :
    op ∈ cppOps1 k n m ++ cppOps2 k n m ↔
      (∃ s i l, s < k ∧ i < l ∧ l < m ∧ op = mkOp k n m s i s l)
      ∨ ∃ s t i l, s < t ∧ t < k ∧ i < m ∧ l < m ∧ op = mkOp k n m s i t l := by
  have e1 : ∀ s t i : ℕ, s * k * m + t * m + i = addr k m s t i := fun s t i => by
    unfold addr; ring
  rw [List.mem_append]
  unfold cppOps1 cppOps2
  simp only [List.mem_flatMap, List.mem_map, List.mem_range, mem_pyRange_one, e1]
  constructor
  · rintro (⟨s, hs, i, hi, l, ⟨hl1, hl2⟩, rfl⟩ | ⟨s, hs, t, ⟨ht1, ht2⟩, i, hi, l, hl, rfl⟩)
    · exact Or.inl ⟨s, i, l, hs, by omega, hl2, rfl⟩
    · exact Or.inr ⟨s, t, i, l, by omega, ht2, hi, hl, rfl⟩
  · rintro (⟨s, i, l, hs, hi, hl, rfl⟩ | ⟨s, t, i, l, hs, ht, hi, hl, rfl⟩)
    · exact Or.inl ⟨s, hs, i, by omega, l, ⟨by omega, hl⟩, rfl⟩
    · exact Or.inr ⟨s, by omega, t, ⟨by omega, ht⟩, i, hi, l, hl, rfl⟩

/-- Every call concerns existing scenarios and rows. -/
theorem mem_cppOps_bounds {k n m : ℕ} {op : CppOp} (h : op ∈ cppOps1 k n m ++ cppOps2 k n m) :
    ∃ s i t l, s < k ∧ i < m ∧ t < k ∧ l < m ∧ ¬ (s = t ∧ i = l) ∧ op = mkOp k n m s i t l := by
  rcases (mem_cppOps k n m op).1 h with ⟨s, i, l, h1, h2, h3, rfl⟩ | ⟨s, t, i, l, h1, h2, h3, h4, rfl⟩
  · exact ⟨s, i, s, l, h1, by omega, h1, h3, by omega, rfl⟩
  · exact ⟨s, i, t, l, by omega, h3, h2, h4, by omega, rfl⟩

end Verif.Model
