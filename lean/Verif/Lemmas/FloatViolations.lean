import Verif.Model.FloatViolations
import Verif.Lemmas.Violations
import Verif.Props.Float

/-!
# The compiled violation routine in double precision: one update
-/

open Finset

namespace Verif.Model
open Spec Props

/-- Relative error of one operation (violations.h:37-83). -/
def ulp : ℚ := 1 / 2 ^ 53

theorem ulp_pos : 0 < ulp := by unfold ulp; norm_num

theorem ulp_small : ulp ≤ 1 / 10 ^ 15 := by unfold ulp; norm_num

theorem rd_err (q : ℚ) : |rd q - q| ≤ ulp * |q| := by
  unfold rd ulp
  by_cases h : 0 ≤ q
  · rw [if_pos h, abs_of_nonneg h]; exact fl64_err h
  · have h' : 0 ≤ -q := by linarith
    rw [if_neg h, abs_of_neg (not_le.1 h), show -fl64 (-q) - q = -(fl64 (-q) - -q) by ring, abs_neg]
    exact fl64_err h'

theorem rd_near {q B : ℚ} (h : |q| ≤ B) : |rd q - q| ≤ ulp * B :=
  (rd_err q).trans (mul_le_mul_of_nonneg_left h ulp_pos.le)

/-- A rounded operation on perturbed arguments. -/
theorem rd_close {q' q e B : ℚ} (h : |q' - q| ≤ e) (hB : |q| + e ≤ B) :
    |rd q' - q| ≤ e + ulp * B := by
  have h1 : |q'| ≤ B := by
    have := abs_sub_abs_le_abs_sub q' q
    linarith
  have h2 := rd_near h1
  calc |rd q' - q| = |(rd q' - q') + (q' - q)| := by ring_nf
    _ ≤ |rd q' - q'| + |q' - q| := abs_add_le _ _
    _ ≤ _ := by linarith

theorem tol6_bounds : 9 / 10 ^ 7 ≤ tol6 ∧ tol6 ≤ 11 / 10 ^ 7 := by
  have h1 := le_fl64 (q := (1 / 10 ^ 6 : ℚ)) (by norm_num)
  have h2 := fl64_le (q := (1 / 10 ^ 6 : ℚ)) (by norm_num)
  unfold tol6
  constructor
  · refine le_trans ?_ h1; norm_num
  · refine h2.trans ?_; norm_num

/-- Exact quotients of perturbed arguments. -/
theorem last_mid {p p' w w' r r' e L : ℚ} (hp : 0 ≤ p) (hp' : |p' - p| ≤ ulp * p) (hw : 0 < w)
    (hw' : |w' - w| ≤ ulp * w) (hr : 0 ≤ r) (hrw : r ≤ w) (he : |r' - r| ≤ e) (hL : p ≤ L * w)
    (hL0 : 0 ≤ L) (hw'0 : 0 < w') (hpr : p * (r + e) ≤ w * (p + L * e)) :
    |p' * r' / w' - p * r / w| ≤ (1 + 2 * ulp) * (L * e + ulp * (2 * p + L * e)) := by
  have hu := ulp_pos
  have hs := ulp_small
  have he0 : 0 ≤ e := (abs_nonneg _).trans he
  obtain ⟨hw1, hw2⟩ := abs_le.1 hw'
  obtain ⟨he1, he2⟩ := abs_le.1 he
  have hwlow : w * (1 - ulp) ≤ w' := by linarith
  have hrabs : |r'| ≤ r + e := abs_le.2 ⟨by linarith, by linarith⟩
  have e1 : p' * r' / w' - p * r / w = ((p' - p) * r' * w + p * (r' - r) * w - p * r * (w' - w)) / (w * w') := by
    field_simp; ring
  have hww : 0 < w * w' := mul_pos hw hw'0
  rw [e1, abs_div, abs_of_pos hww, div_le_iff₀ hww]
  have n1 : |(p' - p) * r' * w| ≤ ulp * p * (r + e) * w := by
    rw [abs_mul, abs_mul, abs_of_pos hw]
    exact mul_le_mul_of_nonneg_right (mul_le_mul hp' hrabs (abs_nonneg _) (by positivity)) hw.le
  have n2 : |p * (r' - r) * w| ≤ p * e * w := by
    rw [abs_mul, abs_mul, abs_of_pos hw, abs_of_nonneg hp]
    exact mul_le_mul_of_nonneg_right (mul_le_mul_of_nonneg_left he hp) hw.le
  have n3 : |p * r * (w' - w)| ≤ p * r * (ulp * w) := by
    rw [abs_mul, abs_of_nonneg (mul_nonneg hp hr)]
    exact mul_le_mul_of_nonneg_left hw' (mul_nonneg hp hr)
  have n4 : |(p' - p) * r' * w + p * (r' - r) * w - p * r * (w' - w)|
      ≤ ulp * p * (r + e) * w + p * e * w + p * r * (ulp * w) :=
    (abs_sub _ _).trans (add_le_add ((abs_add_le _ _).trans (add_le_add n1 n2)) n3)
  have n5 : ulp * p * (r + e) * w + p * e * w + p * r * (ulp * w)
      ≤ (w * w) * (L * e + ulp * (2 * p + L * e)) := by
    have a1 : p * e ≤ w * (L * e) := by
      have := mul_le_mul_of_nonneg_right hL he0; nlinarith
    have a2 : p * r ≤ w * p := by
      have := mul_le_mul_of_nonneg_left hrw hp; linarith
    have a3 : ulp * (p * (r + e)) ≤ ulp * (w * (p + L * e)) := mul_le_mul_of_nonneg_left hpr hu.le
    have a4 : ulp * (p * r) ≤ ulp * (w * p) := mul_le_mul_of_nonneg_left a2 hu.le
    have : (ulp * (p * (r + e)) + p * e + ulp * (p * r)) * w
        ≤ (ulp * (w * (p + L * e)) + w * (L * e) + ulp * (w * p)) * w :=
      mul_le_mul_of_nonneg_right (by linarith) hw.le
    nlinarith
  have hS : 0 ≤ L * e + ulp * (2 * p + L * e) := by positivity
  refine n4.trans (n5.trans ?_)
  have h1 : w * w ≤ (1 + 2 * ulp) * (w * w') := by
    have h2 : w ≤ (1 + 2 * ulp) * w' := by
      have : (1 + 2 * ulp) * (w * (1 - ulp)) ≤ (1 + 2 * ulp) * w' :=
        mul_le_mul_of_nonneg_left hwlow (by positivity)
      have h3 : 1 ≤ (1 + 2 * ulp) * (1 - ulp) := by nlinarith
      have := mul_le_mul_of_nonneg_right h3 hw.le
      linarith
    have := mul_le_mul_of_nonneg_left h2 hw.le
    linarith
  have := mul_le_mul_of_nonneg_right h1 hS
  linarith

/-- The fraction of the last item. -/
theorem last_term {p p' w w' r r' e L : ℚ} (hp : 0 ≤ p) (hp' : |p' - p| ≤ ulp * p) (hw : 0 < w)
    (hw' : |w' - w| ≤ ulp * w) (hr : 0 ≤ r) (hrw : r ≤ w) (he : |r' - r| ≤ e) (hL : p ≤ L * w)
    (hLp : L * e ≤ p) : |rd (rd (p' * r') / w') - p * r / w| ≤ L * e + 10 * ulp * p := by
  have hu := ulp_pos
  have hs := ulp_small
  have he0 : 0 ≤ e := (abs_nonneg _).trans he
  have hL0 : 0 ≤ L := by
    by_contra h
    have : L * w < 0 := mul_neg_of_neg_of_pos (not_le.1 h) hw
    linarith
  obtain ⟨hw1, hw2⟩ := abs_le.1 hw'
  obtain ⟨hp1, hp2⟩ := abs_le.1 hp'
  obtain ⟨he1, he2⟩ := abs_le.1 he
  have hw'0 : 0 < w' := by nlinarith
  have hwlow : w * (1 - ulp) ≤ w' := by linarith
  have hrabs : |r'| ≤ r + e := abs_le.2 ⟨by linarith, by linarith⟩
  have hp'0 : 0 ≤ p' := by nlinarith
  -- size of the quotient
  set x := p' * r' with hx
  have hxabs : |x| ≤ p * (1 + ulp) * (r + e) := by
    rw [hx, abs_mul, abs_of_nonneg hp'0]
    exact mul_le_mul (by linarith) hrabs (abs_nonneg _) (by positivity)
  have hpr : p * (r + e) ≤ w * (p + L * e) := by
    have := mul_le_mul_of_nonneg_left hrw hp
    have := mul_le_mul_of_nonneg_right hL he0
    nlinarith
  have hq : |x| / w' ≤ (1 + 3 * ulp) * (p + L * e) := by
    rw [div_le_iff₀ hw'0]
    have h1 : |x| ≤ (1 + ulp) * (w * (p + L * e)) := by
      refine hxabs.trans ?_
      have := mul_le_mul_of_nonneg_left hpr (show (0 : ℚ) ≤ 1 + ulp by linarith)
      linarith
    have hpe : 0 ≤ p + L * e := by positivity
    have h2 : (1 + 3 * ulp) * (p + L * e) * (w * (1 - ulp)) ≤ (1 + 3 * ulp) * (p + L * e) * w' :=
      mul_le_mul_of_nonneg_left hwlow (by positivity)
    refine h1.trans (le_trans ?_ h2)
    have h3 : 0 ≤ w * (p + L * e) := by positivity
    have h4 : (1 + ulp) ≤ (1 + 3 * ulp) * (1 - ulp) := by nlinarith
    have := mul_le_mul_of_nonneg_right h4 h3
    linarith
  have hpe : 0 ≤ p + L * e := by positivity
  have hy : |rd x / w' - x / w'| ≤ ulp * ((1 + 3 * ulp) * (p + L * e)) := by
    rw [← sub_div, abs_div, abs_of_pos hw'0]
    calc |rd x - x| / w' ≤ ulp * |x| / w' := div_le_div_of_nonneg_right (rd_err x) hw'0.le
      _ = ulp * (|x| / w') := by ring
      _ ≤ _ := mul_le_mul_of_nonneg_left hq hu.le
  have hz : |rd (rd x / w') - rd x / w'| ≤ ulp * (11 / 10 * (p + L * e)) := by
    apply rd_near
    have h1 := abs_sub_abs_le_abs_sub (rd x / w') (x / w')
    rw [abs_div x, abs_of_pos hw'0] at h1
    have h2 : ulp * ((1 + 3 * ulp) * (p + L * e)) + (1 + 3 * ulp) * (p + L * e) ≤ 11 / 10 * (p + L * e) := by
      have : ulp * (1 + 3 * ulp) + (1 + 3 * ulp) ≤ 11 / 10 := by nlinarith
      have := mul_le_mul_of_nonneg_right this hpe
      linarith
    linarith
  have hm : |x / w' - p * r / w| ≤ (1 + 2 * ulp) * (L * e + ulp * (2 * p + L * e)) :=
    last_mid hp hp' hw hw' hr hrw he hL hL0 hw'0 hpr
  have hLe : 0 ≤ L * e := by positivity
  have htot : |rd (rd x / w') - p * r / w|
      ≤ ulp * (11 / 10 * (p + L * e)) + ulp * ((1 + 3 * ulp) * (p + L * e))
        + (1 + 2 * ulp) * (L * e + ulp * (2 * p + L * e)) := by
    calc |rd (rd x / w') - p * r / w|
        = |(rd (rd x / w') - rd x / w') + (rd x / w' - x / w') + (x / w' - p * r / w)| := by ring_nf
      _ ≤ |rd (rd x / w') - rd x / w'| + |rd x / w' - x / w'| + |x / w' - p * r / w| :=
          (abs_add_le _ _).trans (add_le_add (abs_add_le _ _) (le_refl _))
      _ ≤ _ := by linarith
  refine htot.trans ?_
  have c1 : ulp * (1 + 3 * ulp) ≤ 11 / 10 * ulp := by nlinarith
  have c2 := mul_le_mul_of_nonneg_right c1 hpe
  have c3 : (1 + 2 * ulp) * ulp ≤ 11 / 10 * ulp := by nlinarith
  have c4 := mul_le_mul_of_nonneg_right c3 (show 0 ≤ 2 * p + L * e by positivity)
  have c5 : ulp * (L * e) ≤ ulp * p := mul_le_mul_of_nonneg_left hLp hu.le
  nlinarith

/-- Decimal data `p`, `w`, `cap` and the doubles `p'`, `w'`, `cap'` next to it; `Bv` and `Bw` bound
values and weights. -/
structure NearData (l : List ℕ) (p w p' w' : Vec) (cap cap' Bv Bw : ℚ) (n : ℕ) : Prop where
  p0 : ∀ j ∈ l, 0 ≤ p j
  pe : ∀ j ∈ l, |p' j - p j| ≤ ulp * p j
  w0 : ∀ j ∈ l, 0 ≤ w j
  wg : ∀ j ∈ l, Grid (w j)
  we : ∀ j ∈ l, |w' j - w j| ≤ ulp * w j
  c0 : 0 ≤ cap
  cg : Grid cap
  ce : |cap' - cap| ≤ ulp * cap
  bw : ∀ j ∈ l, cap + w j + 1 ≤ Bw
  bw1 : cap + 1 ≤ Bw
  pB : ∀ j ∈ l, p j ≤ Bv
  smallW : (n + 3) * (2 * ulp * Bw) ≤ 1 / 10 ^ 7
  smallV : (n + 11) * (2 * ulp * Bv) ≤ 1 / 2

theorem NearData.tail {j : ℕ} {l : List ℕ} {p w p' w' : Vec} {cap cap' Bv Bw : ℚ} {n : ℕ}
    (h : NearData (j :: l) p w p' w' cap cap' Bv Bw n) : NearData l p w p' w' cap cap' Bv Bw n :=
  { h with
    p0 := fun i hi => h.p0 i (by simp [hi])
    pe := fun i hi => h.pe i (by simp [hi])
    w0 := fun i hi => h.w0 i (by simp [hi])
    wg := fun i hi => h.wg i (by simp [hi])
    we := fun i hi => h.we i (by simp [hi])
    bw := fun i hi => h.bw i (by simp [hi])
    pB := fun i hi => h.pB i (by simp [hi]) }

/-- Error of one update. -/
def flErr (n : ℕ) (Bv : ℚ) : ℚ := 2 * ulp * ((n + 10) * Bv)

/-- The same items count as weightless. -/
theorem light_iff {w w' : ℚ} (hw : 0 ≤ w) (hg : Grid w) (he : |w' - w| ≤ ulp * w) :
    w' ≤ tol6 ↔ w ≤ 1 / 10 ^ 6 := by
  obtain ⟨t1, t2⟩ := tol6_bounds
  obtain ⟨e1, e2⟩ := abs_le.1 he
  have hs := ulp_small
  constructor
  · intro h
    by_contra hc
    have h1 : 1 / 10 ≤ w := by
      obtain ⟨k, rfl⟩ := hg
      have : (0 : ℚ) < k := by
        have := lt_trans (by norm_num : (0 : ℚ) < 1 / 10 ^ 6) (not_le.1 hc)
        linarith
      have : (1 : ℚ) ≤ k := by exact_mod_cast (by exact_mod_cast this : (0 : ℤ) < k)
      linarith
    have : ulp * w ≤ 1 / 10 ^ 15 * w := mul_le_mul_of_nonneg_right hs hw
    linarith
  · intro h
    have : w = 0 := le_antisymm (hg.le_tol.1 h) hw
    subst this
    have : w' = 0 := by simp at he; exact he
    rw [this]
    linarith

theorem cppLoop_ge (p w : Vec) (cap : ℚ) (js : List ℕ) (hp : ∀ j ∈ js, 0 ≤ p j) (v wt : ℚ)
    (hwt : wt ≤ cap) : v ≤ cppLoop p w cap ⊤ js v wt := by
  induction js generalizing v wt with
  | nil => exact le_refl _
  | cons j js ih =>
    have hp' : ∀ i ∈ js, 0 ≤ p i := fun i hi => hp i (by simp [hi])
    have hj := hp j (by simp)
    unfold cppLoop
    split_ifs with h1 h2 h3
    · exact ih hp' v wt hwt
    · have hw : 0 < w j := lt_trans (by norm_num) (not_le.1 h1)
      have : 0 ≤ p j * (cap - (wt + w j - w j)) / w j :=
        div_nonneg (mul_nonneg hj (by linarith)) hw.le
      linarith
    · linarith
    · have := ih hp' (v + p j) (wt + w j) (by push Not at h2; linarith [show (0:ℚ) < 1 / 10 ^ 6 by norm_num])
      linarith

/-- Heavy weights are at least one tenth. -/
theorem tenth_le_of_heavy {w : ℚ} (hg : Grid w) (h : ¬ w ≤ 1 / 10 ^ 6) : 1 / 10 ≤ w := by
  obtain ⟨k, rfl⟩ := hg
  have : (0 : ℚ) < k := by
    have := lt_trans (by norm_num : (0 : ℚ) < 1 / 10 ^ 6) (not_le.1 h)
    linarith
  have : (1 : ℚ) ≤ k := by exact_mod_cast (by exact_mod_cast this : (0 : ℤ) < k)
  linarith

/-- The loop in double precision against the exact loop without early stop: either it runs to the
end and is close, or it stops early above the stored minimum, and not above the exact value.  The items
are visited by decreasing ratio, so the ratio of the last one times the capacity is at most the
profit `T` collected so far plus its own. -/
theorem flLoop_close {p w p' w' : Vec} {cap cap' Bv Bw : ℚ} {n : ℕ} (mn : WithTop ℚ) (js : List ℕ)
    (h : NearData js p w p' w' cap cap' Bv Bw n) (hBv : 1 ≤ Bv)
    (ho : js.Pairwise fun a b => p b * w a ≤ p a * w b) (k : ℕ) (v v' wt wt' T : ℚ)
    (hk : k + (heavy w js).length ≤ n) (hv : |v' - v| ≤ k * (ulp * Bv) + ulp * T)
    (hwt : |wt' - wt| ≤ k * (ulp * cap) + ulp * wt) (hwt0 : 0 ≤ wt) (hwtc : wt ≤ cap) (hg : Grid wt)
    (hT0 : 0 ≤ T) (hT : T + ((heavy w js).map p).sum ≤ Bv) (hR : ∀ j ∈ js, p j * wt ≤ w j * T)
    (hlow : -(Bv - 1) ≤ v) (hup : v + ((heavy w js).map p).sum ≤ Bv - 1) :
    |flLoop p' w' cap' mn js v' wt' - cppLoop p w cap ⊤ js v wt| ≤ flErr n Bv
    ∨ (flMin mn ≤ ((flLoop p' w' cap' mn js v' wt' : ℚ) : WithTop ℚ)
      ∧ flLoop p' w' cap' mn js v' wt' ≤ cppLoop p w cap ⊤ js v wt + flErr n Bv) := by
  have hu := ulp_pos
  have hs := ulp_small
  have hBw : 1 ≤ Bw := by linarith [h.bw1, h.c0]
  have huv : 0 ≤ ulp * Bv := by positivity
  have huw : 0 ≤ ulp * Bw := by positivity
  have hc0 := h.c0
  have huc : 0 ≤ ulp * cap := by positivity
  have hn0 : (0 : ℚ) ≤ n := by positivity
  have hD : flErr n Bv = 2 * ((n + 10) * (ulp * Bv)) := by
    unfold flErr; ring
  induction js generalizing k v v' wt wt' T with
  | nil =>
    left
    have hkn : (k : ℚ) ≤ n := by
      have : k ≤ n := by simpa [heavy] using hk
      exact_mod_cast this
    unfold flLoop cppLoop
    have := mul_le_mul_of_nonneg_right hkn huv
    have hTB : ulp * T ≤ ulp * Bv := mul_le_mul_of_nonneg_left (by simpa [heavy] using hT) hu.le
    have : 0 ≤ n * (ulp * Bv) := mul_nonneg hn0 huv
    rw [hD]
    linarith
  | cons j js ih =>
    have hj : j ∈ j :: js := by simp
    have hpj := h.p0 j hj
    have hwj := h.w0 j hj
    have hlt := light_iff hwj (h.wg j hj) (h.we j hj)
    obtain ⟨ho1, ho2⟩ := List.pairwise_cons.1 ho
    unfold flLoop cppLoop
    by_cases hl : w j ≤ 1 / 10 ^ 6
    · rw [if_pos hl, if_pos (hlt.2 hl)]
      rw [heavy_cons_light hl] at hk hup hT
      exact ih h.tail ho2 k v v' wt wt' T hk hv hwt hwt0 hwtc hg hT0 hT
        (fun i hi => hR i (by simp [hi])) hlow hup
    rw [if_neg hl, if_neg (fun hh => hl (hlt.1 hh))]
    rw [heavy_cons_heavy hl] at hk hup hT
    rw [List.length_cons] at hk
    rw [List.map_cons, List.sum_cons] at hup hT
    have hw1 : 1 / 10 ≤ w j := tenth_le_of_heavy (h.wg j hj) hl
    have hwp : 0 < w j := by linarith
    have hrest : 0 ≤ ((heavy w js).map p).sum := by
      apply List.sum_nonneg
      intro a ha
      obtain ⟨i, hi, rfl⟩ := List.mem_map.1 ha
      exact h.p0 i (by simp [(mem_heavy.1 hi).1])
    have hkn : (k : ℚ) + 1 ≤ n := by
      have : k + 1 ≤ n := by omega
      exact_mod_cast this
    have hk0 : (0 : ℚ) ≤ k := by positivity
    -- scaled bounds
    have kv : k * (ulp * Bv) ≤ (n - 1) * (ulp * Bv) := mul_le_mul_of_nonneg_right (by linarith) huv
    have kw : k * (ulp * Bw) ≤ (n - 1) * (ulp * Bw) := mul_le_mul_of_nonneg_right (by linarith) huw
    have sV : (n + 11) * (2 * (ulp * Bv)) ≤ 1 / 2 := by have := h.smallV; linarith
    have sW : (n + 3) * (2 * (ulp * Bw)) ≤ 1 / 10 ^ 7 := by have := h.smallW; linarith
    have kv0 : 0 ≤ k * (ulp * Bv) := mul_nonneg hk0 huv
    have kc0 : 0 ≤ k * (ulp * cap) := mul_nonneg hk0 huc
    have pB : ulp * p j ≤ ulp * Bv := mul_le_mul_of_nonneg_left (h.pB j hj) hu.le
    have TB : ulp * T + ulp * p j ≤ ulp * Bv := by
      have := mul_le_mul_of_nonneg_left (show T + p j ≤ Bv by linarith) hu.le
      linarith
    have uw0 : 0 ≤ ulp * w j := by positivity
    have up0 : 0 ≤ ulp * p j := by positivity
    have wcB : ulp * cap + ulp * w j ≤ ulp * Bw := by
      have := mul_le_mul_of_nonneg_left (show cap + w j ≤ Bw by linarith [h.bw j hj]) hu.le
      linarith
    have kc : k * (ulp * cap) ≤ k * (ulp * Bw) :=
      mul_le_mul_of_nonneg_left (by linarith) hk0
    have uwt : ulp * wt ≤ ulp * cap := mul_le_mul_of_nonneg_left hwtc hu.le
    have uwt0 : 0 ≤ ulp * wt := by positivity
    have n0 : 0 ≤ n * (ulp * Bw) := mul_nonneg hn0 huw
    -- the accumulated weight
    have e0 : |wt' + w' j - (wt + w j)| ≤ k * (ulp * cap) + ulp * wt + ulp * w j := by
      calc |wt' + w' j - (wt + w j)| = |(wt' - wt) + (w' j - w j)| := by ring_nf
        _ ≤ _ := (abs_add_le _ _).trans (add_le_add hwt (h.we j hj))
    have e1 : |rd (wt' + w' j) - (wt + w j)| ≤ (k + 2) * (ulp * cap) + 3 * (ulp * w j) := by
      have := rd_close (B := cap + 2 * w j) e0
        (by rw [abs_of_nonneg (by linarith)]; linarith)
      linarith
    have e1' : |rd (wt' + w' j) - (wt + w j)| ≤ (n + 3) * (2 * (ulp * Bw)) := by linarith
    have e2 : |rd (cap' - tol6) - cap| ≤ 12 / 10 ^ 7 := by
      obtain ⟨t1, t2⟩ := tol6_bounds
      have := rd_close (q' := cap' - tol6) (q := cap) (e := ulp * cap + 11 / 10 ^ 7) (B := Bw) (by
          calc |cap' - tol6 - cap| = |(cap' - cap) + (-tol6)| := by ring_nf
            _ ≤ _ := (abs_add_le _ _).trans (add_le_add h.ce (by rw [abs_neg, abs_of_nonneg] <;> linarith)))
        (by rw [abs_of_nonneg h.c0]; linarith [h.bw1])
      linarith
    have e2' : rd (cap' - tol6) ≤ cap - 8 / 10 ^ 7 := by
      obtain ⟨t1, t2⟩ := tol6_bounds
      have := rd_near (q := cap' - tol6) (B := Bw) (by
        obtain ⟨c1, c2⟩ := abs_le.1 h.ce
        rw [abs_le]; constructor <;> linarith [h.bw1, h.c0])
      obtain ⟨c1, c2⟩ := abs_le.1 h.ce
      obtain ⟨d1, d2⟩ := abs_le.1 this
      linarith
    obtain ⟨a1, a2⟩ := abs_le.1 e1'
    obtain ⟨b1, b2⟩ := abs_le.1 e2
    have hgw := hg.add (h.wg j hj)
    have hiff : wt + w j ≥ cap - 1 / 10 ^ 6 ↔ cap ≤ wt + w j := by
      have := (h.cg.sub hgw).le_tol
      constructor
      · intro hh; have := this.1 (by linarith); linarith
      · intro hh; linarith [show (0 : ℚ) ≤ 1 / 10 ^ 6 by norm_num]
    have hbelow : ¬ cap ≤ wt + w j → wt + w j ≤ cap - 1 / 10 := fun hc => by
      push Not at hc
      obtain ⟨z, hz⟩ := h.cg.sub hgw
      have : (0 : ℚ) < z := by linarith
      have : (1 : ℚ) ≤ z := by exact_mod_cast (by exact_mod_cast this : (0 : ℤ) < z)
      linarith
    have hstop : rd (wt' + w' j) ≥ rd (cap' - tol6) ↔ wt + w j ≥ cap - 1 / 10 ^ 6 := by
      rw [hiff]
      constructor
      · intro hh
        by_contra hc
        have := hbelow hc
        linarith
      · intro hh
        linarith
    by_cases hst : wt + w j ≥ cap - 1 / 10 ^ 6
    · -- the last item
      rw [if_pos hst, if_pos (hstop.2 hst)]
      left
      have hcw := hiff.1 hst
      have hRj := hR j hj
      have e3 : |rd (rd (wt' + w' j) - w' j) - wt| ≤ (k + 3) * (ulp * cap) + 5 * (ulp * w j) := by
        have := rd_close (q' := rd (wt' + w' j) - w' j) (q := wt)
          (e := (k + 2) * (ulp * cap) + 4 * (ulp * w j)) (B := cap + w j) (by
            calc |rd (wt' + w' j) - w' j - wt| = |(rd (wt' + w' j) - (wt + w j)) + (-(w' j - w j))| := by ring_nf
              _ ≤ (k + 2) * (ulp * cap) + 3 * (ulp * w j) + ulp * w j :=
                (abs_add_le _ _).trans (add_le_add e1 (by rw [abs_neg]; exact h.we j hj))
              _ = _ := by ring)
          (by rw [abs_of_nonneg hwt0]; linarith)
        linarith
      have e4 : |rd (cap' - rd (rd (wt' + w' j) - w' j)) - (cap - wt)|
          ≤ (k + 4) * (ulp * cap) + 7 * (ulp * w j) := by
        have := rd_close (q' := cap' - rd (rd (wt' + w' j) - w' j)) (q := cap - wt)
          (e := (k + 4) * (ulp * cap) + 5 * (ulp * w j)) (B := 2 * w j) (by
            calc |cap' - rd (rd (wt' + w' j) - w' j) - (cap - wt)|
                = |(cap' - cap) + (-(rd (rd (wt' + w' j) - w' j) - wt))| := by ring_nf
              _ ≤ ulp * cap + ((k + 3) * (ulp * cap) + 5 * (ulp * w j)) :=
                (abs_add_le _ _).trans (add_le_add h.ce (by rw [abs_neg]; exact e3))
              _ = _ := by ring)
          (by rw [abs_of_nonneg (by linarith)]; linarith)
        linarith
      -- the ratio of the last item
      set e := (k + 4) * (ulp * cap) + 7 * (ulp * w j) with he
      have hew : e ≤ w j := by linarith
      have hL : p j / w j * w j = p j := div_mul_cancel₀ _ hwp.ne'
      have hLe : p j / w j * e ≤ p j := by
        have := mul_le_mul_of_nonneg_left hew (div_nonneg hpj hwp.le)
        linarith
      have hLc : p j / w j * cap ≤ T + p j := by
        rw [div_mul_eq_mul_div, div_le_iff₀ hwp]
        have := mul_le_mul_of_nonneg_left hcw hpj
        linarith
      have hX : p j / w j * e ≤ (k + 4) * (ulp * Bv) + 7 * (ulp * p j) := by
        have h1 : p j / w j * e = (k + 4) * (ulp * (p j / w j * cap)) + 7 * (ulp * (p j / w j * w j)) := by
          rw [he]; ring
        rw [h1, hL]
        have h2 : ulp * (p j / w j * cap) ≤ ulp * Bv := mul_le_mul_of_nonneg_left (by linarith) hu.le
        have := mul_le_mul_of_nonneg_left h2 (show (0 : ℚ) ≤ k + 4 by linarith)
        linarith
      have e5 := last_term hpj (h.pe j hj) hwp (h.we j hj) (show 0 ≤ cap - wt by linarith)
        (show cap - wt ≤ w j by linarith) e4 hL.ge hLe
      rw [show cap - (wt + w j - w j) = cap - wt by ring]
      have htp : p j * (cap - wt) / w j ≤ p j := by
        rw [div_le_iff₀ hwp]
        exact mul_le_mul_of_nonneg_left (by linarith) hpj
      have ht0 : 0 ≤ p j * (cap - wt) / w j := div_nonneg (mul_nonneg hpj (by linarith)) hwp.le
      set t := p j * (cap - wt) / w j
      set t' := rd (rd (p' j * rd (cap' - rd (rd (wt' + w' j) - w' j))) / w' j)
      have e6 : |v' + t' - (v + t)|
          ≤ (2 * k + 4) * (ulp * Bv) + ulp * T + 17 * (ulp * p j) := by
        calc |v' + t' - (v + t)| = |(v' - v) + (t' - t)| := by ring_nf
          _ ≤ _ := (abs_add_le _ _).trans (add_le_add hv e5)
          _ ≤ _ := by linarith
      have hvt : |v + t| ≤ Bv - 1 := abs_le.2 ⟨by linarith, by linarith⟩
      have e7 := rd_close (B := Bv) e6 (by linarith)
      rw [hD]
      linarith
    · rw [if_neg hst, if_neg (fun hh => hst (hstop.1 hh))]
      have hcw' : wt + w j ≤ cap - 1 / 10 := hbelow fun hh => hst (hiff.2 hh)
      have hcw : wt + w j ≤ cap := by linarith
      have e1 : |rd (wt' + w' j) - (wt + w j)| ≤ (k + 1) * (ulp * cap) + ulp * (wt + w j) := by
        have := rd_close (B := cap) e0 (by rw [abs_of_nonneg (by linarith)]; linarith)
        linarith
      have e3 : |rd (v' + p' j) - (v + p j)| ≤ (k + 1) * (ulp * Bv) + ulp * (T + p j) := by
        have := rd_close (q' := v' + p' j) (q := v + p j) (e := k * (ulp * Bv) + ulp * T + ulp * p j)
          (B := Bv) (by
            calc |v' + p' j - (v + p j)| = |(v' - v) + (p' j - p j)| := by ring_nf
              _ ≤ _ := (abs_add_le _ _).trans (add_le_add hv (h.pe j hj)))
          (by
            have : |v + p j| ≤ Bv - 1 := abs_le.2 ⟨by linarith, by linarith⟩
            linarith)
        linarith
      have hnt : ¬ (⊤ : WithTop ℚ) + ((1 / 10 ^ 6 : ℚ) : WithTop ℚ) ≤ ((v + p j : ℚ) : WithTop ℚ) := by
        rw [top_add]; simp
      rw [if_neg hnt]
      by_cases hm : flMin mn ≤ ((rd (v' + p' j) : ℚ) : WithTop ℚ)
      · rw [if_pos hm]
        right
        refine ⟨hm, ?_⟩
        have h1 := cppLoop_ge p w cap js h.tail.p0 (v + p j) (wt + w j) hcw
        obtain ⟨x1, x2⟩ := abs_le.1 e3
        have : 0 ≤ n * (ulp * Bv) := mul_nonneg hn0 huv
        rw [hD]
        linarith
      · rw [if_neg hm]
        refine ih h.tail ho2 (k + 1) _ _ _ _ (T + p j) (by omega) ?_ ?_ (by linarith) hcw hgw
          (by linarith) (by linarith) (fun i hi => ?_) (by linarith) (by linarith)
        · push_cast; exact e3
        · push_cast; exact e1
        · have h1 := hR i (by simp [hi])
          have h2 := ho1 i hi
          linarith

theorem NearData.mono {l l' : List ℕ} {p w p' w' : Vec} {cap cap' Bv Bw : ℚ} {n : ℕ}
    (h : NearData l p w p' w' cap cap' Bv Bw n) (hs : ∀ j ∈ l', j ∈ l) :
    NearData l' p w p' w' cap cap' Bv Bw n :=
  { h with
    p0 := fun i hi => h.p0 i (hs i hi)
    pe := fun i hi => h.pe i (hs i hi)
    w0 := fun i hi => h.w0 i (hs i hi)
    wg := fun i hi => h.wg i (hs i hi)
    we := fun i hi => h.we i (hs i hi)
    bw := fun i hi => h.bw i (hs i hi)
    pB := fun i hi => h.pB i (hs i hi) }

/-- The first loop in double precision. -/
theorem flZero_close {p w p' w' : Vec} {cap cap' Bv Bw : ℚ} {n : ℕ} (l : List ℕ)
    (h : NearData l p w p' w' cap cap' Bv Bw n) (k : ℕ) (v v' T : ℚ)
    (hk : k + (light w l).length ≤ n) (hv : |v' - v| ≤ k * (ulp * Bv) + ulp * T)
    (hT0 : 0 ≤ T) (hT : T + ((light w l).map p).sum ≤ Bv) (hlow : -(Bv - 1) ≤ v) (hup : v + ((light w l).map p).sum ≤ Bv - 1) (hB : 1 ≤ Bv) :
    |l.foldl (fun v i => if w' i ≤ tol6 then rd (v + p' i) else v) v'
      - l.foldl (fun v i => if w i ≤ 1 / 10 ^ 6 then v + p i else v) v|
      ≤ (k + (light w l).length : ℕ) * (ulp * Bv) + ulp * (T + ((light w l).map p).sum) := by
  have hu := ulp_pos
  have huv : 0 ≤ ulp * Bv := by positivity
  induction l generalizing k v v' T with
  | nil => simpa [light] using hv
  | cons j l ih =>
    have hj : j ∈ j :: l := by simp
    have hpj := h.p0 j hj
    have hlt := light_iff (h.w0 j hj) (h.wg j hj) (h.we j hj)
    rw [List.foldl_cons, List.foldl_cons]
    have hlc : light w (j :: l) = if w j ≤ 1 / 10 ^ 6 then j :: light w l else light w l := by
      unfold light; rw [List.filter_cons]; simp
    by_cases hl : w j ≤ 1 / 10 ^ 6
    · rw [hlc, if_pos hl] at hk hup hT ⊢
      rw [if_pos hl, if_pos (hlt.2 hl)]
      rw [List.length_cons] at hk ⊢
      rw [List.map_cons, List.sum_cons] at hup hT ⊢
      have hrest : 0 ≤ ((light w l).map p).sum := by
        apply List.sum_nonneg
        intro a ha
        obtain ⟨i, hi, rfl⟩ := List.mem_map.1 ha
        exact h.p0 i (by simp [(List.mem_filter.1 hi).1])
      have hkn : (k : ℚ) + 1 ≤ n := by
        have : k + 1 ≤ n := by omega
        exact_mod_cast this
      have hk0 : (0 : ℚ) ≤ k := by positivity
      have kv : k * (ulp * Bv) ≤ (n - 1) * (ulp * Bv) := mul_le_mul_of_nonneg_right (by linarith) huv
      have kv0 : 0 ≤ k * (ulp * Bv) := mul_nonneg hk0 huv
      have sV : (n + 11) * (2 * (ulp * Bv)) ≤ 1 / 2 := by have := h.smallV; linarith
      have pB : ulp * p j ≤ ulp * Bv := mul_le_mul_of_nonneg_left (h.pB j hj) hu.le
      have TB : ulp * T + ulp * p j ≤ ulp * Bv := by
        have := mul_le_mul_of_nonneg_left (show T + p j ≤ Bv by linarith) hu.le
        linarith
      have e3 : |rd (v' + p' j) - (v + p j)| ≤ (k + 1) * (ulp * Bv) + ulp * (T + p j) := by
        have := rd_close (q' := v' + p' j) (q := v + p j) (e := k * (ulp * Bv) + ulp * T + ulp * p j)
          (B := Bv) (by
            calc |v' + p' j - (v + p j)| = |(v' - v) + (p' j - p j)| := by ring_nf
              _ ≤ _ := (abs_add_le _ _).trans (add_le_add hv (h.pe j hj)))
          (by
            have : |v + p j| ≤ Bv - 1 := abs_le.2 ⟨by linarith, by linarith⟩
            linarith)
        linarith
      have := ih h.tail (k + 1) (v + p j) (rd (v' + p' j)) (T + p j) (by omega)
        (by push_cast; exact e3) (by linarith) (by linarith) (by linarith) (by linarith)
      rwa [show k + ((light w l).length + 1) = k + 1 + (light w l).length by ring, ← add_assoc]
    · rw [hlc, if_neg hl] at hk hup hT ⊢
      rw [if_neg hl, if_neg (fun hh => hl (hlt.1 hh))]
      exact ih h.tail k v v' T hk hv hT0 hT hlow hup

/-- Two entries of the array of violations: both infinite, or close and of bounded size. -/
def Within (d B : ℚ) (a b : WithTop ℚ) : Prop :=
  (a = ⊤ ∧ b = ⊤) ∨ ∃ x y : ℚ, a = (x : WithTop ℚ) ∧ b = (y : WithTop ℚ) ∧ |x - y| ≤ d ∧ |y| ≤ B

/-- The smaller of two entries. -/
theorem Within.min {d B : ℚ} {a b : WithTop ℚ} (h : Within d B a b) {v K : ℚ} (hv : |v - K| ≤ d)
    (hK : |K| ≤ B) : Within d B (Min.min a (v : WithTop ℚ)) (Min.min b (K : WithTop ℚ)) := by
  rcases h with ⟨rfl, rfl⟩ | ⟨x, y, rfl, rfl, hxy, hy⟩
  · rw [top_inf_eq, top_inf_eq]; exact Or.inr ⟨v, K, rfl, rfl, hv, hK⟩
  · refine Or.inr ⟨Min.min x v, Min.min y K, (WithTop.coe_min _ _).symm, (WithTop.coe_min _ _).symm, ?_, ?_⟩
    · obtain ⟨a1, a2⟩ := abs_le.1 hxy
      obtain ⟨b1, b2⟩ := abs_le.1 hv
      rcases min_cases x v with ⟨e, e'⟩ | ⟨e, e'⟩ <;> rcases min_cases y K with ⟨g, g'⟩ | ⟨g, g'⟩ <;>
        rw [e, g, abs_le] <;> constructor <;> linarith
    · rcases min_cases y K with ⟨e, _⟩ | ⟨e, _⟩ <;> rw [e] <;> assumption

/-- `update` in double precision, against the exact minimum. -/
theorem flUpdate_close {p w p' w' : Vec} {loss loss' cap cap' Bv Bw K : ℚ} {n : ℕ} (l : List ℕ)
    (reverse : Bool) (mnf mne : WithTop ℚ) (hl : l.Perm (List.range n))
    (ho : (visit l reverse).Pairwise fun a b => p b * w a ≤ p a * w b)
    (h : NearData (List.range n) p w p' w' cap cap' Bv Bw n) (hloss : 0 ≤ loss)
    (hloss' : |loss' - loss| ≤ ulp * loss) (hB : loss + ∑ j ∈ range n, p j + 1 ≤ Bv)
    (hB' : Bv ≤ 10 ^ 9 * 2) (hD : flErr n Bv ≤ 1)
    (hK : cppValue p loss w cap ⊤ l reverse = K) (hKB : |K| ≤ Bv)
    (hm : Within (flErr n Bv) Bv mnf mne) :
    Within (flErr n Bv) Bv (flUpdate p' loss' w' cap' mnf l reverse)
      (Min.min mne (K : WithTop ℚ)) := by
  have hu := ulp_pos
  have hs := ulp_small
  have hperm : l.Perm (visit l reverse) := by
    unfold visit; split
    · exact (List.reverse_perm l).symm
    · exact List.Perm.refl _
  have hp0 : ∀ j < n, 0 ≤ p j := fun j hj => h.p0 j (List.mem_range.2 hj)
  have hsum0 : 0 ≤ ∑ j ∈ range n, p j :=
    Finset.sum_nonneg fun j hj => hp0 j (Finset.mem_range.1 hj)
  have hB1 : 1 ≤ Bv := by linarith
  have hmem : ∀ j ∈ l, j ∈ List.range n := fun j hj => hl.mem_iff.1 hj
  have hmem' : ∀ j ∈ visit l reverse, j ∈ List.range n := fun j hj =>
    hl.mem_iff.1 (hperm.mem_iff.2 hj)
  have hsplit := sum_light_heavy w p n l hl
  have hpos : ∀ q : List ℕ, (∀ j ∈ q, j ∈ l) → 0 ≤ (q.map p).sum := by
    intro q hq
    apply List.sum_nonneg
    intro a ha
    obtain ⟨i, hi, rfl⟩ := List.mem_map.1 ha
    exact h.p0 i (hmem i (hq i hi))
  have hlight := hpos (light w l) fun j hj => (List.mem_filter.1 hj).1
  have hheavy := hpos (heavy w l) fun j hj => (List.mem_filter.1 hj).1
  have hlen : (light w l).length + (heavy w (visit l reverse)).length = n := by
    have e1 : (heavy w (visit l reverse)).length = (heavy w l).length :=
      (heavy_perm hperm.symm).length_eq
    have e2 : (light w l).length + (heavy w l).length = l.length := by
      unfold light heavy
      clear hK hmem hmem' hlight hheavy hpos hsplit hperm hl ho hm e1
      induction l with
      | nil => rfl
      | cons a l ih =>
        rw [List.filter_cons, List.filter_cons]
        by_cases hh : w a ≤ 1 / 10 ^ 6 <;> simp only [hh] <;> simp <;> simp at ih <;> omega
    rw [e1, e2, hl.length_eq, List.length_range]
  have hhs : ((heavy w (visit l reverse)).map p).sum = ((heavy w l).map p).sum :=
    ((heavy_perm hperm.symm).map p).sum_eq
  -- the two loops
  have h0 := flZero_close l (h.mono hmem) 0 (-loss) (-loss') loss (by omega) (by
    rw [show -loss' - -loss = -(loss' - loss) by ring, abs_neg]
    push_cast
    linarith) hloss (by linarith) (by linarith) (by linarith) hB1
  have hz := cppZero_eq p w l loss
  have h1 := flLoop_close mnf (visit l reverse) (h.mono hmem') hB1 ho (0 + (light w l).length)
    (cppZero p w l loss) (flZero p' w' l loss') 0 0 (loss + ((light w l).map p).sum) (by omega) h0 (by
      rw [sub_zero, abs_zero]
      have hc0 := h.c0
      positivity)
    (le_refl _) h.c0 ⟨0, by simp⟩ (by linarith) (by rw [hhs]; linarith)
    (fun j hj => by
      rw [mul_zero]
      exact mul_nonneg (h.w0 j (hmem' j hj)) (by linarith))
    (by rw [hz]; linarith) (by rw [hz, hhs]; linarith)
  have hKe : cppLoop p w cap ⊤ (visit l reverse) (cppZero p w l loss) 0 = K := hK
  rw [hKe] at h1
  set v := flLoop p' w' cap' mnf (visit l reverse) (flZero p' w' l loss') 0 with hvdef
  have hup : flUpdate p' loss' w' cap' mnf l reverse = Min.min mnf (v : WithTop ℚ) := by
    have : flUpdate p' loss' w' cap' mnf l reverse
        = if (v : WithTop ℚ) < mnf then (v : WithTop ℚ) else mnf := rfl
    rw [this]
    by_cases hh : (v : WithTop ℚ) < mnf
    · rw [if_pos hh, min_eq_right hh.le]
    · rw [if_neg hh, min_eq_left (not_lt.1 hh)]
  rw [hup]
  rcases h1 with h1 | ⟨h1, h2⟩
  · exact hm.min h1 hKB
  · rcases hm with ⟨rfl, rfl⟩ | ⟨x, y, rfl, rfl, hxy, hy⟩
    · exact absurd h1 (by simp [flMin])
    · have h1' : rd (x + tol6) ≤ v := by
        have : flMin (x : WithTop ℚ) = ((rd (x + tol6) : ℚ) : WithTop ℚ) := rfl
        rw [this] at h1
        exact_mod_cast h1
      obtain ⟨t1, t2⟩ := tol6_bounds
      obtain ⟨a1, a2⟩ := abs_le.1 hxy
      obtain ⟨b1, b2⟩ := abs_le.1 hy
      have hx : |x + tol6| ≤ 2 * 10 ^ 9 + 2 := abs_le.2 ⟨by linarith, by linarith⟩
      have h3 := rd_near hx
      have h4 : ulp * (2 * 10 ^ 9 + 2) ≤ 5 / 10 ^ 7 := by unfold ulp; norm_num
      obtain ⟨c1, c2⟩ := abs_le.1 h3
      have hxv : x ≤ v := by linarith
      rw [min_eq_left (by exact_mod_cast hxv)]
      refine Or.inr ⟨x, Min.min y K, rfl, (WithTop.coe_min _ _).symm, ?_, ?_⟩
      · rcases min_cases y K with ⟨e, e'⟩ | ⟨e, e'⟩ <;> rw [e, abs_le] <;> constructor <;> linarith
      · rcases min_cases y K with ⟨e, _⟩ | ⟨e, _⟩ <;> rw [e] <;> assumption

end Verif.Model
