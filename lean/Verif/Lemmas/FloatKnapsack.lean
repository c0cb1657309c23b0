import Verif.Model.FloatKnapsack
import Verif.Lemmas.Knapsack
import Verif.Lemmas.FloatMilp

/-!
# The continuous knapsack routine in double precision
-/

open Finset

namespace Verif.Props
open Spec Model

theorem rd_nonneg {q : ℚ} (h : 0 ≤ q) : 0 ≤ rd q := by
  unfold rd; rw [if_pos h]; exact fl64_nonneg _

theorem rd_mono {q r : ℚ} (h : q ≤ r) : rd q ≤ rd r := by
  unfold rd
  by_cases h1 : 0 ≤ q
  · rw [if_pos h1, if_pos (h1.trans h)]; exact fl64_mono h
  · rw [if_neg h1]
    by_cases h2 : 0 ≤ r
    · rw [if_pos h2]
      have := fl64_nonneg (-q)
      have := fl64_nonneg r
      linarith
    · rw [if_neg h2]
      exact neg_le_neg (fl64_mono (by linarith))

theorem rd_natCast {k : ℕ} (hk : k < 2 ^ 53) : rd (k : ℚ) = k := by
  unfold rd; rw [if_pos (Nat.cast_nonneg _)]; exact fl64_natCast hk

theorem rd_low {q : ℚ} (h : 0 ≤ q) : (1 - ulp) * q ≤ rd q := by
  have := (abs_le.1 (rd_err q)).1
  rw [abs_of_nonneg h] at this
  linarith

theorem rd_high {q : ℚ} (h : 0 ≤ q) : rd q ≤ (1 + ulp) * q := by
  have := (abs_le.1 (rd_err q)).2
  rw [abs_of_nonneg h] at this
  linarith

/-- The loop on a list of items. -/
def flGreedy (cap : ℚ) : List (ℚ × ℚ) → ℚ → ℚ → ℚ
  | [], p, _ => p
  | (r, w) :: l, p, kw =>
    if 0 < rd (cap - kw) then
      if 0 < r then
        flGreedy cap l (rd (p + rd (r * min (rd (rd (cap - kw) / w)) 1)))
          (rd (kw + rd (w * min (rd (rd (cap - kw) / w)) 1)))
      else flGreedy cap l p kw
    else p

theorem flKnapLoop_eq (rev w : List ℚ) (cap : ℚ) (is : List ℕ) (hw : ∀ i ∈ is, 0 < w.getD i 0) (p kw : ℚ) :
    flKnapLoop rev w cap is p kw
      = .ok (flGreedy cap (is.map fun i => (rev.getD i 0, w.getD i 0)) p kw) := by
  induction is generalizing p kw with
  | nil => simp [flKnapLoop, flGreedy]
  | cons i is ih =>
    have hi := hw i (by simp)
    have ih := ih fun j hj => hw j (by simp [hj])
    simp only [flKnapLoop, List.map_cons, flGreedy]
    split
    · next hc =>
      have hq : 0 ≤ min (rd (rd (cap - kw) / w.getD i 0)) 1 :=
        le_min (rd_nonneg (div_nonneg hc.le hi.le)) zero_le_one
      rw [pyAssert_true hq]
      split
      · simp only [bind, Except.bind]
        rw [ih]
      · simp only [bind, Except.bind]
        rw [ih]
    · rfl

/-- Adding items never lowers the profit; it stays a double. -/
theorem flGreedy_ge (cap : ℚ) (l : List (ℚ × ℚ)) (hw : ∀ a ∈ l, 0 < a.2) (p kw : ℚ) (hp : IsDouble p) :
    p ≤ flGreedy cap l p kw ∧ IsDouble (flGreedy cap l p kw) := by
  induction l generalizing p kw with
  | nil => exact ⟨le_rfl, hp⟩
  | cons a l ih =>
    obtain ⟨r, w⟩ := a
    have hw0 : 0 < w := hw (r, w) (by simp)
    have ih := ih fun b hb => hw b (by simp [hb])
    simp only [flGreedy]
    split
    · next hc =>
      split
      · next hr =>
        have hq : 0 ≤ min (rd (rd (cap - kw) / w)) 1 :=
          le_min (rd_nonneg (div_nonneg hc.le hw0.le)) zero_le_one
        obtain ⟨h1, h2⟩ := ih (rd (p + rd (r * min (rd (rd (cap - kw) / w)) 1)))
          (rd (kw + rd (w * min (rd (rd (cap - kw) / w)) 1))) (isDouble_rd _)
        refine ⟨le_trans ?_ h1, h2⟩
        have h3 := rd_mono (show p ≤ p + rd (r * min (rd (rd (cap - kw) / w)) 1) by
          have := rd_nonneg (mul_nonneg hr.le hq); linarith)
        rwa [hp] at h3
      · exact ih p kw hp
    · exact ⟨le_rfl, hp⟩

/-- The profit is at most that of all items. -/
theorem flGreedy_le (cap B : ℚ) (l : List (ℚ × ℚ)) (hw : ∀ a ∈ l, 0 < a.2)
    (hr : ∀ a ∈ l, 0 ≤ a.1 ∧ a.1 ≤ B) (p kw : ℚ) (hp : IsDouble p) (hlow : -B ≤ p)
    (hup : p + (l.map Prod.fst).sum + l.length * (2 * ulp * B) ≤ B) :
    flGreedy cap l p kw ≤ p + (l.map Prod.fst).sum + l.length * (2 * ulp * B) := by
  induction l generalizing p kw with
  | nil => simp [flGreedy]
  | cons a l ih =>
    obtain ⟨r, w⟩ := a
    have hw0 : 0 < w := hw (r, w) (by simp)
    obtain ⟨hr0, hrB⟩ := hr (r, w) (by simp)
    simp only at hr0 hrB
    have hB : 0 ≤ B := hr0.trans hrB
    have hu := ulp_pos
    have ih := ih (fun b hb => hw b (by simp [hb])) fun b hb => hr b (by simp [hb])
    have hsum : 0 ≤ (l.map Prod.fst).sum := List.sum_nonneg fun x hx => by
      obtain ⟨b, hb, rfl⟩ := List.mem_map.1 hx
      exact (hr b (by simp [hb])).1
    simp only [List.map_cons, List.sum_cons, List.length_cons] at hup ⊢
    push_cast at hup ⊢
    have hδ : 0 ≤ 2 * ulp * B := by positivity
    have hlδ : 0 ≤ (l.length : ℚ) * (2 * ulp * B) := by positivity
    simp only [flGreedy]
    split
    · next hc =>
      split
      · next hrp =>
        set q := min (rd (rd (cap - kw) / w)) 1 with hq
        have hq0 : 0 ≤ q := le_min (rd_nonneg (div_nonneg hc.le hw0.le)) zero_le_one
        have hq1 : q ≤ 1 := min_le_right _ _
        have hrq0 : 0 ≤ r * q := mul_nonneg hr0 hq0
        have hrq : r * q ≤ r := mul_le_of_le_one_right hr0 hq1
        have e1 := rd_high hrq0
        have e0 := rd_nonneg hrq0
        have e2 : rd (r * q) ≤ r + ulp * B := by
          have : ulp * (r * q) ≤ ulp * B := mul_le_mul_of_nonneg_left (hrq.trans hrB) hu.le
          linarith
        have e3 : |p + rd (r * q)| ≤ B := abs_le.2 ⟨by linarith, by linarith⟩
        have e4 := (abs_le.1 (rd_near e3)).2
        have h1 : rd (p + rd (r * q)) ≤ p + r + 2 * ulp * B := by linarith
        have h2 : p ≤ rd (p + rd (r * q)) := by
          have := rd_mono (show p ≤ p + rd (r * q) by linarith)
          rwa [hp] at this
        have := ih (rd (p + rd (r * q))) (rd (kw + rd (w * q))) (isDouble_rd _) (by linarith) (by linarith)
        linarith
      · have := ih p kw hp hlow (by linarith)
        linarith
    · linarith

/-- Ratios that are in order after rounding are in order up to the rounding. -/
theorem ratio_close {r w r' w' : ℚ} (hw : 0 < w) (hw' : 0 < w') (hr : 0 ≤ r) (hr' : 0 ≤ r')
    (h : rd (r' / w') ≤ rd (r / w)) : r' * w ≤ (1 + 3 * ulp) * (r * w') := by
  have h1 := rd_low (div_nonneg hr' hw'.le)
  have h2 := rd_high (div_nonneg hr hw.le)
  have hu := ulp_pos
  have hs := ulp_small
  have h3 : (1 - ulp) * (r' / w') ≤ (1 + ulp) * (r / w) := by linarith
  have h4 : (1 - ulp) * (r' * w) ≤ (1 + ulp) * (r * w') := by
    have := mul_le_mul_of_nonneg_right h3 (mul_pos hw hw').le
    have e1 : (1 - ulp) * (r' / w') * (w * w') = (1 - ulp) * (r' * w) := by field_simp
    have e2 : (1 + ulp) * (r / w) * (w * w') = (1 + ulp) * (r * w') := by field_simp
    rwa [e1, e2] at this
  have h5 : 0 ≤ r * w' := mul_nonneg hr hw'.le
  have h6 : (1 + ulp) ≤ (1 + 3 * ulp) * (1 - ulp) := by nlinarith
  have h7 : (1 - ulp) * (r' * w) ≤ (1 - ulp) * ((1 + 3 * ulp) * (r * w')) := by
    have := mul_le_mul_of_nonneg_right h6 h5
    nlinarith
  exact le_of_mul_le_mul_left h7 (by linarith)

/-- The items behind the first one, at its ratio. -/
theorem flGreedy_tail {r w : ℚ} (l : List (ℚ × ℚ)) (hw0 : 0 < w) (hr0 : 0 ≤ r) (hwl : ∀ a ∈ l, 0 < a.2)
    (hrl : ∀ a ∈ l, 0 ≤ a.1) (hs1 : ∀ b ∈ l, rd (b.1 / b.2) ≤ rd (r / w)) :
    (l.map fun a => max (a.1 - r / w * a.2) 0).sum ≤ 3 * ulp * (l.map Prod.fst).sum := by
  have hu := ulp_pos
  have hsm := ulp_small
  rw [← List.sum_map_mul_left]
  refine List.sum_le_sum fun b hb => ?_
  have b0 := hrl b hb
  have h1 := ratio_close hw0 (hwl b hb) hr0 b0 (hs1 b hb)
  have h2 : (1 - 3 * ulp) * b.1 ≤ r / w * b.2 := by
    rw [div_mul_eq_mul_div, le_div_iff₀ hw0]
    have h3 : 0 ≤ r * b.2 := mul_nonneg hr0 (hwl b hb).le
    have h4 : (1 - 3 * ulp) * (b.1 * w) ≤ (1 - 3 * ulp) * ((1 + 3 * ulp) * (r * b.2)) :=
      mul_le_mul_of_nonneg_left h1 (by linarith)
    nlinarith [mul_nonneg hu.le (mul_nonneg hu.le h3)]
  exact max_le (by linarith) (by positivity)

/-- The quantity of the last item. -/
theorem flGreedy_quantity {c w : ℚ} (hw0 : 0 < w) (hc : 0 < c) (hle : c ≤ w) :
    (1 - 2 * ulp) * (c / w) ≤ min (rd (rd c / w)) 1 := by
  have hu := ulp_pos
  have hsm := ulp_small
  have hf0 : 0 ≤ c / w := by positivity
  have hf1 : c / w ≤ 1 := (div_le_one hw0).2 hle
  refine le_min ?_ (by nlinarith)
  have h1 := rd_low (div_nonneg (rd_nonneg hc.le) hw0.le)
  have h2 : (1 - ulp) * (c / w) ≤ rd c / w := by
    rw [← mul_div_assoc]
    exact div_le_div_of_nonneg_right (rd_low hc.le) hw0.le
  have h3 : (1 - ulp) * ((1 - ulp) * (c / w)) ≤ (1 - ulp) * (rd c / w) :=
    mul_le_mul_of_nonneg_left h2 (by linarith)
  nlinarith [mul_nonneg (mul_nonneg hu.le hu.le) hf0]

/-- What a multiplier takes from an item that is taken as a whole. -/
theorem flGreedy_whole {r w lam : ℚ} (l : List (ℚ × ℚ)) (hw0 : 0 < w) (hr0 : 0 ≤ r)
    (hwl : ∀ a ∈ l, 0 < a.2) (hrl : ∀ a ∈ l, 0 ≤ a.1) (hs1 : ∀ b ∈ l, rd (b.1 / b.2) ≤ rd (r / w))
    (l1 : lam = 0 ∨ ∃ a ∈ l, lam * a.2 ≤ a.1) : lam * w + max (r - lam * w) 0 ≤ r + 3 * (ulp * r) := by
  have hru : 0 ≤ ulp * r := mul_nonneg ulp_pos.le hr0
  rcases le_total (lam * w) r with h | h
  · rw [max_eq_left (by linarith)]; linarith
  · rw [max_eq_right (by linarith), add_zero]
    rcases l1 with rfl | ⟨b, hb, hbl⟩
    · linarith
    · have h1 := ratio_close hw0 (hwl b hb) hr0 (hrl b hb) (hs1 b hb)
      have h2 : lam * w * b.2 ≤ (r + 3 * (ulp * r)) * b.2 := by
        have := mul_le_mul_of_nonneg_right hbl hw0.le
        nlinarith
      exact le_of_mul_le_mul_right h2 (hwl b hb)

/-- **Dual certificate of the routine on doubles.**  Items in order of the rounded ratios; the weights
are whole numbers, so that their sums are exact. -/
theorem flGreedy_dual (cap B : ℚ) (l : List (ℚ × ℚ)) (hw : ∀ a ∈ l, 0 < a.2 ∧ ∃ k : ℕ, a.2 = k)
    (hr : ∀ a ∈ l, 0 ≤ a.1 ∧ a.1 ≤ B) (hs : l.Pairwise fun a b => rd (b.1 / b.2) ≤ rd (a.1 / a.2))
    (S : ℕ) (hS : (S : ℚ) + (l.map Prod.snd).sum < 2 ^ 53) (hc : (S : ℚ) ≤ cap) (p : ℚ) (hp : IsDouble p)
    (hlow : -B ≤ p) (hup : p + (l.map Prod.fst).sum + l.length * (2 * ulp * B) ≤ B) :
    ∃ lam, 0 ≤ lam ∧ (lam = 0 ∨ ∃ a ∈ l, lam * a.2 ≤ a.1)
      ∧ lam * (cap - S) + (l.map fun a => max (a.1 - lam * a.2) 0).sum
        ≤ flGreedy cap l p S - p + ulp * (B * l.length + 6 * (l.map Prod.fst).sum) := by
  induction l generalizing p S with
  | nil => exact ⟨0, le_rfl, .inl rfl, by simp [flGreedy]⟩
  | cons a l ih =>
    obtain ⟨r, w⟩ := a
    obtain ⟨hw0, k, hk⟩ := hw (r, w) (by simp)
    simp only at hw0 hk
    obtain ⟨hr0, hrB⟩ := hr (r, w) (by simp)
    simp only at hr0 hrB
    have hB : 0 ≤ B := hr0.trans hrB
    have hu := ulp_pos
    have hsm := ulp_small
    have hwl : ∀ a ∈ l, 0 < a.2 ∧ ∃ k : ℕ, a.2 = k := fun b hb => hw b (by simp [hb])
    have hrl : ∀ a ∈ l, 0 ≤ a.1 ∧ a.1 ≤ B := fun b hb => hr b (by simp [hb])
    obtain ⟨hs1, hs2⟩ := List.pairwise_cons.1 hs
    have hsum : 0 ≤ (l.map Prod.fst).sum := List.sum_nonneg fun x hx => by
      obtain ⟨b, hb, rfl⟩ := List.mem_map.1 hx
      exact (hrl b hb).1
    have hsumw : 0 ≤ (l.map Prod.snd).sum := List.sum_nonneg fun x hx => by
      obtain ⟨b, hb, rfl⟩ := List.mem_map.1 hx
      exact (hwl b hb).1.le
    simp only [List.map_cons, List.sum_cons, List.length_cons] at hup hS ⊢
    push_cast at hup ⊢
    have hδ : 0 ≤ 2 * ulp * B := by positivity
    have hlδ : 0 ≤ (l.length : ℚ) * (2 * ulp * B) := by positivity
    have hmono := fun p' kw (h : IsDouble p') => (flGreedy_ge cap l (fun b hb => (hwl b hb).1) p' kw h).1
    have htail := flGreedy_tail l hw0 hr0 (fun b hb => (hwl b hb).1) (fun b hb => (hrl b hb).1) hs1
    have hlB : 0 ≤ B * (l.length : ℚ) := by positivity
    have hsu : 0 ≤ ulp * (l.map Prod.fst).sum := mul_nonneg hu.le hsum
    have hru : 0 ≤ ulp * r := mul_nonneg hu.le hr0
    have hBu : 0 ≤ ulp * B := mul_nonneg hu.le hB
    have hlBu : 0 ≤ ulp * (B * (l.length : ℚ)) := mul_nonneg hu.le hlB
    have hself : max (r - r / w * w) 0 = 0 := by
      rw [div_mul_cancel₀ _ hw0.ne', sub_self, max_self]
    rcases hc.eq_or_lt with he | hlt
    · -- no capacity
      refine ⟨r / w, by positivity, .inr ⟨(r, w), by simp, by simp only; rw [div_mul_cancel₀ _ hw0.ne']⟩, ?_⟩
      have hres : flGreedy cap ((r, w) :: l) p S = p := by
        simp only [flGreedy]
        rw [← he, sub_self, if_neg]
        rw [show rd 0 = 0 by have := rd_err 0; simpa using this]
        exact lt_irrefl _
      rw [hres, hself, ← he, sub_self, mul_zero]
      nlinarith
    have hc0 : 0 < cap - S := by linarith
    have hav : 0 < rd (cap - S) := lt_of_lt_of_le (mul_pos (by linarith) hc0) (rd_low hc0.le)
    rcases hr0.eq_or_lt with hr00 | hrp
    · -- no revenue
      obtain ⟨lam, l0, l1, l2⟩ := ih hwl hrl hs2 S (by linarith) hc p hp hlow (by linarith)
      refine ⟨lam, l0, l1.imp id fun ⟨b, hb, h⟩ => ⟨b, by simp [hb], h⟩, ?_⟩
      simp only [flGreedy]
      rw [if_pos hav, if_neg (by rw [← hr00]; exact lt_irrefl _), ← hr00, max_eq_right (by
        have := mul_nonneg l0 hw0.le
        linarith)]
      nlinarith
    set q := min (rd (rd (cap - S) / w)) 1 with hq
    have hq0 : 0 ≤ q := le_min (rd_nonneg (div_nonneg hav.le hw0.le)) zero_le_one
    have hq1 : q ≤ 1 := min_le_right _ _
    have hrq0 : 0 ≤ r * q := mul_nonneg hr0 hq0
    have hrq : r * q ≤ r := mul_le_of_le_one_right hr0 hq1
    have e1 := rd_high hrq0
    have e0 := rd_nonneg hrq0
    have elow := rd_low hrq0
    have eru : ulp * (r * q) ≤ ulp * r := mul_le_mul_of_nonneg_left hrq hu.le
    have erB : ulp * r ≤ ulp * B := mul_le_mul_of_nonneg_left hrB hu.le
    have e3 : |p + rd (r * q)| ≤ B := abs_le.2 ⟨by linarith, by linarith⟩
    have e4 := abs_le.1 (rd_near e3)
    set p' := rd (p + rd (r * q)) with hp'
    have hpp' : p ≤ p' := by
      have := rd_mono (show p ≤ p + rd (r * q) by linarith)
      rwa [hp] at this
    have hstep : flGreedy cap ((r, w) :: l) p S = flGreedy cap l p' (rd (S + rd (w * q))) := by
      simp only [flGreedy]
      rw [if_pos hav, if_pos hrp]
    rw [hstep]
    rcases le_or_gt (cap - S) w with hle | hgt
    · -- the last item
      refine ⟨r / w, by positivity, .inr ⟨(r, w), by simp, by simp only; rw [div_mul_cancel₀ _ hw0.ne']⟩, ?_⟩
      have hm := hmono p' (rd (S + rd (w * q))) (isDouble_rd _)
      rw [hself]
      set f := (cap - S) / w with hf
      have hf0 : 0 ≤ f := by positivity
      have hf1 : f ≤ 1 := (div_le_one hw0).2 hle
      have hqf : (1 - 2 * ulp) * f ≤ q := flGreedy_quantity hw0 hc0 hle
      have hval : r / w * (cap - S) = r * f := by rw [hf]; ring
      have h4 : r * ((1 - 2 * ulp) * f) ≤ r * q := mul_le_mul_of_nonneg_left hqf hr0
      have h5 : r * f ≤ r * q + 2 * ulp * r := by
        have : ulp * r * f ≤ ulp * r := mul_le_of_le_one_right hru hf1
        nlinarith
      rw [hval]
      have : ulp * (B * (l.length + 1) + 6 * (r + (l.map Prod.fst).sum))
          = ulp * (B * l.length) + ulp * B + 6 * (ulp * r) + 6 * (ulp * (l.map Prod.fst).sum) := by ring
      rw [this]
      nlinarith
    · -- the whole item
      have hk53 : S + k < 2 ^ 53 := by
        have : ((S + k : ℕ) : ℚ) < 2 ^ 53 := by push_cast; rw [← hk]; linarith
        exact_mod_cast this
      have hq' : q = 1 := by
        refine min_eq_right ?_
        have h1 : (w : ℚ) ≤ rd (cap - S) := by
          have := rd_mono hgt.le
          rwa [hk, rd_natCast (by omega), ← hk] at this
        have h2 : (1 : ℚ) ≤ rd (cap - S) / w := (one_le_div hw0).2 h1
        have := rd_mono h2
        rwa [show rd 1 = 1 by exact_mod_cast rd_natCast (k := 1) (by norm_num)] at this
      have hkw : rd (S + rd (w * q)) = ((S + k : ℕ) : ℚ) := by
        rw [hq', mul_one, hk, rd_natCast (k := k) (by omega), ← Nat.cast_add, rd_natCast hk53]
      rw [hkw]
      rw [hq', mul_one] at e1 elow e4 e0
      obtain ⟨lam, l0, l1, l2⟩ := ih hwl hrl hs2 (S + k) (by push_cast; rw [← hk]; linarith)
        (by push_cast; rw [← hk]; linarith) p' (isDouble_rd _) (by linarith) (by linarith)
      refine ⟨lam, l0, l1.imp id fun ⟨b, hb, h⟩ => ⟨b, by simp [hb], h⟩, ?_⟩
      push_cast at l2
      rw [← hk] at l2
      have hmax := flGreedy_whole l hw0 hr0 (fun b hb => (hwl b hb).1) (fun b hb => (hrl b hb).1) hs1 l1
      have : ulp * (B * (l.length + 1) + 6 * (r + (l.map Prod.fst).sum))
          = ulp * (B * l.length + 6 * (l.map Prod.fst).sum) + ulp * B + 6 * (ulp * r) := by ring
      push_cast
      rw [this, ← hk]
      linarith [e4.1, l2]

theorem flZero_bounds (r : Vec) (B : ℚ) (l : List ℕ) (hr : ∀ i ∈ l, 0 ≤ r i) (p : ℚ) (hp : IsDouble p)
    (hlow : -B ≤ p) (hB : 0 ≤ B) (hup : p + (l.map r).sum + l.length * (ulp * B) ≤ B) :
    IsDouble (l.foldl (fun p i => rd (p + r i)) p) ∧ p ≤ l.foldl (fun p i => rd (p + r i)) p
    ∧ |l.foldl (fun p i => rd (p + r i)) p - (p + (l.map r).sum)| ≤ l.length * (ulp * B) := by
  induction l generalizing p with
  | nil => simp [hp]
  | cons i l ih =>
    have hi := hr i (by simp)
    have hrl : ∀ i ∈ l, 0 ≤ r i := fun j hj => hr j (by simp [hj])
    have hsum : 0 ≤ (l.map r).sum := List.sum_nonneg fun x hx => by
      obtain ⟨j, hj, rfl⟩ := List.mem_map.1 hx
      exact hrl j hj
    have hu := ulp_pos
    have hδ : 0 ≤ ulp * B := by positivity
    have hlδ : 0 ≤ (l.length : ℚ) * (ulp * B) := by positivity
    simp only [List.map_cons, List.sum_cons, List.length_cons, List.foldl_cons] at hup ⊢
    push_cast at hup ⊢
    have e4 := abs_le.1 (rd_near (show |p + r i| ≤ B from abs_le.2 ⟨by linarith, by linarith⟩))
    have hle : p ≤ rd (p + r i) := by
      have := rd_mono (show p ≤ p + r i by linarith)
      rwa [hp] at this
    obtain ⟨h1, h2, h3⟩ := ih hrl (rd (p + r i)) (isDouble_rd _) (by linarith) (by linarith)
    have h3 := abs_le.1 h3
    exact ⟨h1, hle.trans h2, abs_le.2 ⟨by linarith, by linarith⟩⟩

/-- **The routine on doubles.**  Whole weights with a sum below `2^53` and revenues that are not negative:
the routine returns a double that is at least the violation of every point within the capacity, up to
rounding. -/
theorem flKnapsack_bounds (argsort : Argsort) (n : ℕ) (r w : Vec) (k cap B : ℚ)
    (hw : ∀ j < n, ∃ m : ℕ, w j = m) (hW : ∑ j ∈ range n, w j < 2 ^ 53) (hr : ∀ j < n, 0 ≤ r j)
    (hk : IsDouble k) (hk0 : 0 ≤ k) (hkB : k ≤ B)
    (hB : ∑ j ∈ range n, r j + n * (2 * ulp * B) ≤ B) (hcap : 0 ≤ cap) :
    ∃ v, flKnapsack argsort n r k w cap = .ok v ∧ IsDouble v ∧ -k ≤ v
      ∧ v ≤ -k + ∑ j ∈ range n, r j + n * (2 * ulp * B)
      ∧ ∀ x, InBox n x → dot n w x ≤ cap →
        dot n r x - k ≤ v + ulp * (B * n + 6 * ∑ j ∈ range n, r j) := by
  have hw0 : ∀ j < n, 0 ≤ w j := fun j hj => by
    obtain ⟨m, hm⟩ := hw j hj
    rw [hm]; exact Nat.cast_nonneg _
  have hu := ulp_pos
  have hB0 : 0 ≤ B := hk0.trans hkB
  have hkn : IsDouble (-k) := by
    have h1 : fl64 k = k := by have := hk; unfold IsDouble rd at this; rwa [if_pos hk0] at this
    have h2 := isDouble_neg k
    rwa [h1] at h2
  set keep := (List.range n).filter fun i => w i ≠ 0 with hkeep
  set zero := (List.range n).filter fun i => w i = 0 with hzero
  have hkpos : ∀ i ∈ keep, i < n ∧ 0 < w i := by
    intro i hi
    rw [hkeep, List.mem_filter] at hi
    exact ⟨List.mem_range.1 hi.1, lt_of_le_of_ne (hw0 i (List.mem_range.1 hi.1)) (Ne.symm (by simpa using hi.2))⟩
  set vals := (List.zipWith (fun r q => rd (r / q)) (keep.map r) (keep.map w)).map fun v => -v with hvals
  have hv : vals = keep.map fun i => -rd (r i / w i) := by
    rw [hvals, zipWith_map_same, List.map_map]; rfl
  have hlen : vals.length = keep.length := by rw [hv, List.length_map]
  obtain ⟨hp, hs⟩ := argsort.spec vals
  rw [hlen] at hp
  have hlt : ∀ i ∈ argsort.run vals, i < keep.length := fun i hi =>
    List.mem_range.1 (hp.mem_iff.1 hi)
  set order := (argsort.run vals).map fun i => keep.getD i 0 with horder
  have hperm : order.Perm keep := by
    have h := hp.map fun i => keep.getD i 0
    rw [map_getD_range_self] at h
    exact h
  set items := order.map fun i => (r i, w i) with hitems
  have hsort : items.Pairwise fun a b => rd (b.1 / b.2) ≤ rd (a.1 / a.2) := by
    rw [hitems, horder, List.map_map, List.pairwise_map]
    refine List.Pairwise.imp_of_mem ?_ hs
    intro a b ha hb hab
    rw [hv, getD_map_lt keep _ 0 (hlt a ha), getD_map_lt keep _ 0 (hlt b hb), neg_le_neg_iff] at hab
    exact hab
  have hmem : ∀ a ∈ items, ∃ i, i < n ∧ 0 < w i ∧ a = (r i, w i) := fun a ha => by
    obtain ⟨i, hi, rfl⟩ := List.mem_map.1 ha
    obtain ⟨h1, h2⟩ := hkpos i (hperm.mem_iff.1 hi)
    exact ⟨i, h1, h2, rfl⟩
  have hform : flKnapsack argsort n r k w cap
      = .ok (flGreedy cap items (zero.foldl (fun p i => rd (p + r i)) (-k)) 0) := by
    unfold flKnapsack
    dsimp only
    rw [← hkeep, ← hzero, flKnapLoop_eq]
    · rw [hitems, horder, List.map_map]
      congr 2
      refine List.map_congr_left fun i hi => ?_
      simp only [Function.comp]
      rw [getD_map_lt keep r 0 (hlt i hi), getD_map_lt keep w 0 (hlt i hi)]
    · intro i hi
      have hi := hlt i hi
      rw [getD_map_lt keep w 0 hi]
      apply fun h => (hkpos _ h).2
      rw [List.getD_eq_getElem _ _ hi]
      exact List.getElem_mem _
  have hfst : items.map Prod.fst = order.map r := by rw [hitems, List.map_map]; rfl
  have hsnd : items.map Prod.snd = order.map w := by rw [hitems, List.map_map]; rfl
  have hsum := fun f => sum_zero_add_order n w f order hperm
  have hlens : (zero.length : ℚ) + items.length = n := by
    have := hsum fun _ => 1
    rw [hitems]
    simpa using this
  have hwz : (zero.map w).sum = 0 := by
    apply List.sum_eq_zero
    intro a ha
    obtain ⟨i, hi, rfl⟩ := List.mem_map.1 ha
    simpa using (List.mem_filter.1 hi).2
  have hrz : ∀ i ∈ zero, 0 ≤ r i := fun i hi => hr i (List.mem_range.1 (List.mem_filter.1 hi).1)
  have hro : 0 ≤ (order.map r).sum := List.sum_nonneg fun x hx => by
    obtain ⟨i, hi, rfl⟩ := List.mem_map.1 hx
    exact hr i (hkpos i (hperm.mem_iff.1 hi)).1
  have hδ : 0 ≤ ulp * B := by positivity
  have hl1 : 0 ≤ (items.length : ℚ) * (ulp * B) := by positivity
  have hl0 : 0 ≤ (zero.length : ℚ) * (ulp * B) := by positivity
  have hn : (n : ℚ) * (2 * ulp * B) = 2 * (zero.length * (ulp * B)) + 2 * (items.length * (ulp * B)) := by
    rw [← hlens]; ring
  have hsr := hsum r
  rw [hn, ← hsr] at hB
  obtain ⟨z1, z2, z3⟩ := flZero_bounds r B zero hrz (-k) hkn (by linarith) hB0 (by linarith)
  set p := zero.foldl (fun p i => rd (p + r i)) (-k) with hpd
  have z3 := abs_le.1 z3
  have hitw : ∀ a ∈ items, 0 < a.2 ∧ ∃ k : ℕ, a.2 = k := fun a ha => by
    obtain ⟨i, h1, h2, rfl⟩ := hmem a ha
    exact ⟨h2, hw i h1⟩
  have hitr : ∀ a ∈ items, 0 ≤ a.1 ∧ a.1 ≤ B := fun a ha => by
    obtain ⟨i, h1, h2, rfl⟩ := hmem a ha
    refine ⟨hr i h1, ?_⟩
    have h3 := Finset.single_le_sum (f := r) (fun j hj => hr j (Finset.mem_range.1 hj)) (Finset.mem_range.2 h1)
    rw [← hsr] at h3
    simp only
    linarith
  have hup : p + (items.map Prod.fst).sum + items.length * (2 * ulp * B) ≤ B := by
    rw [hfst]
    linarith
  have hge := flGreedy_ge cap items (fun a ha => (hitw a ha).1) p 0 z1
  have hle := flGreedy_le cap B items (fun a ha => (hitw a ha).1) hitr p 0 z1 (by linarith) hup
  refine ⟨_, hform, hge.2, z2.trans hge.1, ?_, fun x hx hcx => ?_⟩
  · rw [hfst] at hle
    rw [hn, ← hsr]
    linarith
  · obtain ⟨lam, l0, -, l2⟩ := flGreedy_dual cap B items hitw hitr hsort 0 (by
      rw [hsnd, Nat.cast_zero, zero_add]
      have := hsum w
      rw [hwz, zero_add] at this
      rwa [this]) (by simpa using hcap) p z1 (by linarith) hup
    have hd := knap_dual_bound n r w x cap lam l0 hx hcx
    have hmax : ∑ j ∈ range n, max (r j - lam * w j) 0
        = (zero.map r).sum + (items.map fun a => max (a.1 - lam * a.2) 0).sum := by
      rw [← hsum fun j => max (r j - lam * w j) 0]
      congr 2
      · refine List.map_congr_left fun j hj => ?_
        have h0 : w j = 0 := by simpa using (List.mem_filter.1 hj).2
        rw [h0, mul_zero, sub_zero, max_eq_left (hrz j hj)]
      · exact (List.map_map (g := fun a => max (a.1 - lam * a.2) 0) (f := fun i => (r i, w i)) (l := order)).symm
    rw [Nat.cast_zero, sub_zero, hfst] at l2
    rw [hmax] at hd
    have hfin : ulp * (B * n + 6 * ∑ j ∈ range n, r j)
        = zero.length * (ulp * B) + (ulp * (B * items.length + 6 * (order.map r).sum))
          + 6 * (ulp * (zero.map r).sum) := by
      rw [← hlens, ← hsr]; ring
    have h9 : 0 ≤ ulp * (zero.map r).sum := mul_nonneg hu.le (List.sum_nonneg fun x hx => by
      obtain ⟨i, hi, rfl⟩ := List.mem_map.1 hx
      exact hrz i hi)
    rw [hfin]
    linarith

end Verif.Props
