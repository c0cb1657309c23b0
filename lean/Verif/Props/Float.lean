import Verif.Model.Float
import Verif.Props.Workflow
import Verif.Props.Certificates
import Mathlib.Tactic.Positivity
import Mathlib.Tactic.GCongr
import Mathlib.Tactic.LinearCombination
import Mathlib.Algebra.Order.Ring.Pow

/-!
# C91: rounding errors of doubles do not change the decisions
-/

open Finset

namespace Verif.Props
open Spec Model

/-! ## Doubles -/

/-- Relative error of rounding to the nearest double. -/
theorem fl64_err {q : ℚ} (hq : 0 ≤ q) : |fl64 q - q| ≤ 1 / 2 ^ 53 * q := by
  rcases hq.eq_or_lt with rfl | hq
  · simp [fl64]
  unfold fl64
  rw [if_neg (not_le.2 hq)]
  set u : ℚ := 2 ^ (Int.log 2 q - 52) with hu
  have hu0 : 0 < u := zpow_pos (by norm_num) _
  have h1 : ((2 : ℕ) : ℚ) ^ Int.log 2 q ≤ q := Int.zpow_log_le_self (by norm_num) hq
  have h2 : u = 2 ^ Int.log 2 q / 2 ^ 52 := by
    rw [hu, zpow_sub₀ (by norm_num)]; norm_num
  have h3 : (rint (q / u) : ℚ) * u - q = (rint (q / u) - q / u) * u := by
    rw [sub_mul, div_mul_cancel₀ _ hu0.ne']
  dsimp only
  rw [h3, abs_mul, abs_of_pos hu0]
  have h4 := rint_spec (q / u)
  have h5 : u ≤ q / 2 ^ 52 := by rw [h2]; gcongr; exact_mod_cast h1
  nlinarith [abs_nonneg ((rint (q / u) : ℚ) - q / u)]

theorem fl64_le {q : ℚ} (hq : 0 ≤ q) : fl64 q ≤ q * (1 + 1 / 2 ^ 53) := by
  have := (abs_le.1 (fl64_err hq)).2; linarith

theorem le_fl64 {q : ℚ} (hq : 0 ≤ q) : q * (1 - 1 / 2 ^ 53) ≤ fl64 q := by
  have := (abs_le.1 (fl64_err hq)).1; linarith

/-- Rounding does not fall below an integer of moderate size; a quarter of a unit in the last place
is made up for. -/
theorem nat_le_fl64 {q : ℚ} {k : ℕ} (h : (k : ℚ) ≤ q * (1 + 1 / 2 ^ 54)) (hq : q < 2 ^ 53) :
    (k : ℚ) ≤ fl64 q := by
  rcases Nat.eq_zero_or_pos k with rfl | hk
  · simpa using fl64_nonneg q
  have hq0 : 0 < q := by
    have : (0 : ℚ) < k := by exact_mod_cast hk
    by_contra h0
    nlinarith
  unfold fl64
  rw [if_neg (not_le.2 hq0)]
  dsimp only
  have hl : Int.log 2 q ≤ 52 := by
    have : Int.log 2 q < 53 := by
      rw [← Int.lt_zpow_iff_log_lt (b := 2) (by norm_num) hq0]
      exact_mod_cast hq
    omega
  obtain ⟨e, he⟩ : ∃ e : ℕ, Int.log 2 q - 52 = -(e : ℤ) := ⟨(52 - Int.log 2 q).toNat, by omega⟩
  rw [he, zpow_neg, zpow_natCast, div_inv_eq_mul]
  have hp : (0 : ℚ) < 2 ^ e := by positivity
  have hX : q * 2 ^ e < 2 ^ 53 := by
    have h1 : q < ((2 : ℕ) : ℚ) ^ (Int.log 2 q + 1) := Int.lt_zpow_succ_log_self (by norm_num) q
    have h2 : (2 : ℚ) ^ (Int.log 2 q + 1) * 2 ^ e = 2 ^ 53 := by
      rw [← zpow_natCast, ← zpow_add₀ (by norm_num), show Int.log 2 q + 1 + (e : ℤ) = 53 by omega]
      norm_num
    rw [← h2]
    exact mul_lt_mul_of_pos_right (by exact_mod_cast h1) hp
  have h1 : (k : ℚ) * 2 ^ e < q * 2 ^ e + 1 / 2 := by
    have := mul_le_mul_of_nonneg_right h hp.le
    have e1 : q * (1 + 1 / 2 ^ 54) * 2 ^ e = q * 2 ^ e + q * 2 ^ e / 2 ^ 54 := by ring
    rw [e1] at this
    have : q * 2 ^ e / 2 ^ 54 < 1 / 2 := by
      rw [div_lt_iff₀ (by norm_num)]
      norm_num at hX ⊢
      linarith
    linarith
  have h2 := (abs_le.1 (rint_spec (q * 2 ^ e))).1
  have h3 : (k : ℚ) * 2 ^ e ≤ rint (q * 2 ^ e) := by
    have h4 : (((k : ℤ) * 2 ^ e : ℤ) : ℚ) < ((rint (q * 2 ^ e) + 1 : ℤ) : ℚ) := by
      push_cast
      linarith
    have h5 : (k : ℤ) * 2 ^ e ≤ rint (q * 2 ^ e) := Int.lt_add_one_iff.1 (by exact_mod_cast h4)
    exact_mod_cast h5
  calc (k : ℚ) = k * 2 ^ e * (2 ^ e)⁻¹ := by rw [mul_assoc, mul_inv_cancel₀ hp.ne', mul_one]
    _ ≤ _ := by gcongr

/-! ## Sums -/

/-- Bernoulli: the factor of `k` roundings. -/
theorem pow_up {u : ℚ} (hu : 0 ≤ u) (k : ℕ) (hk : k * u ≤ 1 / 2) : (1 + u) ^ k ≤ 1 + 2 * k * u := by
  induction k with
  | zero => simp
  | succ k ih =>
    push_cast at hk ⊢
    have h1 : (k : ℚ) * u ≤ 1 / 2 := by linarith
    have h2 := ih h1
    rw [pow_succ]
    have h3 : (0 : ℚ) ≤ k * u := by positivity
    nlinarith

theorem pow_down {u : ℚ} (hu : 0 ≤ u) (hu1 : u ≤ 1) (k : ℕ) : 1 - k * u ≤ (1 - u) ^ k := by
  induction k with
  | zero => simp
  | succ k ih =>
    push_cast
    rw [pow_succ]
    have h3 : (0 : ℚ) ≤ k * u := by positivity
    have h4 : 0 ≤ 1 - u := by linarith
    nlinarith [mul_le_mul_of_nonneg_right ih h4]

theorem rounds_nonneg {q v : ℚ} (h : Rounds q v) (hq : 0 ≤ q) :
    q * (1 - 1 / 2 ^ 53) ≤ v ∧ v ≤ q * (1 + 1 / 2 ^ 53) := by
  unfold Rounds at h
  rw [abs_of_nonneg hq] at h
  have := abs_le.1 h
  constructor <;> linarith [this.1, this.2]

/-- Summing non-negative numbers in any order. -/
theorem flSum_bounds {l : List ℚ} {v : ℚ} (h : FlSum l v) (h0 : ∀ a ∈ l, 0 ≤ a) :
    0 ≤ l.sum ∧ l.sum * (1 - 1 / 2 ^ 53) ^ (l.length - 1) ≤ v
    ∧ v ≤ l.sum * (1 + 1 / 2 ^ 53) ^ (l.length - 1) := by
  refine ⟨List.sum_nonneg h0, ?_⟩
  induction h with
  | nil => simp
  | single a => simp
  | @add l l' v v' w hl hl' _ _ hw ih ih' =>
    obtain ⟨a1, a2⟩ := ih fun a ha => h0 a (by simp [ha])
    obtain ⟨b1, b2⟩ := ih' fun a ha => h0 a (by simp [ha])
    have p1 : 0 ≤ l.sum := List.sum_nonneg fun a ha => h0 a (by simp [ha])
    have p2 : 0 ≤ l'.sum := List.sum_nonneg fun a ha => h0 a (by simp [ha])
    have e1 : 0 < l.length := List.length_pos_iff.2 hl
    have e2 : 0 < l'.length := List.length_pos_iff.2 hl'
    have q1 : l.sum * (1 - 1 / 2 ^ 53 : ℚ) ^ ((l ++ l').length - 1 - 1) ≤ v := by
      refine le_trans ?_ a1
      refine mul_le_mul_of_nonneg_left ?_ p1
      exact pow_le_pow_of_le_one (by norm_num) (by norm_num) (by simp; omega)
    have q2 : l'.sum * (1 - 1 / 2 ^ 53 : ℚ) ^ ((l ++ l').length - 1 - 1) ≤ v' := by
      refine le_trans ?_ b1
      refine mul_le_mul_of_nonneg_left ?_ p2
      exact pow_le_pow_of_le_one (by norm_num) (by norm_num) (by simp; omega)
    have r1 : v ≤ l.sum * (1 + 1 / 2 ^ 53 : ℚ) ^ ((l ++ l').length - 1 - 1) := by
      refine le_trans a2 ?_
      refine mul_le_mul_of_nonneg_left ?_ p1
      exact pow_le_pow_right₀ (by norm_num) (by simp; omega)
    have r2 : v' ≤ l'.sum * (1 + 1 / 2 ^ 53 : ℚ) ^ ((l ++ l').length - 1 - 1) := by
      refine le_trans b2 ?_
      refine mul_le_mul_of_nonneg_left ?_ p2
      exact pow_le_pow_right₀ (by norm_num) (by simp; omega)
    have v0 : 0 ≤ v := le_trans (mul_nonneg p1 (pow_nonneg (by norm_num) _)) q1
    have v0' : 0 ≤ v' := le_trans (mul_nonneg p2 (pow_nonneg (by norm_num) _)) q2
    obtain ⟨w1, w2⟩ := rounds_nonneg hw (by linarith)
    have e3 : (l ++ l').length - 1 = ((l ++ l').length - 1 - 1) + 1 := by simp; omega
    rw [e3, List.sum_append, pow_succ _ ((l ++ l').length - 1 - 1), pow_succ _ ((l ++ l').length - 1 - 1)]
    constructor
    · refine le_trans ?_ w1
      rw [← mul_assoc]
      exact mul_le_mul_of_nonneg_right (by linarith) (by norm_num)
    · refine le_trans w2 ?_
      rw [← mul_assoc]
      exact mul_le_mul_of_nonneg_right (by linarith) (by norm_num)
  | @perm l l' v hp _ ih =>
    rw [← hp.sum_eq, ← hp.length_eq]
    exact ih fun a ha => h0 a (hp.mem_iff.1 ha)

/-- The rounding error of a computed violation: below `1e-7` if the numbers are not too large. -/
theorem flViolation_err {n : ℕ} {a x : Vec} {b w : ℚ} (ha : ∀ j < n, 0 ≤ a j) (hb : 0 ≤ b)
    (hx : InBox n x) (hsize : (n + 4) * (∑ j ∈ range n, a j + b + 1) ≤ 4 * 10 ^ 8)
    (h : FlViolation n (fun j => fl64 (a j)) x (fl64 b) w) :
    |w - max (dot n a x - b) 0| ≤ 1 / 10 ^ 7 := by
  obtain ⟨v, d, ⟨p, hp, hv⟩, hd, rfl⟩ := h
  set u : ℚ := 1 / 2 ^ 53 with hu
  have hu0 : 0 ≤ u := by norm_num [hu]
  have hu1 : u ≤ 1 := by norm_num [hu]
  set T : ℚ := ∑ j ∈ range n, a j with hT
  have hT0 : 0 ≤ T := Finset.sum_nonneg fun j hj => ha j (Finset.mem_range.1 hj)
  have hS0 : 0 ≤ dot n a x := Finset.sum_nonneg fun j hj =>
    mul_nonneg (ha j (Finset.mem_range.1 hj)) (hx j (Finset.mem_range.1 hj)).1
  have hST : dot n a x ≤ T := Finset.sum_le_sum fun j hj =>
    mul_le_of_le_one_right (ha j (Finset.mem_range.1 hj)) (hx j (Finset.mem_range.1 hj)).2
  -- the products
  have hpj : ∀ j < n, 0 ≤ p j ∧ a j * x j * (1 - u) ^ 2 ≤ p j ∧ p j ≤ a j * x j * (1 + u) ^ 2 := by
    intro j hj
    have h1 := fl64_le (ha j hj)
    have h2 := le_fl64 (ha j hj)
    have h3 := mul_nonneg (fl64_nonneg (a j)) (hx j hj).1
    obtain ⟨h4, h5⟩ := rounds_nonneg (hp j hj) h3
    have h6 := mul_le_mul_of_nonneg_right h1 (hx j hj).1
    have h7 := mul_le_mul_of_nonneg_right h2 (hx j hj).1
    have hm : (0 : ℚ) ≤ 1 - u := by linarith
    refine ⟨le_trans (mul_nonneg h3 hm) h4, ?_, ?_⟩
    · refine le_trans ?_ h4
      have := mul_le_mul_of_nonneg_right h7 hm
      nlinarith
    · refine le_trans h5 ?_
      have := mul_le_mul_of_nonneg_right h6 (by linarith : (0 : ℚ) ≤ 1 + u)
      nlinarith
  have hsum : ((List.range n).map p).sum = ∑ j ∈ range n, p j := rfl
  obtain ⟨h0, h1, h2⟩ := flSum_bounds hv (by
    intro q hq
    obtain ⟨j, hj, rfl⟩ := List.mem_map.1 hq
    exact (hpj j (List.mem_range.1 hj)).1)
  rw [hsum] at h0 h1 h2
  simp only [List.length_map, List.length_range] at h1 h2
  have hP1 : dot n a x * (1 - u) ^ 2 ≤ ∑ j ∈ range n, p j := by
    unfold dot
    rw [Finset.sum_mul]
    exact Finset.sum_le_sum fun j hj => (hpj j (Finset.mem_range.1 hj)).2.1
  have hP2 : ∑ j ∈ range n, p j ≤ dot n a x * (1 + u) ^ 2 := by
    unfold dot
    rw [Finset.sum_mul]
    exact Finset.sum_le_sum fun j hj => (hpj j (Finset.mem_range.1 hj)).2.2
  have hm : (0 : ℚ) ≤ 1 - u := by linarith
  have hk : ((n + 2 : ℕ) : ℚ) * u ≤ 1 / 2 := by
    have : ((n : ℚ) + 4) ≤ 4 * 10 ^ 8 := by nlinarith
    push_cast
    rw [hu]
    linarith
  have hv2 : v ≤ dot n a x * (1 + 2 * (n + 2) * u) := by
    have e1 : v ≤ dot n a x * (1 + u) ^ (n + 2) := by
      refine le_trans h2 (le_trans (mul_le_mul_of_nonneg_right hP2 (pow_nonneg (by linarith) _)) ?_)
      rw [mul_assoc, ← pow_add]
      refine mul_le_mul_of_nonneg_left ?_ hS0
      exact pow_le_pow_right₀ (by linarith) (by omega)
    have e2 := pow_up hu0 (n + 2) hk
    push_cast at e2
    exact le_trans e1 (mul_le_mul_of_nonneg_left e2 hS0)
  have hv1 : dot n a x * (1 - (n + 2) * u) ≤ v := by
    have e1 : dot n a x * (1 - u) ^ (n + 2) ≤ v := by
      refine le_trans ?_ (le_trans (mul_le_mul_of_nonneg_right hP1 (pow_nonneg hm _)) h1)
      rw [mul_assoc, ← pow_add]
      refine mul_le_mul_of_nonneg_left ?_ hS0
      exact pow_le_pow_of_le_one hm (by linarith) (by omega)
    have e2 := pow_down hu0 hu1 (n + 2)
    push_cast at e2
    exact le_trans (mul_le_mul_of_nonneg_left e2 hS0) e1
  have hn : (0 : ℚ) ≤ n := by positivity
  have hv0 : 0 ≤ v := le_trans (mul_nonneg h0 (pow_nonneg hm _)) h1
  -- the difference
  have hb1 := fl64_le hb
  have hb2 := le_fl64 hb
  have hd' : |d - (v - fl64 b)| ≤ u * (v + fl64 b) := by
    refine le_trans hd (mul_le_mul_of_nonneg_left ?_ hu0)
    rw [abs_le]
    constructor <;> linarith [fl64_nonneg b]
  rw [← hu] at hb1 hb2
  have hS1 : (2 * ((n : ℚ) + 2) * u) ≤ 1 := by
    push_cast at hk
    linear_combination 2 * hk
  have hvT : v ≤ 2 * T := by nlinarith
  have hbb : fl64 b ≤ 2 * b := by nlinarith
  have hkey : |d - (dot n a x - b)| ≤ 1 / 10 ^ 7 := by
    have t1 : |v - dot n a x| ≤ 2 * (n + 2) * u * T := by
      rw [abs_le]
      have : 0 ≤ ((n : ℚ) + 2) * u := by positivity
      constructor <;> nlinarith
    have t2 : |fl64 b - b| ≤ u * b := by
      rw [abs_le]; constructor <;> linarith
    have t3 : |d - (dot n a x - b)| ≤ 2 * (n + 2) * u * T + u * b + u * (2 * T + 2 * b) := by
      have e : d - (dot n a x - b) = (d - (v - fl64 b)) + (v - dot n a x) - (fl64 b - b) := by ring
      rw [e]
      have t4 : u * (v + fl64 b) ≤ u * (2 * T + 2 * b) := mul_le_mul_of_nonneg_left (by linarith) hu0
      have := abs_sub ((d - (v - fl64 b)) + (v - dot n a x)) (fl64 b - b)
      have := abs_add_le (d - (v - fl64 b)) (v - dot n a x)
      linarith
    refine le_trans t3 ?_
    have t5 : 2 * (n + 2) * u * T + u * b + u * (2 * T + 2 * b)
        ≤ 2 * u * ((n + 4) * (T + b + 1)) := by
      have : 0 ≤ u * T := by positivity
      have : 0 ≤ u * b := by positivity
      have : 0 ≤ u * (n * b) := by positivity
      have : 0 ≤ u * n := by positivity
      nlinarith
    refine le_trans t5 (le_trans (mul_le_mul_of_nonneg_left hsize (by positivity)) ?_)
    norm_num [hu]
  rw [abs_le] at hkey ⊢
  rcases max_cases d 0 with ⟨e1, e2⟩ | ⟨e1, e2⟩ <;>
    rcases max_cases (dot n a x - b) 0 with ⟨e3, e4⟩ | ⟨e3, e4⟩ <;>
    rw [e1, e3] <;> constructor <;> linarith [hkey.1, hkey.2]

/-! ## Flags -/

/-- The numbers of a constraint are not too large: with 40 variables the coefficients and the
capacity may sum up to nine million. -/
def Moderate (I : Inst) : Prop :=
  ∀ s < I.N, ∀ i < I.m, (I.n + 4) * (∑ j ∈ range I.n, I.A s i j + I.b s i + 1) ≤ 4 * 10 ^ 8

/-- **C91**, flags: whatever the order of summation and the rounding errors, a scenario that is
flagged has a constraint exceeded by more than `8e-7`, and one that is not flagged has none exceeded
by more than `1.2e-6`. -/
theorem C91_flags (I : Inst) (hI : NonnegAb I) (hM : Moderate I) (x : Vec) (hx : InBox I.n x)
    (flags : List Bool) (h : FlFlags (dbl I) x flags) :
    flags.length = I.N ∧ ∀ s < I.N,
      (flags[s]? = some true ∧ ViolBy I (8 / 10 ^ 7) s x)
      ∨ (flags[s]? = some false ∧ ¬ ViolBy I (12 / 10 ^ 7) s x) := by
  obtain ⟨w, hw, rfl⟩ := h
  refine ⟨by simp [dbl], fun s hs => ?_⟩
  have hs' : s < (dbl I).N := hs
  have t1 : fl64 (1 / 10 ^ 6) ≤ 1 / 10 ^ 6 * (1 + 1 / 2 ^ 53) := fl64_le (by norm_num)
  have t2 : (1 / 10 ^ 6 : ℚ) * (1 - 1 / 2 ^ 53) ≤ fl64 (1 / 10 ^ 6) := le_fl64 (by norm_num)
  have he : ∀ i < I.m, |w s i - max (dot I.n (I.A s i) x - I.b s i) 0| ≤ 1 / 10 ^ 7 := fun i hi =>
    flViolation_err (hI s hs i hi).2 (hI s hs i hi).1 hx (hM s hs i hi) (hw s hs i hi)
  rw [List.getElem?_map, List.getElem?_range hs']
  simp only [Option.map_some, Option.some.injEq, decide_eq_true_eq, decide_eq_false_iff_not]
  by_cases hf : ∃ i < (dbl I).m, fl64 (1 / 10 ^ 6) < w s i
  · left
    refine ⟨hf, ?_⟩
    obtain ⟨i, hi, hlt⟩ := hf
    refine ⟨i, hi, ?_⟩
    have h1 := (abs_le.1 (he i hi)).2
    rcases max_cases (dot I.n (I.A s i) x - I.b s i) 0 with ⟨e, _⟩ | ⟨e, _⟩ <;> rw [e] at h1
    · norm_num at t2 h1 ⊢
      linarith
    · exfalso
      norm_num at t2 h1
      linarith
  · right
    refine ⟨hf, ?_⟩
    rintro ⟨i, hi, hlt⟩
    refine hf ⟨i, hi, ?_⟩
    have h1 := (abs_le.1 (he i hi)).1
    have h2 := le_max_left (dot I.n (I.A s i) x - I.b s i) 0
    norm_num at t1 h1 hlt ⊢
    linarith

/-- **C91**, flags of binary points: with data of one decimal digit they are exactly the violated
scenarios. -/
theorem C91_flags_exact (I : Inst) (hI : OneDecimal I) (hM : Moderate I) (x : Vec)
    (hx : ∀ j < I.n, x j = 0 ∨ x j = 1) (flags : List Bool) (h : FlFlags (dbl I) x flags) :
    flags = (List.range I.N).map fun s => decide (¬ Sat I s x) := by
  have hbox : InBox I.n x := fun j hj => by
    rcases hx j hj with e | e <;> rw [e] <;> norm_num
  obtain ⟨hl, hf⟩ := C91_flags I hI.1 hM x hbox flags h
  have hgrid : ∀ s < I.N, ∀ tol : ℚ, 0 ≤ tol → tol < 1 / 10 → (ViolBy I tol s x ↔ ¬ Sat I s x) := by
    intro s hs tol h0 h1
    unfold ViolBy Sat
    push Not
    refine exists_congr fun i => and_congr_right fun hi => ?_
    obtain ⟨k, hk⟩ := dot_grid (fun j hj => (hI.2 s hs i hi).2 j hj) (hI.2 s hs i hi).1 hx
    rw [← sub_pos (b := I.b s i), hk]
    constructor
    · intro h; linarith
    · intro h
      have : 0 < k := by
        have : (0 : ℚ) < k := by linarith
        exact_mod_cast this
      have : (1 : ℚ) ≤ k := by exact_mod_cast this
      linarith
  apply List.ext_getElem?
  intro s
  by_cases hs : s < I.N
  · rw [List.getElem?_map, List.getElem?_range hs]
    simp only [Option.map_some]
    rcases hf s hs with ⟨e, hv⟩ | ⟨e, hv⟩
    · rw [e]
      rw [hgrid s hs _ (by norm_num) (by norm_num)] at hv
      simp [hv]
    · rw [e]
      rw [hgrid s hs _ (by norm_num) (by norm_num)] at hv
      simpa using hv
  · rw [List.getElem?_eq_none (by omega), List.getElem?_eq_none (by simp; omega)]

/-! ## The number of scenarios that may be violated -/

/-- The percentages whose double is smaller by more than a quarter of a unit in the last place. -/
def roundedDown : List ℕ := [29, 35, 41, 47, 57, 58, 69, 70, 82, 94]

/-- For each of them a number of scenarios for which the product is wrong. -/
def roundedDownAt : List (ℕ × ℕ) :=
  [(29, 100), (35, 180), (41, 300), (47, 4300), (57, 100), (58, 50), (69, 300), (70, 90),
   (82, 150), (94, 2150)]

theorem not_roundedDown {p : ℕ} (hp : p ≤ 100) (h : p ∉ roundedDown) :
    (p : ℚ) / 100 ≤ fl64 (p / 100) * (1 + 1 / 2 ^ 54) := by
  have h' : ∀ p ∈ List.range 101, p ∉ roundedDown →
      (p : ℚ) / 100 ≤ fl64 (p / 100) * (1 + 1 / 2 ^ 54) := by decide +kernel
  exact h' p (List.mem_range.2 (by omega)) h

/-- Whole percentages: `epsilon*nb_scenarios` in double precision lies between the number of
scenarios that may be violated and the next integer, if the double nearest to `p/100` is not too far
below `p/100` or `p` percent of the scenarios are not a whole number. -/
theorem fl_tolerance {p N : ℕ} (hp : p ≤ 100) (hN : N ≤ 2 ^ 40)
    (hs : p ∉ roundedDown ∨ ¬ 100 ∣ p * N) :
    ((p * N / 100 : ℕ) : ℚ) ≤ fl64 (fl64 (p / 100) * N)
    ∧ fl64 (fl64 (p / 100) * N) < ((p * N / 100 : ℕ) : ℚ) + 1 := by
  obtain ⟨K, r, hr, hK, hKd⟩ : ∃ K r : ℕ, r < 100 ∧ p * N = 100 * K + r ∧ p * N / 100 = K :=
    ⟨p * N / 100, p * N % 100, Nat.mod_lt _ (by norm_num), (Nat.div_add_mod _ _).symm, rfl⟩
  rw [hKd]
  have hq0 : (0 : ℚ) ≤ p / 100 := by positivity
  have hN0 : (0 : ℚ) ≤ N := by positivity
  have hKq : (p : ℚ) * N = 100 * K + r := by exact_mod_cast hK
  have hrq : (r : ℚ) ≤ 99 := by exact_mod_cast (by omega : r ≤ 99)
  have hr0 : (0 : ℚ) ≤ r := by positivity
  have hpN : (p : ℚ) * N ≤ 100 * 2 ^ 40 := by
    have : p * N ≤ 100 * 2 ^ 40 := Nat.mul_le_mul hp hN
    exact_mod_cast this
  have e1 := mul_le_mul_of_nonneg_right (fl64_le hq0) hN0
  have e2 := mul_le_mul_of_nonneg_right (le_fl64 hq0) hN0
  have e0 : 0 ≤ fl64 (p / 100) * N := mul_nonneg (fl64_nonneg _) hN0
  have e3 := fl64_le e0
  have e4 := le_fl64 e0
  have hup : fl64 (p / 100) * N < 2 ^ 53 := by nlinarith
  constructor
  · rcases hs with hs | hs
    · refine nat_le_fl64 ?_ hup
      have := mul_le_mul_of_nonneg_right (not_roundedDown hp hs) hN0
      nlinarith
    · have hr1 : (1 : ℚ) ≤ r := by
        have : 1 ≤ r := by
          by_contra h0
          exact hs ⟨K, by omega⟩
        exact_mod_cast this
      nlinarith
  · nlinarith

/-- **C91**, the integers of the code: the tolerance used for the initial partition, for the number
of splits and for the quantile of the big-Ms is the number of scenarios that may be violated. -/
theorem C91_floor_partial (I : Inst) (p : ℕ) (hp : p ≤ 100) (heps : I.eps = p / 100) (hN : I.N ≤ 2 ^ 40)
    (hs : p ∉ roundedDown ∨ ¬ 100 ∣ p * I.N) :
    flFloor (dbl I) = (p * I.N / 100 : ℕ) ∧ kmax I = p * I.N / 100 := by
  obtain ⟨h1, h2⟩ := fl_tolerance hp hN hs
  constructor
  · unfold flFloor
    rw [Int.floor_eq_iff]
    change ((p * I.N / 100 : ℕ) : ℚ) ≤ fl64 (fl64 I.eps * I.N)
      ∧ fl64 (fl64 I.eps * I.N) < ((p * I.N / 100 : ℕ) : ℚ) + 1
    rw [heps]
    exact ⟨h1, h2⟩
  · unfold kmax
    rw [heps, div_mul_eq_mul_div]
    rw [Nat.floor_eq_iff (by positivity), le_div_iff₀ (by norm_num), div_lt_iff₀ (by norm_num)]
    have e := Nat.div_add_mod (p * I.N) 100
    have e' := Nat.mod_lt (p * I.N) (show 100 > 0 by norm_num)
    constructor
    · exact_mod_cast (by omega : p * I.N / 100 * 100 ≤ p * I.N)
    · exact_mod_cast (by omega : p * I.N < (p * I.N / 100 + 1) * 100)

/-- **C91**: the ten percentages excluded in `C91_floor_partial` and `C91_verdict_partial` are exactly
those that fail for some number of scenarios, at most 4300; 10 and 20 are not among them. -/
theorem C91_percentages (p : ℕ) (hp : p ≤ 100) :
    (∀ N : ℕ, N ≤ 2 ^ 40 → ⌊fl64 (fl64 (p / 100) * N)⌋ = ((p * N / 100 : ℕ) : ℤ))
      ↔ p ∉ [29, 35, 41, 47, 57, 58, 69, 70, 82, 94] := by
  constructor
  · intro h
    have hN : ∀ a ∈ roundedDownAt, ⌊fl64 (fl64 ((a.1 : ℕ) / 100) * (a.2 : ℕ))⌋
          ≠ ((a.1 * a.2 / 100 : ℕ) : ℤ)
        ∧ a.2 ≤ 2 ^ 40 := by decide +kernel
    intro hmem
    obtain ⟨N, hN'⟩ : ∃ N, (p, N) ∈ roundedDownAt := by
      have h : ∀ p ∈ [29, 35, 41, 47, 57, 58, 69, 70, 82, 94], ∃ a ∈ roundedDownAt, a.1 = p := by
        decide
      obtain ⟨⟨_, N⟩, ha, rfl⟩ := h p hmem
      exact ⟨N, ha⟩
    exact (hN _ hN').1 (h N (hN _ hN').2)
  · intro hs N hN
    rw [Int.floor_eq_iff]
    exact fl_tolerance hp hN (Or.inl hs)

/-- **C91**, verdict: `is_feasible` in double precision decides the chance constraint of a binary
point, except for ten percentages when `epsilon*N` is an integer. -/
theorem C91_verdict_partial (I : Inst) (hE : Equi I) (hI : OneDecimal I) (hM : Moderate I) (p : ℕ)
    (hp : p ≤ 100) (heps : I.eps = p / 100) (hN : I.N ≤ 2 ^ 40)
    (hs : p ∉ roundedDown ∨ ¬ 100 ∣ p * I.N) (x : Vec)
    (hx : ∀ j < I.n, x j = 0 ∨ x j = 1) (flags : List Bool) (h : FlFlags (dbl I) x flags) :
    flCount flags = (viol I x).card ∧ (flVerdict (dbl I) flags = true ↔ Chance I x) := by
  have hf := C91_flags_exact I hI hM x hx flags h
  have hc : flCount flags = (viol I x).card := by
    rw [hf]
    unfold flCount viol
    rw [List.map_map, Finset.card_filter]
    refine Eq.trans ?_ (rfl : ((List.range I.N).map fun s => if ¬ Sat I s x then 1 else 0).sum = _)
    refine congrArg List.sum (List.map_congr_left fun s _ => ?_)
    by_cases h : Sat I s x <;> simp [h]
  refine ⟨hc, ?_⟩
  obtain ⟨h1, h2⟩ := fl_tolerance hp hN hs
  have hch : Chance I x ↔ (viol I x).card ≤ p * I.N / 100 := by
    unfold Chance
    have hsum : ∑ s ∈ viol I x, I.proba s = ((viol I x).card : ℚ) * (1 / (I.N : ℚ)) := by
      rw [Finset.sum_congr rfl (g := fun _ => 1 / (I.N : ℚ)), Finset.sum_const, nsmul_eq_mul]
      exact fun s hs => hE.2 s (Finset.mem_range.1 (Finset.mem_filter.1 hs).1)
    rw [hsum, heps, mul_one_div, div_le_div_iff₀ (by exact_mod_cast hE.1) (by norm_num),
      Nat.le_div_iff_mul_le (by norm_num)]
    norm_cast
  rw [hch]
  unfold flVerdict
  rw [decide_eq_true_iff, hc]
  change ((viol I x).card : ℚ) ≤ fl64 (fl64 I.eps * I.N) ↔ _
  rw [heps]
  constructor
  · intro h
    have : ((viol I x).card : ℚ) < ((p * I.N / 100 : ℕ) : ℚ) + 1 := lt_of_le_of_lt h h2
    have : (viol I x).card < p * I.N / 100 + 1 := by exact_mod_cast this
    omega
  · intro h
    exact le_trans (by exact_mod_cast h) h1

/-! ## The loops over the sorted scenarios -/

/-- The total after `k` scenarios. -/
def flTotal (q : ℚ) : ℕ → ℚ
  | 0 => 0
  | k + 1 => fl64 (flTotal q k + q)

theorem flTotal_bounds {q r : ℚ} (hr : 0 ≤ r) (h1 : r * (1 - 1 / 2 ^ 53) ≤ q)
    (h2 : q ≤ r * (1 + 1 / 2 ^ 53)) (k : ℕ) :
    k * r * (1 - 1 / 2 ^ 53) ^ (k + 1) ≤ flTotal q k
    ∧ flTotal q k ≤ k * r * (1 + 1 / 2 ^ 53) ^ (k + 1) := by
  obtain ⟨u, hu⟩ : ∃ u : ℚ, u = 1 / 2 ^ 53 := ⟨_, rfl⟩
  have hu0 : 0 ≤ u := by norm_num [hu]
  have hm : 0 ≤ 1 - u := by norm_num [hu]
  rw [← hu] at h1 h2 ⊢
  have hq : 0 ≤ q := le_trans (mul_nonneg hr hm) h1
  induction k with
  | zero => simp [flTotal]
  | succ k ih =>
    obtain ⟨a, b⟩ := ih
    have h0 : 0 ≤ flTotal q k := le_trans (by positivity) a
    have e1 := fl64_le (add_nonneg h0 hq)
    have e2 := le_fl64 (add_nonneg h0 hq)
    rw [← hu] at e1 e2
    have p1 : (1 - u) ^ (k + 1) ≤ 1 - u := by
      calc (1 - u) ^ (k + 1) ≤ (1 - u) ^ 1 := pow_le_pow_of_le_one hm (by linarith) (by omega)
        _ = _ := pow_one _
    have p2 : 1 + u ≤ (1 + u) ^ (k + 1) := by
      calc 1 + u = (1 + u) ^ 1 := (pow_one _).symm
        _ ≤ _ := pow_le_pow_right₀ (by linarith) (by omega)
    push_cast
    rw [pow_succ _ (k + 1), pow_succ _ (k + 1)]
    change _ ≤ fl64 (flTotal q k + q) ∧ fl64 (flTotal q k + q) ≤ _
    constructor
    · refine le_trans ?_ e2
      rw [← mul_assoc]
      refine mul_le_mul_of_nonneg_right ?_ hm
      have := mul_le_mul_of_nonneg_left p1 hr
      linarith
    · refine le_trans e1 ?_
      rw [← mul_assoc]
      refine mul_le_mul_of_nonneg_right ?_ (by linarith)
      have := mul_le_mul_of_nonneg_left p2 hr
      linarith

/-- For equiprobable scenarios the total is right up to `1e-11`. -/
theorem flTotal_err {N k : ℕ} (hN : 0 < N) (hN' : N ≤ 90000) (hk : k ≤ N) :
    |flTotal (fl64 (1 / N)) k - k / N| ≤ 1 / 10 ^ 9 := by
  have hr : (0 : ℚ) ≤ 1 / N := by positivity
  obtain ⟨a, b⟩ := flTotal_bounds hr (le_fl64 hr) (fl64_le hr) k
  have hNq : (0 : ℚ) < N := by exact_mod_cast hN
  have hkN : (k : ℚ) / N ≤ 1 := by rw [div_le_one hNq]; exact_mod_cast hk
  have hk0 : (0 : ℚ) ≤ k / N := by positivity
  have hk9 : ((k + 1 : ℕ) : ℚ) ≤ 90001 := by exact_mod_cast (by omega : k + 1 ≤ 90001)
  have hup := pow_up (u := 1 / 2 ^ 53) (by norm_num) (k + 1) (by
    have : ((k + 1 : ℕ) : ℚ) * (1 / 2 ^ 53) ≤ 90001 * (1 / 2 ^ 53) :=
      mul_le_mul_of_nonneg_right hk9 (by norm_num)
    refine le_trans this (by norm_num))
  have hdn := pow_down (u := 1 / 2 ^ 53) (by norm_num) (by norm_num) (k + 1)
  rw [mul_one_div] at a b
  have c1 := mul_le_mul_of_nonneg_left hup hk0
  have c2 := mul_le_mul_of_nonneg_left hdn hk0
  rw [abs_le]
  constructor
  · nlinarith
  · nlinarith

theorem flQuantileLoop_eq {proba : ℕ → ℚ} {thr q : ℚ} (l : List ℕ) (hq : ∀ s ∈ l, proba s = q)
    (k K : ℕ) (hK : K < l.length) (hlow : ∀ j ≤ K, 0 < j → flTotal q (k + j) < thr)
    (hhigh : thr ≤ flTotal q (k + K + 1)) :
    flQuantileLoop proba thr l (flTotal q k) = l[K]? := by
  induction l generalizing k K with
  | nil => simp at hK
  | cons s l ih =>
    unfold flQuantileLoop
    rw [hq s (by simp)]
    change (if flTotal q (k + 1) ≥ thr then some s
      else flQuantileLoop proba thr l (flTotal q (k + 1))) = _
    cases K with
    | zero => rw [if_pos (by simpa using hhigh)]; simp
    | succ K =>
      rw [if_neg (not_le.2 (hlow 1 (by omega) (by omega)))]
      rw [ih (fun s hs => hq s (by simp [hs])) (k + 1) K (by simpa using hK)
        (fun j hj hj0 => by
          have := hlow (j + 1) (by omega) (by omega)
          rwa [show k + 1 + j = k + (j + 1) by omega])
        (by rwa [show k + 1 + K + 1 = k + (K + 1) + 1 by omega])]
      simp

theorem flSelectLoop_eq {proba : ℕ → ℚ} {thr q : ℚ} (l : List ℕ) (hq : ∀ s ∈ l, proba s = q)
    (k K : ℕ) (hK : K < l.length) (hlow : ∀ j ≤ K, 0 < j → flTotal q (k + j) < thr)
    (hhigh : thr ≤ flTotal q (k + K + 1)) :
    flSelectLoop proba thr l k (flTotal q k) = some (k + K + 1) := by
  induction l generalizing k K with
  | nil => simp at hK
  | cons s l ih =>
    unfold flSelectLoop
    rw [hq s (by simp)]
    change (if flTotal q (k + 1) ≥ thr then some (k + 1)
      else flSelectLoop proba thr l (k + 1) (flTotal q (k + 1))) = _
    cases K with
    | zero => rw [if_pos (by simpa using hhigh)]
    | succ K =>
      rw [if_neg (not_le.2 (hlow 1 (by omega) (by omega)))]
      rw [ih (fun s hs => hq s (by simp [hs])) (k + 1) K (by simpa using hK)
        (fun j hj hj0 => by
          have := hlow (j + 1) (by omega) (by omega)
          rwa [show k + 1 + j = k + (j + 1) by omega])
        (by rwa [show k + 1 + K + 1 = k + (K + 1) + 1 by omega])]
      exact congrArg some (by omega)

/-- Whole percentages and totals: a gap of at least `1.1e-7` on one side of the risk level. -/
theorem percent_gap {p N j : ℕ} (hN : 0 < N) (hN' : N ≤ 90000) :
    (j ≤ p * N / 100 → (j : ℚ) / N ≤ p / 100)
    ∧ (p * N / 100 < j → (p : ℚ) / 100 + 11 / 10 ^ 8 ≤ j / N) := by
  have hNq : (0 : ℚ) < N := by exact_mod_cast hN
  constructor
  · intro h
    rw [div_le_div_iff₀ hNq (by norm_num)]
    exact_mod_cast (Nat.le_div_iff_mul_le (by norm_num)).1 h
  · intro h
    have h1 : p * N < j * 100 := (Nat.div_lt_iff_lt_mul (by norm_num)).1 h
    have h2 : (p : ℚ) * N + 1 ≤ j * 100 := by exact_mod_cast h1
    have h3 : (N : ℚ) ≤ 90000 := by exact_mod_cast hN'
    rw [le_div_iff₀ hNq]
    nlinarith

/-- **C91**, quantile bound: the loop of `ahmed_et_al_bound` stops at the scenario with the
`⌊εN⌋+1`-th smallest cost. -/
theorem C91_quantile (I : Inst) (hE : Equi I) (p : ℕ) (hp : p < 100) (heps : I.eps = p / 100)
    (hN : I.N ≤ 90000) (sorted : List ℕ) (hl : sorted.Perm (List.range I.N)) :
    p * I.N / 100 < I.N ∧ flQuantile (dbl I) sorted = sorted[p * I.N / 100]? := by
  have hN0 := hE.1
  have hlen : sorted.length = I.N := by rw [hl.length_eq, List.length_range]
  have hlt : p * I.N / 100 < I.N := by
    rw [Nat.div_lt_iff_lt_mul (by norm_num)]
    nlinarith
  refine ⟨hlt, ?_⟩
  have hp1 : (p : ℚ) / 100 ≤ 1 := by
    rw [div_le_one (by norm_num)]; exact_mod_cast hp.le
  have hq0 : (0 : ℚ) ≤ p / 100 := by positivity
  have a1 := fl64_le hq0
  have a2 := le_fl64 hq0
  have b1 : fl64 (1 / 10 ^ 7) ≤ 1 / 10 ^ 7 * (1 + 1 / 2 ^ 53) := fl64_le (by norm_num)
  have b2 : (1 / 10 ^ 7 : ℚ) * (1 - 1 / 2 ^ 53) ≤ fl64 (1 / 10 ^ 7) := le_fl64 (by norm_num)
  have h0 := add_nonneg (fl64_nonneg (p / 100)) (fl64_nonneg (1 / 10 ^ 7))
  have c1 := fl64_le h0
  have c2 := le_fl64 h0
  unfold flQuantile
  change flQuantileLoop (fun s => fl64 (I.proba s)) (fl64 (fl64 I.eps + fl64 (1 / 10 ^ 7))) sorted
    (flTotal (fl64 (1 / I.N)) 0) = _
  rw [heps]
  set thr := fl64 (fl64 (p / 100) + fl64 (1 / 10 ^ 7)) with hthr
  have t1 : thr ≤ p / 100 + 105 / 10 ^ 9 := by norm_num at a1 b1 c1 ⊢; linarith
  have t2 : (p : ℚ) / 100 + 95 / 10 ^ 9 ≤ thr := by norm_num at a2 b2 c2 ⊢; linarith
  refine flQuantileLoop_eq sorted (fun s hs => ?_) 0 _ (by omega) (fun j hj _ => ?_) ?_
  · rw [hE.2 s (List.mem_range.1 (hl.mem_iff.1 hs))]
  · rw [Nat.zero_add]
    have h1 := (percent_gap (p := p) hN0 hN).1 hj
    have h2 := (abs_le.1 (flTotal_err (k := j) hN0 hN (by omega))).2
    norm_num at h1 h2 t2 ⊢
    linarith
  · rw [Nat.zero_add]
    have h1 := (percent_gap (p := p) (j := p * I.N / 100 + 1) hN0 hN).2 (by omega)
    have h2 := (abs_le.1 (flTotal_err (k := p * I.N / 100 + 1) hN0 hN (by omega))).1
    norm_num at h1 h2 t1 ⊢
    linarith

/-- **C91**, scenarios of the lower bound: `_get_selected_scenarios` takes the first
`N - ⌊εN⌋` scenarios of its order, so that at most `⌊εN⌋` are left out. -/
theorem C91_selected (I : Inst) (hE : Equi I) (p : ℕ) (hp : p < 100) (heps : I.eps = p / 100)
    (hN : I.N ≤ 90000) (sorted : List ℕ) (hl : sorted.Perm (List.range I.N)) :
    flSelected (dbl I) sorted = some (sorted.take (I.N - p * I.N / 100)) := by
  have hN0 := hE.1
  have hlen : sorted.length = I.N := by rw [hl.length_eq, List.length_range]
  have hlt : p * I.N / 100 < I.N := by
    rw [Nat.div_lt_iff_lt_mul (by norm_num)]
    nlinarith
  have hp1 : (p : ℚ) / 100 ≤ 99 / 100 := by
    have : (p : ℚ) ≤ 99 := by exact_mod_cast (by omega : p ≤ 99)
    linarith
  have hq0 : (0 : ℚ) ≤ p / 100 := by positivity
  have a1 := fl64_le hq0
  have a2 := le_fl64 hq0
  have b1 : fl64 (1 / 10 ^ 7) ≤ 1 / 10 ^ 7 * (1 + 1 / 2 ^ 53) := fl64_le (by norm_num)
  have b2 : (1 / 10 ^ 7 : ℚ) * (1 - 1 / 2 ^ 53) ≤ fl64 (1 / 10 ^ 7) := le_fl64 (by norm_num)
  have e0 : 0 ≤ 1 - fl64 (p / 100) := by norm_num at a1 ⊢; linarith
  have d1 := fl64_le e0
  have d2 := le_fl64 e0
  have h0 : 0 ≤ fl64 (1 - fl64 (p / 100)) - fl64 (1 / 10 ^ 7) := by
    norm_num at a1 b1 d2 ⊢; linarith
  have c1 := fl64_le h0
  have c2 := le_fl64 h0
  unfold flSelected
  change Option.map (fun k => sorted.take k) (flSelectLoop (fun s => fl64 (I.proba s))
    (fl64 (fl64 (1 - fl64 I.eps) - fl64 (1 / 10 ^ 7))) sorted 0 (flTotal (fl64 (1 / I.N)) 0)) = _
  rw [heps]
  set thr := fl64 (fl64 (1 - fl64 (p / 100)) - fl64 (1 / 10 ^ 7)) with hthr
  have t1 : thr ≤ 1 - p / 100 - 95 / 10 ^ 9 := by norm_num at a1 a2 b2 c1 d1 ⊢; linarith
  have t2 : (1 : ℚ) - p / 100 - 105 / 10 ^ 9 ≤ thr := by norm_num at a1 a2 b1 c2 d2 ⊢; linarith
  have hNq : (0 : ℚ) < I.N := by exact_mod_cast hN0
  have hsub : ∀ j ≤ I.N, ((I.N - j : ℕ) : ℚ) / I.N = 1 - j / I.N := fun j hj => by
    rw [Nat.cast_sub hj, sub_div, div_self hNq.ne']
  have hk : flSelectLoop (fun s => fl64 (I.proba s)) thr sorted 0 (flTotal (fl64 (1 / I.N)) 0)
      = some (0 + (I.N - p * I.N / 100 - 1) + 1) := by
    refine flSelectLoop_eq sorted (fun s hs => ?_) 0 _ (by omega) (fun j hj _ => ?_) ?_
    · rw [hE.2 s (List.mem_range.1 (hl.mem_iff.1 hs))]
    · rw [Nat.zero_add]
      have h1 := (percent_gap (p := p) (j := I.N - j) hN0 hN).2 (by omega)
      rw [hsub j (by omega)] at h1
      have h2 := (abs_le.1 (flTotal_err (k := j) hN0 hN (by omega))).2
      norm_num at h1 h2 t2 ⊢
      linarith
    · rw [Nat.zero_add, show I.N - p * I.N / 100 - 1 + 1 = I.N - p * I.N / 100 by omega]
      have h1 := (percent_gap (p := p) (j := p * I.N / 100) hN0 hN).1 le_rfl
      have h2 := (abs_le.1 (flTotal_err (k := I.N - p * I.N / 100) hN0 hN (by omega))).1
      rw [hsub _ (by omega)] at h2
      norm_num at h1 h2 t1 ⊢
      linarith
  rw [hk, Nat.zero_add, show I.N - p * I.N / 100 - 1 + 1 = I.N - p * I.N / 100 by omega]
  rfl

/-! ## A risk level that is rounded down -/

/-- One item that 29 of 100 scenarios forbid, at the risk level `0.29`. -/
def exTwentyNine : Inst :=
  { n := 1, N := 100, m := 1, A := fun _ _ _ => 1, b := fun s _ => if s < 29 then 0 else 1
    c := fun _ => 1, proba := fun _ => 1 / 100, eps := 29 / 100, cont := false }

/-- 29 subsets, each with a scenario that forbids the item. -/
def exTwentyNineParts : List (List ℕ) :=
  (List.range' 29 71 ++ [0]) :: (List.range' 1 28).map fun s => [s]

/-- **C91** fails for risk levels that are rounded down: with `epsilon = 0.29` and 100 scenarios the
code computes `28.999999999999996`.  The optimal solution takes the item and violates 29 scenarios.
`is_feasible` rejects it; the initial partition may have 29 subsets, each of cost zero, so that the
first bound, the largest subset cost, is zero and below the optimal value; 29 violated subsets, which
the chance constraint admits, make the number of splits zero, which the refiner asserts to be
positive.  The quantile and the lower bound do count 29 scenarios. -/
theorem C91_counterexample :
    Equi exTwentyNine ∧ OneDecimal exTwentyNine ∧ Moderate exTwentyNine
    ∧ Feas exTwentyNine (fun _ => 1) ∧ obj exTwentyNine (fun _ => 1) = 1
    ∧ (∀ flags, FlFlags (dbl exTwentyNine) (fun _ => 1) flags →
        flCount flags = 29 ∧ flVerdict (dbl exTwentyNine) flags = false)
    ∧ flFloor (dbl exTwentyNine) = 28 ∧ flFloor (dbl exTwentyNine) + 1 - 29 < 1
    ∧ (IsPartition 100 exTwentyNineParts
      ∧ (exTwentyNineParts.length : ℤ) = flFloor (dbl exTwentyNine) + 1
      ∧ ∀ P ∈ exTwentyNineParts, DetOpt exTwentyNine P 0 (fun _ => 0))
    ∧ flQuantile (dbl exTwentyNine) (List.range 100) = some 29
    ∧ flSelected (dbl exTwentyNine) (List.range 100) = some (List.range 71) := by
  have hE : Equi exTwentyNine := ⟨by decide, fun s _ => by norm_num [exTwentyNine]⟩
  have hO : OneDecimal exTwentyNine := by
    refine ⟨fun s _ i _ => ⟨?_, fun j _ => by norm_num [exTwentyNine]⟩, fun s _ i _ =>
      ⟨?_, fun j _ => ⟨10, by norm_num [exTwentyNine]⟩⟩⟩
    · simp only [exTwentyNine]; split_ifs <;> norm_num
    · simp only [exTwentyNine]
      split_ifs
      · exact ⟨0, by norm_num⟩
      · exact ⟨10, by norm_num⟩
  have hM : Moderate exTwentyNine := by
    intro s _ i _
    simp only [exTwentyNine]
    split_ifs <;> norm_num
  have hfl : flFloor (dbl exTwentyNine) = 28 := by decide +kernel
  refine ⟨hE, hO, hM, ⟨fun j _ => by simp [exTwentyNine], by unfold Chance; decide +kernel⟩,
    by decide +kernel, ?_, hfl, by rw [hfl]; norm_num, ⟨⟨by decide +kernel, by decide +kernel⟩, by rw [hfl]; decide, ?_⟩,
    ?_, ?_⟩
  · intro flags h
    have := C91_flags_exact exTwentyNine hO hM (fun _ => 1) (fun _ _ => Or.inr rfl) flags h
    rw [this]
    decide +kernel
  · have hz : ∀ P ∈ exTwentyNineParts, ∃ s ∈ P, s < 29 := by decide +kernel
    intro P hP
    refine ⟨⟨fun j _ => by simp [exTwentyNine], fun s _ i _ => ?_, by simp [obj, dot]⟩, ?_⟩
    · simp only [exTwentyNine, dot]
      split_ifs <;> norm_num
    · intro y _ hs
      obtain ⟨s, hsP, hs9⟩ := hz P hP
      have := hs s hsP 0 (by decide)
      simpa [exTwentyNine, dot, obj, hs9] using this
  · rw [(C91_quantile exTwentyNine hE 29 (by norm_num) rfl (by decide) (List.range 100)
      (List.Perm.refl _)).2]
    decide
  · rw [C91_selected exTwentyNine hE 29 (by norm_num) rfl (by decide) (List.range 100)
      (List.Perm.refl _)]
    decide

/-! ## Cases -/

/-- Adding from left to right, each time rounding to the nearest double, is covered. -/
theorem flSum_seq (l : List ℚ) (a : ℚ) (ha : 0 ≤ a) (hl : ∀ b ∈ l, 0 ≤ b) :
    FlSum (a :: l) (l.foldl (fun t b => fl64 (t + b)) a) := by
  suffices H : ∀ (l l₀ : List ℚ) (v : ℚ), l₀ ≠ [] → 0 ≤ v → (∀ b ∈ l, 0 ≤ b) → FlSum l₀ v →
      FlSum (l₀ ++ l) (l.foldl (fun t b => fl64 (t + b)) v) from
    H l [a] a (by simp) ha hl (.single a)
  intro l
  induction l with
  | nil => intro l₀ v _ _ _ h; simpa using h
  | cons b l ih =>
    intro l₀ v h0 hv hl h
    have hb : 0 ≤ b := hl b (by simp)
    have := ih (l₀ ++ [b]) (fl64 (v + b)) (by simp) (fl64_nonneg _) (fun c hc => hl c (by simp [hc]))
      (.add h0 (by simp) h (.single b) (by
        unfold Rounds
        rw [abs_of_nonneg (add_nonneg hv hb)]
        exact fl64_err (add_nonneg hv hb)))
    simpa using this

/-- Numbers up to a hundred thousand and forty variables, as in the library, are moderate. -/
theorem moderate_of_small (I : Inst) (hn : I.n ≤ 40)
    (hA : ∀ s < I.N, ∀ i < I.m, I.b s i ≤ 10 ^ 5 ∧ ∀ j < I.n, I.A s i j ≤ 10 ^ 5)
    (h0 : NonnegAb I) : Moderate I := by
  intro s hs i hi
  have hn' : (I.n : ℚ) ≤ 40 := by exact_mod_cast hn
  have hn0 : (0 : ℚ) ≤ I.n := by positivity
  have h1 : ∑ j ∈ range I.n, I.A s i j ≤ I.n * 10 ^ 5 := by
    have := Finset.sum_le_card_nsmul (range I.n) (fun j => I.A s i j) (10 ^ 5)
      fun j hj => (hA s hs i hi).2 j (Finset.mem_range.1 hj)
    simpa using this
  have h2 := (hA s hs i hi).1
  have h3 : 0 ≤ ∑ j ∈ range I.n, I.A s i j :=
    Finset.sum_nonneg fun j hj => (h0 s hs i hi).2 j (Finset.mem_range.1 hj)
  have h4 := (h0 s hs i hi).1
  calc ((I.n : ℚ) + 4) * (∑ j ∈ range I.n, I.A s i j + I.b s i + 1)
      ≤ 44 * (40 * 10 ^ 5 + 10 ^ 5 + 1) := by
        apply mul_le_mul (by linarith) (by linarith) (by linarith) (by norm_num)
    _ ≤ _ := by norm_num

/-- Ten items, 500 scenarios, ten percent: 50 scenarios may be violated; here 50 are. -/
def exTenPercent : Inst :=
  { n := 10, N := 500, m := 1, A := fun s _ j => (s + j) / 10, b := fun s _ => if s < 50 then 0 else 600
    c := fun _ => 1, proba := fun _ => 1 / 500, eps := 10 / 100, cont := false }

example : Equi exTenPercent ∧ OneDecimal exTenPercent ∧ Moderate exTenPercent
    ∧ exTenPercent.N ≤ 90000 ∧ exTenPercent.eps = ((10 : ℕ) : ℚ) / 100
    ∧ 10 ∉ roundedDown
    ∧ (viol exTenPercent (fun _ => 1)).card = 50
    ∧ ∃ flags, FlFlags (dbl exTenPercent) (fun _ => 1) flags := by
  have h0 : NonnegAb exTenPercent := by
    refine fun s _ i _ => ⟨?_, fun j _ => by simp only [exTenPercent]; positivity⟩
    simp only [exTenPercent]; split_ifs <;> norm_num
  refine ⟨⟨by decide, fun s _ => by norm_num [exTenPercent]⟩, ⟨h0, ?_⟩, ?_, by decide, rfl,
    by decide, by decide +kernel, ?_⟩
  · refine fun s _ i _ => ⟨?_, fun j _ => ⟨s + j, by simp [exTenPercent]⟩⟩
    simp only [exTenPercent]
    split_ifs
    · exact ⟨0, by norm_num⟩
    · exact ⟨6000, by norm_num⟩
  · refine moderate_of_small _ (by decide) (fun s hs i _ => ⟨?_, fun j hj => ?_⟩) h0
    · simp only [exTenPercent]; split_ifs <;> norm_num
    · have h1 : (s : ℚ) < 500 := by exact_mod_cast hs
      have h2 : (j : ℚ) < 10 := by exact_mod_cast hj
      simp only [exTenPercent]
      linarith
  · let v : ℕ → ℚ := fun s => ((List.range 10).tail.map fun j : ℕ => fl64 ((s + j) / 10)).foldl
      (fun t b => fl64 (t + b)) (fl64 ((s + (0 : ℕ)) / 10))
    refine ⟨_, fun s i => max (v s - fl64 (exTenPercent.b s i)) 0, fun s hs i hi =>
      ⟨v s, v s - fl64 (exTenPercent.b s i), ⟨fun j => fl64 ((s + j) / 10), fun j _ => ?_, ?_⟩, ?_,
        rfl⟩, rfl⟩
    · simp [Rounds, dbl, exTenPercent]
    · exact flSum_seq _ _ (fl64_nonneg _) fun b hb => by
        obtain ⟨j, _, rfl⟩ := List.mem_map.1 hb
        exact fl64_nonneg _
    · simp [Rounds, dbl]

end Verif.Props
