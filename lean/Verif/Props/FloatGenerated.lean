import Verif.Props.FloatKnapsack

/-!
# C106 and C107 from the draws of the generator
-/

namespace Verif.Props

open Spec Model Finset

/-- The draws of every row and the capacities are of moderate size: the positive draws of a row, each
increased by the largest possible rounding `0.0501`, sum up to at most 20000 and to at most `κ` times the
capacity less `0.05`, and capacities are between `1` and `5000`. -/
def SizedDraws (κ : ℚ) (n m N : ℕ) (b : Vec) (d : Draws) : Prop :=
  ∀ k, ∀ s < N, ∀ i < m, 1 ≤ b i ∧ b i ≤ 5000
    ∧ ∑ j ∈ range n, (max (d.normal k i j s) 0 + 501 / 10000) ≤ 20000
    ∧ ∑ j ∈ range n, (max (d.normal k i j s) 0 + 501 / 10000) ≤ κ * (b i - 1 / 20)

/-- Rounding to one decimal keeps whole numbers. -/
theorem round1_natCast (k : ℕ) : round1 (k : ℚ) = k := by
  have h := (C05_round1 0).2.2.1 (10 * k)
  have e : (((10 * k : ℤ)) : ℚ) / 10 = k := by push_cast; ring
  rwa [e] at h

/-- Instances made of draws of moderate size have moderate size. -/
theorem sized_instance {κ : ℚ} (hκ : 0 ≤ κ) {n m N : ℕ} {b : Vec} {d : Draws}
    (hD : SizedDraws κ n m N b d) {k : ℕ} {I : Inst} (hn : I.n = n) (hm : I.m = m) (hN : I.N = N)
    (hb : ∀ s < N, ∀ i < m, I.b s i = round1 (b i))
    (hA : ∀ s < N, ∀ i < m, ∀ j < n, (d.fails k j s = true → I.A s i j = 0)
      ∧ (d.fails k j s = false → |I.A s i j - max (d.normal k i j s) 0| ≤ 501 / 10000)) :
    Model.Moderate I ∧ RowRatio κ I := by
  have hrow : ∀ s < N, ∀ i < m, ∑ j ∈ range n, I.A s i j
      ≤ ∑ j ∈ range n, (max (d.normal k i j s) 0 + 501 / 10000) := fun s hs i hi =>
    Finset.sum_le_sum fun j hj => by
      obtain ⟨a1, a2⟩ := hA s hs i hi j (Finset.mem_range.1 hj)
      have h0 : 0 ≤ max (d.normal k i j s) 0 := le_max_right _ _
      cases hf : d.fails k j s with
      | true => rw [a1 hf]; linarith
      | false => linarith [(abs_le.1 (a2 hf)).2]
  have h1 : ∀ q, 1 ≤ q → 1 ≤ round1 q := fun q hq => by
    have := (C05_round1 1).2.2.2.1 q hq
    have e : round1 1 = 1 := by have := round1_natCast 1; simpa using this
    linarith
  have h2 : ∀ q, q ≤ 5000 → round1 q ≤ 5000 := fun q hq => by
    have := (C05_round1 q).2.2.2.1 5000 hq
    have e : round1 5000 = 5000 := by have := round1_natCast 5000; simpa using this
    linarith
  refine ⟨fun s hs i hi => ?_, fun s hs i hi => ?_⟩
  all_goals
    rw [hN] at hs
    rw [hm] at hi
    obtain ⟨d1, d2, d3, d4⟩ := hD k s hs i hi
    rw [hn, hb s hs i hi]
  · exact ⟨h2 _ d2, (hrow s hs i hi).trans d3⟩
  · refine ⟨h1 _ d1, ((hrow s hs i hi).trans d4).trans (mul_le_mul_of_nonneg_left ?_ hκ)⟩
    linarith [(abs_le.1 (C05_round1 (b i)).2.1).1]

/-- The comparison with the tolerance of the chance constraint is exact if `eps * N` is a whole number. -/
theorem tolOk_of_whole {I : Inst} {q : ℕ} (hN : I.N < 10 ^ 7) (h : I.eps * I.N = q) : TolOk I := by
  unfold TolOk
  rw [h, Nat.floor_natCast, mul_add, mul_comm, h]
  have : (I.N : ℚ) < 10 ^ 7 := by exact_mod_cast hN
  have : (I.N : ℚ) * (1 / 10 ^ 7) < 1 := by rw [mul_one_div, div_lt_one (by norm_num)]; exact this
  linarith

/-- **C106 (generated files).**  From the numbers of an OR-library file and the draws of the generator to
the result of method 1 for divisible items, with the generator, the parser and the method in double
precision: if the draws are of moderate size, the result is certified for the instance of exact arithmetic
that belongs to draws which differ from the given ones by less than the precision of doubles. -/
theorem C106_generated {n m N : ℕ} (hn : 0 < n) (hm : 0 < m) (hN : 0 < N) (hn' : n ≤ 100)
    (hm' : m ≤ 10 ^ 10) (hN' : N < 10 ^ 7) {c b : Vec} (hc : ∀ j < n, FourDec (c j))
    (hb : ∀ i < m, FourDec (b i)) {d : Draws} (hd : ∀ k i j s, d.normal k i j s ≤ 10 ^ 9)
    (κ : ℚ) (hκ : 0 ≤ κ) (hD : SizedDraws κ n m N b d) :
    ∃ d' : Draws, d'.fails = d.fails
      ∧ (∀ k i j s, |d'.normal k i j s - d.normal k i j s| ≤ 1 / 2 ^ 53 * |d.normal k i j s|)
      ∧ ∀ (k : ℕ) (texts : List (List Txt)),
        ShowsFile texts (flGenRows n m N ((List.range n).map fun j => fl64 (c j))
          ((List.range m).map fun i => fl64 (b i)) d k) →
        ∀ (eps : ℚ) (q : ℕ), eps * N = q → eps ≤ 1 →
        ∃ I J, parse (genRows n m N ((List.range n).map c) ((List.range m).map b) d' k) true eps = .ok I
          ∧ I.n = n ∧ I.m = m ∧ I.N = N ∧ I.eps = eps ∧ NonnegC I
          ∧ readInstance (csvWrite texts) true (fl64 eps) = .ok J
          ∧ (SortsDefined I → ∀ (env : Env) (timeLimit gap : ℚ), 0 ≤ gap →
            (∀ g, IsMethod1Problem env.srt J gap g →
              GResult.FlValid cclpTols (9 / 10 ^ 10) g (env.cc 0 g)) →
            ∀ r, flMilpSong env J timeLimit gap = .ok r → ContCertified κ I gap r) := by
  obtain ⟨d', h1, h2, h3⟩ := C98_generated hN (hn'.trans (by norm_num)) hm'
    (hN'.le.trans (by norm_num)) hc hb hd
  refine ⟨d', h1, h2, fun k texts ht eps q hq heps1 => ?_⟩
  obtain ⟨I, e1, e2, e3, e4, e5, e6, e7, hE, hgrid, hcn, -, e8, e9⟩ := h3 k texts ht true eps
  obtain ⟨hM, hR⟩ := sized_instance hκ hD e3 e4 e5 e8 e9
  have hNq : (0 : ℚ) < N := by exact_mod_cast hN
  have heps : 0 ≤ eps := by
    by_contra hlt
    have h4 : eps * N < 0 := mul_neg_of_neg_of_pos (not_le.1 hlt) hNq
    rw [hq] at h4
    have : (0 : ℚ) ≤ q := by positivity
    linarith
  have htol : TolOk I := tolOk_of_whole (e5 ▸ hN') (q := q) (by rw [e7, e5, hq])
  refine ⟨I, dbl I, e1, e3, e4, e5, e7, hcn, e2, fun hS env limit gap hgap hcc r hr => ?_⟩
  rw [flMilpSong_dbl] at hr
  exact C106_method1 hE (e7 ▸ heps) (e7 ▸ heps1) htol (e4 ▸ hm) (e3 ▸ hn) (e3 ▸ hn')
    (by rw [e5]; exact hN'.le.trans (by norm_num)) hgrid hM hcn e6 κ hκ hR hS env limit gap
    hgap (fun g hg => hcc g ((isMethod1Problem_dbl _ _ _ _).2 hg)) r hr

/-- **C107 (generated files).**  The same for method 2: the values of the OR-library file are whole numbers
and the risk level is a number of whole percents with `eps * N` whole.  No assumption on the sorts is
needed. -/
theorem C107_generated {n m N : ℕ} (hN : 0 < N) (hn' : n ≤ 100)
    (hm' : m ≤ 10 ^ 10) (hN' : N ≤ 90000) {c : ℕ → ℕ} {b : Vec} (hc : ∑ j ∈ range n, c j ≤ 10 ^ 10)
    (hb : ∀ i < m, FourDec (b i)) {d : Draws} (hd : ∀ k i j s, d.normal k i j s ≤ 10 ^ 9)
    (κ : ℚ) (hκ : 0 ≤ κ) (hD : SizedDraws κ n m N b d) :
    ∃ d' : Draws, d'.fails = d.fails
      ∧ (∀ k i j s, |d'.normal k i j s - d.normal k i j s| ≤ 1 / 2 ^ 53 * |d.normal k i j s|)
      ∧ ∀ (k : ℕ) (texts : List (List Txt)),
        ShowsFile texts (flGenRows n m N ((List.range n).map fun j => fl64 (c j))
          ((List.range m).map fun i => fl64 (b i)) d k) →
        ∀ p q : ℕ, p < 100 → (p : ℚ) / 100 * N = q →
        ∃ I J, parse (genRows n m N ((List.range n).map fun j => (c j : ℚ)) ((List.range m).map b) d' k)
            true (p / 100) = .ok I
          ∧ I.n = n ∧ I.m = m ∧ I.N = N ∧ I.eps = p / 100 ∧ (∀ j < n, I.c j = c j)
          ∧ readInstance (csvWrite texts) true (fl64 (p / 100)) = .ok J
          ∧ ∀ (env : Env) (timeLimit gap : ℚ), 0 ≤ gap → ContAnswers env J gap →
            ∀ r, flMilpBelotti env J timeLimit gap = .ok r → ContCertified κ I gap r := by
  have hle : ∀ j < n, c j ≤ 10 ^ 10 := fun j hj =>
    (Finset.single_le_sum (f := c) (fun _ _ => Nat.zero_le _) (Finset.mem_range.2 hj)).trans hc
  have hfour : ∀ j < n, FourDec ((fun j => (c j : ℚ)) j) := fun j hj =>
    ⟨⟨c j * 10 ^ 4, by push_cast; ring⟩, by
      have : ((c j : ℕ) : ℚ) ≤ ((10 ^ 10 : ℕ) : ℚ) := Nat.cast_le.2 (hle j hj)
      exact this.trans (by norm_num)⟩
  obtain ⟨d', h1, h2, h3⟩ := C98_generated hN (hn'.trans (by norm_num)) hm'
    (hN'.trans (by norm_num)) hfour hb hd
  refine ⟨d', h1, h2, fun k texts ht p q hp hq => ?_⟩
  obtain ⟨I, e1, e2, e3, e4, e5, e6, e7, hE, hgrid, hcn, e10, e8, e9⟩ := h3 k texts ht true (p / 100)
  obtain ⟨hM, hR⟩ := sized_instance hκ hD e3 e4 e5 e8 e9
  have e10 : ∀ j < n, I.c j = c j := fun j hj => by rw [e10 j hj]; exact round1_natCast _
  have htol : TolOk I := tolOk_of_whole (by rw [e5]; omega) (q := q) (by rw [e7, e5, hq])
  have hW : WholeValues I := by
    refine ⟨fun j hj => ⟨c j, e10 j (e3 ▸ hj)⟩, ?_⟩
    rw [e3, Finset.sum_congr rfl fun j hj => e10 j (Finset.mem_range.1 hj), ← Nat.cast_sum]
    have : (((∑ j ∈ range n, c j : ℕ)) : ℚ) ≤ ((10 ^ 10 : ℕ) : ℚ) := Nat.cast_le.2 hc
    refine this.trans_lt (by norm_num)
  refine ⟨I, dbl I, e1, e3, e4, e5, e7, e10, e2, fun env limit gap hgap hA r hr => ?_⟩
  rw [flMilpBelotti_dbl] at hr
  refine C107_method2 hE p hp e7 htol (e3 ▸ hn') (e5 ▸ hN') hgrid hM hW e6 κ hκ hR limit gap hgap hA.sub
    hA.lp (fun g hg => hA.cc g ?_) r hr
  unfold IsMethod2Problem flRunBelotti at hg ⊢
  rw [dbl_dbl]
  exact hg

/-! ## Example -/

/-- The hypotheses of `C106_generated` and `C107_generated` are met by draws for two items, with rows of at
most the capacity, a risk level of 50 percent and a text of the file. -/
example : (∑ j ∈ range 2, (fun j => if j = 0 then 600 else 7 : ℕ → ℕ) j ≤ 10 ^ 10)
    ∧ (∀ i < 1, FourDec ((fun _ => 80 : Vec) i)) ∧ (∀ k i j s, drawsTwo.normal k i j s ≤ 10 ^ 9)
    ∧ SizedDraws 1 2 1 2 (fun _ => 80) drawsTwo ∧ ((50 : ℕ) : ℚ) / 100 * (2 : ℕ) = (1 : ℕ)
    ∧ ShowsFile [["2".toList, "1".toList, "2".toList], ["600.0".toList, "7.0".toList],
        ["2.3457".toList, "0.0".toList], ["0.0".toList, "0".toList], ["80.0".toList]]
      (flGenRows 2 1 2 ((List.range 2).map fun j => fl64 ((fun j => if j = 0 then 600 else 7 : ℕ → ℕ) j : ℕ))
        ((List.range 1).map fun i => fl64 ((fun _ => 80 : Vec) i)) drawsTwo 1) := by
  have hfl : fl64 (234567 / 10 ^ 5) ≤ 3 ∧ 0 ≤ fl64 (234567 / 10 ^ 5) := by decide +kernel
  have hle : ∀ k i j s, drawsTwo.normal k i j s ≤ 3 := fun k i j s => by
    unfold drawsTwo
    dsimp only
    split
    · exact hfl.1
    · norm_num
  refine ⟨by decide, fun i _ => ⟨⟨800000, by norm_num⟩, by norm_num⟩,
    fun k i j s => (hle k i j s).trans (by norm_num), fun k s _ i _ => ?_, by norm_num, ?_⟩
  · have h : ∑ j ∈ range 2, (max (drawsTwo.normal k i j s) 0 + 501 / 10000) ≤ 7 := by
      rw [Finset.sum_range_succ, Finset.sum_range_one]
      have a := max_le (hle k i 0 s) (by norm_num : (0 : ℚ) ≤ 3)
      have b := max_le (hle k i 1 s) (by norm_num : (0 : ℚ) ≤ 3)
      linarith
    exact ⟨by norm_num, by norm_num, h.trans (by norm_num), h.trans (by norm_num)⟩
  · have e : flGenRows 2 1 2
        ((List.range 2).map fun j => fl64 ((fun j => if j = 0 then 600 else 7 : ℕ → ℕ) j : ℕ))
        ((List.range 1).map fun i => fl64 ((fun _ => 80 : Vec) i)) drawsTwo 1
        = [[2, 1, 2], [600, 7], [fl64 (23457 / 10 ^ 4), 0], [0, 0], [80]] := by
      decide +kernel
    rw [e]
    unfold ShowsFile
    repeat' first
      | exact List.Forall₂.nil
      | refine List.Forall₂.cons ?_ ?_
    all_goals
      exact ⟨by decide +kernel, by decide, by decide⟩

end Verif.Props
