import Verif.Props.FloatFiles
import Verif.Props.FloatMilp

/-!
# C103: from the text of an instance file to the result of method 1, in double precision
-/

namespace Verif.Props

open Spec Model Finset

variable {I : Inst}

/-- The doubles of doubles are the doubles. -/
theorem dbl_dbl (I : Inst) : dbl (dbl I) = dbl I := by
  simp [dbl, fl64_fl64]

theorem flViolations_dbl (srt : CppSort) (I : Inst) :
    flViolations srt (dbl I) = flViolations srt I := by
  unfold flViolations
  rw [dbl_dbl]
  rfl

theorem flSongBigMs_dbl (I : Inst) (f : ℕ → ℕ → ℕ → WithTop ℚ) :
    flSongBigMs (dbl I) f = flSongBigMs I f := by
  unfold flSongBigMs flSongBigM
  rw [dbl_dbl]
  rfl

/-- The program makes the same of an instance and of its doubles. -/
theorem flMilpSong_dbl (env : Env) (I : Inst) (limit gap : ℚ) :
    flMilpSong env (dbl I) limit gap = flMilpSong env I limit gap := by
  unfold flMilpSong
  simp only [flViolations_dbl, flSongBigMs_dbl, dbl_dbl]

theorem isMethod1Problem_dbl (srt : CppSort) (I : Inst) (gap : ℚ) (g : GModel) :
    IsMethod1Problem srt (dbl I) gap g ↔ IsMethod1Problem srt I gap g := by
  unfold IsMethod1Problem
  simp only [flViolations_dbl, flSongBigMs_dbl, dbl_dbl]

/-- What is certified about the result of method 1 for the exact instance (C101). -/
def FlCertified (I : Inst) (gap : ℚ) (r : MilpSt) : Prop :=
  (∀ y, Feas I y → obj I y ≤ r.vUB + objErr I)
  ∧ ∃ y, Feas I y ∧ (∀ j < I.n, |r.xLB j - y j| ≤ 1 / 10 ^ 9)
    ∧ |r.vLB - obj I y| ≤ 1 / 10 ^ 9 * ∑ j ∈ range I.n, I.c j + objErr I
    ∧ (|r.vUB - r.vLB| ≤ gap * |r.vLB| → ∀ y', Feas I y' →
      obj I y' ≤ (1 + gap) * (obj I y + 1 / 10 ^ 9 * ∑ j ∈ range I.n, I.c j + objErr I) + objErr I)

theorem rowVec_nonneg {r : List ℚ} (h : ∀ x ∈ r, 0 ≤ x) (j : ℕ) : 0 ≤ rowVec r j := by
  unfold rowVec
  rw [List.getD_eq_getElem?_getD]
  cases hj : r[j]? with
  | none => simp
  | some x => exact h x (List.mem_of_getElem? hj)

/-- A file of non-negative numbers gives an instance with non-negative data. -/
theorem parse_nonneg {file : List (List ℚ)} (h : ∀ r ∈ file, ∀ x ∈ r, 0 ≤ x) {cont : Bool} {eps : ℚ}
    (hI : parse file cont eps = .ok I) : NonnegAb I ∧ NonnegC I := by
  have hrow : ∀ k r, getRow file k = .ok r → ∀ x ∈ r, 0 ≤ x := fun k r hr => by
    unfold getRow at hr
    split at hr
    · rename_i r' hr'
      cases hr
      exact h r (List.mem_of_getElem? hr')
    · cases hr
  have hround : ∀ q, 0 ≤ q → 0 ≤ round1 q := fun q hq => (C05_round1 q).2.2.2.2.1 hq
  unfold parse at hI
  simp only [bind, Except.bind, pure, Except.pure, throw, throwThe, MonadExceptOf.throw] at hI
  repeat' split at hI
  all_goals first
    | (cases hI; done)
    | skip
  all_goals
    rename_i hc _ rows hrows _ _ last hlast _ _ _
    simp only [Except.ok.injEq] at hI
    subst hI
    have hA : ∀ s i, ∀ x ∈ (rows.getD s []).getD i [], 0 ≤ x := fun s i => by
      rw [List.getD_eq_getElem?_getD, List.getD_eq_getElem?_getD]
      cases h1 : rows[s]? with
      | none => simp
      | some rs =>
        cases h2 : rs[i]? with
        | none => simp [h2]
        | some r =>
          obtain ⟨s', -, e1⟩ := mapM_mem hrows (List.mem_of_getElem? h1)
          obtain ⟨i', -, e2⟩ := mapM_mem e1 (List.mem_of_getElem? h2)
          simpa [h2] using hrow _ _ e2
    exact ⟨fun s _ i _ => ⟨hround _ (rowVec_nonneg (h _ (List.mem_of_getLast? hlast)) _),
      fun j _ => hround _ (rowVec_nonneg (hA s i) _)⟩,
      fun j _ => hround _ (rowVec_nonneg (hrow 1 _ hc) _)⟩

/-- **C103.**  Let a file of non-negative numbers with at most four decimals be written in any notation
that is read back as the doubles of these numbers, and let `I` be the instance that exact arithmetic
makes of the file, read with binary variables.  The program reads an instance `J` of doubles, and
whatever Gurobi answers within its tolerances to the problem made from `J` with Song's big-Ms computed
in doubles, the result of method 1 on `J` is certified for `I`: if it returns, `vUB` bounds all feasible
points of `I`, `xLB` is next to a feasible point of `I` of value next to `vLB`, and that point is
optimal up to the gap. -/
theorem C103_text {file : List (List ℚ)} (h : FourDecFile file) {texts : List (List Txt)}
    (ht : ShowsFile texts (flFile file)) {eps : ℚ} (hI : parse file false eps = .ok I)
    (heps : 0 ≤ eps) (heps1 : eps ≤ 1) (htol : TolOk I) (hm : 0 < I.m) (hn : 0 < I.n)
    (hn' : I.n ≤ 100) (hN : I.N ≤ 2 ^ 40) (hM : Model.Moderate I) (hS : SortsDefined I) :
    ∃ J, readInstance (csvWrite texts) false (fl64 eps) = .ok J
      ∧ ∀ (env : Env) (timeLimit gap : ℚ), 0 ≤ gap →
        (∀ g, IsMethod1Problem env.srt J gap g →
          GResult.FlValid cclpTols (9 / 10 ^ 10) g (env.cc 0 g)) →
        ∀ r, flMilpSong env J timeLimit gap = .ok r → FlCertified I gap r := by
  obtain ⟨hcont, he, hE, hA, hb, -⟩ := parse_ok hI
  obtain ⟨hab, hc⟩ := parse_nonneg (fun r hr x hx => by
    obtain ⟨⟨k, hk⟩, -⟩ := h r hr x hx
    rw [hk]
    positivity) hI
  have hgrid : OneDecimal I := ⟨hab, fun s _ i _ => ⟨hb s i, fun j _ => hA s i j⟩⟩
  refine ⟨dbl I, by rw [C98_text h ht, hI]; rfl, fun env limit gap hgap hcc r hr => ?_⟩
  rw [flMilpSong_dbl] at hr
  exact C101_method1 hE (he ▸ heps) (he ▸ heps1) htol hm hn hn' hN hgrid hM hc hcont hS env limit gap
    hgap (fun g hg => hcc g ((isMethod1Problem_dbl _ _ _ _).2 hg)) r hr

/-- **C103 (generated files).**  From the numbers of an OR-library file and the draws of the generator to
the result of method 1, with the generator, the parser and the method in double precision: the result is
certified for the instance of exact arithmetic that belongs to draws which differ from the given ones by
less than the precision of doubles. -/
theorem C103_generated {n m N : ℕ} (hn : 0 < n) (hm : 0 < m) (hN : 0 < N) (hn' : n ≤ 100)
    (hm' : m ≤ 10 ^ 10) (hN' : N < 10 ^ 7) {c b : Vec} (hc : ∀ j < n, FourDec (c j))
    (hb : ∀ i < m, FourDec (b i)) {d : Draws} (hd : ∀ k i j s, d.normal k i j s ≤ 10 ^ 9) :
    ∃ d' : Draws, d'.fails = d.fails
      ∧ (∀ k i j s, |d'.normal k i j s - d.normal k i j s| ≤ 1 / 2 ^ 53 * |d.normal k i j s|)
      ∧ ∀ (k : ℕ) (texts : List (List Txt)),
        ShowsFile texts (flGenRows n m N ((List.range n).map fun j => fl64 (c j))
          ((List.range m).map fun i => fl64 (b i)) d k) →
        ∀ (eps : ℚ) (q : ℕ), eps * N = q → eps ≤ 1 →
        ∃ I J, parse (genRows n m N ((List.range n).map c) ((List.range m).map b) d' k) false eps = .ok I
          ∧ I.n = n ∧ I.m = m ∧ I.N = N ∧ I.eps = eps ∧ NonnegC I
          ∧ readInstance (csvWrite texts) false (fl64 eps) = .ok J
          ∧ (Model.Moderate I → SortsDefined I → ∀ (env : Env) (timeLimit gap : ℚ), 0 ≤ gap →
            (∀ g, IsMethod1Problem env.srt J gap g →
              GResult.FlValid cclpTols (9 / 10 ^ 10) g (env.cc 0 g)) →
            ∀ r, flMilpSong env J timeLimit gap = .ok r → FlCertified I gap r) := by
  obtain ⟨d', h1, h2, h3⟩ := C98_generated hN (hn'.trans (by norm_num)) hm'
    (hN'.le.trans (by norm_num)) hc hb hd
  refine ⟨d', h1, h2, fun k texts ht eps q hq heps1 => ?_⟩
  obtain ⟨I, e1, e2, e3, e4, e5, e6, e7, hE, hgrid, hcn, -⟩ := h3 k texts ht false eps
  have hNq : (0 : ℚ) < N := by exact_mod_cast hN
  have heps : 0 ≤ eps := by
    by_contra hlt
    have h4 : eps * N < 0 := mul_neg_of_neg_of_pos (not_le.1 hlt) hNq
    rw [hq] at h4
    have : (0 : ℚ) ≤ q := by positivity
    linarith
  have htol : TolOk I := by
    unfold TolOk
    rw [e5, e7, hq, Nat.floor_natCast, mul_add, mul_comm, hq]
    have : (N : ℚ) < 10 ^ 7 := by exact_mod_cast hN'
    have : (N : ℚ) * (1 / 10 ^ 7) < 1 := by rw [mul_one_div, div_lt_one (by norm_num)]; exact this
    linarith
  refine ⟨I, dbl I, e1, e3, e4, e5, e7, hcn, e2, fun hM hS env limit gap hgap hcc r hr => ?_⟩
  rw [flMilpSong_dbl] at hr
  exact C101_method1 hE (e7 ▸ heps) (e7 ▸ heps1) htol (e4 ▸ hm) (e3 ▸ hn) (e3 ▸ hn')
    (by rw [e5]; exact hN'.le.trans (by norm_num)) hgrid hM hcn e6 hS env limit gap
    hgap (fun g hg => hcc g ((isMethod1Problem_dbl _ _ _ _).2 hg)) r hr

/-! ## Example -/

/-- Two items, one constraint, four scenarios. -/
def exPipeFile : List (List ℚ) :=
  [[2, 1, 4], [3, 1], [1 / 10, 3 / 10], [2 / 10, 4 / 10], [3 / 10, 5 / 10], [4 / 10, 6 / 10], [4 / 10]]

/-- The file in different notations. -/
def exPipeTexts : List (List Txt) :=
  [["2".toList, "1".toList, "4".toList], ["3".toList, "1e0".toList], ["0.1".toList, "0.30".toList],
    ["2E-1".toList, ".4".toList], ["0.3".toList, "0.5".toList], ["0.4".toList, "6e-1".toList],
    ["0.4".toList]]

/-- The instance of the file. -/
def exPipe : Inst :=
  match parse exPipeFile false (1 / 4) with
  | .ok I => I
  | .error _ => exFlMilp

theorem exPipe_parse : parse exPipeFile false (1 / 4) = .ok exPipe := by
  have h : (parse exPipeFile false (1 / 4)).toOption.isSome = true := by decide +kernel
  unfold exPipe
  cases he : parse exPipeFile false (1 / 4) with
  | ok I => rfl
  | error e => rw [he] at h; cases h

set_option synthInstance.maxSize 1000 in
/-- The hypotheses of C103 are met by a file with several notations of numbers. -/
theorem exPipe_meets : FourDecFile exPipeFile ∧ ShowsFile exPipeTexts (flFile exPipeFile)
    ∧ TolOk exPipe ∧ 0 < exPipe.m ∧ 0 < exPipe.n ∧ exPipe.n ≤ 100 ∧ exPipe.N ≤ 2 ^ 40
    ∧ Model.Moderate exPipe ∧ SortsDefined exPipe := by
  refine ⟨?_, ?_, by decide +kernel, by decide +kernel, by decide +kernel, by decide +kernel,
    by decide +kernel, by unfold Model.Moderate; decide +kernel,
    by unfold SortsDefined StrictWeak; decide +kernel⟩
  · have h : ∀ r ∈ exPipeFile, ∀ x ∈ r, (x * 10 ^ 4).den = 1 ∧ 0 ≤ (x * 10 ^ 4).num ∧ x ≤ 10 ^ 10 := by
      decide +kernel
    intro r hr x hx
    obtain ⟨h1, h2, h3⟩ := h r hr x hx
    refine ⟨⟨(x * 10 ^ 4).num.toNat, ?_⟩, h3⟩
    rw [eq_div_iff (by norm_num)]
    have h4 : (((x * 10 ^ 4).num.toNat : ℤ) : ℚ) = ((x * 10 ^ 4).num : ℚ) := by
      rw [Int.toNat_of_nonneg h2]
    have h5 : x * 10 ^ 4 = ((x * 10 ^ 4).num : ℚ) := by
      conv_lhs => rw [← Rat.num_div_den (x * 10 ^ 4), h1]
      simp
    exact h5.trans h4.symm
  · unfold exPipeTexts exPipeFile flFile ShowsFile
    repeat' first
      | exact List.Forall₂.nil
      | refine List.Forall₂.cons ?_ ?_
    all_goals
      exact ⟨by decide +kernel, by decide, by decide⟩

end Verif.Props
