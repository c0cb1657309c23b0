import Verif.Props.FloatPipeline
import Verif.Props.FloatBelotti
import Verif.Props.ContTol

/-!
# C105 and C106 from the text of an instance file
-/

namespace Verif.Props

open Spec Model Finset

variable {I : Inst}

/-- Instances of files with non-negative numbers and few decimals. -/
theorem parse_grid {file : List (List ℚ)} (h : FourDecFile file) {cont : Bool} {eps : ℚ}
    (hI : parse file cont eps = .ok I) :
    I.cont = cont ∧ I.eps = eps ∧ Equi I ∧ OneDecimal I ∧ NonnegC I := by
  obtain ⟨hcont, he, hE, hA, hb, -⟩ := parse_ok hI
  obtain ⟨hab, hc⟩ := parse_nonneg (fun r hr x hx => by
    obtain ⟨⟨k, hk⟩, -⟩ := h r hr x hx
    rw [hk]
    positivity) hI
  exact ⟨hcont, he, hE, ⟨hab, fun s _ i _ => ⟨hb s i, fun j _ => hA s i j⟩⟩, hc⟩

/-- What is certified about the result of method 1 on continuous instances (C106). -/
def ContCertified (κ : ℚ) (I : Inst) (gap : ℚ) (r : MilpSt) : Prop :=
  (∀ y, Feas I y → obj I y ≤ r.vUB + objErr I)
  ∧ ∃ y, Feas I y ∧ (∀ j < I.n, |r.xLB j - y j| ≤ contTol κ)
    ∧ |r.vLB - obj I y| ≤ contTol κ * ∑ j ∈ range I.n, I.c j + objErr I
    ∧ (|r.vUB - r.vLB| ≤ gap * |r.vLB| → ∀ y', Feas I y' →
      obj I y' ≤ (1 + gap) * (obj I y + contTol κ * ∑ j ∈ range I.n, I.c j + objErr I) + objErr I)

/-- **C106 (from the text).**  A file of non-negative numbers with at most four decimals, in any notation
that is read back as the doubles of these numbers, read with continuous variables; `I` is the instance that
exact arithmetic makes of the file.  Whatever Gurobi answers within its tolerances to the problem made from
the doubles, the result of method 1 is certified for `I`. -/
theorem C106_text {file : List (List ℚ)} (h : FourDecFile file) {texts : List (List Txt)}
    (ht : ShowsFile texts (flFile file)) {eps : ℚ} (hI : parse file true eps = .ok I)
    (heps : 0 ≤ eps) (heps1 : eps ≤ 1) (htol : TolOk I) (hm : 0 < I.m) (hn : 0 < I.n)
    (hn' : I.n ≤ 100) (hN : I.N ≤ 2 ^ 40) (hM : Model.Moderate I) (κ : ℚ) (hκ : 0 ≤ κ) (hR : RowRatio κ I)
    (hS : SortsDefined I) :
    ∃ J, readInstance (csvWrite texts) true (fl64 eps) = .ok J
      ∧ ∀ (env : Env) (timeLimit gap : ℚ), 0 ≤ gap →
        (∀ g, IsMethod1Problem env.srt J gap g →
          GResult.FlValid cclpTols (9 / 10 ^ 10) g (env.cc 0 g)) →
        ∀ r, flMilpSong env J timeLimit gap = .ok r → ContCertified κ I gap r := by
  obtain ⟨hcont, he, hE, hgrid, hc⟩ := parse_grid h hI
  refine ⟨dbl I, by rw [C98_text h ht, hI]; rfl, fun env limit gap hgap hcc r hr => ?_⟩
  rw [flMilpSong_dbl] at hr
  exact C106_method1 hE (he ▸ heps) (he ▸ heps1) htol hm hn hn' hN hgrid hM hc hcont κ hκ hR hS env limit
    gap hgap (fun g hg => hcc g ((isMethod1Problem_dbl _ _ _ _).2 hg)) r hr

theorem flMilpBelotti_dbl (env : Env) (I : Inst) (limit gap : ℚ) :
    flMilpBelotti env (dbl I) limit gap = flMilpBelotti env I limit gap := by
  unfold flMilpBelotti flRunBelotti
  simp only [dbl_dbl]
  rfl

/-- What is assumed about Gurobi in a run of method 2 on an instance of doubles (C105). -/
structure Method2Answers (env : Env) (J : Inst) (gap : ℚ) : Prop where
  sub : ∀ s < J.N, GResult.FlAnswers defaultTols (2 / 10 ^ 10) (Deter.build (instCI J) [s]).g
    (env.sub 0 s (Deter.build (instCI J) [s]).g)
  big : ∀ costs t, allScenarioCosts J (env.sub 0) = .ok costs →
    flQuantile J (env.argsort.run costs) = some t → ∀ s < J.N, ∀ i < J.m,
    GResult.FlAnswers bigTols 0 (buildBigMKnapsack (instCI J) (costs.getD t 0) s i (1 / 10 ^ 8))
      (env.big 0 (buildBigMKnapsack (instCI J) (costs.getD t 0) s i (1 / 10 ^ 8)))
  cc : ∀ g, IsMethod2Problem env J gap g → GResult.FlValid cclpTols (4 / 10 ^ 10) g (env.cc 0 g)

/-- What is certified about the result of method 2 (C105). -/
def Certified2 (env : Env) (I J : Inst) (r : MilpSt) : Prop :=
  (∃ y, Feas I y ∧ (∀ j < I.n, |r.xLB j - y j| ≤ 1 / 10 ^ 9)
      ∧ |r.vLB - obj I y| ≤ 1 / 10 ^ 9 * ∑ j ∈ range I.n, I.c j + objErr I)
  ∧ ∃ costs t, allScenarioCosts J (env.sub 0) = .ok costs
    ∧ flQuantile J (env.argsort.run costs) = some t
    ∧ (∀ y, Feas I y → obj J y ≤ costs.getD t 0 → obj I y ≤ r.vUB + objErr I)
    ∧ (∀ y, Feas I y → obj I y ≤ (1 + 1 / 10 ^ 4) * costs.getD t 0 + objErr I)
    ∧ ((∀ s < I.N, ∀ y, InX I y → Sat I s y → obj J y ≤ costs.getD s 0) →
        ∀ y, Feas I y → obj I y ≤ r.vUB + objErr I)
    ∧ (costs.getD t 0 ≤ r.vUB → ∀ y, Feas I y → obj I y ≤ (1 + 1 / 10 ^ 4) * r.vUB + objErr I)

/-- **C105 (from the text, what holds).**  The same for method 2 and binary variables, with the reservation
of `C105_method2_partial`: `vUB` is certified only up to the quantile of the reported scenario costs. -/
theorem C105_text_partial {file : List (List ℚ)} (h : FourDecFile file) {texts : List (List Txt)}
    (ht : ShowsFile texts (flFile file)) {p : ℕ} (hp : p < 100) (hI : parse file false (p / 100) = .ok I)
    (htol : TolOk I) (hn : 0 < I.n) (hN : I.N ≤ 90000) (hM : Model.Moderate I) :
    ∃ J, readInstance (csvWrite texts) false (fl64 (p / 100)) = .ok J
      ∧ ∀ (env : Env) (timeLimit gap : ℚ), Method2Answers env J gap →
        ∀ r, flMilpBelotti env J timeLimit gap = .ok r → Certified2 env I J r := by
  obtain ⟨hcont, he, hE, hgrid, hc⟩ := parse_grid h hI
  refine ⟨dbl I, by rw [C98_text h ht, hI]; rfl, fun env limit gap hA r hr => ?_⟩
  rw [flMilpBelotti_dbl] at hr
  refine C105_method2_partial hE p hp he htol hN hgrid hM hc hcont hn limit gap hA.sub hA.big
    (fun g hg => hA.cc g ?_) r hr
  unfold IsMethod2Problem flRunBelotti at hg ⊢
  rw [dbl_dbl]
  exact hg

/-! ## Examples -/

/-- Two items, one constraint, four scenarios. -/
def exContFile : List (List ℚ) := [[2, 1, 4], [3, 1], [1, 3], [2, 4], [3, 5], [4, 6], [4]]

/-- The file in different notations. -/
def exContTexts : List (List Txt) :=
  [["2".toList, "1".toList, "4".toList], ["3.0".toList, "1e0".toList], ["1".toList, "3.0".toList],
    ["20E-1".toList, "4.".toList], ["3".toList, "5".toList], ["4".toList, "0.6e1".toList], ["4.0".toList]]

/-- The instance of the file. -/
def exContParsed : Inst :=
  match parse exContFile true (1 / 4) with
  | .ok I => I
  | .error _ => exCont

theorem exContParsed_parse : parse exContFile true (1 / 4) = .ok exContParsed := by
  have h : (parse exContFile true (1 / 4)).toOption.isSome = true := by decide +kernel
  unfold exContParsed
  cases he : parse exContFile true (1 / 4) with
  | ok I => rfl
  | error e => rw [he] at h; cases h

theorem fourDec_of {file : List (List ℚ)}
    (h : ∀ r ∈ file, ∀ x ∈ r, (x * 10 ^ 4).den = 1 ∧ 0 ≤ (x * 10 ^ 4).num ∧ x ≤ 10 ^ 10) :
    FourDecFile file := by
  intro r hr x hx
  obtain ⟨h1, h2, h3⟩ := h r hr x hx
  refine ⟨⟨(x * 10 ^ 4).num.toNat, ?_⟩, h3⟩
  rw [eq_div_iff (by norm_num)]
  have h4 : (((x * 10 ^ 4).num.toNat : ℤ) : ℚ) = ((x * 10 ^ 4).num : ℚ) := by
    rw [Int.toNat_of_nonneg h2]
  have h5 : x * 10 ^ 4 = ((x * 10 ^ 4).num : ℚ) := by
    conv_lhs => rw [← Rat.num_div_den (x * 10 ^ 4), h1]
    simp
  exact h5.trans h4.symm

set_option synthInstance.maxSize 1000 in
/-- The hypotheses of `C106_text` are met by a file with several notations of numbers. -/
example : FourDecFile exContFile ∧ ShowsFile exContTexts (flFile exContFile)
    ∧ TolOk exContParsed ∧ 0 < exContParsed.m ∧ 0 < exContParsed.n ∧ exContParsed.n ≤ 100
    ∧ exContParsed.N ≤ 2 ^ 40 ∧ Model.Moderate exContParsed ∧ RowRatio 3 exContParsed
    ∧ SortsDefined exContParsed := by
  refine ⟨fourDec_of (by decide +kernel), ?_, by decide +kernel, by decide +kernel, by decide +kernel,
    by decide +kernel, by decide +kernel, by unfold Model.Moderate; decide +kernel, by decide +kernel,
    by unfold SortsDefined StrictWeak; decide +kernel⟩
  unfold exContTexts exContFile flFile ShowsFile
  repeat' first
    | exact List.Forall₂.nil
    | refine List.Forall₂.cons ?_ ?_
  all_goals
    exact ⟨by decide +kernel, by decide, by decide⟩

/-- The hypotheses of `C105_text_partial` are met by the file of C103. -/
example : FourDecFile exPipeFile ∧ parse exPipeFile false ((25 : ℕ) / 100) = .ok exPipe
    ∧ TolOk exPipe ∧ 0 < exPipe.n ∧ exPipe.N ≤ 90000 ∧ Model.Moderate exPipe :=
  ⟨fourDec_of (by decide +kernel), by
      rw [show (((25 : ℕ) : ℚ) / 100) = 1 / 4 by norm_num]; exact exPipe_parse,
    by decide +kernel, by decide +kernel, by decide +kernel, by unfold Model.Moderate; decide +kernel⟩

end Verif.Props
