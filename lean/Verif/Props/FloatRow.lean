import Verif.Model.FloatRow
import Verif.Lemmas.FloatRow
import Verif.Props.RowMeaning
import Verif.Props.CsvText
import Verif.Props.GridValues
import Verif.Props.FloatGenerated
import Verif.Props.OrLibText

/-!
# C109: the gap and the result row in double precision
-/

namespace Verif.Props

open Spec Model Finset

variable {I : Inst}

/-! ## Specification -/

/-- What the last three columns of a result row (lower bound, upper bound, gap in percent), as read back
from the text, say about the problem, up to the error `e` and half a unit of the third decimal: no
feasible point is better than the upper bound, some feasible point has the lower bound as objective, and
if the lower bound is positive no feasible point is better than that point by more than the gap (a
negative gap counts as zero). -/
def FlRowSays (I : Inst) (e : ℚ) (vals : List Val) : Prop :=
  ∃ l u γ : ℚ, Back vals 3 (.fin l) ∧ Back vals 2 (.fin u) ∧ Back vals 1 (.fin γ)
    ∧ (∀ y, Feas I y → obj I y ≤ u + 51 / 100000 + e)
    ∧ ∃ x, Feas I x ∧ |obj I x - l| ≤ 51 / 100000 + e
      ∧ (0 < l → ∀ y, Feas I y →
          obj I y ≤ (1 + (max γ 0 + 51 / 100000) / 100) * (obj I x + e) + e)

/-! ## The gap -/

/-- **C109 (gap).**  The gap that is computed in doubles from finite bounds, the lower one not zero, has
the relative error `2⁻⁵¹`; it is zero just if the bounds are equal.  A stop at a gap of at most `gap`
means that the bounds are that close up to the relative error `2⁻⁵⁰` of the gap, and bounds that are
closer by this error always lead to the stop. -/
theorem C109_gap (u l : ℚ) (np : Bool) (hl : l ≠ 0) :
    ∃ g, flComputeGap (u : WithTop ℚ) (l : WithBot ℚ) np = .ok (.fin g)
      ∧ |g - (u - l) / l| ≤ 1 / 2 ^ 51 * |(u - l) / l|
      ∧ (g = 0 ↔ u = l)
      ∧ (0 < l → ∀ gap, 0 ≤ gap →
          ((Gap.fin g).le gap = true → u ≤ (1 + gap * (1 + 1 / 2 ^ 50)) * l)
          ∧ (u ≤ (1 + gap * (1 - 1 / 2 ^ 50)) * l → (Gap.fin g).le gap = true)) := by
  refine ⟨rd (rd (u - l) / l), by simp only [flComputeGap, if_neg hl], gap_err, ?_, ?_⟩
  · rw [rd_eq_zero, div_eq_zero_iff, rd_eq_zero, sub_eq_zero]
    tauto
  · intro hp gap hgap
    have he := abs_le.1 (gap_err (d := u - l) (l := l))
    have hul : u = (1 + (u - l) / l) * l := by field_simp; ring
    simp only [Gap.le, decide_eq_true_eq]
    generalize rd (rd (u - l) / l) = g at *
    generalize (u - l) / l = t at *
    constructor
    · intro hg
      rw [hul]
      refine mul_le_mul_of_nonneg_right ?_ hp.le
      rcases le_total 0 t with ht | ht
      · rw [abs_of_nonneg ht] at he
        have : t * (1 - 1 / 2 ^ 51) ≤ gap := by linarith [he.1]
        have h2 : t * (1 - 1 / 2 ^ 51) * (1 + 1 / 2 ^ 50) ≤ gap * (1 + 1 / 2 ^ 50) :=
          mul_le_mul_of_nonneg_right this (by norm_num)
        have h3 : t * 1 ≤ t * ((1 - 1 / 2 ^ 51) * (1 + 1 / 2 ^ 50)) :=
          mul_le_mul_of_nonneg_left (by norm_num) ht
        linarith
      · have : 0 ≤ gap * (1 + 1 / 2 ^ 50) := by positivity
        linarith
    · intro hu
      rw [hul] at hu
      have hu' := le_of_mul_le_mul_right hu hp
      rcases le_total 0 t with ht | ht
      · rw [abs_of_nonneg ht] at he
        have h1 : t ≤ gap * (1 - 1 / 2 ^ 50) := by linarith
        have h2 : t * (1 + 1 / 2 ^ 51) ≤ gap * (1 - 1 / 2 ^ 50) * (1 + 1 / 2 ^ 51) :=
          mul_le_mul_of_nonneg_right h1 (by norm_num)
        have h3 : gap * ((1 - 1 / 2 ^ 50) * (1 + 1 / 2 ^ 51)) ≤ gap * 1 :=
          mul_le_mul_of_nonneg_left (by norm_num) hgap
        linarith [he.2]
      · rw [abs_of_nonpos ht] at he
        have h1 : t + 1 / 2 ^ 51 * -t ≤ 0 := by linarith
        linarith [he.2]

/-- The gap between 106 and 105.99 is counted as at most 1e-4; the exact quotient is `1/10599`. -/
example : (∃ g, flComputeGap ((106 : ℚ) : WithTop ℚ) ((10599 / 100 : ℚ) : WithBot ℚ) false = .ok (.fin g)
    ∧ (Gap.fin g).le (1 / 10000) = true) := by
  obtain ⟨g, h, -, -, h3⟩ := C109_gap 106 (10599 / 100) false (by norm_num)
  exact ⟨g, h, (h3 (by norm_num) (1 / 10000) (by norm_num)).2 (by norm_num)⟩

/-! ## The row -/

theorem flDetails_ok {name : Txt} {J : Inst} {l : WithBot ℚ} {u : WithTop ℚ} {un np : Bool}
    {total : Option ℚ} {d : ℕ} {p : List Cell × List Cell}
    (h : flComputationDetails name J l u un np total d = .ok p) :
    ∃ t g, total = some t ∧ un = false ∧ flComputeGap u l np = .ok g
      ∧ p = ([.text name, natCell J.n, natCell J.m, natCell J.N,
              natCell (if J.cont then 1 else 0), fmtCell d (.fin J.eps)],
             [fmtCell d (.fin t), fmtCell d (ofBot l), fmtCell d (ofTop u),
              fmtCell d (flPercent g)]) := by
  unfold flComputationDetails at h
  simp only [bind, Except.bind, pure, Except.pure, throw, throwThe, MonadExceptOf.throw] at h
  repeat' split at h
  all_goals first
    | (cases h; done)
    | skip
  all_goals
    cases h
    rename_i hun _ _ hg _
    exact ⟨_, _, rfl, by simpa using hun, hg, by simp [*]⟩

/-- The row on doubles as the exporter reads it. -/
theorem flMilpRow_vals {J : Inst} {limit gap : ℚ} {st : MilpSt} {name : Txt} {total : Option ℚ}
    {row : List Cell} (hr : flMilpRow name J limit gap st total = .ok row) :
    ∃ t g b, total = some t ∧ flComputeGap st.vUB st.vLB false = .ok g ∧ st.bigMTime = some b
      ∧ readExperiment (some row) = .ok [.str name, .num (.fin J.n), .num (.fin J.m),
          .num (.fin J.N), .num (.fin (if J.cont then 1 else 0 : ℕ)),
          .num (roundGap 3 (.fin J.eps)), .num (roundGap 3 (.fin limit)),
          .num (roundGap 3 (flPercent (.fin gap))), .num (.fin st.useBigM),
          .num (.fin st.bigMMethod), .num (.fin b), .num (roundGap 3 (.fin t)),
          .num (roundGap 3 (ofBot st.vLB)), .num (roundGap 3 (ofTop st.vUB)),
          .num (roundGap 3 (flPercent g))] := by
  unfold flMilpRow at hr
  cases hp : flComputationDetails name J (st.vLB : WithBot ℚ) (st.vUB : WithTop ℚ) false false
      total 3 with
  | error e => rw [hp] at hr; cases hr
  | ok p =>
    obtain ⟨t, g, ht, -, hg, rfl⟩ := flDetails_ok hp
    rw [hp] at hr
    simp only [bind, Except.bind] at hr
    cases hb : st.bigMTime with
    | none => rw [hb] at hr; cases hr
    | some b =>
      rw [hb] at hr
      simp only [pure, Except.pure, Except.ok.injEq] at hr
      refine ⟨t, g, b, ht, hg, rfl, ?_⟩
      rw [← hr]
      simp only [List.cons_append, List.nil_append, readExperiment, List.mapM_cons,
        List.mapM_nil, cellFloat_nat, cellFloat_fmt, cellFloat_flt, bind, Except.bind, pure,
        Except.pure, Except.map, cellText]

/-- The printed upper bound. -/
theorem printed_up {u e0 C o : ℚ} (he0 : 0 ≤ e0) (ho : 0 ≤ o) (hoC : o ≤ C) (h : o ≤ u + e0) :
    o ≤ rd (roundDec 3 u) + 51 / 100000 + (11 / 10 * e0 + C / 10 ^ 14) := by
  have hn := abs_le.1 (roundDec3_near u)
  have hr := rd_err (roundDec 3 u)
  generalize roundDec 3 u = p at *
  have hu := ulp_small
  have hu0 := ulp_pos
  have hr' := (abs_le.1 hr).1
  rcases le_total 0 p with hp | hp
  · rw [abs_of_nonneg hp] at hr'
    rcases le_total C (rd p) with hC | hC
    · have : 0 ≤ C := ho.trans hoC
      have : 0 ≤ C / 10 ^ 14 := by positivity
      linarith
    · have h1 : ulp * p ≤ 1 / 2 * p := mul_le_mul_of_nonneg_right (by linarith) hp
      have h2 : p ≤ 2 * C := by linarith
      have h3 : ulp * p ≤ 1 / 10 ^ 15 * (2 * C) := mul_le_mul hu h2 hp (by norm_num)
      have : 0 ≤ C := ho.trans hoC
      linarith
  · rw [abs_of_nonpos hp] at hr'
    have h2 : -p ≤ 1 / 2000 + e0 := by linarith
    have h3 : ulp * -p ≤ 1 / 10 ^ 15 * (1 / 2000 + e0) := mul_le_mul hu h2 (by linarith) (by norm_num)
    have : 0 ≤ C := ho.trans hoC
    linarith

/-- The printed lower bound. -/
theorem printed_low {l e0 C o : ℚ} (he0 : 0 ≤ e0) (ho : 0 ≤ o) (hoC : o ≤ C) (h : |l - o| ≤ e0) :
    |o - rd (roundDec 3 l)| ≤ 51 / 100000 + (11 / 10 * e0 + C / 10 ^ 14) := by
  have hn := abs_le.1 (roundDec3_near l)
  have hr := rd_err (roundDec 3 l)
  generalize roundDec 3 l = p at *
  have hu := ulp_small
  have h := abs_le.1 h
  have hp : |p| ≤ C + e0 + 1 / 2000 := abs_le.2 ⟨by linarith, by linarith⟩
  have h3 : ulp * |p| ≤ 1 / 10 ^ 15 * (C + e0 + 1 / 2000) := mul_le_mul hu hp (abs_nonneg _) (by norm_num)
  have hr' := abs_le.1 (hr.trans h3)
  have : 0 ≤ C := ho.trans hoC
  exact abs_le.2 ⟨by linarith, by linarith⟩

/-- The printed gap. -/
theorem printed_gap {u l e0 C o o' : ℚ} (he0 : 0 ≤ e0) (ho' : 0 ≤ o') (ho'C : o' ≤ C) (hl : 0 < l)
    (h : |l - o| ≤ e0) (h' : o' ≤ u + e0) :
    o' ≤ (1 + (max (rd (roundDec 3 (rd (rd (rd (u - l) / l) * 100)))) 0 + 51 / 100000) / 100)
      * (o + (11 / 10 * e0 + C / 10 ^ 14)) + (11 / 10 * e0 + C / 10 ^ 14) := by
  have h := abs_le.1 h
  have hC : 0 ≤ C := ho'.trans ho'C
  set e := 11 / 10 * e0 + C / 10 ^ 14 with hedef
  have hC' : 0 ≤ C / 10 ^ 14 := by positivity
  have hee : e0 ≤ e := by linarith
  rcases le_total 0 (u - l) with hd | hd
  · have hp := percent_low hd hl
    generalize rd (roundDec 3 (rd (rd (rd (u - l) / l) * 100))) = γ at *
    have hm : γ ≤ max γ 0 := le_max_left _ _
    have ht : 0 ≤ (u - l) / l := div_nonneg hd hl.le
    have h1 : (u - l) / l * (1 - 1 / 2 ^ 50) ≤ (max γ 0 + 51 / 100000) / 100 := by linarith
    have h2 : (1 + (u - l) / l * (1 - 1 / 2 ^ 50)) * l
        ≤ (1 + (max γ 0 + 51 / 100000) / 100) * (o + e) := by
      refine mul_le_mul (by linarith) (by linarith) hl.le ?_
      have := mul_nonneg ht (show (0 : ℚ) ≤ 1 - 1 / 2 ^ 50 by norm_num)
      linarith
    have h3 : (1 + (u - l) / l * (1 - 1 / 2 ^ 50)) * l = l + (u - l) * (1 - 1 / 2 ^ 50) := by
      field_simp
    rw [h3] at h2
    rcases le_total u (2 * C) with hu | hu
    · have : (u - l) * (1 / 2 ^ 50) ≤ 2 * C * (1 / 2 ^ 50) :=
        mul_le_mul_of_nonneg_right (by linarith) (by norm_num)
      have h4 : 2 * C * (1 / 2 ^ 50) ≤ C / 10 ^ 14 := by
        have : C * (2 * (1 / 2 ^ 50)) ≤ C * (1 / 10 ^ 14) :=
          mul_le_mul_of_nonneg_left (by norm_num) hC
        linarith
      linarith
    · have : (u - l) * (1 / 2 ^ 50) ≤ u * (1 / 2) := by
        have h5 : (u - l) * (1 / 2 ^ 50) ≤ u * (1 / 2 ^ 50) :=
          mul_le_mul_of_nonneg_right (by linarith) (by norm_num)
        have h6 : u * (1 / 2 ^ 50) ≤ u * (1 / 2) :=
          mul_le_mul_of_nonneg_left (by norm_num) (by linarith)
        linarith
      linarith
  · have hm : (0 : ℚ) ≤ max (rd (roundDec 3 (rd (rd (rd (u - l) / l) * 100)))) 0 := le_max_right _ _
    have h1 : 1 * (o + e) ≤ (1 + (max (rd (roundDec 3 (rd (rd (rd (u - l) / l) * 100)))) 0
        + 51 / 100000) / 100) * (o + e) :=
      mul_le_mul_of_nonneg_right (by linarith) (by linarith)
    linarith

/-- **C109 (row).**  If `vUB` bounds all feasible points and `vLB` is the value of a feasible point, both
up to `e0`, then the row that is written as text and read back is a certificate. -/
theorem C109_row (hc : NonnegC I) {e0 : ℚ} (he0 : 0 ≤ e0) {st : MilpSt}
    (hu : ∀ y, Feas I y → obj I y ≤ st.vUB + e0) (hl : ∃ x, Feas I x ∧ |st.vLB - obj I x| ≤ e0)
    {J : Inst} {limit gap : ℚ} {name : Txt} {total : Option ℚ} {row : List Cell}
    (hr : flMilpRow name J limit gap st total = .ok row) (hn : '\r' ∉ name) {ts : List Txt}
    (hts : List.Forall₂ CellShows row (name :: ts)) :
    ∃ vals, textExperiment (csvWrite [name :: ts]) = .ok vals
      ∧ FlRowSays I (11 / 10 * e0 + (∑ j ∈ range I.n, I.c j) / 10 ^ 14) vals := by
  obtain ⟨t, g, b, -, hg, -, hv⟩ := flMilpRow_vals hr
  cases hts with
  | @cons c _ cs _ h1 h2 =>
  have hcn : c = .text name := by
    unfold flMilpRow at hr
    cases hp : flComputationDetails name J (st.vLB : WithBot ℚ) (st.vUB : WithTop ℚ) false false
        total 3 with
    | error e => rw [hp] at hr; cases hr
    | ok p =>
      obtain ⟨t, g, -, -, -, rfl⟩ := flDetails_ok hp
      rw [hp] at hr
      simp only [bind, Except.bind] at hr
      split at hr
      · cases hr
      · simp only [pure, Except.pure, Except.ok.injEq, List.cons_append, List.cons.injEq] at hr
        exact hr.1.symm
  subst hcn
  refine ⟨_, C99_results hn h2 hv, ?_⟩
  obtain ⟨x, hx, hxl⟩ := hl
  have hx0 := obj_nonneg hc hx.1
  have hxC := obj_le_total hc hx.1
  have hl0 : st.vLB ≠ 0 := by
    intro h0
    rw [h0] at hg
    simp [flComputeGap] at hg
  have hg' : g = .fin (rd (rd (st.vUB - st.vLB) / st.vLB)) := by
    simp only [flComputeGap, if_neg hl0, Except.ok.injEq] at hg
    exact hg.symm
  subst hg'
  refine ⟨_, _, _, rfl, rfl, rfl, fun y hy => ?_, x, hx, ?_, fun hpos y hy => ?_⟩
  · exact printed_up he0 (obj_nonneg hc hy.1) (obj_le_total hc hy.1) (hu y hy)
  · exact printed_low he0 hx0 hxC hxl
  · exact printed_gap he0 (obj_nonneg hc hy.1) (obj_le_total hc hy.1) (roundDec_pos (rd_pos hpos)) hxl
      (hu y hy)

/-- A row that says something up to a smaller error. -/
theorem FlRowSays.mono {e e' : ℚ} {vals : List Val} (h : FlRowSays I e vals) (he : e ≤ e') :
    FlRowSays I e' vals := by
  obtain ⟨l, u, γ, h1, h2, h3, h4, x, hx, h5, h6⟩ := h
  refine ⟨l, u, γ, h1, h2, h3, fun y hy => (h4 y hy).trans (by linarith), x, hx, h5.trans (by linarith),
    fun hl y hy => (h6 hl y hy).trans ?_⟩
  have hm : (0 : ℚ) ≤ max γ 0 := le_max_right _ _
  have := mul_le_mul_of_nonneg_left (show obj I x + e ≤ obj I x + e' by linarith)
    (show 0 ≤ 1 + (max γ 0 + 51 / 100000) / 100 by linarith)
  linarith

/-- The text of a result row: a name without carriage returns and the cells, the time of the big-Ms in any
notation that is read back as the same double. -/
def RowText (location : Txt) (row : List Cell) (ts : List Txt) : Prop :=
  '\r' ∉ fileName location ∧ List.Forall₂ CellShows row (fileName location :: ts)

/-- Methods 1 and 2 from a certified result to the row. -/
theorem main_row (hc : NonnegC I) {a : ℚ} (ha : 1 / 10 ^ 9 ≤ a) {env : Env} {location : Txt} {J : Inst}
    {method : ℕ} {total : ℚ} {row : List Cell} (hr : flMainRow env location J method total = .ok row)
    (hcert : ∀ st, flMilp env J method = .ok st →
      (∀ y, Feas I y → obj I y ≤ st.vUB + objErr I)
      ∧ ∃ x, Feas I x ∧ |st.vLB - obj I x| ≤ a * ∑ j ∈ range I.n, I.c j + objErr I)
    {ts : List Txt} (hts : RowText location row ts) :
    ∃ vals, textExperiment (csvWrite [fileName location :: ts]) = .ok vals
      ∧ FlRowSays I (12 / 10 * a * ∑ j ∈ range I.n, I.c j) vals := by
  unfold flMainRow at hr
  simp only [bind, Except.bind] at hr
  split at hr
  · cases hr
  · rename_i st hst
    obtain ⟨h1, x, hx, h2⟩ := hcert st hst
    have hC : 0 ≤ ∑ j ∈ range I.n, I.c j :=
      Finset.sum_nonneg fun j hj => hc j (Finset.mem_range.1 hj)
    have hobj : 0 ≤ objErr I := mul_nonneg (by norm_num) hC
    have haC : 0 ≤ a * ∑ j ∈ range I.n, I.c j := mul_nonneg (by linarith) hC
    obtain ⟨vals, v1, v2⟩ := C109_row hc (e0 := a * ∑ j ∈ range I.n, I.c j + objErr I) (by linarith)
      (fun y hy => (h1 y hy).trans (by linarith)) ⟨x, hx, h2⟩ hr hts.1 hts.2
    refine ⟨vals, v1, v2.mono ?_⟩
    unfold objErr
    generalize ∑ j ∈ range I.n, I.c j = C at *
    have : (1 / 10 ^ 9) * C ≤ a * C := mul_le_mul_of_nonneg_right ha hC
    have h3 : (11 / 10 * (1 / 2 ^ 52) + 1 / 10 ^ 14) * C ≤ 1 / 10 * (1 / 10 ^ 9) * C :=
      mul_le_mul_of_nonneg_right (by norm_num) hC
    linarith

/-- **C109.**  From the text of an instance file to the text of the result of method 1 with binary
variables, with everything between the two texts in double precision: the row is a certificate for the
instance `I` that exact arithmetic makes of the file, up to `1.2e-9` of the sum of the objective
coefficients. -/
theorem C109_method1 {file : List (List ℚ)} (h : FourDecFile file) {texts : List (List Txt)}
    (ht : ShowsFile texts (flFile file)) {eps : ℚ} (hI : parse file false eps = .ok I)
    (heps : 0 ≤ eps) (heps1 : eps ≤ 1) (htol : TolOk I) (hm : 0 < I.m) (hn : 0 < I.n)
    (hn' : I.n ≤ 100) (hN : I.N ≤ 2 ^ 40) (hM : Model.Moderate I) (hS : SortsDefined I) :
    ∃ J, readInstance (csvWrite texts) false (fl64 eps) = .ok J
      ∧ ∀ (env : Env) (location : Txt) (total : ℚ),
        (∀ g, IsMethod1Problem env.srt J (fl64 mainGap) g →
          GResult.FlValid cclpTols (9 / 10 ^ 10) g (env.cc 0 g)) →
        ∀ row ts, flMainRow env location J 1 total = .ok row → RowText location row ts →
        ∃ vals, textExperiment (csvWrite [fileName location :: ts]) = .ok vals
          ∧ FlRowSays I (12 / 10 * (1 / 10 ^ 9) * ∑ j ∈ range I.n, I.c j) vals := by
  obtain ⟨J, hJ, hall⟩ := C103_text h ht hI heps heps1 htol hm hn hn' hN hM hS
  refine ⟨J, hJ, fun env location total hcc row ts hr hts =>
    main_row (parse_grid h hI).2.2.2.2 le_rfl hr (fun st hst => ?_) hts⟩
  obtain ⟨h1, x, hx, -, h2, -⟩ := hall env _ _ (fl64_nonneg _) hcc st hst
  exact ⟨h1, x, hx, h2⟩

/-- **C109 (method 1, divisible items).**  The same for continuous variables, up to `1.2` times the
tolerance of C106. -/
theorem C109_method1_continuous {file : List (List ℚ)} (h : FourDecFile file) {texts : List (List Txt)}
    (ht : ShowsFile texts (flFile file)) {eps : ℚ} (hI : parse file true eps = .ok I)
    (heps : 0 ≤ eps) (heps1 : eps ≤ 1) (htol : TolOk I) (hm : 0 < I.m) (hn : 0 < I.n)
    (hn' : I.n ≤ 100) (hN : I.N ≤ 2 ^ 40) (hM : Model.Moderate I) (κ : ℚ) (hκ : 0 ≤ κ) (hR : RowRatio κ I)
    (hS : SortsDefined I) :
    ∃ J, readInstance (csvWrite texts) true (fl64 eps) = .ok J
      ∧ ∀ (env : Env) (location : Txt) (total : ℚ),
        (∀ g, IsMethod1Problem env.srt J (fl64 mainGap) g →
          GResult.FlValid cclpTols (9 / 10 ^ 10) g (env.cc 0 g)) →
        ∀ row ts, flMainRow env location J 1 total = .ok row → RowText location row ts →
        ∃ vals, textExperiment (csvWrite [fileName location :: ts]) = .ok vals
          ∧ FlRowSays I (12 / 10 * contTol κ * ∑ j ∈ range I.n, I.c j) vals := by
  obtain ⟨J, hJ, hall⟩ := C106_text h ht hI heps heps1 htol hm hn hn' hN hM κ hκ hR hS
  refine ⟨J, hJ, fun env location total hcc row ts hr hts =>
    main_row (parse_grid h hI).2.2.2.2 (contTol_low hκ) hr (fun st hst => ?_) hts⟩
  obtain ⟨h1, x, hx, -, h2, -⟩ := hall env _ _ (fl64_nonneg _) hcc st hst
  exact ⟨h1, x, hx, h2⟩

/-- **C109 (method 2, divisible items).**  The same for method 2 with whole values and a risk level of
whole percents. -/
theorem C109_method2_continuous {file : List (List ℚ)} (h : FourDecFile file) {texts : List (List Txt)}
    (ht : ShowsFile texts (flFile file)) {p : ℕ} (hp : p < 100) (hI : parse file true (p / 100) = .ok I)
    (htol : TolOk I) (hn : I.n ≤ 100) (hN : I.N ≤ 90000) (hM : Model.Moderate I) (hW : WholeValues I)
    (κ : ℚ) (hκ : 0 ≤ κ) (hR : RowRatio κ I) :
    ∃ J, readInstance (csvWrite texts) true (fl64 (p / 100)) = .ok J
      ∧ ∀ (env : Env) (location : Txt) (total : ℚ), ContAnswers env J (fl64 mainGap) →
        ∀ row ts, flMainRow env location J 2 total = .ok row → RowText location row ts →
        ∃ vals, textExperiment (csvWrite [fileName location :: ts]) = .ok vals
          ∧ FlRowSays I (12 / 10 * contTol κ * ∑ j ∈ range I.n, I.c j) vals := by
  obtain ⟨J, hJ, hall⟩ := C107_text h ht hp hI htol hn hN hM hW κ hκ hR
  refine ⟨J, hJ, fun env location total hA row ts hr hts =>
    main_row (parse_grid h hI).2.2.2.2 (contTol_low hκ) hr (fun st hst => ?_) hts⟩
  obtain ⟨h1, x, hx, -, h2, -⟩ := hall env _ _ (fl64_nonneg _) hA st hst
  exact ⟨h1, x, hx, h2⟩

/-- **C109 (from the OR-library).**  The whole chain for method 1 and binary variables: from the text of an
OR-library file and the draws of the generator over the text of an instance file to the text of the
result row. -/
theorem C109_orlib {eol : Txt} (he : LineEnd eol) {rows : List (List Txt)} {last : List Txt}
    (hw : ∀ r ∈ rows ++ [last], r ≠ [[]] ∧ ∀ w ∈ r, PlainWord w) {n m : ℕ} {c b : Vec}
    (h : OrWords (rows ++ if last = [] then [] else [last]) n m c b) {N K : ℕ} (hn : 0 < n) (hm : 0 < m)
    (hN : 0 < N) (hn' : n ≤ 100) (hm' : m ≤ 10 ^ 10) (hN' : N < 10 ^ 7) (hc : ∀ j < n, FourDec (c j))
    (hb : ∀ i < m, FourDec (b i)) {d : Draws} (hd : ∀ k i j s, d.normal k i j s ≤ 10 ^ 9) :
    ∃ files d', textGenerate (orText eol rows ++ spaced last) N K d = .ok files ∧ files.length = K
      ∧ d'.fails = d.fails
      ∧ (∀ k i j s, |d'.normal k i j s - d.normal k i j s| ≤ 1 / 2 ^ 53 * |d.normal k i j s|)
      ∧ ∀ k < K, ∃ f, files[k]? = some f ∧ ∀ texts, ShowsFile texts f.2 →
        ∀ (eps : ℚ) (q : ℕ), eps * N = q → eps ≤ 1 →
        ∃ I J,
          parse (genRows n m N ((List.range n).map c) ((List.range m).map b) d' (k + 1)) false eps = .ok I
          ∧ readInstance (csvWrite texts) false (fl64 eps) = .ok J
          ∧ (Model.Moderate I → SortsDefined I → ∀ (env : Env) (location : Txt) (total : ℚ),
            (∀ g, IsMethod1Problem env.srt J (fl64 mainGap) g →
              GResult.FlValid cclpTols (9 / 10 ^ 10) g (env.cc 0 g)) →
            ∀ row ts, flMainRow env location J 1 total = .ok row → RowText location row ts →
            ∃ vals, textExperiment (csvWrite [fileName location :: ts]) = .ok vals
              ∧ FlRowSays I (12 / 10 * (1 / 10 ^ 9) * ∑ j ∈ range I.n, I.c j) vals) := by
  obtain ⟨files, d', f1, f2, f3, f4, f5⟩ := C108_method1 he hw h (K := K) hn hm hN hn' hm' hN' hc hb hd
  refine ⟨files, d', f1, f2, f3, f4, fun k hk => ?_⟩
  obtain ⟨f, g1, g2⟩ := f5 k hk
  refine ⟨f, g1, fun texts ht eps q hq heps1 => ?_⟩
  obtain ⟨I, J, e1, -, -, -, -, e2, e3, e4⟩ := g2 texts ht eps q hq heps1
  refine ⟨I, J, e1, e3, fun hM hS env location total hcc row ts hr hts =>
    main_row e2 le_rfl hr (fun st hst => ?_) hts⟩
  obtain ⟨h1, x, hx, -, h2, -⟩ := e4 hM hS env _ _ (fl64_nonneg _) hcc st hst
  exact ⟨h1, x, hx, h2⟩

/-! ## Examples -/

/-- A result with bounds `l` and `u`. -/
def exGapSt (l u : ℚ) : MilpSt :=
  { vUB := u, vLB := l, xLB := fun _ => 0, zLB := [], useBigM := 1, bigMMethod := 0
    bigMTime := some (1 / 2) }

/-- The gap between 2.9999 and 3 is printed as 0.003 percent. -/
example : (match flMilpRow ['a'] exPipe 3600 (fl64 mainGap) (exGapSt (29999 / 10000) 3) (some 1) with
    | .ok row => row.drop 10
    | .error _ => []) = [.flt (1 / 2), .text "1.000".toList, .text "3.000".toList, .text "3.000".toList,
      .text "0.003".toList] := by
  decide +kernel

theorem exPipe_nonneg : NonnegC exPipe := by unfold NonnegC; decide +kernel

theorem exPipe_up {y : Vec} (hy : Feas exPipe y) : obj exPipe y ≤ 4 :=
  (obj_le_total exPipe_nonneg hy.1).trans (by decide +kernel)

theorem exPipe_zero : Feas exPipe (fun _ => 0) ∧ obj exPipe (fun _ => 0) = 0 :=
  ⟨⟨by unfold InX; decide +kernel, by unfold Chance; decide +kernel⟩, by decide +kernel⟩

theorem exPipe_one : Feas exPipe (fun j => if j = 0 then 1 else 0)
    ∧ obj exPipe (fun j => if j = 0 then 1 else 0) = 3 :=
  ⟨⟨by unfold InX; decide +kernel, by unfold Chance; decide +kernel⟩, by decide +kernel⟩

/-- The hypotheses of `C109_row` are met by the instance of C103, bounds 2.9999 and 4 and errors of
`1e-4`, and there is a row. -/
example : (∀ y, Feas exPipe y → obj exPipe y ≤ (exGapSt (29999 / 10000) 4).vUB + 1 / 10000)
    ∧ (∃ x, Feas exPipe x ∧ |(exGapSt (29999 / 10000) 4).vLB - obj exPipe x| ≤ 1 / 10000)
    ∧ (flMilpRow ['a'] exPipe mainTimeLimit (fl64 mainGap) (exGapSt (29999 / 10000) 4) (some 1)).toBool
      = true :=
  ⟨fun y hy => (exPipe_up hy).trans (by norm_num [exGapSt]),
    ⟨_, exPipe_one.1, by rw [exPipe_one.2]; norm_num [exGapSt, abs_le]⟩, by decide +kernel⟩

/-- **C109 (what does not hold).**  With a lower bound that is below zero by less than the tolerances, as
Gurobi may report it, the gap is negative: the printed lower bound is `-0.000`, the gap is below the
required one, so that the exporter counts the instance as solved, and yet there is a feasible point of
value 3. -/
theorem C109_negative_counterexample :
    (∀ y, Feas exPipe y → obj exPipe y ≤ (exGapSt (-1 / 10 ^ 10) 4).vUB)
    ∧ (∃ x, Feas exPipe x ∧ |(exGapSt (-1 / 10 ^ 10) 4).vLB - obj exPipe x| ≤ 1 / 10 ^ 10)
    ∧ (∃ y, Feas exPipe y ∧ obj exPipe y = 3)
    ∧ ∃ row vals required γ,
      flMilpRow ['a'] exPipe mainTimeLimit (fl64 mainGap) (exGapSt (-1 / 10 ^ 10) 4) (some 1) = .ok row
      ∧ readExperiment (some row) = .ok vals ∧ vals[7]? = some (.num (.fin required))
      ∧ Back vals 3 (.fin 0) ∧ Back vals 1 (.fin γ) ∧ γ < required := by
  refine ⟨fun y hy => exPipe_up hy, ⟨_, exPipe_zero.1, ?_⟩, ⟨_, exPipe_one⟩, ?_⟩
  · rw [exPipe_zero.2]; norm_num [exGapSt, abs_le]
  · have hrow : (flMilpRow ['a'] exPipe mainTimeLimit (fl64 mainGap) (exGapSt (-1 / 10 ^ 10) 4)
        (some 1)).toBool = true := by decide +kernel
    cases hr : flMilpRow ['a'] exPipe mainTimeLimit (fl64 mainGap) (exGapSt (-1 / 10 ^ 10) 4) (some 1) with
    | error e => rw [hr] at hrow; cases hrow
    | ok row =>
      obtain ⟨t, g, b, -, hg, -, hv⟩ := flMilpRow_vals hr
      have hg' : flComputeGap ((4 : ℚ) : WithTop ℚ) ((-1 / 10 ^ 10 : ℚ) : WithBot ℚ) false = .ok g := hg
      simp only [flComputeGap, if_neg (show (-1 / 10 ^ 10 : ℚ) ≠ 0 by norm_num), Except.ok.injEq] at hg'
      refine ⟨row, _, roundDec 3 (rd (fl64 mainGap * 100)),
        roundDec 3 (rd (rd (rd (4 - -1 / 10 ^ 10) / (-1 / 10 ^ 10)) * 100)), rfl, hv, rfl, ?_, ?_, ?_⟩
      · have : roundDec 3 (-1 / 10 ^ 10) = 0 := by decide +kernel
        show some (Val.num (.fin (roundDec 3 (-1 / 10 ^ 10)))) = _
        rw [this]
      · rw [← hg']; rfl
      · decide +kernel

end Verif.Props
