import Verif.Props.FloatExport

/-!
# C109: the columns of the rows of methods 1 and 2 in double precision
-/

namespace Verif.Props
open Spec Model Finset

/-- The parameters that methods 1 and 2 leave for the row. -/
theorem flMilp_params {env : Env} {J : Inst} {m : ℕ} {st : MilpSt} (h : flMilp env J m = .ok st) :
    st.useBigM = 1 ∧ st.bigMMethod = 0 := by
  have h1 : milpMethodCode "song" = 0 := by decide
  have h2 : milpMethodCode "belotti" = 0 := by decide
  unfold flMilp at h
  split_ifs at h
  · unfold flMilpSong at h
    simp only [bind, Except.bind, pure, Except.pure, h1] at h
    repeat' split at h
    all_goals first
      | (cases h; done)
      | (cases h; exact ⟨rfl, rfl⟩)
  · unfold flMilpBelotti at h
    simp only [bind, Except.bind, pure, Except.pure, h2] at h
    repeat' split at h
    all_goals first
      | (cases h; done)
      | (cases h; exact ⟨rfl, rfl⟩)

/-- **C109 (columns).**  Every row that methods 1 and 2 write has 15 columns: the name of the file, the numbers of
items, constraints and scenarios, whether the items are divisible, the risk level with three decimals, the time
limit, the required gap in percent, the use of big-Ms, the code `0` for either kind of big-Ms, the time of the
big-Ms, the total time, the lower bound, the upper bound and the gap in percent, the last four with three decimals.
The bounds are those of the solver, and the gap is computed from them in doubles. -/
theorem C109_columns {env : Env} {location : Txt} {J : Inst} {m : ℕ} {total : ℚ} {row : List Cell}
    (hr : flMainRow env location J m total = .ok row) :
    ∃ st t, flMilp env J m = .ok st ∧ st.vLB ≠ 0
      ∧ row = [.text (fileName location), .text (Nat.toDigits 10 J.n), .text (Nat.toDigits 10 J.m),
          .text (Nat.toDigits 10 J.N), .text [if J.cont then '1' else '0'], .text (fmtFloat 3 (.fin J.eps)),
          .text "3600.000".toList, .text "0.010".toList, .text ['1'], .text ['0'], .flt t,
          .text (fmtFloat 3 (.fin total)), .text (fmtFloat 3 (.fin st.vLB)), .text (fmtFloat 3 (.fin st.vUB)),
          .text (fmtFloat 3 (.fin (rd (rd (rd (st.vUB - st.vLB) / st.vLB) * 100))))] := by
  unfold flMainRow at hr
  simp only [bind, Except.bind] at hr
  split at hr
  · cases hr
  · rename_i st hst
    obtain ⟨hu, hb⟩ := flMilp_params hst
    unfold flMilpRow at hr
    cases hp : flComputationDetails (fileName location) J (st.vLB : WithBot ℚ) (st.vUB : WithTop ℚ) false
        false (some total) 3 with
    | error e => rw [hp] at hr; cases hr
    | ok p =>
      obtain ⟨t, g, ht, -, hg, rfl⟩ := flDetails_ok hp
      cases ht
      rw [hp] at hr
      simp only [bind, Except.bind] at hr
      have hl0 : st.vLB ≠ 0 := by
        intro h0
        rw [h0] at hg
        simp [flComputeGap] at hg
      have hg' : g = .fin (rd (rd (st.vUB - st.vLB) / st.vLB)) := by
        simp only [flComputeGap, if_neg hl0, Except.ok.injEq] at hg
        exact hg.symm
      subst hg'
      split at hr
      · cases hr
      · rename_i t' _
        have h1 : fmtCell 3 (.fin mainTimeLimit) = .text "3600.000".toList := by decide +kernel
        have h2 : fmtCell 3 (flPercent (.fin (fl64 mainGap))) = .text "0.010".toList := by decide +kernel
        have h3 : natCell (if J.cont then 1 else 0) = .text [if J.cont then '1' else '0'] := by
          cases J.cont <;> decide
        have h4 : natCell 1 = .text ['1'] := by decide
        have h5 : natCell 0 = .text ['0'] := by decide
        rw [h1, h2, h3, hu, hb, h4, h5] at hr
        simp only [pure, Except.pure, Except.ok.injEq, List.cons_append, List.nil_append] at hr
        exact ⟨st, t', hst, hl0, hr.symm⟩

/-- A row of either method. -/
example : ∀ m ∈ [1, 2], ∃ row, flMainRow exTableEnv "a/x.csv".toList exPipe m (5 / 2) = .ok row
    ∧ row.length = 15 ∧ row[6]? = some (.text "3600.000".toList) := by
  have key : ∀ m ∈ [1, 2], flMainRow exTableEnv "a/x.csv".toList exPipe m (5 / 2)
      = .ok (.text ['x'] :: (exTableTexts.take 9).map .text ++ .flt 0 :: (exTableTexts.drop 10).map .text) := by
    decide +kernel
  exact fun m hm => ⟨_, key m hm, by decide +kernel, by decide +kernel⟩

end Verif.Props
