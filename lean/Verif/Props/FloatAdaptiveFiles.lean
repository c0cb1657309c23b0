import Verif.Props.FloatAdaptive
import Verif.Props.FloatPipeline2

/-!
# C112 from the text of an instance file
-/

namespace Verif.Props

open Spec Model Finset

variable {I : Inst} {p : ℕ}

/-! ## The program does not tell an instance from its doubles -/

theorem flSubset_dbl {l : List ℕ} {q : ℚ × Vec} : FlSubset (dbl I) l q ↔ FlSubset I l q := by
  unfold FlSubset
  rw [dbl_dbl]

theorem flCosts_dbl {P : List (List ℕ)} {costs : List ℚ} : FlCosts (dbl I) P costs ↔ FlCosts I P costs := by
  unfold FlCosts
  simp only [flSubset_dbl]

theorem flLoadPartition_dbl {P : List (List ℕ)} {D : PartData} :
    FlLoadPartition (dbl I) P D ↔ FlLoadPartition I P D := by
  unfold FlLoadPartition
  rw [dbl_dbl]
  rfl

theorem flStep_dbl {st st' : FlSt} (h : FlStep (dbl I) st st') : FlStep I st st' := by
  cases h with
  | improve h1 h2 h3 h4 h5 h6 =>
    rw [dbl_dbl] at h3 h5 h6
    exact .improve h1 (flSubset_dbl.1 h2) h3 h4 h5 h6
  | first h1 h2 h3 h4 h5 h6 =>
    rw [dbl_dbl] at h3
    exact .first h1 h2 h3 (flCosts_dbl.1 h4) h5 h6
  | partition h1 h2 h3 h4 h5 h6 h7 h8 =>
    rw [dbl_dbl] at h3 h6
    exact .partition h1 h2 h3 (flCosts_dbl.1 h4) (flLoadPartition_dbl.1 h5) h6 h7 h8
  | lower h1 h2 h3 h4 =>
    rw [dbl_dbl] at h2 h3
    exact .lower h1 h2 h3 h4
  | counter c => exact .counter c

theorem flReach_dbl {st : FlSt} (h : FlReach (dbl I) st) : FlReach I st := by
  have hs : FlSt.start (dbl I) = FlSt.start I := by unfold FlSt.start; rw [dbl_dbl]
  induction h with
  | start => rw [hs]; exact .start
  | quantile h1 h2 h3 =>
    rw [hs]
    rw [dbl_dbl] at h3
    exact .quantile h1 (fun s hs => (h2 s hs).imp fun x hx => flSubset_dbl.1 hx) h3
  | step _ h ih => exact ih.step (flStep_dbl h)

/-! ## From the text -/

/-- **C112 (from the text of an instance file).**  A file of numbers with four decimals, written in any notation,
is read as an instance `J` of doubles; in every state of a run of the adaptive method on `J`, the bounds hold
for the exact instance `I` of the file as in `C112_bounds`, and a stop on the gap certifies as in
`C112_gap_stop`. -/
theorem C112_text {file : List (List ℚ)} (h : FourDecFile file) {texts : List (List Txt)}
    (ht : ShowsFile texts (flFile file)) (hp : p < 100) (hI : parse file false (p / 100) = .ok I)
    (hdown : p ∉ roundedDown ∨ ¬ 100 ∣ p * I.N) (hN : I.N ≤ 90000) (hn : I.n ≤ 10000) (hM : Model.Moderate I)
    (hsum : ∑ j ∈ range I.n, I.c j ≤ 10 ^ 7) :
    ∃ J, readInstance (csvWrite texts) false (fl64 (p / 100)) = .ok J ∧ ∀ st, FlReach J st →
      (∀ y, Feas I y → ∀ u : ℚ, st.vUB = u → obj I y ≤ (1 + 1 / 10 ^ 4) * u + objErr I
        ∨ ∃ l : ℚ, st.vLB = l ∧ obj I y ≤ (1 + 1 / 10 ^ 4) * l + objErr I)
      ∧ (∀ l : ℚ, st.vLB = l → ∃ x, st.xLB = some x ∧ ∃ y, Feas I y ∧ (∀ j < I.n, |x j - y j| ≤ 1 / 10 ^ 5)
        ∧ |l - obj I y| ≤ (1 / 10 ^ 5 + 1 / 10 ^ 10) * ∑ j ∈ range I.n, I.c j)
      ∧ ∀ (np : Bool) (g : Gap) (gap : ℚ), 0 ≤ gap → flComputeGap st.vUB st.vLB np = .ok g → g.le gap = true →
        (0 : WithBot ℚ) < st.vLB → ∃ (l : ℚ) (x : Vec), st.vLB = l ∧ st.xLB = some x
          ∧ (∃ y, Feas I y ∧ (∀ j < I.n, |x j - y j| ≤ 1 / 10 ^ 5)
            ∧ |l - obj I y| ≤ (1 / 10 ^ 5 + 1 / 10 ^ 10) * ∑ j ∈ range I.n, I.c j)
          ∧ ∀ y, Feas I y → obj I y ≤ (1 + 1 / 10 ^ 4) * (1 + gap * (1 + 1 / 2 ^ 50)) * l + objErr I := by
  obtain ⟨hcont, he, hE, hgrid, hc⟩ := parse_grid h hI
  have hok : FlOk I p :=
    { equi := hE, pct := hp, eps := he, notDown := hdown, scen := hN, items := hn, one := hgrid, size := hM
      c := hc, sum := hsum, binary := hcont }
  refine ⟨dbl I, by rw [C98_text h ht, hI]; rfl, fun st hst => ?_⟩
  have hst := flReach_dbl hst
  obtain ⟨h1, h2⟩ := C112_bounds hok st hst
  exact ⟨h1, h2, fun np g gap hgap hg hle hpos => C112_gap_stop hok st hst np g gap hgap hg hle hpos⟩

/-! ## Example -/

theorem exPipe_answers : ∀ s < 4, GResult.FlAnswers defaultTols (2 / 10 ^ 10)
    (Deter.build (instCI (dbl exPipe)) [s]).g
    (pairAnswer 1 (if s = 0 then 1 else 0) 0 (Deter.build (instCI (dbl exPipe)) [s]).g) := by
  intro s hs
  have c0 : (dbl exPipe).c 0 = 3 := by decide +kernel
  have c1 : (dbl exPipe).c 1 = 1 := by decide +kernel
  have hn : (dbl exPipe).n = 2 := by decide +kernel
  have hb : (dbl exPipe).cont = false := by decide +kernel
  interval_cases s
  · refine pairAnswer_answers (pair_build hn hb (by decide +kernel) ?_) (by decide +kernel) (by decide +kernel)
    rintro x y (rfl | rfl) (rfl | rfl) - <;> rw [c0, c1] <;> norm_num
  all_goals
    refine pairAnswer_answers (pair_build hn hb (by decide +kernel) ?_) (by decide +kernel)
      (by decide +kernel)
    rintro x y (rfl | rfl) (rfl | rfl) h
    any_goals rw [c0, c1]; norm_num
    have := h 0 (by decide +kernel)
    revert this
    decide +kernel

theorem exPipe_subset {s : ℕ} (hs : s < 4) : FlSubset exPipe [s]
    ([(4 : ℚ), 3, 3, 3].getD s 0, fun j => pairPoint 1 (if s = 0 then 1 else 0) (.x j)) := by
  refine ⟨pairAnswer 1 (if s = 0 then 1 else 0) 0, exPipe_answers s hs, ?_⟩
  have : ∀ v : ℚ, (Deter.build (instCI (dbl exPipe)) [s]).g.obj.eval
      (pairPoint 1 (if s = 0 then 1 else 0)) = v →
      subsetCost (dbl exPipe) (pairAnswer 1 (if s = 0 then 1 else 0) 0) [s]
        = .ok (v, fun j => pairPoint 1 (if s = 0 then 1 else 0) (.x j)) := by
    rintro v rfl
    rfl
  apply this
  interval_cases s <;> decide +kernel

/-- The hypotheses of `C112_text` are met by the file of C103 in different notations; the quantile bound of the
instance that is read is 3, and no feasible objective exceeds it by more than the tolerances. -/
example : ∃ J st, readInstance (csvWrite exPipeTexts) false (fl64 ((25 : ℕ) / 100)) = .ok J ∧ FlReach J st
    ∧ st.vUB = ((3 : ℚ) : WithTop ℚ)
    ∧ ∀ y, Feas exPipe y → obj exPipe y ≤ (1 + 1 / 10 ^ 4) * 3 + objErr exPipe := by
  have hI : parse exPipeFile false ((25 : ℕ) / 100) = .ok exPipe := by
    rw [show (((25 : ℕ) : ℚ) / 100) = 1 / 4 by norm_num]; exact exPipe_parse
  obtain ⟨h1, h2, -, -, -, -, -, hM, -⟩ := exPipe_meets
  obtain ⟨J, hJ, hall⟩ := C112_text h1 h2 (by norm_num) hI (.inl (by decide)) (by decide +kernel)
    (by decide +kernel) hM (by decide +kernel)
  have hd : J = dbl exPipe := by
    rw [C98_text h1 h2, hI] at hJ
    exact (Except.ok.inj hJ).symm
  have hq : (flQuantile (dbl exPipe) (Argsort.default.run [4, 3, 3, 3])).map
      (fun t => [(4 : ℚ), 3, 3, 3].getD t 0) = some 3 := by decide +kernel
  obtain ⟨t, ht, hq⟩ := Option.map_eq_some_iff.1 hq
  have hN : exPipe.N = 4 := by decide +kernel
  have hr : FlReach J _ := hd ▸ FlReach.quantile (I := dbl exPipe) (costs := [4, 3, 3, 3]) (argsort := .default)
    hN.symm (fun s hs => ⟨_, flSubset_dbl.2 (exPipe_subset (hN ▸ hs))⟩) (by rw [dbl_dbl]; exact ht)
  rw [hq] at hr
  refine ⟨J, _, hJ, hr, rfl, fun y hy => ?_⟩
  exact ((hall _ hr).1 y hy 3 rfl).resolve_right fun ⟨l, hl, _⟩ => absurd hl (by simp [FlSt.start])

end Verif.Props
