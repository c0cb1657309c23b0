import Verif.Props.FloatExport

/-!
# C111: runs of methods 1 and 2 that Gurobi finishes in time are counted as solved
-/

namespace Verif.Props
open Spec Model Finset

variable {I : Inst}

/-! ## The call of `solve_cclp_model` -/

/-- The clock never goes back, and the readings before Gurobi starts are within the time limit. -/
structure InTime (clock : ℕ → ℚ) (limit : ℚ) : Prop where
  mono : Monotone clock
  start : clock 5 - clock 0 ≤ limit

/-- A feasible point of the exact instance, with the scenarios it satisfies, is a point of the problem with
rounded coefficients up to `2e-10` more than the error of the big-Ms. -/
theorem scenPoint_dbl (hE : Equi I) (heps : 0 ≤ I.eps) (heps1 : I.eps ≤ 1) (hI : NonnegAb I)
    (hM : Model.Moderate I) {Ms : List (List ℚ)} (hB : DoubleMs (instCI I) Ms) {e : ℚ} (he : 0 ≤ e)
    (he1 : e ≤ 1 / 2) {y : Vec} (hy : Feas I y)
    (hcov : ∀ s < I.N, ∀ i < I.m, dot I.n (I.A s i) y ≤ I.b s i + bigMAt Ms s i + e) {gap : ℚ} {g' : GModel}
    (hg' : flBuildCCLP (instCI (dbl I)) (some Ms) [] [] gap = .ok g') :
    g'.NearFeas ⟨0, e + 2 / 10 ^ 10⟩ (scenPoint I y) := by
  have hshape : ∀ Ms', some Ms = some Ms' → Shape (instCI I) Ms' := by rintro _ ⟨⟩; exact hB.1
  obtain ⟨g, hg, -⟩ := buildCCLP_ok (instCI I) (some Ms) hshape [] [] gap (by simp) (by simp)
  have hMs : ∀ Ms', some Ms = some Ms' → DoubleMs (instCI I) Ms' := by rintro _ ⟨⟩; exact hB
  exact (near_versions (rowsNear_inst hI hM) (chanceNear_inst hE heps heps1) hE.1 hMs hg hg'
    (t := ⟨0, e⟩) (by show e ≤ 1; linarith)).1 (scenPoint_near hE hB.1 he hy hcov hg)

theorem zero_feas (hI : NonnegAb I) (heps : 0 ≤ I.eps) : Feas I fun _ => 0 := by
  refine ⟨zero_inX I, ?_⟩
  have : viol I (fun _ => 0) = ∅ := by
    refine Finset.filter_eq_empty_iff.2 fun s hs => not_not.2 ?_
    exact zero_satAll (l := [s]) hI (by simpa using hs) s (by simp)
  unfold Chance
  rw [this]
  simpa using heps

/-- With big-Ms that relax the rows at the origin, and an answer of Gurobi, the call returns its values,
within the required gap. -/
theorem flSolveCclp_total (hE : Equi I) (heps : 0 ≤ I.eps) (heps1 : I.eps ≤ 1) (hI : NonnegAb I)
    (hM : Model.Moderate I) {Ms : List (List ℚ)} (hB : DoubleMs (instCI I) Ms) {e : ℚ} (he : 0 ≤ e)
    (he1 : e ≤ 1 / 2)
    (hcov : ∀ s < I.N, ∀ i < I.m, dot I.n (I.A s i) (fun _ => 0) ≤ I.b s i + bigMAt Ms s i + e)
    {gap limit build : ℚ} (hb : build ≤ limit) {solve : GModel → GResult}
    (hs : ∀ g, flBuildCCLP (instCI (dbl I)) (some Ms) [] [] gap = .ok g →
      GResult.FlAnswers cclpTols (e + 2 / 10 ^ 10) g (solve g)) :
    ∃ out, flSolveCclp (instCI (dbl I)) (some Ms) [] [] gap limit build solve = .ok out
      ∧ |out.vBnd - out.vObj| ≤ gap * |out.vObj| := by
  have hshape : Shape (instCI (dbl I)) Ms := shape_congr (rowsNear_inst hI hM) hB.1
  obtain ⟨g, hg⟩ : ∃ g, flBuildCCLP (instCI (dbl I)) (some Ms) [] [] gap = .ok g := by
    unfold flBuildCCLP
    simp [flAllBigM_ok hshape, bind, Except.bind, pure, Except.pure]
  have hA := hs g hg
  have hst := hA.status ⟨_, scenPoint_dbl hE heps heps1 hI hM hB he he1 (zero_feas hI heps) hcov hg⟩
  obtain ⟨ρ, hρ⟩ := Option.isSome_iff_exists.1 (hA.optimal hst)
  have hgap := hA.gap hst
  have hmg : g.mipGap = gap := by
    rw [flBuildCCLP_shape (J := instCI (dbl I)) (by rintro _ ⟨⟩; exact hshape) hg]
    rfl
  rw [hmg] at hgap
  unfold flSolveCclp
  rw [hg]
  simp only [bind, Except.bind, setTimeLimit, if_pos (sub_nonneg.2 hb), optimize, if_neg hA.notInterrupted,
    getSol, getObjVal, hρ, pure, Except.pure]
  exact ⟨_, rfl, hgap⟩

theorem inTime_limit {clock : ℕ → ℚ} {limit : ℚ} (h : InTime clock limit) :
    clock (milpReads true + 4) - clock (milpReads true + 3) ≤ remaining clock limit (milpReads true + 1) := by
  refine le_trans ?_ (le_max_left _ _)
  show clock 5 - clock 4 ≤ limit - (clock 2 - clock 0)
  have h1 := h.mono (show 2 ≤ 4 by norm_num)
  have h2 := h.start
  linarith

/-! ## The methods -/

/-- **C111 (method 1).**  Instances with one decimal digit, binary or continuous, with
`⌊eps N⌋ + 1 < N` in doubles.  If Gurobi answers the problem it is given, method 1 returns a result whose
bounds are within the required gap. -/
theorem C111_method1 (hE : Equi I) (heps : 0 ≤ I.eps) (heps1 : I.eps ≤ 1) (hm : 0 < I.m) (hn : 0 < I.n)
    (hn' : I.n ≤ 100) (hN : I.N ≤ 2 ^ 40) (hI : OneDecimal I) (hM : Model.Moderate I) (hS : SortsDefined I)
    (hq : flFloor (dbl I) + 1 < I.N) {env : Env} {timeLimit gap : ℚ} (ht : InTime env.clock timeLimit)
    (hcc : ∀ g, IsMethod1Problem env.srt I gap g →
      GResult.FlAnswers cclpTols (9 / 10 ^ 10) g (env.cc 0 g)) :
    ∃ r, flMilpSong env I timeLimit gap = .ok r ∧ |r.vUB - r.vLB| ≤ gap * |r.vLB| := by
  obtain ⟨f, hf, hv⟩ := C96_song_valid env.srt I hE heps hm hn hI 20000 5000
    (sized_of_moderate hI.1 hM hn') hS hN hq
  obtain ⟨Ms, hMs, -, -⟩ := table_ok (instCI I) (fun s i => flSongBigM I f s i)
    (fun s hs i hi => (hv s hs i hi).imp fun _ h => h.1)
  have hMs : flSongBigMs I f = .ok Ms := hMs
  obtain ⟨hB, hcov⟩ := C101_big_ms env.srt hE heps hm hn hn' hN hI hM hS f hf Ms hMs
  have h0 := zero_feas hI.1 heps
  obtain ⟨out, ho, hg⟩ := flSolveCclp_total hE heps heps1 hI.1 hM hB (e := 7 / 10 ^ 10) (by norm_num)
    (by norm_num) (hcov _ (inX_box h0.1) h0.2) (gap := gap) (inTime_limit ht) (solve := env.cc 0)
    (fun g hg => by convert hcc g ⟨f, Ms, hf, hMs, hg⟩ using 1; norm_num)
  unfold flMilpSong
  rw [hf]
  simp only [bind, Except.bind, hMs, ho, pure, Except.pure]
  exact ⟨_, rfl, hg⟩

/-- The costs of the scenarios are all found, and none is negative. -/
theorem allScenarioCosts_total (hI : NonnegAb I) (hM : Model.Moderate I) {solve : ℕ → GModel → GResult}
    (hsub : ∀ s < I.N, GResult.FlAnswers defaultTols (2 / 10 ^ 10) (Deter.build (instCI (dbl I)) [s]).g
      (solve s (Deter.build (instCI (dbl I)) [s]).g)) :
    ∃ costs, allScenarioCosts (dbl I) solve = .ok costs ∧ costs.length = I.N
      ∧ ∀ s < I.N, 0 ≤ costs.getD s 0 := by
  have hzero : ∀ s < I.N, Sat I s fun _ => 0 := fun s hs =>
    zero_satAll (l := [s]) hI (by simpa using hs) s (by simp)
  have hone : ∀ s < I.N, ∃ v x, subsetCost (dbl I) (solve s) [s] = .ok (v, x) := by
    intro s hs
    have hA := hsub s hs
    have hst := hA.status ⟨_, scenario_near hI hM (zero_inX I) hs (hzero s hs)⟩
    obtain ⟨ρ, hρ⟩ := Option.isSome_iff_exists.1 (hA.optimal hst)
    unfold subsetCost
    rw [optimize, if_neg hA.notInterrupted]
    simp only [bind, Except.bind, getObjVal, getX, getSol, hρ, pure, Except.pure]
    exact ⟨_, _, rfl⟩
  obtain ⟨costs, hcs⟩ : ∃ costs, allScenarioCosts (dbl I) solve = .ok costs := by
    refine zipIdx_mapM_ok _ _ ?_
    intro p hp
    obtain ⟨i, hi, rfl⟩ := List.mem_iff_getElem.1 hp
    rw [List.getElem_zipIdx, List.getElem_range]
    have hi : i < I.N := (by simpa using hi : i < (dbl I).N)
    obtain ⟨v, x, h⟩ := hone i hi
    exact ⟨v, by simp only [Nat.zero_add]; rw [h]; rfl⟩
  refine ⟨costs, hcs, ?_⟩
  unfold allScenarioCosts scenarioCosts at hcs
  obtain ⟨hl, hk⟩ := mapM_inv _ _ _ hcs
  rw [List.length_zipIdx, List.length_range] at hl
  have hl : costs.length = I.N := hl
  refine ⟨hl, fun s hs => ?_⟩
  have hs2 : s < costs.length := by omega
  have h1 := hk s (by rw [List.length_zipIdx, List.length_range]; exact hs) hs2
  rw [List.getElem_zipIdx, List.getElem_range] at h1
  obtain ⟨v, x, h⟩ := hone s hs
  simp only [Nat.zero_add] at h1
  rw [h] at h1
  have he : v = costs[s] := Except.ok.inj h1
  rw [List.getD_eq_getElem _ _ hs2, ← he]
  have h2 := flCost hI hM hs (hsub s hs) h (zero_inX I) (hzero s hs)
  have h3 : obj (dbl I) (fun _ => 0) = 0 := by unfold Spec.obj dot; simp
  rw [h3] at h2
  dsimp only at h2
  linarith

/-- Method 2 after the costs of the scenarios: the quantile exists. -/
theorem quantile_total (hE : Equi I) {p : ℕ} (hp : p < 100) (heps : I.eps = p / 100) (hN : I.N ≤ 90000)
    (argsort : Argsort) {costs : List ℚ} (hl : costs.length = I.N) :
    ∃ t < I.N, flQuantile (dbl I) (argsort.run costs) = some t := by
  obtain ⟨hperm, -⟩ := argsort.spec costs
  rw [hl] at hperm
  obtain ⟨hlt, hq⟩ := C91_quantile I hE p hp heps hN _ hperm
  have hlen : (argsort.run costs).length = I.N := by rw [hperm.length_eq, List.length_range]
  rw [List.getElem?_eq_getElem (by omega)] at hq
  exact ⟨_, List.mem_range.1 (hperm.mem_iff.1 (List.getElem_mem _)), hq⟩

/-- **C111 (method 2, binary variables).**  If Gurobi answers the problems of the scenarios, those of the
big-Ms and the last one, method 2 returns a result whose bounds are within the required gap. -/
theorem C111_method2 (hE : Equi I) (p : ℕ) (hp : p < 100) (heps : I.eps = p / 100) (hN : I.N ≤ 90000)
    (hI : OneDecimal I) (hM : Model.Moderate I) (hb : I.cont = false) (hn : 0 < I.n) {env : Env}
    {timeLimit gap : ℚ} (ht : InTime env.clock timeLimit)
    (hsub : ∀ s < I.N, GResult.FlAnswers defaultTols (2 / 10 ^ 10) (Deter.build (instCI (dbl I)) [s]).g
      (env.sub 0 s (Deter.build (instCI (dbl I)) [s]).g))
    (hbig : ∀ costs t, allScenarioCosts (dbl I) (env.sub 0) = .ok costs →
      flQuantile (dbl I) (env.argsort.run costs) = some t → ∀ s < I.N, ∀ i < I.m,
      GResult.FlAnswers bigTols 0 (buildBigMKnapsack (instCI (dbl I)) (costs.getD t 0) s i (1 / 10 ^ 8))
        (env.big 0 (buildBigMKnapsack (instCI (dbl I)) (costs.getD t 0) s i (1 / 10 ^ 8))))
    (hcc : ∀ g, IsMethod2Problem env I gap g →
      GResult.FlAnswers cclpTols (4 / 10 ^ 10) g (env.cc 0 g)) :
    ∃ r, flMilpBelotti env I timeLimit gap = .ok r ∧ |r.vUB - r.vLB| ≤ gap * |r.vLB| := by
  have heps0 : 0 ≤ I.eps := by rw [heps]; positivity
  have heps1 : I.eps ≤ 1 := by
    rw [heps, div_le_one (by norm_num)]
    exact_mod_cast hp.le
  obtain ⟨costs, hcs, hl, hpos⟩ := allScenarioCosts_total hI.1 hM hsub
  obtain ⟨t, htN, hq⟩ := quantile_total hE hp heps hN env.argsort hl
  obtain ⟨Ms, m1, hB, hcov⟩ := flBelotti_answers hI hM (hpos t htN) (hbig costs t hcs hq)
  have hrun : flRunBelotti env I (costs.getD t 0) = .ok Ms := (flRunBelotti_bin env hb hn _).trans m1
  have hobj0 : obj (dbl I) (fun _ => 0) = 0 := by unfold Spec.obj dot; simp
  obtain ⟨out, ho, hg⟩ := flSolveCclp_total hE heps0 heps1 hI.1 hM hB (e := 2 / 10 ^ 10) (by norm_num)
    (by norm_num) (hcov _ (zero_inX I) (by rw [hobj0]; exact hpos t htN)) (gap := gap) (inTime_limit ht)
    (solve := env.cc 0)
    (fun g hg => by convert hcc g ⟨costs, t, Ms, hcs, hq, hrun, hg⟩ using 1; norm_num)
  unfold flMilpBelotti
  rw [hcs]
  simp only [bind, Except.bind, hq, hrun, ho, pure, Except.pure]
  exact ⟨_, rfl, hg⟩

/-- **C111 (method 2, divisible items).**  The same with the big-Ms that are computed in Python. -/
theorem C111_method2_continuous (hE : Equi I) (p : ℕ) (hp : p < 100) (heps : I.eps = p / 100)
    (hn : I.n ≤ 100) (hN : I.N ≤ 90000) (hI : OneDecimal I) (hM : Model.Moderate I) (hW : WholeValues I)
    (hb : I.cont = true) {env : Env} {timeLimit gap : ℚ} (ht : InTime env.clock timeLimit)
    (hsub : ∀ s < I.N, GResult.FlAnswers defaultTols (2 / 10 ^ 10) (Deter.build (instCI (dbl I)) [s]).g
      (env.sub 0 s (Deter.build (instCI (dbl I)) [s]).g))
    (hcc : ∀ g, IsMethod2Problem env I gap g →
      GResult.FlAnswers cclpTols (9 / 10 ^ 10) g (env.cc 0 g)) :
    ∃ r, flMilpBelotti env I timeLimit gap = .ok r ∧ |r.vUB - r.vLB| ≤ gap * |r.vLB| := by
  have heps0 : 0 ≤ I.eps := by rw [heps]; positivity
  have heps1 : I.eps ≤ 1 := by
    rw [heps, div_le_one (by norm_num)]
    exact_mod_cast hp.le
  obtain ⟨costs, hcs, hl, hpos⟩ := allScenarioCosts_total hI.1 hM hsub
  obtain ⟨t, htN, hq⟩ := quantile_total hE hp heps hN env.argsort hl
  obtain ⟨Ms, m1, hB, -, hcov⟩ := C107_big_ms env.argsort hn hI hM hW (hpos t htN)
  have hrun : flRunBelotti env I (costs.getD t 0) = .ok Ms := by
    unfold flRunBelotti
    rw [if_neg (by simp [hb])]
    exact m1
  have hobj0 : obj I (fun _ => 0) = 0 := by unfold Spec.obj dot; simp
  obtain ⟨out, ho, hg⟩ := flSolveCclp_total hE heps0 heps1 hI.1 hM hB (e := 7 / 10 ^ 10) (by norm_num)
    (by norm_num) (hcov _ (inX_box (zero_inX I)) (by rw [hobj0]; exact hpos t htN)) (gap := gap)
    (inTime_limit ht) (solve := env.cc 0)
    (fun g hg => by convert hcc g ⟨costs, t, Ms, hcs, hq, hrun, hg⟩ using 1; norm_num)
  unfold flMilpBelotti
  rw [hcs]
  simp only [bind, Except.bind, hq, hrun, ho, pure, Except.pure]
  exact ⟨_, rfl, hg⟩

/-! ## The row -/

/-- The exporter, with the gap that export_results.py requires, counts this row as solved. -/
def CountedSolved (vals : List Val) : Prop :=
  flCountLoop [vals] (rd (rd (1 / 10 ^ 4) * 100)) [1] 0 true = .ok (1, true)

theorem flMilp_time {env : Env} {J : Inst} {m : ℕ} {st : MilpSt} (h : flMilp env J m = .ok st) :
    ∃ t, st.bigMTime = some t := by
  unfold flMilp flMilpSong flMilpBelotti at h
  simp only [bind, Except.bind, pure, Except.pure] at h
  repeat' split at h
  all_goals first | cases h; exact ⟨_, rfl⟩ | cases h

/-- Bounds within the required gap are printed with a gap of at most 0.010 percent. -/
theorem printed_within {u l : ℚ} (hl : l ≠ 0) (hg : |u - l| ≤ fl64 mainGap * |l|) :
    roundDec 3 (rd (rd (rd (u - l) / l) * 100)) ≤ 1 / 100 := by
  have hG : fl64 mainGap ≤ 10001 / 10 ^ 8 := by decide +kernel
  have hl' : 0 < |l| := abs_pos.2 hl
  have h1 : |(u - l) / l| ≤ 10001 / 10 ^ 8 := by
    rw [abs_div, div_le_iff₀ hl']
    exact hg.trans (mul_le_mul_of_nonneg_right hG hl'.le)
  have h2 := abs_le.1 (gap_err (d := u - l) (l := l))
  generalize rd (rd (u - l) / l) = g at *
  have h3 : |g| ≤ 10002 / 10 ^ 8 := by
    have := abs_le.1 h1
    rw [abs_le]
    constructor <;> linarith
  have h4 : |rd (g * 100) - g * 100| ≤ 1 / 10 ^ 10 := by
    refine (rd_err _).trans ?_
    rw [abs_mul, abs_of_pos (show (0 : ℚ) < 100 by norm_num)]
    have : ulp = 1 / 2 ^ 53 := rfl
    rw [this]
    linarith
  have h5 := abs_le.1 (roundDec3_near (rd (g * 100)))
  have h6 : roundDec 3 (rd (g * 100)) = (rint (rd (g * 100) * 10 ^ 3) : ℚ) / 10 ^ 3 := roundDec_eq _ _
  generalize rint (rd (g * 100) * 10 ^ 3) = r at h6
  have h4 := abs_le.1 h4
  have h3 := abs_le.1 h3
  have h7 : (r : ℚ) < 11 := by
    rw [h6] at h5
    have h5 := h5.2
    rw [sub_le_iff_le_add, div_le_iff₀ (by norm_num)] at h5
    linarith [h4.2, h3.2]
  have h8 : r ≤ 10 := by
    have : r < 11 := by exact_mod_cast h7
    omega
  have h9 : (r : ℚ) ≤ 10 := by exact_mod_cast h8
  rw [h6, div_le_iff₀ (by norm_num)]
  linarith

/-- **C111 (row).**  A result of method 1 or 2 whose bounds are within the required gap: the row is written if
the lower bound is not zero, and counted as solved when the exporter has read it; otherwise the computation
of the gap ends with `ZeroDivisionError`. -/
theorem C111_row {env : Env} {location : Txt} {J : Inst} {m : ℕ} {total : ℚ} {st : MilpSt}
    (hst : flMilp env J m = .ok st) (hn : 0 < J.n) (hN : 0 < J.N)
    (hg : |st.vUB - st.vLB| ≤ fl64 mainGap * |st.vLB|) :
    (st.vLB ≠ 0 → ∃ row, flMainRow env location J m total = .ok row
      ∧ ∀ ts, RowText location row ts → ∃ vals,
        textExperiment (csvWrite [fileName location :: ts]) = .ok vals ∧ CountedSolved vals)
    ∧ (st.vLB = 0 → flMainRow env location J m total = .error .zeroDivisionError) := by
  obtain ⟨t, ht⟩ := flMilp_time hst
  constructor
  · intro hl
    have hrow : ∃ row, flMainRow env location J m total = .ok row := by
      unfold flMainRow
      rw [hst]
      simp [bind, Except.bind, flMilpRow, flComputationDetails, hn.ne', hN.ne', flComputeGap, hl, ht, pure,
        Except.pure]
    obtain ⟨row, hr⟩ := hrow
    refine ⟨row, hr, fun ts hts => ?_⟩
    obtain ⟨vals, γ, h1, -, h3, h4, st', hst', hγ⟩ := fl_row_ok hr hts
    rw [hst] at hst'
    cases hst'
    refine ⟨vals, h1, ?_⟩
    unfold CountedSolved
    rw [flCountLoop_eq (gap := fun _ => ((γ : ℚ) : WithTop ℚ)) fun j hj => ⟨vals, by
      rw [List.mem_singleton.1 hj]; rfl, h3.gap⟩]
    have hs := (fl_solved h4 (r := 10) (by norm_num) (req := rd (rd (1 / 10 ^ 4) * 100))
      (by unfold Near; decide +kernel)).2 (by
        rw [WithTop.coe_le_coe, hγ]
        refine (printed_within hl hg).trans (by norm_num))
    simp only [hs]
    rfl
  · intro hl
    unfold flMainRow
    rw [hst]
    simp [bind, Except.bind, flMilpRow, flComputationDetails, hn.ne', hN.ne', flComputeGap, hl]

/-- What a run that Gurobi finishes in time ends with: a row that is a certificate up to `e` and is counted as
solved, or `ZeroDivisionError` if all feasible objectives are zero up to the rounding of the objective. -/
def EndsSolved (I : Inst) (e : ℚ) (location : Txt) (res : PyM (List Cell)) : Prop :=
  (∃ row, res = .ok row ∧ ∀ ts, RowText location row ts → ∃ vals,
    textExperiment (csvWrite [fileName location :: ts]) = .ok vals ∧ CountedSolved vals
    ∧ FlRowSays I e vals)
  ∨ (res = .error .zeroDivisionError ∧ ∀ y, Feas I y → obj I y ≤ objErr I)

theorem endsSolved_of {e : ℚ} {env : Env} {location : Txt} {J : Inst} {m : ℕ} {total : ℚ} {st : MilpSt}
    (hst : flMilp env J m = .ok st) (hn : 0 < J.n) (hN : 0 < J.N)
    (hg : |st.vUB - st.vLB| ≤ fl64 mainGap * |st.vLB|)
    (hub : ∀ y, Feas I y → obj I y ≤ st.vUB + objErr I)
    (hsays : ∀ row ts, flMainRow env location J m total = .ok row → RowText location row ts →
      ∃ vals, textExperiment (csvWrite [fileName location :: ts]) = .ok vals ∧ FlRowSays I e vals) :
    EndsSolved I e location (flMainRow env location J m total) := by
  obtain ⟨h1, h2⟩ := C111_row (location := location) (total := total) hst hn hN hg
  by_cases hl : st.vLB = 0
  · refine Or.inr ⟨h2 hl, fun y hy => ?_⟩
    rw [hl, abs_zero, mul_zero, sub_zero] at hg
    have : st.vUB = 0 := abs_eq_zero.1 (le_antisymm hg (abs_nonneg _))
    have h := hub y hy
    rwa [this, zero_add] at h
  · obtain ⟨row, hr, hts⟩ := h1 hl
    refine Or.inl ⟨row, hr, fun ts ht => ?_⟩
    obtain ⟨vals, e1, e2⟩ := hts ts ht
    obtain ⟨vals', e3, e4⟩ := hsays row ts hr ht
    rw [e1] at e3
    cases e3
    exact ⟨vals, e1, e2, e4⟩

/-- **C111.**  From the text of an instance file with binary variables: if the risk level leaves more than
one scenario (`⌊eps N⌋ + 1 < N` in doubles) and Gurobi answers the problem of method 1 within its tolerances
and the gap, main.py ends with a row that is a certificate and is counted as solved, or the optimum is zero
up to rounding and it ends with `ZeroDivisionError`. -/
theorem C111_text {file : List (List ℚ)} (h : FourDecFile file) {texts : List (List Txt)}
    (ht : ShowsFile texts (flFile file)) {eps : ℚ} (hI : parse file false eps = .ok I)
    (heps : 0 ≤ eps) (heps1 : eps ≤ 1) (htol : TolOk I) (hm : 0 < I.m) (hn : 0 < I.n)
    (hn' : I.n ≤ 100) (hN : I.N ≤ 2 ^ 40) (hM : Model.Moderate I) (hS : SortsDefined I)
    (hq : flFloor (dbl I) + 1 < I.N) :
    ∃ J, readInstance (csvWrite texts) false (fl64 eps) = .ok J
      ∧ ∀ (env : Env) (location : Txt) (total : ℚ), InTime env.clock mainTimeLimit →
        (∀ g, IsMethod1Problem env.srt J (fl64 mainGap) g →
          GResult.FlAnswers cclpTols (9 / 10 ^ 10) g (env.cc 0 g)) →
        EndsSolved I (12 / 10 * (1 / 10 ^ 9) * ∑ j ∈ range I.n, I.c j) location
          (flMainRow env location J 1 total) := by
  obtain ⟨hcont, he, hE, hgrid, hc⟩ := parse_grid h hI
  obtain ⟨J, hJ, hall⟩ := C103_text h ht hI heps heps1 htol hm hn hn' hN hM hS
  obtain ⟨J', hJ', hrow⟩ := C109_method1 h ht hI heps heps1 htol hm hn hn' hN hM hS
  rw [hJ] at hJ'
  cases hJ'
  have hd : J = dbl I := by
    have : readInstance (csvWrite texts) false (fl64 eps) = .ok (dbl I) := by rw [C98_text h ht, hI]; rfl
    rw [hJ] at this
    exact Except.ok.inj this
  refine ⟨J, hJ, fun env location total htime hcc => ?_⟩
  obtain ⟨st, hst, hg⟩ := C111_method1 hE (he ▸ heps) (he ▸ heps1) hm hn hn' hN hgrid hM hS hq htime
    (gap := fl64 mainGap) (fun g hg => hcc g (by rw [hd]; exact (isMethod1Problem_dbl _ _ _ _).2 hg))
  have hst' : flMilp env J 1 = .ok st := by
    unfold flMilp
    rw [if_pos rfl, hd, flMilpSong_dbl, hst]
  exact endsSolved_of hst' (by rw [hd]; exact hn) (by rw [hd]; exact hE.1) hg
    (hall env mainTimeLimit (fl64 mainGap) (fl64_nonneg _) (fun g hg => (hcc g hg).toFlValid) st
      (by rw [hd, flMilpSong_dbl, hst])).1
    (hrow env location total fun g hg => (hcc g hg).toFlValid)

/-- **C111 (divisible items).**  The same for continuous variables. -/
theorem C111_text_continuous {file : List (List ℚ)} (h : FourDecFile file) {texts : List (List Txt)}
    (ht : ShowsFile texts (flFile file)) {eps : ℚ} (hI : parse file true eps = .ok I)
    (heps : 0 ≤ eps) (heps1 : eps ≤ 1) (htol : TolOk I) (hm : 0 < I.m) (hn : 0 < I.n)
    (hn' : I.n ≤ 100) (hN : I.N ≤ 2 ^ 40) (hM : Model.Moderate I) (κ : ℚ) (hκ : 0 ≤ κ) (hR : RowRatio κ I)
    (hS : SortsDefined I) (hq : flFloor (dbl I) + 1 < I.N) :
    ∃ J, readInstance (csvWrite texts) true (fl64 eps) = .ok J
      ∧ ∀ (env : Env) (location : Txt) (total : ℚ), InTime env.clock mainTimeLimit →
        (∀ g, IsMethod1Problem env.srt J (fl64 mainGap) g →
          GResult.FlAnswers cclpTols (9 / 10 ^ 10) g (env.cc 0 g)) →
        EndsSolved I (12 / 10 * contTol κ * ∑ j ∈ range I.n, I.c j) location
          (flMainRow env location J 1 total) := by
  obtain ⟨hcont, he, hE, hgrid, hc⟩ := parse_grid h hI
  obtain ⟨J, hJ, hall⟩ := C106_text h ht hI heps heps1 htol hm hn hn' hN hM κ hκ hR hS
  obtain ⟨J', hJ', hrow⟩ := C109_method1_continuous h ht hI heps heps1 htol hm hn hn' hN hM κ hκ hR hS
  rw [hJ] at hJ'
  cases hJ'
  have hd : J = dbl I := by
    have : readInstance (csvWrite texts) true (fl64 eps) = .ok (dbl I) := by rw [C98_text h ht, hI]; rfl
    rw [hJ] at this
    exact Except.ok.inj this
  refine ⟨J, hJ, fun env location total htime hcc => ?_⟩
  obtain ⟨st, hst, hg⟩ := C111_method1 hE (he ▸ heps) (he ▸ heps1) hm hn hn' hN hgrid hM hS hq htime
    (gap := fl64 mainGap) (fun g hg => hcc g (by rw [hd]; exact (isMethod1Problem_dbl _ _ _ _).2 hg))
  have hst' : flMilp env J 1 = .ok st := by
    unfold flMilp
    rw [if_pos rfl, hd, flMilpSong_dbl, hst]
  exact endsSolved_of hst' (by rw [hd]; exact hn) (by rw [hd]; exact hE.1) hg
    (hall env mainTimeLimit (fl64 mainGap) (fl64_nonneg _) (fun g hg => (hcc g hg).toFlValid) st
      (by rw [hd, flMilpSong_dbl, hst])).1
    (hrow env location total fun g hg => (hcc g hg).toFlValid)

/-- **C111 (method 2, divisible items).**  The same for method 2 with whole values. -/
theorem C111_text_method2 {file : List (List ℚ)} (h : FourDecFile file) {texts : List (List Txt)}
    (ht : ShowsFile texts (flFile file)) {p : ℕ} (hp : p < 100) (hI : parse file true (p / 100) = .ok I)
    (htol : TolOk I) (hn0 : 0 < I.n) (hn : I.n ≤ 100) (hN : I.N ≤ 90000) (hM : Model.Moderate I)
    (hW : WholeValues I) (κ : ℚ) (hκ : 0 ≤ κ) (hR : RowRatio κ I) :
    ∃ J, readInstance (csvWrite texts) true (fl64 (p / 100)) = .ok J
      ∧ ∀ (env : Env) (location : Txt) (total : ℚ), InTime env.clock mainTimeLimit →
        ContAnswers env J (fl64 mainGap) →
        (∀ g, IsMethod2Problem env J (fl64 mainGap) g →
          GResult.FlAnswers cclpTols (9 / 10 ^ 10) g (env.cc 0 g)) →
        EndsSolved I (12 / 10 * contTol κ * ∑ j ∈ range I.n, I.c j) location
          (flMainRow env location J 2 total) := by
  obtain ⟨hcont, he, hE, hgrid, hc⟩ := parse_grid h hI
  obtain ⟨J, hJ, hall⟩ := C107_text h ht hp hI htol hn hN hM hW κ hκ hR
  obtain ⟨J', hJ', hrow⟩ := C109_method2_continuous h ht hp hI htol hn hN hM hW κ hκ hR
  rw [hJ] at hJ'
  cases hJ'
  have hd : J = dbl I := by
    have : readInstance (csvWrite texts) true (fl64 (p / 100)) = .ok (dbl I) := by
      rw [C98_text h ht, hI]; rfl
    rw [hJ] at this
    exact Except.ok.inj this
  refine ⟨J, hJ, fun env location total htime hA hcc => ?_⟩
  have hsub := hA.sub
  rw [hd] at hsub
  obtain ⟨st, hst, hg⟩ := C111_method2_continuous hE p hp he hn hN hgrid hM hW hcont htime
    (env := env) (gap := fl64 mainGap) hsub (fun g hg => hcc g (by
      unfold IsMethod2Problem flRunBelotti at hg ⊢
      rw [hd, dbl_dbl]
      exact hg))
  have hst' : flMilp env J 2 = .ok st := by
    unfold flMilp
    rw [if_neg (by norm_num), hd, flMilpBelotti_dbl, hst]
  exact endsSolved_of hst' (by rw [hd]; exact hn0) (by rw [hd]; exact hE.1) hg
    (hall env mainTimeLimit (fl64 mainGap) (fl64_nonneg _) hA st
      (by rw [hd, flMilpBelotti_dbl, hst])).1
    (hrow env location total hA)

/-- **C111 (method 2, binary variables).**  Method 2 comes to a result as well: a row that is counted as
solved, or both bounds are zero and main.py ends with `ZeroDivisionError`.  What the bounds are worth is
`C105_text_partial`. -/
theorem C111_text_method2_binary {file : List (List ℚ)} (h : FourDecFile file) {texts : List (List Txt)}
    (ht : ShowsFile texts (flFile file)) {p : ℕ} (hp : p < 100) (hI : parse file false (p / 100) = .ok I)
    (hn : 0 < I.n) (hN : I.N ≤ 90000) (hM : Model.Moderate I) :
    ∃ J, readInstance (csvWrite texts) false (fl64 (p / 100)) = .ok J
      ∧ ∀ (env : Env) (location : Txt) (total : ℚ), InTime env.clock mainTimeLimit →
        Method2Answers env J (fl64 mainGap) →
        (∀ g, IsMethod2Problem env J (fl64 mainGap) g →
          GResult.FlAnswers cclpTols (4 / 10 ^ 10) g (env.cc 0 g)) →
        ∃ st, flMilp env J 2 = .ok st
          ∧ ((∃ row, flMainRow env location J 2 total = .ok row
              ∧ ∀ ts, RowText location row ts → ∃ vals,
                textExperiment (csvWrite [fileName location :: ts]) = .ok vals ∧ CountedSolved vals)
            ∨ (flMainRow env location J 2 total = .error .zeroDivisionError ∧ st.vLB = 0 ∧ st.vUB = 0)) := by
  obtain ⟨hcont, he, hE, hgrid, hc⟩ := parse_grid h hI
  refine ⟨dbl I, by rw [C98_text h ht, hI]; rfl, fun env location total htime hA hcc => ?_⟩
  obtain ⟨st, hst, hg⟩ := C111_method2 hE p hp he hN hgrid hM hcont hn htime
    (env := env) (gap := fl64 mainGap) hA.sub hA.big (fun g hg => hcc g (by
      unfold IsMethod2Problem flRunBelotti at hg ⊢
      rw [dbl_dbl]
      exact hg))
  have hst' : flMilp env (dbl I) 2 = .ok st := by
    unfold flMilp
    rw [if_neg (by norm_num), flMilpBelotti_dbl, hst]
  refine ⟨st, hst', ?_⟩
  obtain ⟨h1, h2⟩ := C111_row (location := location) (total := total) hst' hn hE.1 hg
  by_cases hl : st.vLB = 0
  · refine .inr ⟨h2 hl, hl, ?_⟩
    rw [hl, abs_zero, mul_zero, sub_zero] at hg
    exact abs_eq_zero.1 (le_antisymm hg (abs_nonneg _))
  · exact .inl (h1 hl)

/-! ## Example -/

theorem exPipe_ms : (flViolations .default (dbl exPipe) >>= flSongBigMs (dbl exPipe))
    = .ok exFlMilpMs := by decide +kernel

theorem exPipe_cc (g : GModel) (h : IsMethod1Problem .default (dbl exPipe) (fl64 mainGap) g) :
    GResult.FlAnswers cclpTols (9 / 10 ^ 10) g (exTableEnv.cc 0 g) := by
  obtain ⟨f, Ms, h1, h2, h3⟩ := h
  have e := exPipe_ms
  rw [h1] at e
  have e : flSongBigMs (dbl exPipe) f = .ok exFlMilpMs := e
  rw [h2] at e
  cases e
  rw [dbl_dbl] at h3
  have c0 : (dbl exPipe).c 0 = 3 := by decide +kernel
  have c1 : (dbl exPipe).c 1 = 1 := by decide +kernel
  have hshape : Shape (instCI (dbl exPipe)) exFlMilpMs := ⟨by decide +kernel, by decide +kernel⟩
  have hobj : g.obj.eval (pairPoint 1 0) = 3 := by
    rw [flBuildCCLP_shape (by rintro _ ⟨⟩; exact hshape) h3]
    decide +kernel
  refine pairAnswer_answers ?_ ?_ ?_
  · refine pair_cclp (I := dbl exPipe) (by decide +kernel) (by decide +kernel) hshape h3 (s := 0) (i := 0)
      (by decide +kernel) (by decide +kernel) (by decide +kernel) (by unfold NearCC; decide +kernel) ?_
    rintro x y (rfl | rfl) (rfl | rfl) h
    any_goals rw [c0, c1]; norm_num
    exact absurd h (by decide +kernel)
  · rw [abs_zero]
    exact mul_nonneg (by
      rw [flBuildCCLP_shape (by rintro _ ⟨⟩; exact hshape) h3]
      exact fl64_nonneg _) (abs_nonneg _)
  · rw [hobj]
    decide +kernel

theorem exTable_time : InTime exTableEnv.clock mainTimeLimit :=
  ⟨fun _ _ _ => by simp [exTableEnv, bruteEnv], by decide +kernel⟩

/-- Hypotheses of `C111_text`, for the file of C103; the row is written and counted as solved. -/
example : ∃ J, readInstance (csvWrite exPipeTexts) false (fl64 (1 / 4)) = .ok J
    ∧ EndsSolved exPipe (12 / 10 * (1 / 10 ^ 9) * ∑ j ∈ range exPipe.n, exPipe.c j) "a/x.csv".toList
        (flMainRow exTableEnv "a/x.csv".toList J 1 (5 / 2))
    ∧ ∃ row, flMainRow exTableEnv "a/x.csv".toList J 1 (5 / 2) = .ok row := by
  obtain ⟨h1, h2, h3, h4, h5, h6, h7, h8, h9⟩ := exPipe_meets
  have hd : readInstance (csvWrite exPipeTexts) false (fl64 (1 / 4)) = .ok (dbl exPipe) := by
    rw [C98_text h1 h2, exPipe_parse]; rfl
  obtain ⟨J, hJ, h⟩ := C111_text h1 h2 exPipe_parse (by norm_num) (by norm_num) h3 h4 h5 h6 h7 h8 h9
    (by decide +kernel)
  rw [hd] at hJ
  cases hJ
  refine ⟨_, hd, h exTableEnv _ (5 / 2) exTable_time exPipe_cc, ?_⟩
  cases e : flMainRow exTableEnv "a/x.csv".toList (dbl exPipe) 1 (5 / 2) with
  | ok row => exact ⟨row, rfl⟩
  | error err =>
    have : (flMainRow exTableEnv "a/x.csv".toList (dbl exPipe) 1 (5 / 2)).toBool = true := by decide +kernel
    rw [e] at this
    cases this

end Verif.Props
