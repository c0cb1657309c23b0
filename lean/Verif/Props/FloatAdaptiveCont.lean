import Verif.Props.FloatAdaptiveFiles
import Verif.Props.FloatKnapsack

/-!
# The bounds of the adaptive method in double precision for divisible items (C113)
-/

namespace Verif.Props
open Spec Model Finset

variable {I : Inst} {p : ℕ} {κ : ℚ}

/-- The assumptions on a continuous instance: as in C112, but the data may have any number of decimals, and the
rows sum up to at most `κ` times the capacity. -/
structure FlContOk (I : Inst) (p : ℕ) (κ : ℚ) : Prop where
  equi : Equi I
  pct : p < 100
  eps : I.eps = p / 100
  notDown : p ∉ roundedDown ∨ ¬ 100 ∣ p * I.N
  scen : I.N ≤ 90000
  items : I.n ≤ 10000
  ab : NonnegAb I
  size : Model.Moderate I
  c : NonnegC I
  sum : ∑ j ∈ range I.n, I.c j ≤ 10 ^ 7
  cont : I.cont = true
  pos : 0 ≤ κ
  small : κ ≤ 80
  ratio : RowRatio κ I

/-- Points of Gurobi with few violations are close to feasible ones. -/
theorem near_cont (hE : Equi I) (heps : 0 ≤ I.eps) (hI : NonnegAb I) (hb : I.cont = true) (hκ : 0 ≤ κ)
    (hR : RowRatio κ I) {x : Vec} (h : NearDom defaultTols (instCI I) x)
    (hcard : (violBy I (2 / 10 ^ 6) x).card ≤ kmax I) :
    ∃ y, Feas I y ∧ ∀ j < I.n, |x j - y j| ≤ (κ + 3) / 10 ^ 6 := by
  have hdom : ∀ j < I.n, -(1 / 10 ^ 6) ≤ x j ∧ x j ≤ 1 + 1 / 10 ^ 6 := fun j hj => (h j hj).2
  set θ := (κ + 2) / 10 ^ 6 with hθd
  have hθ : 0 ≤ θ := by positivity
  refine ⟨shrinkVec θ x, ⟨shrink_inX hb hθ x, (chance_iff_card I hE heps _).2
    (le_trans (Finset.card_le_card ?_) hcard)⟩, fun j hj => ?_⟩
  · intro s hs
    obtain ⟨a1, a2⟩ := Finset.mem_filter.1 hs
    have hs := Finset.mem_range.1 a1
    refine Finset.mem_filter.2 ⟨a1, ?_⟩
    by_contra hno
    refine a2 fun i hi => ?_
    obtain ⟨r1, r2⟩ := hR s hs i hi
    refine shrink_row (τ := 2 / 10 ^ 6) (f := 1 / 10 ^ 6) hθ (by norm_num) (hI s hs i hi).2
      (fun j hj => (hdom j hj).1) r2 ?_ ?_
    · by_contra hv
      push Not at hv
      exact hno ⟨i, hi, by linarith⟩
    · rw [hθd]
      linarith
  · refine (shrink_abs hθ (f := 1 / 10 ^ 6) (by norm_num) (hdom j hj).1 (hdom j hj).2).trans (le_of_eq ?_)
    rw [hθd]; ring

theorem FlContOk.run (h : FlContOk I p κ) : FlRun I p ((κ + 3) / 10 ^ 6) where
  equi := h.equi
  pct := h.pct
  eps := h.eps
  notDown := h.notDown
  scen := h.scen
  items := h.items
  ab := h.ab
  size := h.size
  c := h.c
  sum := h.sum
  pos := by have := h.pos; positivity
  small := by linarith [h.small]
  near _ hx hcard := near_cont h.equi (by rw [h.eps]; positivity) h.ab h.cont h.pos h.ratio hx hcard

theorem FlContOk.cclp (h : FlContOk I p κ) {x : Vec} (hx : NearDom cclpTols (instCI I) x)
    (hcard : (violBy I (2 / 10 ^ 6) x).card ≤ kmax I) :
    ∃ y, Feas I y ∧ ∀ j < I.n, |x j - y j| ≤ (κ + 3) / 10 ^ 6 :=
  h.run.near x (nearDom_mono (by norm_num [cclpTols, defaultTols]) (by norm_num [cclpTols, defaultTols]) hx) hcard

/-! ## C113 -/

/-- **C113 (bounds).**  Continuous instance with capacities from 1 to 5000, rows up to 20000 and up to `κ ≤ 80`
times the capacity, values adding up to at most `10^7`, scenarios and risk level as in C112.  In every state of a
run on doubles with indicator constraints, no feasible objective exceeds both `(1 + 1e-4) * vUB` and
`(1 + 1e-4) * vLB` by more than the rounding of the objective, and `xLB`, once set, is within
`(κ + 3) * 1e-6` of a feasible point whose objective is `vLB` up to a little more than this factor of the sum of
all values. -/
theorem C113_bounds (h : FlContOk I p κ) (st : FlSt) (hst : FlReach I st) :
    (∀ y, Feas I y → ∀ u : ℚ, st.vUB = u → obj I y ≤ (1 + 1 / 10 ^ 4) * u + objErr I
      ∨ ∃ l : ℚ, st.vLB = l ∧ obj I y ≤ (1 + 1 / 10 ^ 4) * l + objErr I)
    ∧ ∀ l : ℚ, st.vLB = l → ∃ x, st.xLB = some x ∧ ∃ y, Feas I y ∧ (∀ j < I.n, |x j - y j| ≤ (κ + 3) / 10 ^ 6)
      ∧ |l - obj I y| ≤ ((κ + 3) / 10 ^ 6 + 1 / 10 ^ 10) * ∑ j ∈ range I.n, I.c j :=
  ⟨(reach_inv h.run hst).upper, (reach_inv h.run hst).lower⟩

/-- **C113 (stop on the gap).**  If the gap that is computed in doubles is at most `gap` and the lower bound
positive, `xLB` is near a feasible point, and no feasible point exceeds `vLB` by more than the factor
`(1 + 1e-4) * (1 + gap)`, up to rounding. -/
theorem C113_gap_stop (h : FlContOk I p κ) (st : FlSt) (hst : FlReach I st) (np : Bool) (g : Gap) (gap : ℚ)
    (hgap : 0 ≤ gap) (hg : flComputeGap st.vUB st.vLB np = .ok g) (hle : g.le gap = true)
    (hpos : (0 : WithBot ℚ) < st.vLB) :
    ∃ (l : ℚ) (x : Vec), st.vLB = l ∧ st.xLB = some x
      ∧ (∃ y, Feas I y ∧ (∀ j < I.n, |x j - y j| ≤ (κ + 3) / 10 ^ 6)
        ∧ |l - obj I y| ≤ ((κ + 3) / 10 ^ 6 + 1 / 10 ^ 10) * ∑ j ∈ range I.n, I.c j)
      ∧ ∀ y, Feas I y → obj I y ≤ (1 + 1 / 10 ^ 4) * (1 + gap * (1 + 1 / 2 ^ 50)) * l + objErr I :=
  run_gap_stop h.run st hst np g gap hgap hg hle hpos

/-- **C113 (stop on a feasible point).**  If Gurobi finishes the partitioned problem within the gap `1e-8` and
`check_feasibility` accepts its point in doubles, the point is near a feasible one, and no feasible objective
exceeds both the reported one by more than the factor `1 + 1e-8` and `vLB` by more than the factor `1 + 1e-4`,
up to rounding. -/
theorem C113_feasible_stop (h : FlContOk I p κ) (st : FlSt) (hst : FlReach I st) (P : List (List ℕ)) (costs : List ℚ)
    (D : PartData) (zs : List ℕ) (g : GModel) (r : GResult) (ρ : V → ℚ) (flags : List Bool)
    (hP : IsPartition I.N P) (hlen : flFloor (dbl I) + 1 < (P.length : ℤ)) (hcosts : FlCosts I P costs)
    (hD : FlLoadPartition I P D)
    (hg : flBuildCCLP (partCI (dbl I) D) none zs (flPrune costs st.vLB) (1 / 10 ^ 8) = .ok g)
    (hr : GResult.FlAnswers cclpTols (2 / 10 ^ 10) g r) (hopt : r.status = 2) (hs : r.sol = some ρ)
    (hf : FlFlags (dbl I) (fun j => ρ (.x j)) flags) (hv : flVerdict (dbl I) flags = true) :
    (∃ y, Feas I y ∧ (∀ j < I.n, |ρ (.x j) - y j| ≤ (κ + 3) / 10 ^ 6)
      ∧ |r.objVal - obj I y| ≤ (κ + 3) / 10 ^ 6 * ∑ j ∈ range I.n, I.c j + objErr I)
    ∧ ∀ y, Feas I y → obj I y ≤ r.objVal + 1 / 10 ^ 8 * |r.objVal| + objErr I
      ∨ ∃ l : ℚ, st.vLB = l ∧ obj I y ≤ (1 + 1 / 10 ^ 4) * l + objErr I :=
  run_feasible_stop h.run st hst P costs D zs g r ρ flags hP hlen hcosts hD hg hr hopt hs hf hv h.cclp

/-- **C113 (result after a stop on a feasible point).**  If the value and the bound of the partitioned problem are
stored (otherwise C78), `vLB` and `vUB` are equal, the objective of a feasible point near `xLB` up to the
tolerance, and no feasible objective exceeds both them by more than rounding and the lower bound before the stop
by more than the factor `1 + 1e-4`. -/
theorem C113_finish (h : FlContOk I p κ) (st : FlSt) (hst : FlReach I st) (P : List (List ℕ)) (costs : List ℚ)
    (D : PartData) (zs : List ℕ) (g : GModel) (r : GResult) (ρ : V → ℚ) (flags : List Bool) (xUB : Option Vec)
    (hP : IsPartition I.N P) (hlen : flFloor (dbl I) + 1 < (P.length : ℤ)) (hcosts : FlCosts I P costs)
    (hD : FlLoadPartition I P D)
    (hg : flBuildCCLP (partCI (dbl I) D) none zs (flPrune costs st.vLB) (1 / 10 ^ 8) = .ok g)
    (hr : GResult.FlAnswers cclpTols (2 / 10 ^ 10) g r) (hopt : r.status = 2) (hs : r.sol = some ρ)
    (hf : FlFlags (dbl I) (fun j => ρ (.x j)) flags) (hv : flVerdict (dbl I) flags = true)
    (hb : flLeTol r.objBnd st.vUB = true) (ho : flLeTol r.objVal st.vUB = true) :
    ∃ (u : ℚ) (x y : Vec), (flStopFeasible st xUB (fun j => ρ (.x j)) r.objVal r.objBnd).vUB = (u : WithTop ℚ)
      ∧ (flStopFeasible st xUB (fun j => ρ (.x j)) r.objVal r.objBnd).vLB = (u : WithBot ℚ)
      ∧ (flStopFeasible st xUB (fun j => ρ (.x j)) r.objVal r.objBnd).xLB = some x
      ∧ Feas I y ∧ (∀ j < I.n, |x j - y j| ≤ (κ + 3) / 10 ^ 6)
      ∧ |u - obj I y| ≤ ((κ + 3) / 10 ^ 6 + 19 / 10 ^ 9) * ∑ j ∈ range I.n, I.c j
      ∧ ∀ y', Feas I y' → obj I y' ≤ u + objErr I
        ∨ ∃ l : ℚ, st.vLB = l ∧ obj I y' ≤ (1 + 1 / 10 ^ 4) * l + objErr I :=
  run_finish h.run st hst P costs D zs g r ρ flags xUB hP hlen hcosts hD hg hr hopt hs hf hv hb ho
    (by linarith [h.small]) h.cclp

/-- **C113 (result after a stop in the first iteration).** -/
theorem C113_first_stop (h : FlContOk I p κ) (st : FlSt) (P : List (List ℕ)) (costs : List ℚ) (c : ℕ)
    (x : Vec) (flags : List Bool) (xUB : Option Vec) (hP : IsPartition I.N P)
    (hlen : (P.length : ℤ) = flFloor (dbl I) + 1) (hcosts : FlCosts I P costs) (hc : c < P.length)
    (hmax : ∀ c' < P.length, costs.getD c' 0 ≤ costs.getD c 0)
    (hx : FlSubset I (P.getD c []) (costs.getD c 0, x))
    (hf : FlFlags (dbl I) x flags) (hv : flVerdict (dbl I) flags = true)
    (hb : flLeTol (costs.getD c 0) st.vUB = true) :
    ∃ (u : ℚ) (y : Vec), (flStopFeasible st xUB x (costs.getD c 0) (costs.getD c 0)).vUB = (u : WithTop ℚ)
      ∧ (flStopFeasible st xUB x (costs.getD c 0) (costs.getD c 0)).vLB = (u : WithBot ℚ)
      ∧ (flStopFeasible st xUB x (costs.getD c 0) (costs.getD c 0)).xLB = some x
      ∧ Feas I y ∧ (∀ j < I.n, |x j - y j| ≤ (κ + 3) / 10 ^ 6)
      ∧ |u - obj I y| ≤ ((κ + 3) / 10 ^ 6 + 1 / 10 ^ 10) * ∑ j ∈ range I.n, I.c j
      ∧ ∀ y', Feas I y' → obj I y' ≤ (1 + 1 / 10 ^ 4) * u + objErr I
        ∨ ∃ l : ℚ, st.vLB = l ∧ obj I y' ≤ (1 + 1 / 10 ^ 4) * l + objErr I :=
  run_first_stop h.run st P costs c x flags xUB hP hlen hcosts hc hmax hx hf hv hb

/-- **C113 (single steps).**  The lower bound never falls, and the upper one rises in a step by no more than `1e-8`
and the rounding errors. -/
theorem C113_monotone (h : FlContOk I p κ) (st st' : FlSt) (hst : FlReach I st) (hstep : FlStep I st st') :
    st.vLB ≤ st'.vLB
    ∧ (∀ u : ℚ, st.vUB = u → ∃ u' : ℚ, st'.vUB = u' ∧ u' ≤ u + 1 / 10 ^ 8 + (|u| + 1) / 2 ^ 52)
    ∧ ∀ v : ℚ, flIsImproving st.vUB st.vLB v = true → (v : WithTop ℚ) ≤ st.vUB ∧ st.vLB ≤ (v : WithBot ℚ) :=
  run_monotone h.run st st' hst hstep

/-- **C113 (from the text of an instance file).**  As `C112_text`, for the option `continuous`. -/
theorem C113_text {file : List (List ℚ)} (h : FourDecFile file) {texts : List (List Txt)}
    (ht : ShowsFile texts (flFile file)) (hp : p < 100) (hI : parse file true (p / 100) = .ok I)
    (hdown : p ∉ roundedDown ∨ ¬ 100 ∣ p * I.N) (hN : I.N ≤ 90000) (hn : I.n ≤ 10000) (hM : Model.Moderate I)
    (hsum : ∑ j ∈ range I.n, I.c j ≤ 10 ^ 7) (hκ : 0 ≤ κ) (hκ1 : κ ≤ 80) (hR : RowRatio κ I) :
    ∃ J, readInstance (csvWrite texts) true (fl64 (p / 100)) = .ok J ∧ ∀ st, FlReach J st →
      (∀ y, Feas I y → ∀ u : ℚ, st.vUB = u → obj I y ≤ (1 + 1 / 10 ^ 4) * u + objErr I
        ∨ ∃ l : ℚ, st.vLB = l ∧ obj I y ≤ (1 + 1 / 10 ^ 4) * l + objErr I)
      ∧ (∀ l : ℚ, st.vLB = l → ∃ x, st.xLB = some x ∧ ∃ y, Feas I y ∧ (∀ j < I.n, |x j - y j| ≤ (κ + 3) / 10 ^ 6)
        ∧ |l - obj I y| ≤ ((κ + 3) / 10 ^ 6 + 1 / 10 ^ 10) * ∑ j ∈ range I.n, I.c j)
      ∧ ∀ (np : Bool) (g : Gap) (gap : ℚ), 0 ≤ gap → flComputeGap st.vUB st.vLB np = .ok g → g.le gap = true →
        (0 : WithBot ℚ) < st.vLB → ∃ (l : ℚ) (x : Vec), st.vLB = l ∧ st.xLB = some x
          ∧ (∃ y, Feas I y ∧ (∀ j < I.n, |x j - y j| ≤ (κ + 3) / 10 ^ 6)
            ∧ |l - obj I y| ≤ ((κ + 3) / 10 ^ 6 + 1 / 10 ^ 10) * ∑ j ∈ range I.n, I.c j)
          ∧ ∀ y, Feas I y → obj I y ≤ (1 + 1 / 10 ^ 4) * (1 + gap * (1 + 1 / 2 ^ 50)) * l + objErr I := by
  obtain ⟨hcont, he, hE, hgrid, hc⟩ := parse_grid h hI
  have hok : FlContOk I p κ :=
    { equi := hE, pct := hp, eps := he, notDown := hdown, scen := hN, items := hn, ab := hgrid.1, size := hM
      c := hc, sum := hsum, cont := hcont, pos := hκ, small := hκ1, ratio := hR }
  refine ⟨dbl I, by rw [C98_text h ht, hI]; rfl, fun st hst => ?_⟩
  have hst := flReach_dbl hst
  obtain ⟨h1, h2⟩ := C113_bounds hok st hst
  exact ⟨h1, h2, fun np g gap hgap hg hle hpos => C113_gap_stop hok st hst np g gap hgap hg hle hpos⟩

/-! ## Example -/

theorem exCont_flOk : FlContOk exCont 25 3 where
  equi := exCont_equi
  pct := by norm_num
  eps := by norm_num [exCont]
  notDown := .inl (by decide)
  scen := by decide
  items := by decide
  ab := exCont_grid.1
  size := by unfold Model.Moderate; decide +kernel
  c := by unfold NonnegC; decide +kernel
  sum := by decide +kernel
  cont := rfl
  pos := by norm_num
  small := by norm_num
  ratio := by unfold RowRatio; decide +kernel

theorem exCont_subset (norm : Norm) {s : ℕ} (hs : s < 4) : FlSubset exCont [s]
    (exKnapCosts.getD s 0, fun j => pairPoint (1 + 1 / 2 ^ 30) (exContSub s) (.x j)) := by
  refine ⟨pairAnswer (1 + 1 / 2 ^ 30) (exContSub s) 0, exKnap_sub norm s hs, ?_⟩
  have : ∀ v : ℚ, (Deter.build (instCI (dbl exCont)) [s]).g.obj.eval
      (pairPoint (1 + 1 / 2 ^ 30) (exContSub s)) = v →
      subsetCost (dbl exCont) (pairAnswer (1 + 1 / 2 ^ 30) (exContSub s) 0) [s]
        = .ok (v, fun j => pairPoint (1 + 1 / 2 ^ 30) (exContSub s) (.x j)) := by
    rintro v rfl
    rfl
  apply this
  interval_cases s <;> decide +kernel

/-- The quantile bound of the instance with divisible items is reached, then the same lower bound by the solution
of scenario 2, which takes slightly more than all of the first item; the gap is zero, and the stop certifies a
feasible point near it. -/
example (norm : Norm) : ∃ st x y, FlReach exCont st ∧ st.xLB = some x ∧ 1 < x 0
    ∧ flComputeGap st.vUB st.vLB true = .ok (.fin 0)
    ∧ Feas exCont y ∧ (∀ j < 2, |x j - y j| ≤ 6 / 10 ^ 6)
    ∧ ∀ y, Feas exCont y → obj exCont y ≤ (1 + 1 / 10 ^ 4) * exKnapCosts.getD 2 0 + objErr exCont := by
  have h1 := FlReach.quantile (I := exCont) (costs := exKnapCosts) (argsort := .default) rfl
    (fun s hs => ⟨_, exCont_subset norm hs⟩) exKnap_quantile
  have hg : flComputeGap ((exKnapCosts.getD 2 0 : ℚ) : WithTop ℚ) ((exKnapCosts.getD 2 0 : ℚ) : WithBot ℚ) true
      = .ok (.fin 0) := by decide +kernel
  have h2 := h1.step (.improve (l := [2])
    (p := (exKnapCosts.getD 2 0, fun j => pairPoint (1 + 1 / 2 ^ 30) (exContSub 2) (.x j))) (by decide)
    (exCont_subset norm (by decide : 2 < 4)) (flDot_exact _ _ _) (by decide +kernel)
    (flFlags_exact _ _) (by decide +kernel))
  have hv : dot exCont.n (dbl exCont).c (fun j => pairPoint (1 + 1 / 2 ^ 30) (exContSub 2) (.x j))
      = exKnapCosts.getD 2 0 := by decide +kernel
  dsimp only at h2
  rw [hv] at h2
  obtain ⟨l, x, hl, hx, ⟨y, hy, hxy, -⟩, hall⟩ := C113_gap_stop exCont_flOk _ h2 true (.fin 0) 0 le_rfl hg
    (by decide +kernel) (WithBot.coe_lt_coe.2 (by norm_num [exKnapCosts] : (0 : ℚ) < exKnapCosts.getD 2 0))
  have hl : exKnapCosts.getD 2 0 = l := WithBot.coe_injective hl
  have hx' := Option.some.inj hx
  refine ⟨_, x, y, h2, hx, ?_, hg, hy, fun j hj => (hxy j hj).trans (by norm_num), fun y h => ?_⟩
  · rw [← hx']
    show (1 : ℚ) < 1 + 1 / 2 ^ 30
    norm_num
  · have := hall y h
    rw [← hl] at this
    linarith

/-- An answer to the problem with each scenario alone, within the gap `1e-8`. -/
def exContStop : GResult :=
  { status := 2, sol := some exContPoint, objVal := 16 / 5 + 6 / 10 ^ 10, objBnd := 3435973838 / 2 ^ 30 }

/-- The hypotheses of `C113_feasible_stop` and `C113_finish` are met: the problem with each scenario alone, with an
answer that takes slightly too much of the first item. -/
example (norm : Norm) : ∃ (g : GModel) (flags : List Bool), IsPartition exCont.N [[0], [1], [2], [3]]
    ∧ FlCosts exCont [[0], [1], [2], [3]] exKnapCosts
    ∧ FlLoadPartition exCont [[0], [1], [2], [3]] exSinglesData
    ∧ flBuildCCLP (partCI (dbl exCont) exSinglesData) none [0] (flPrune exKnapCosts (FlSt.start exCont).vLB)
      (1 / 10 ^ 8) = .ok g
    ∧ GResult.FlAnswers cclpTols (2 / 10 ^ 10) g exContStop
    ∧ FlFlags (dbl exCont) (fun j => exContPoint (.x j)) flags ∧ flVerdict (dbl exCont) flags = true
    ∧ ∃ u x y, (flStopFeasible (FlSt.start exCont) none (fun j => exContPoint (.x j)) exContStop.objVal
        exContStop.objBnd).vLB = ((u : ℚ) : WithBot ℚ)
      ∧ (flStopFeasible (FlSt.start exCont) none (fun j => exContPoint (.x j)) exContStop.objVal
        exContStop.objBnd).xLB = some x
      ∧ Feas exCont y ∧ (∀ j < 2, |x j - y j| ≤ 6 / 10 ^ 6)
      ∧ ∀ y', Feas exCont y' → obj exCont y' ≤ u + objErr exCont := by
  obtain ⟨g, hg⟩ : ∃ g, flBuildCCLP (partCI (dbl exCont) exSinglesData) none [0]
      (flPrune exKnapCosts (FlSt.start exCont).vLB) (1 / 10 ^ 8) = .ok g := ⟨_, rfl⟩
  have hsh := flBuildCCLP_shape (by rintro _ ⟨⟩) hg
  have hP : IsPartition exCont.N [[0], [1], [2], [3]] := ⟨by decide, by decide⟩
  have hC : FlCosts exCont [[0], [1], [2], [3]] exKnapCosts := by
    refine ⟨rfl, fun c hc => ?_⟩
    have hc : c < 4 := hc
    have := exCont_subset norm hc
    interval_cases c <;> exact ⟨_, this⟩
  have hD : FlLoadPartition exCont [[0], [1], [2], [3]] exSinglesData :=
    ⟨[1 / 4, 1 / 4, 1 / 4, 1 / 4], [1 / 4, 1 / 4, 1 / 4, (1 / 4 : ℚ)].sum, by decide +kernel, flSum_exact _, by
      have h1 : rd (1 / 4 / [1 / 4, 1 / 4, 1 / 4, (1 / 4 : ℚ)].sum) = 1 / 4 := by decide +kernel
      have h2 : (dbl exCont).eps = 1 / 4 := by decide +kernel
      rw [h2]
      simp only [List.map_cons, List.map_nil, h1]
      rfl⟩
  have hans : GResult.FlAnswers cclpTols (2 / 10 ^ 10) g exContStop := by
    rw [hsh]
    refine { feas := ?_, bound := fun ρ h => ?_, infeasible := fun h => absurd h (show ¬ 2 = 3 by decide)
             optimal := fun _ => rfl, notInterrupted := by simp [exContStop], status := fun _ => rfl
             gap := fun _ => by decide +kernel, double := by decide +kernel }
    · rintro _ ⟨⟩
      rw [nearCC]
      exact ⟨by unfold NearCC; decide +kernel, by decide +kernel⟩
    obtain ⟨k1, k2, k3, k4, -⟩ := nearCC.1 h
    have hn : (partCI (dbl exCont) exSinglesData).n = 2 := rfl
    rw [(ccShape_fields _ _ _ _ _).1, eval_objExpr, hn, pair_dot,
      show (partCI (dbl exCont) exSinglesData).c 0 = 3 from exKnap_c.1,
      show (partCI (dbl exCont) exSinglesData).c 1 = 1 from exKnap_c.2]
    have hdom := near_varX k1
    have x1 : ρ (.x 0) ≤ 1 + 2 / 10 ^ 10 := (hdom 0 (by decide)).2.2
    have y0 : -(2 / 10 ^ 10) ≤ ρ (.x 1) := (hdom 1 (by decide)).2.1
    have hz : ∀ c < 4, ρ (.z c) = 0 ∨ ρ (.z c) = 1 := fun c hc =>
      (near_varZ k2 c hc).1.imp (fun e => abs_nonpos_iff.1 e) fun e => by
        have := abs_nonpos_iff.1 e
        linarith
    have hrow : ∀ c < 4, ρ (.z c) = 1 → (1 + c) * ρ (.x 0) + (3 + c) * ρ (.x 1) ≤ 4 + 2 / 10 ^ 10 := by
      intro c hc e
      have h2 := k3 (.ind (.z c) true ⟨lhsExpr (partCI (dbl exCont) exSinglesData) c 0, .le,
        LinExpr.ofConst ((partCI (dbl exCont) exSinglesData).rhs c 0)⟩) (by
          simp only [flRowConstrs, allIndicators, List.mem_flatten, List.mem_map, List.mem_range]
          refine ⟨_, ⟨c, hc, rfl⟩, ?_⟩
          simp only [List.mem_map, List.mem_range]
          exact ⟨0, by interval_cases c <;> decide, rfl⟩)
      have h2 := h2 (by simp [e])
      have r : ∀ c < 4, (partCI (dbl exCont) exSinglesData).row c 0 0 = 1 + c
          ∧ (partCI (dbl exCont) exSinglesData).row c 0 1 = 3 + c
          ∧ (partCI (dbl exCont) exSinglesData).rhs c 0 = 4 := by decide +kernel
      obtain ⟨r0, r1, r2⟩ := r c hc
      simpa only [Lin.Near, eval_lhsExpr, hn, pair_dot, eval_ofConst, r0, r1, r2] using h2
    have k4 : (flChanceConstr (partCI (dbl exCont) exSinglesData)).Near ⟨0, 2 / 10 ^ 10⟩ ρ := k4
    simp only [flChanceConstr, Constr.Near, Lin.Near, eval_quicksum_range, eval_ofConst] at k4
    rw [show (partCI (dbl exCont) exSinglesData).nbScen = 4 from rfl] at k4
    have e1 : ∀ c < 4, (partCI (dbl exCont) exSinglesData).proba c = 1 / 4 := by decide +kernel
    have e2 : rd (1 - (partCI (dbl exCont) exSinglesData).eps) = 3 / 4 := by decide +kernel
    rw [e2] at k4
    simp only [Finset.sum_range_succ, Finset.sum_range_zero, e1 0 (by decide), e1 1 (by decide), e1 2 (by decide),
      e1 3 (by decide)] at k4
    show _ ≤ (3435973838 / 2 ^ 30 : ℚ)
    rcases hz 2 (by decide) with e | e
    · rcases hz 3 (by decide) with e' | e'
      · exfalso
        rw [e, e'] at k4
        rcases hz 0 (by decide) with a | a <;> rcases hz 1 (by decide) with b | b <;> rw [a, b] at k4 <;>
          norm_num at k4
      · have := hrow 3 (by decide) e'
        norm_num at this x1 y0 ⊢
        linarith
    · have := hrow 2 (by decide) e
      norm_num at this x1 y0 ⊢
      linarith
  refine ⟨g, _, hP, hC, hD, hg, hans, flFlags_exact _ _, by decide +kernel, ?_⟩
  obtain ⟨u, x, y, -, e2, e3, e4, e5, -, e6⟩ := C113_finish exCont_flOk _ .start _ _ _ _ _ _ _ _ none hP
    (by decide +kernel) hC hD hg hans rfl rfl (flFlags_exact _ _) (by decide +kernel) rfl rfl
  refine ⟨u, x, y, e2, e3, e4, fun j hj => (e5 j hj).trans (by norm_num), fun y' hy' => ?_⟩
  exact (e6 y' hy').resolve_right fun ⟨l, hl, _⟩ => absurd hl (by simp [FlSt.start])

/-- The hypotheses of `C113_text` are met by the file of C106. -/
example : ∃ J, readInstance (csvWrite exContTexts) true (fl64 ((25 : ℕ) / 100)) = .ok J ∧ ∀ st, FlReach J st →
    ∀ y, Feas exContParsed y → ∀ u : ℚ, st.vUB = u →
      obj exContParsed y ≤ (1 + 1 / 10 ^ 4) * u + objErr exContParsed
      ∨ ∃ l : ℚ, st.vLB = l ∧ obj exContParsed y ≤ (1 + 1 / 10 ^ 4) * l + objErr exContParsed := by
  have hI : parse exContFile true ((25 : ℕ) / 100) = .ok exContParsed := by
    rw [show (((25 : ℕ) : ℚ) / 100) = 1 / 4 by norm_num]; exact exContParsed_parse
  have ht : ShowsFile exContTexts (flFile exContFile) := by
    unfold exContTexts exContFile flFile ShowsFile
    repeat' first
      | exact List.Forall₂.nil
      | refine List.Forall₂.cons ?_ ?_
    all_goals
      exact ⟨by decide +kernel, by decide, by decide⟩
  obtain ⟨J, hJ, hall⟩ := C113_text (fourDec_of (by decide +kernel)) ht (by norm_num) hI (.inl (by decide))
    (by decide +kernel) (by decide +kernel) (by unfold Model.Moderate; decide +kernel) (by decide +kernel)
    (κ := 3) (by norm_num) (by norm_num) (by decide +kernel)
  exact ⟨J, hJ, fun st hst => (hall st hst).1⟩

/-- The instance at the risk level 0.75, so that the first partition has each scenario alone. -/
def exContFirst : Inst := { exCont with eps := 3 / 4 }

/-- The hypotheses of `C113_first_stop` are met: slightly more than both items, the solution of scenario 0, violates
three of four scenarios. -/
example (norm : Norm) : ∃ flags, FlContOk exContFirst 75 3 ∧ IsPartition exContFirst.N [[0], [1], [2], [3]]
    ∧ FlCosts exContFirst [[0], [1], [2], [3]] exKnapCosts
    ∧ FlFlags (dbl exContFirst) (fun j => pairPoint (1 + 1 / 2 ^ 30) (exContSub 0) (.x j)) flags
    ∧ flVerdict (dbl exContFirst) flags = true
    ∧ ∃ y, Feas exContFirst y ∧ ∀ j < 2, |pairPoint (1 + 1 / 2 ^ 30) (exContSub 0) (.x j) - y j| ≤ 6 / 10 ^ 6 := by
  have hok : FlContOk exContFirst 75 3 :=
    { exCont_flOk with
      equi := ⟨by decide, fun s _ => by norm_num [exContFirst, exCont]⟩
      pct := by norm_num
      eps := by norm_num [exContFirst]
      notDown := .inl (by decide) }
  have hP : IsPartition exContFirst.N [[0], [1], [2], [3]] := ⟨by decide, by decide⟩
  have hC : FlCosts exContFirst [[0], [1], [2], [3]] exKnapCosts := by
    refine ⟨rfl, fun c hc => ?_⟩
    have hc : c < 4 := hc
    have := exCont_subset norm hc
    interval_cases c <;> exact ⟨_, this⟩
  refine ⟨_, hok, hP, hC, flFlags_exact _ _, by decide +kernel, ?_⟩
  obtain ⟨u, y, -, -, -, hy, hxy, -⟩ := C113_first_stop hok (FlSt.start exContFirst) _ _ 0
    (fun j => pairPoint (1 + 1 / 2 ^ 30) (exContSub 0) (.x j)) _ none hP (by decide +kernel) hC (by decide)
    (by decide +kernel) (exCont_subset norm (by decide : 0 < 4)) (flFlags_exact _ _) (by decide +kernel) rfl
  exact ⟨y, hy, fun j hj => (hxy j hj).trans (by norm_num)⟩

end Verif.Props
