import Verif.Lemmas.FloatOptim
import Verif.Props.GurobiTol
import Verif.Props.Milp

/-!
# C97: rounded coefficients do not change the partitioned problems
-/

namespace Verif.Props
open Spec Model Finset LinExpr

variable {I : Inst}

/-- The values of the items are doubles, as all integers up to `2^53` are. -/
def DoubleC (I : Inst) : Prop := ∀ j < I.n, fl64 (I.c j) = I.c j

/-- Error of the rounded objective. -/
def objErr (I : Inst) : ℚ := 1 / 2 ^ 52 * ∑ j ∈ range I.n, I.c j

/-- The exact problem and the one with rounded coefficients. -/
structure SameWithin (I : Inst) (g g' : GModel) : Prop where
  /-- Feasible points violate the rounded constraints by at most a fifth of `FeasibilityTol`. -/
  accepted : ∀ ρ, g.Feas ρ → g'.NearFeas ⟨0, 2 / 10 ^ 10⟩ ρ
  /-- Accepted points violate the exact constraints by little more than `FeasibilityTol`. -/
  sound : ∀ ρ, g'.NearFeas cclpTols ρ → g.NearFeas ⟨1 / 10 ^ 9, 12 / 10 ^ 10⟩ ρ
  /-- Answers to one are answers to the other, up to the rounding of the objective. -/
  answers : NonnegC I → ∀ r, GResult.FlValid cclpTols (2 / 10 ^ 10) g' r →
    ∃ r', GResult.NearValid wideTols g r' ∧ r'.sol = r.sol ∧ r'.status = r.status
      ∧ |r'.objVal - r.objVal| ≤ objErr I ∧ |r'.objBnd - r.objBnd| ≤ objErr I
  /-- Without rounding in the objective the answers are the same. -/
  same : DoubleC I → ∀ r, GResult.FlValid cclpTols (2 / 10 ^ 10) g' r → GResult.NearValid wideTols g r

theorem ccShape_fields (J : CI) (cs : List Constr) (ch : Constr) (prune : List ℕ) (gap : ℚ) :
    (ccShape J cs ch prune gap).obj = objExpr J ∧ (ccShape J cs ch prune gap).maximize = true := by
  constructor
  · show (GModel.addConstrs _ _).obj = _
    rw [addConstrs_obj]
    show (GModel.addConstrs _ _).obj = _
    rw [addConstrs_obj]
    rfl
  · show (GModel.addConstrs _ _).maximize = _
    rw [addConstrs_maximize]
    show (GModel.addConstrs _ _).maximize = _
    rw [addConstrs_maximize]
    rfl

theorem sameWithin {J J' : CI} (hr : RowsNear 20000 J J') (hch : ChanceNear J J') (h0 : 0 < J.nbScen)
    (hn : J.n = I.n) (hc : ∀ j < I.n, J.c j = I.c j ∧ J'.c j = fl64 (I.c j))
    {bigM : Option (List (List ℚ))} (hM : ∀ Ms, bigM = some Ms → DoubleMs J Ms) {zs prune : List ℕ}
    {gap : ℚ} {g g' : GModel} (hg : buildCCLP J bigM zs prune gap = .ok g)
    (hg' : flBuildCCLP J' bigM zs prune gap = .ok g') : SameWithin I g g' := by
  have hg1 := buildCCLP_shape (fun Ms e => (hM Ms e).1) hg
  have hg2 := flBuildCCLP_shape (fun Ms e => shape_congr hr (hM Ms e).1) hg'
  have hb : IndBinary g := by
    rw [hg1]
    cases bigM with
    | none => exact indBinary_cclp ind_indicators
    | some Ms => exact indBinary_cclp ind_bigM
  have acc : ∀ ρ, g.Feas ρ → g'.NearFeas ⟨0, 2 / 10 ^ 10⟩ ρ := fun ρ hρ => by
    have h1 := near_of_feas (t := ⟨0, 0⟩) le_rfl le_rfl (by norm_num) hb hρ
    have h2 := (near_versions hr hch h0 hM hg hg' (t := ⟨0, 0⟩) (by norm_num)).1 h1
    simpa using h2
  have snd : ∀ ρ, g'.NearFeas cclpTols ρ → g.NearFeas ⟨1 / 10 ^ 9, 12 / 10 ^ 10⟩ ρ := fun ρ hρ => by
    have h2 := (near_versions hr hch h0 hM hg hg' (t := cclpTols) (by norm_num [cclpTols])).2 hρ
    have : (⟨cclpTols.int, cclpTols.feas + 2 / 10 ^ 10⟩ : Tols) = ⟨1 / 10 ^ 9, 12 / 10 ^ 10⟩ := by
      norm_num [cclpTols]
    rwa [this] at h2
  refine ⟨acc, snd, fun hcn r h => ?_, fun hd r h => ?_⟩
  · have he0 : 0 ≤ objErr I := mul_nonneg (by norm_num)
      (Finset.sum_nonneg fun j hj => hcn j (Finset.mem_range.1 hj))
    have hobj : ∀ ρ, g'.NearFeas ⟨0, 2 / 10 ^ 10⟩ ρ ∨ g'.NearFeas cclpTols ρ →
        |g.obj.eval ρ - g'.obj.eval ρ| ≤ objErr I := fun ρ hρ => by
      have hx : ∀ j < J'.n, |ρ (.x j)| ≤ 2 := by
        rw [hg2, nearCC, nearCC] at hρ
        rcases hρ with hρ | hρ
        · exact (hρ.box (by norm_num)).1
        · exact (hρ.box (by norm_num [cclpTols])).1
      rw [hg1, hg2, (ccShape_fields _ _ _ _ _).1, (ccShape_fields _ _ _ _ _).1, eval_objExpr, eval_objExpr,
        hr.n]
      unfold dot objErr
      rw [← Finset.sum_sub_distrib, hn, Finset.mul_sum]
      refine (Finset.abs_sum_le_sum_abs _ _).trans (Finset.sum_le_sum fun j hj => ?_)
      have hj := Finset.mem_range.1 hj
      rw [← sub_mul, abs_mul, (hc j hj).1, (hc j hj).2, abs_sub_comm]
      have e1 : |fl64 (I.c j) - I.c j| ≤ ulp * I.c j := fl64_err (hcn j hj)
      have e2 := hx j (by rw [hr.n, hn]; exact hj)
      calc |fl64 (I.c j) - I.c j| * |ρ (.x j)| ≤ (ulp * I.c j) * 2 :=
            mul_le_mul e1 e2 (abs_nonneg _) (mul_nonneg ulp_pos.le (hcn j hj))
        _ = 1 / 2 ^ 52 * I.c j := by unfold ulp; ring
    refine ⟨{ r with objVal := (match r.sol with | some ρ => g.obj.eval ρ | none => r.objVal)
                     objBnd := r.objBnd + objErr I }, ⟨fun ρ hs => ?_, fun _ ρ hρ => ?_,
      fun h3 => ⟨(h.infeasible h3).1, fun ρ hρ => (h.infeasible h3).2 ρ (acc ρ hρ)⟩, h.optimal⟩, rfl, rfl,
      ?_, ?_⟩
    · have hs : r.sol = some ρ := hs
      refine ⟨.inr (NearFeas_mono (t := ⟨1 / 10 ^ 9, 12 / 10 ^ 10⟩) (u := wideTols) rfl
        (by norm_num [wideTols]) (snd ρ (h.feas ρ hs).1)), ?_⟩
      simp only [hs]
    · rw [if_pos (by rw [hg1]; exact (ccShape_fields _ _ _ _ _).2)]
      have h1 := h.bound ρ (acc ρ hρ)
      have h2 := (abs_le.1 (hobj ρ (.inl (acc ρ hρ)))).2
      show _ ≤ r.objBnd + objErr I
      linarith
    · cases hs : r.sol with
      | none => simpa using he0
      | some ρ =>
        obtain ⟨f1, f2⟩ := h.feas ρ hs
        rw [← f2]
        exact hobj ρ (.inr f1)
    · show |r.objBnd + objErr I - r.objBnd| ≤ _
      rw [add_sub_cancel_left, abs_of_nonneg he0]
  have hobj : ∀ ρ, g'.obj.eval ρ = g.obj.eval ρ := fun ρ => by
    rw [hg1, hg2, (ccShape_fields _ _ _ _ _).1, (ccShape_fields _ _ _ _ _).1, eval_objExpr, eval_objExpr,
      hr.n]
    refine Finset.sum_congr rfl fun j hj => ?_
    have hj : j < I.n := by rw [← hn]; exact Finset.mem_range.1 hj
    rw [(hc j hj).1, (hc j hj).2, hd j hj]
  refine ⟨fun ρ hs => ⟨.inr (NearFeas_mono (t := ⟨1 / 10 ^ 9, 12 / 10 ^ 10⟩) (u := wideTols) rfl
      (by norm_num [wideTols]) (snd ρ (h.feas ρ hs).1)), ?_⟩, fun _ ρ hρ => ?_,
    fun h3 => ⟨(h.infeasible h3).1, fun ρ hρ => (h.infeasible h3).2 ρ (acc ρ hρ)⟩, h.optimal⟩
  · rw [← hobj]; exact (h.feas ρ hs).2
  · rw [if_pos (by rw [hg1]; exact (ccShape_fields _ _ _ _ _).2), ← hobj]
    exact h.bound ρ (acc ρ hρ)

/-- **C97 (partitioned problem).**  Equiprobable scenarios, at most 90000 of them, capacities of moderate
size, any partition into more than `⌊eps N⌋` subsets, indicator constraints or big-Ms that are
doubles up to `10^6`: rounding the data, the normalised probabilities, the risk level and all right-hand
sides to doubles, with sums in any order, leaves every feasible point acceptable for Gurobi, with a
fifth of its tolerance; every point accepted by Gurobi is within little more than its tolerance of the exact
constraints; every answer to the rounded problem is, up to the rounding of the objective, an answer to
the exact one as in C94 and C95. -/
theorem C97_partitioned (hE : Equi I) (h0 : 0 ≤ I.eps) (hN : I.N ≤ 90000) (hI : NonnegAb I)
    (hM : Model.Moderate I) (P : List (List ℕ)) (hP : IsPartition I.N P) (hk : kmax I < P.length)
    (D D' : PartData) (hD : loadPartition I P.length P = .ok D) (hD' : FlLoadPartition I P D')
    (bigM : Option (List (List ℚ))) (hB : ∀ Ms, bigM = some Ms → DoubleMs (partCI I D) Ms)
    (zs prune : List ℕ) (gap : ℚ) (g g' : GModel)
    (hg : buildCCLP (partCI I D) bigM zs prune gap = .ok g)
    (hg' : flBuildCCLP (partCI (dbl I) D') bigM zs prune gap = .ok g') : SameWithin I g g' :=
  sameWithin (rowsNear_part hE hI hM hP hD hD') (chanceNear_part hE h0 hN hP hk hD hD')
    (by rw [nbScen_part hP hD]; omega) rfl (fun _ _ => ⟨rfl, rfl⟩) hB hg hg'

/-- **C97 (extended formulation).**  The same for the problem over all scenarios that `MilpSolver` solves. -/
theorem C97_extended (hE : Equi I) (h0 : 0 ≤ I.eps) (h1 : I.eps ≤ 1) (hI : NonnegAb I)
    (hM : Model.Moderate I) (bigM : Option (List (List ℚ)))
    (hB : ∀ Ms, bigM = some Ms → DoubleMs (instCI I) Ms) (zs prune : List ℕ) (gap : ℚ) (g g' : GModel)
    (hg : buildCCLP (instCI I) bigM zs prune gap = .ok g)
    (hg' : flBuildCCLP (instCI (dbl I)) bigM zs prune gap = .ok g') : SameWithin I g g' :=
  sameWithin (rowsNear_inst hI hM) (chanceNear_inst hE h0 h1) hE.1 rfl (fun _ _ => ⟨rfl, rfl⟩) hB hg hg'

/-- **C97 (bounds and points).**  Binary instances with one decimal digit, indicator constraints.  From an
answer to the rounded partitioned problem: no point with at most `⌊eps N⌋` violated subsets is
better than the bound, up to the rounding of the objective, and rounding the point gives such a point. -/
theorem C97_certified (hE : Equi I) (h0 : 0 ≤ I.eps) (htol : TolOk I) (hN : I.N ≤ 90000)
    (hI : OneDecimal I) (hM : Model.Moderate I) (hc : NonnegC I) (hb : I.cont = false)
    (P : List (List ℕ)) (hP : IsPartition I.N P) (hk : kmax I < P.length)
    (D' : PartData) (hD' : FlLoadPartition I P D') (zs : List ℕ) (gap : ℚ) (g' : GModel)
    (hz : ∀ c ∈ zs, c < P.length)
    (hg' : flBuildCCLP (partCI (dbl I) D') none zs [] gap = .ok g') (r : GResult)
    (hr : GResult.FlValid cclpTols (2 / 10 ^ 10) g' r) :
    (∀ y, PartFeas I P y → obj I y ≤ r.objBnd + objErr I)
    ∧ ∀ ρ, r.sol = some ρ → ∃ y, PartFeas I P y ∧ (∀ j < I.n, |ρ (.x j) - y j| ≤ 1 / 10 ^ 9)
      ∧ |r.objVal - obj I y| ≤ 1 / 10 ^ 9 * ∑ j ∈ range I.n, I.c j + objErr I := by
  have hD := loadPartition_ok I P hP.2
  set D : PartData := _ with hDd
  have hnb := nbScen_part hP hD
  obtain ⟨g, hg, -⟩ := buildCCLP_ok (partCI I D) none (by rintro _ ⟨⟩) zs [] gap
    (by rw [hnb]; exact hz) (by simp)
  have hS := C97_partitioned hE h0 hN hI.1 hM P hP hk D D' hD hD' none (by rintro _ ⟨⟩) zs [] gap g g'
    hg hg'
  obtain ⟨r', hv, q1, -, q3, q4⟩ := hS.answers hc r hr
  obtain ⟨o1, o2, o3, o4⟩ := cclp_points hE h0 hP hD (by rintro _ ⟨⟩) hz hg
  refine ⟨fun y hy => ?_, fun ρ hs => ?_⟩
  swap
  · obtain ⟨y, y1, y2, y3⟩ := C94_rounded_points hE htol hI hM hc hb P hP D hD none
      (by rintro _ ⟨⟩) zs [] gap hz (by simp) g hg r' hv ρ (q1.trans hs)
    refine ⟨y, y1, y2, ?_⟩
    have a := abs_le.1 y3
    have b := abs_le.1 q3
    exact abs_le.2 ⟨by linarith, by linarith⟩
  have hbd : g.Bounded := by
    refine ⟨∑ j ∈ range I.n, I.c j, fun ρ hρ => ?_⟩
    rw [if_pos o2, o1, eval_objExpr]
    refine Finset.sum_le_sum fun j hj => ?_
    have hj := Finset.mem_range.1 hj
    exact mul_le_of_le_one_right (hc j hj) (inX_box (o3 ρ hρ).1 j hj).2
  have := hv.bound hbd _ (o4 y hy)
  rw [if_pos o2, o1, eval_objExpr] at this
  have h2 := (abs_le.1 q4).2
  have h3 : 0 ≤ objErr I := mul_nonneg (by norm_num)
    (Finset.sum_nonneg fun j hj => hc j (Finset.mem_range.1 hj))
  have h4 : obj I y ≤ r'.objBnd := this
  linarith

/-! ## Gurobi's tolerance is needed -/

/-- One item that exceeds the capacity of the first `k` of `N` equiprobable scenarios, `epsilon = k / N`. -/
def exStrict (N k : ℕ) : Inst :=
  { n := 1, N := N, m := 1
    A := fun s _ _ => if s < k then 1 / 5 else 1 / 10
    b := fun _ _ => 1 / 10
    c := fun _ => 3
    proba := fun _ => 1 / N, eps := k / N, cont := false }

theorem exStrict_sat (N k s : ℕ) : Sat (exStrict N k) s (fun _ => 1) ↔ k ≤ s := by
  have : Sat (exStrict N k) s (fun _ => 1) ↔ (if s < k then (1 / 5 : ℚ) else 1 / 10) ≤ 1 / 10 := by
    constructor
    · intro h
      have := h 0 (by show 0 < 1; decide)
      simpa [dot, exStrict] using this
    · intro h i _
      simpa [dot, exStrict] using h
  rw [this]
  split_ifs with h
  · constructor
    · intro h'; norm_num at h'
    · intro h'; omega
  · exact ⟨fun _ => by omega, fun _ => le_rfl⟩

theorem exStrict_equi {N : ℕ} (hN : 0 < N) (k : ℕ) : Equi (exStrict N k) := ⟨hN, fun _ _ => rfl⟩

theorem exStrict_feas {N k : ℕ} (hN : 0 < N) (hk : k ≤ N) : Feas (exStrict N k) fun _ => 1 := by
  have hNq : (0 : ℚ) < N := by exact_mod_cast hN
  have heps : (exStrict N k).eps * (exStrict N k).N = k := by
    show (k / N : ℚ) * N = k
    field_simp
  refine ⟨fun j _ => by simp [exStrict], (chance_iff_card _ (exStrict_equi hN k)
    (by show (0 : ℚ) ≤ k / N; positivity) _).2 ?_⟩
  unfold kmax
  rw [heps, Nat.floor_natCast]
  have : viol (exStrict N k) (fun _ => 1) = range k := by
    ext s
    simp only [viol, Finset.mem_filter, Finset.mem_range, exStrict_sat]
    show s < N ∧ _ ↔ _
    omega
  rw [this, Finset.card_range]

theorem flChance_of_feas {J : CI} {cs : List Constr} {ch : Constr} {prune : List ℕ} {gap : ℚ} {ρ : V → ℚ}
    (h : (ccShape J cs ch prune gap).Feas ρ) : ch.Holds ρ := by
  unfold ccShape at h
  rw [feas_setMIPGap, feas_addConstrs, feas_addConstr] at h
  exact h.1.2

/-- **C97 (the tolerance is needed).**  In seven of the eight combinations of the number of scenarios and
the risk level of the experiments, a point that satisfies the chance constraint with equality is excluded
by the rounded chance constraint of the extended formulation; only Gurobi's tolerance restores it. -/
theorem C97_strict : ∀ c ∈ [(500, 50), (500, 100), (1000, 100), (1000, 200), (3000, 300), (3000, 600),
      (5000, 1000)],
    ∃ g g' ρ, buildCCLP (instCI (exStrict c.1 c.2)) none [] [] (1 / 10 ^ 4) = .ok g
      ∧ flBuildCCLP (instCI (dbl (exStrict c.1 c.2))) none [] [] (1 / 10 ^ 4) = .ok g'
      ∧ g.Feas ρ ∧ ¬ g'.Feas ρ := by
  intro c hc
  have hpos : 0 < c.1 ∧ c.2 ≤ c.1 := by revert c; decide
  have hrow : ((c.1 - c.2 : ℕ) : ℚ) * fl64 (1 / c.1) < rd (1 - fl64 (c.2 / c.1)) := by
    revert c; decide +kernel
  obtain ⟨N, k⟩ := c
  obtain ⟨hN, hk⟩ := hpos
  obtain ⟨g, h1, -, -, -, -, h2⟩ := inst_points (exStrict_equi hN k) (bigM := none)
    (by rintro _ ⟨⟩) (1 / 10 ^ 4)
  refine ⟨g, _, _, h1, rfl, h2 _ (exStrict_feas hN hk), fun h => ?_⟩
  have h3 := flChance_of_feas h
  have h4 : rd (1 - fl64 (k / N)) ≤ ∑ s ∈ range N, fl64 (1 / N) * scenPoint (exStrict N k) (fun _ => 1) (.z s) := by
    simp only [flChanceConstr, Constr.Holds, Lin.Holds, eval_quicksum_range, eval_ofConst] at h3
    exact h3
  have h5 : ∑ s ∈ range N, fl64 (1 / N) * scenPoint (exStrict N k) (fun _ => 1) (.z s)
      = ((N - k : ℕ) : ℚ) * fl64 (1 / N) := by
    have : ∀ s ∈ range N, fl64 (1 / N) * scenPoint (exStrict N k) (fun _ => 1) (.z s)
        = if k ≤ s then fl64 (1 / N) else 0 := fun s _ => by
      simp only [scenPoint, exStrict_sat, mul_ite, mul_one, mul_zero]
    rw [Finset.sum_congr rfl this, ← Finset.sum_filter, Finset.sum_const, nsmul_eq_mul]
    congr 2
    have : (range N).filter (fun s => k ≤ s) = Finset.Ico k N := by
      ext s; simp only [Finset.mem_filter, Finset.mem_range, Finset.mem_Ico]; omega
    rw [this, Nat.card_Ico]
  rw [h5] at h4
  exact absurd h4 (not_le.2 hrow)

/-! ## Examples -/

/-- Sums from left to right are among the sums in any order. -/
theorem flSum_left (a : ℚ) : ∀ (l : List ℚ), 0 ≤ a → (∀ b ∈ l, 0 ≤ b) →
    FlSum (a :: l) (l.foldl (fun v b => fl64 (v + b)) a) := by
  intro l ha hl
  induction l using List.reverseRecOn with
  | nil => exact .single a
  | append_singleton l b ih =>
    rw [List.foldl_append]
    have hb : 0 ≤ b := hl b (by simp)
    have h1 := ih fun c hc => hl c (by simp [hc])
    have hv : 0 ≤ l.foldl (fun v b => fl64 (v + b)) a := by
      cases l using List.reverseRecOn with
      | nil => exact ha
      | append_singleton l c => rw [List.foldl_append]; exact fl64_nonneg _
    refine FlSum.add (l := a :: l) (l' := [b]) (by simp) (by simp) h1 (.single b) ?_
    show |fl64 _ - _| ≤ _
    have h2 := fl64_err (q := l.foldl (fun v b => fl64 (v + b)) a + b) (by linarith)
    rw [abs_of_nonneg (by linarith : 0 ≤ l.foldl (fun v b => fl64 (v + b)) a + b)]
    exact h2

/-- Ten scenarios in five pairs. -/
def exFive : List (List ℕ) := [[0, 5], [1, 6], [2, 7], [3, 8], [4, 9]]

/-- What `load_partition` computes from left to right for them. -/
def exFiveData : PartData :=
  let total := [fl64 (1 / 10), fl64 (1 / 10), fl64 (1 / 10), fl64 (1 / 10)].foldl
    (fun v b => fl64 (v + b)) (fl64 (1 / 10))
  { nbSubsets := 5, partition := exFive, nbConPart := [2, 2, 2, 2, 2]
    probaPart := List.replicate 5 (rd (fl64 (1 / 10) / total)), epsPart := rd (fl64 (2 / 10) / total) }

/-- All items are taken and the first two pairs are given up. -/
def exFivePoint : V → ℚ
  | .x _ => 1
  | .z c => if c < 2 then 0 else 1
  | _ => 0

/-- The hypotheses of `C97_partitioned`, `C97_extended` and `C97_certified` are met, with
indicator constraints and with big-Ms, by an instance whose rounded data, normalised probability and risk level
all differ from the exact ones. -/
example : Equi (exStrict 10 2) ∧ 0 ≤ (exStrict 10 2).eps ∧ (exStrict 10 2).eps ≤ 1 ∧ TolOk (exStrict 10 2)
    ∧ (exStrict 10 2).N ≤ 90000 ∧ OneDecimal (exStrict 10 2) ∧ Model.Moderate (exStrict 10 2)
    ∧ NonnegC (exStrict 10 2) ∧ DoubleC (exStrict 10 2) ∧ (exStrict 10 2).cont = false
    ∧ IsPartition (exStrict 10 2).N exFive ∧ kmax (exStrict 10 2) < exFive.length
    ∧ FlLoadPartition (exStrict 10 2) exFive exFiveData
    ∧ (dbl (exStrict 10 2)).A 0 0 0 ≠ (exStrict 10 2).A 0 0 0
    ∧ exFiveData.probaPart.getD 0 0 ≠ 1 / 5 ∧ exFiveData.epsPart ≠ 2 / 5
    ∧ (∃ D, loadPartition (exStrict 10 2) exFive.length exFive = .ok D
      ∧ DoubleMs (partCI (exStrict 10 2) D) (List.replicate 5 [1 / 8, 1 / 8])
      ∧ (∃ g, buildCCLP (partCI (exStrict 10 2) D) (some (List.replicate 5 [1 / 8, 1 / 8])) [0] [] 0 = .ok g)
      ∧ ∃ g', flBuildCCLP (partCI (dbl (exStrict 10 2)) exFiveData)
        (some (List.replicate 5 [1 / 8, 1 / 8])) [0] [] 0 = .ok g')
    ∧ (∃ g', flBuildCCLP (partCI (dbl (exStrict 10 2)) exFiveData) none [0] [] 0 = .ok g'
      ∧ ∃ r, GResult.FlValid cclpTols (2 / 10 ^ 10) g' r ∧ r.sol = some exFivePoint) := by
  have hD := loadPartition_ok (exStrict 10 2) exFive (by decide)
  refine ⟨exStrict_equi (by decide) 2, by norm_num [exStrict], by norm_num [exStrict], by decide +kernel,
    by decide, ⟨?_, fun s _ i _ => ⟨⟨1, by norm_num [exStrict]⟩, fun j _ => ?_⟩⟩, ?_, ?_, ?_, rfl,
    ⟨by decide, by decide⟩, by decide +kernel, ?_, by decide +kernel, by decide +kernel,
    by decide +kernel, ⟨_, hD, ⟨⟨rfl, by decide +kernel⟩, ?_⟩, ⟨_, rfl⟩, ⟨_, rfl⟩⟩, ⟨_, rfl, ?_⟩⟩
  · unfold NonnegAb; decide +kernel
  · by_cases h : s < 2
    · exact ⟨2, by simp only [exStrict, if_pos h]; norm_num⟩
    · exact ⟨1, by simp only [exStrict, if_neg h]; norm_num⟩
  · unfold Model.Moderate; decide +kernel
  · unfold NonnegC; decide +kernel
  · unfold DoubleC; decide +kernel
  · refine ⟨List.replicate 5 (fl64 (1 / 10)), _, by decide +kernel,
      flSum_left _ (List.replicate 4 (fl64 (1 / 10))) (fl64_nonneg _) ?_, rfl⟩
    intro b hb
    rw [List.eq_of_mem_replicate hb]
    exact fl64_nonneg _
  · unfold IsDouble; decide +kernel
  · refine ⟨{ status := 2, sol := some exFivePoint, objVal := 3, objBnd := 3 }, ?_, rfl⟩
    refine ⟨?_, ?_, by simp, by simp⟩
    · rintro _ ⟨⟩
      exact ⟨by decide +kernel, by decide +kernel⟩
    · intro ρ hρ
      have h1 := (near_varX (t := ⟨0, 2 / 10 ^ 10⟩) ((nearCC (cs := allIndicators _)).1 hρ).1 0
        (by decide)).1 rfl
      have h2 : ρ (.x 0) ≤ 1 := by
        rcases h1 with h1 | h1 <;> have := abs_le.1 h1 <;> linarith [this.2]
      have h3 : (objExpr (partCI (dbl (exStrict 10 2)) exFiveData)).eval ρ = 3 * ρ (.x 0) := by
        rw [eval_objExpr]
        have : fl64 3 = 3 := by decide +kernel
        simp [dot, partCI, dbl, exStrict, this]
      have h4 : (objExpr (partCI (dbl (exStrict 10 2)) exFiveData)).eval ρ ≤ 3 := by
        rw [h3]; linarith
      exact h4

end Verif.Props
