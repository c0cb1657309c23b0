import Verif.Lemmas.FloatMilp
import Verif.Props.FloatOptim
import Verif.Lemmas.ContTol
import Verif.Lemmas.ExactSolver

/-!
# C101: method 1 in double precision
-/

namespace Verif.Props
open Spec Model Finset LinExpr

variable {I : Inst}

/-! ## The big-Ms -/

theorem sized_of_moderate (hI : NonnegAb I) (hM : Model.Moderate I) (hn : I.n ≤ 100) :
    SongSized I 20000 5000 := by
  refine ⟨fun s hs i hi j hj => ?_, fun s hs i hi => (hM s hs i hi).2, fun s hs i hi => (hM s hs i hi).1, ?_⟩
  · have := (Finset.single_le_sum (f := fun j => I.A s i j)
      (fun k hk => (hI s hs i hi).2 k (Finset.mem_range.1 hk)) (Finset.mem_range.2 hj)).trans (hM s hs i hi).2
    exact this.trans (by norm_num)
  · have : (I.n : ℚ) ≤ 100 := by exact_mod_cast hn
    linarith

theorem songErr_moderate (hn : I.n ≤ 100) : songErr I 20000 5000 ≤ 7 / 10 ^ 10 := by
  have : (I.n : ℚ) ≤ 100 := by exact_mod_cast hn
  unfold songErr
  rw [div_le_iff₀ (by norm_num)]
  norm_num
  linarith

/-- The index is in range or the run ends. -/
theorem flSongBigM_range {f : ℕ → ℕ → ℕ → WithTop ℚ} {s i : ℕ} {M : ℚ}
    (h : flSongBigM I f s i = .ok M) : flFloor (dbl I) + 1 < I.N ∧ ∃ t < I.N, f s t i = (M : WithTop ℚ) := by
  have h0 : 0 ≤ flFloor (dbl I) := Int.floor_nonneg.2 (fl64_nonneg _)
  obtain ⟨k, hk⟩ := Int.eq_ofNat_of_zero_le (by omega : 0 ≤ flFloor (dbl I) + 1)
  unfold flSongBigM at h
  rw [hk, npGet_nat] at h
  set l := (List.range I.N).map fun t => f s t i with hl
  have hperm := List.perm_insertionSort (fun a b : WithTop ℚ => a ≤ b) l
  by_cases hlt : k < (l.insertionSort (· ≤ ·)).length
  · rw [pyGet_of_lt ⊤ hlt, List.getD_eq_getElem _ _ hlt] at h
    have hmem := hperm.mem_iff.1 (List.getElem_mem hlt)
    obtain ⟨t, ht, he⟩ := List.mem_map.1 hmem
    refine ⟨?_, t, List.mem_range.1 ht, ?_⟩
    · rw [hperm.length_eq, hl, List.length_map, List.length_range] at hlt
      rw [hk]; exact_mod_cast hlt
    · rw [he]
      simp only [bind, Except.bind] at h
      split at h
      · rename_i q hq
        cases h
        exact hq
      · cases h
  · unfold pyGet at h
    rw [List.getElem?_eq_none (by omega)] at h
    cases h

theorem flSongBigMs_at {f : ℕ → ℕ → ℕ → WithTop ℚ} {Ms : List (List ℚ)} (h : flSongBigMs I f = .ok Ms) :
    Shape (instCI I) Ms ∧ ∀ s < I.N, ∀ i < I.m, flSongBigM I f s i = .ok (bigMAt Ms s i) := by
  unfold flSongBigMs at h
  obtain ⟨h1, h2⟩ := mapM_inv _ _ _ h
  rw [List.length_range] at h1
  have key : ∀ s < I.N, (Ms.getD s []).length = I.m ∧ ∀ i < I.m, flSongBigM I f s i = .ok (bigMAt Ms s i) := by
    intro s hs
    have hs' : s < Ms.length := by omega
    have h3 := h2 s (by simpa using hs) hs'
    rw [List.getElem_range] at h3
    obtain ⟨h4, h5⟩ := mapM_inv _ _ _ h3
    rw [List.length_range] at h4
    unfold bigMAt
    rw [List.getD_eq_getElem _ _ hs']
    refine ⟨h4, fun i hi => ?_⟩
    have := h5 i (by simpa using hi) (by omega)
    rw [List.getElem_range] at this
    rw [this, List.getD_eq_getElem]
  exact ⟨⟨h1, fun s hs => (key s hs).1⟩, fun s hs => (key s hs).2⟩

/-! ## From big-Ms that relax up to an error to bounds and points -/

theorem FlValid_mono {t : Tols} {d d' : ℚ} (hd : d ≤ d') {g : GModel} {r : GResult}
    (h : GResult.FlValid t d' g r) : GResult.FlValid t d g r := by
  have : ∀ ρ, g.NearFeas ⟨0, d⟩ ρ → g.NearFeas ⟨0, d'⟩ ρ := fun ρ hρ =>
    NearFeas_mono (t := ⟨0, d⟩) (u := ⟨0, d'⟩) rfl hd hρ
  exact ⟨h.feas, fun ρ hρ => h.bound ρ (this ρ hρ),
    fun h3 => ⟨(h.infeasible h3).1, fun ρ hρ => (h.infeasible h3).2 ρ (this ρ hρ)⟩, h.optimal⟩

/-- A feasible point, with the scenarios it satisfies, violates the rows by no more than the error of the
big-Ms. -/
theorem scenPoint_near (hE : Equi I) {Ms : List (List ℚ)} (hS : Shape (instCI I) Ms) {e : ℚ} (he : 0 ≤ e)
    {y : Vec} (hy : Feas I y)
    (hcov : ∀ s < I.N, ∀ i < I.m, dot I.n (I.A s i) y ≤ I.b s i + bigMAt Ms s i + e) {gap : ℚ} {g : GModel}
    (hg : buildCCLP (instCI I) (some Ms) [] [] gap = .ok g) : g.NearFeas ⟨0, e⟩ (scenPoint I y) := by
  obtain ⟨g0, hg0, -, -, -, -, hp⟩ := inst_points hE (bigM := none) (by rintro _ ⟨⟩) gap
  have h1 := near_of_feas (t := ⟨0, 0⟩) le_rfl le_rfl (by norm_num)
    (by rw [buildCCLP_shape (by rintro _ ⟨⟩) hg0]; exact indBinary_cclp ind_indicators) (hp y hy)
  have h1 := NearFeas_mono (t := ⟨0, 0⟩) (u := ⟨0, e⟩) rfl he h1
  rw [buildCCLP_shape (by rintro _ ⟨⟩) hg0, nearCC] at h1
  rw [buildCCLP_shape (by rintro _ ⟨⟩; exact hS) hg, nearCC]
  obtain ⟨a1, a2, -, a4, a5⟩ := h1
  refine ⟨a1, a2, fun c hc => ?_, a4, a5⟩
  simp only [rowConstrs, List.mem_flatten, List.mem_map, List.mem_range] at hc
  obtain ⟨_, ⟨s, hs, rfl⟩, hc⟩ := hc
  simp only [List.mem_flatten, List.mem_map, List.mem_range] at hc
  obtain ⟨_, ⟨i, hi, rfl⟩, hc⟩ := hc
  have hs : s < I.N := hs
  have hi : i < I.m := hi
  have h2 := hcov s hs i hi
  have hl : (lhsExpr (instCI I) s i).eval (scenPoint I y) = dot I.n (I.A s i) y := eval_lhsExpr _ _ _ _
  have hrhs : (instCI I).rhs s i = I.b s i := rfl
  unfold bigMConstrs at hc
  split at hc
  · simp only [List.mem_cons, List.not_mem_nil, or_false] at hc
    subst hc
    simp only [bigMConstr, Constr.Near, Lin.Near]
    rw [hl]
    by_cases hsat : Sat I s y
    · have hz : scenPoint I y (.z s) = 1 := if_pos hsat
      have := hsat i hi
      simp [hz, hrhs]
      linarith
    · have hz : scenPoint I y (.z s) = 0 := if_neg hsat
      simp [hz, hrhs]
      linarith
  · split at hc
    · cases hc
    · simp only [List.mem_cons, List.not_mem_nil, or_false] at hc
      subst hc
      simp only [fixedConstr, Constr.Near, Lin.Near]
      rw [hl]
      simp [hrhs]
      linarith

/-- Big-Ms that are doubles and relax every row up to an error `e` for the feasible points with a
property `Q`: the bound holds for these points, and reported points are close to feasible ones if points
within tolerances are. -/
theorem big_m_error_within (hE : Equi I) (heps : 0 ≤ I.eps) (heps1 : I.eps ≤ 1) 
    (hI : NonnegAb I) (hM : Model.Moderate I) (hc : NonnegC I) (Ms : List (List ℚ)) (hB : DoubleMs (instCI I) Ms)
    (e : ℚ) (he : 0 ≤ e) (he1 : e ≤ 1 / 2)
    (Q : Vec → Prop) (hcov : ∀ y, Feas I y → Q y → ∀ s < I.N, ∀ i < I.m, dot I.n (I.A s i) y ≤ I.b s i + bigMAt Ms s i + e)
    (gap d : ℚ)
    (hpt : ∀ g ρ, buildCCLP (instCI I) (some Ms) [] [] gap = .ok g → g.Feas ρ ∨ g.NearFeas wideTols ρ →
      ∃ y, Feas I y ∧ ∀ j < I.n, |ρ (.x j) - y j| ≤ d) (g' : GModel) (hg' : flBuildCCLP (instCI (dbl I)) (some Ms) [] [] gap = .ok g')
    (r : GResult) (hr : GResult.FlValid cclpTols (e + 2 / 10 ^ 10) g' r) :
    (∀ y, Feas I y → Q y → obj I y ≤ r.objBnd + objErr I)
    ∧ (r.status = 3 → ∀ y, Feas I y → ¬ Q y)
    ∧ ∀ ρ, r.sol = some ρ → ∃ y, Feas I y ∧ (∀ j < I.n, |ρ (.x j) - y j| ≤ d)
      ∧ |r.objVal - obj I y| ≤ d * ∑ j ∈ range I.n, I.c j + objErr I := by
  have hshape : ∀ Ms', some Ms = some Ms' → Shape (instCI I) Ms' := by rintro _ ⟨⟩; exact hB.1
  obtain ⟨g, hg, -⟩ := buildCCLP_ok (instCI I) (some Ms) hshape [] [] gap (by simp) (by simp)
  have hMs : ∀ Ms', some Ms = some Ms' → DoubleMs (instCI I) Ms' := by rintro _ ⟨⟩; exact hB
  have hS := C97_extended hE heps heps1 hI hM (some Ms) hMs [] [] gap g g' hg hg'
  have hacc : ∀ y, Feas I y → Q y → g'.NearFeas ⟨0, e + 2 / 10 ^ 10⟩ (scenPoint I y) := fun y hy hQ => by
    have h1 := scenPoint_near hE hB.1 he hy (hcov y hy hQ) hg
    exact (near_versions (rowsNear_inst hI hM) (chanceNear_inst hE heps heps1) hE.1 hMs hg hg'
      (t := ⟨0, e⟩) (by show e ≤ 1; linarith)).1 h1
  refine ⟨fun y hy hQ => ?_, fun h3 y hy hQ => (hr.infeasible h3).2 _ (hacc y hy hQ), fun ρ hs => ?_⟩
  · have h1 := hr.bound _ (hacc y hy hQ)
    have hg2 := flBuildCCLP_shape (J := instCI (dbl I)) (fun Ms' e' => shape_congr
      (rowsNear_inst hI hM) (hshape Ms' e')) hg'
    rw [hg2, (ccShape_fields _ _ _ _ _).1, eval_objExpr] at h1
    have h2 : obj I y - dot I.n (fun j => fl64 (I.c j)) y ≤ objErr I := by
      unfold Spec.obj dot objErr
      rw [← Finset.sum_sub_distrib, Finset.mul_sum]
      refine Finset.sum_le_sum fun j hj => ?_
      have hj := Finset.mem_range.1 hj
      obtain ⟨y0, y1⟩ := inX_box hy.1 j hj
      have e1 := abs_le.1 (fl64_err (hc j hj))
      have c0 := hc j hj
      rw [← sub_mul]
      have e2 : I.c j - fl64 (I.c j) ≤ 1 / 2 ^ 52 * I.c j := by linarith [e1.1]
      calc (I.c j - fl64 (I.c j)) * y j ≤ (1 / 2 ^ 52 * I.c j) * y j := mul_le_mul_of_nonneg_right e2 y0
        _ ≤ 1 / 2 ^ 52 * I.c j := mul_le_of_le_one_right (by positivity) y1
    have h3 : dot I.n (fun j => fl64 (I.c j)) y ≤ r.objBnd := h1
    linarith
  · obtain ⟨r', hv, q1, -, q3, -⟩ := hS.answers hc r (FlValid_mono (by linarith) hr)
    obtain ⟨f1, f2⟩ := hv.feas ρ (q1.trans hs)
    obtain ⟨y, y1, y2⟩ := hpt g ρ hg f1
    refine ⟨y, y1, y2, ?_⟩
    have h1 := shrink_obj hc (x := fun j => ρ (.x j)) y2
    have h2 : obj I (fun j => ρ (.x j)) = r'.objVal := by
      rw [← f2, buildCCLP_shape hshape hg, (ccShape_fields _ _ _ _ _).1, eval_objExpr]; rfl
    rw [h2] at h1
    have b1 := abs_le.1 h1
    have b2 := abs_le.1 q3
    exact abs_le.2 ⟨by linarith [b1.1, b2.1, b2.2], by linarith [b1.2, b2.1, b2.2]⟩

/-- Big-Ms that are doubles and relax every row up to an error `e` for the feasible points with a
property `Q`: the bound holds for these points, and reported points round to feasible ones. -/
theorem big_m_error_on (hE : Equi I) (heps : 0 ≤ I.eps) (heps1 : I.eps ≤ 1) (htol : TolOk I)
    (hI : OneDecimal I) (hM : Model.Moderate I) (hc : NonnegC I) (hb : I.cont = false)
    (Ms : List (List ℚ)) (hB : DoubleMs (instCI I) Ms) (e : ℚ) (he : 0 ≤ e) (he1 : e ≤ 1 / 2)
    (Q : Vec → Prop) (hcov : ∀ y, Feas I y → Q y → ∀ s < I.N, ∀ i < I.m, dot I.n (I.A s i) y ≤ I.b s i + bigMAt Ms s i + e)
    (gap : ℚ) (g' : GModel) (hg' : flBuildCCLP (instCI (dbl I)) (some Ms) [] [] gap = .ok g')
    (r : GResult) (hr : GResult.FlValid cclpTols (e + 2 / 10 ^ 10) g' r) :
    (∀ y, Feas I y → Q y → obj I y ≤ r.objBnd + objErr I)
    ∧ (r.status = 3 → ∀ y, Feas I y → ¬ Q y)
    ∧ ∀ ρ, r.sol = some ρ → ∃ y, Feas I y ∧ (∀ j < I.n, |ρ (.x j) - y j| ≤ 1 / 10 ^ 9)
      ∧ |r.objVal - obj I y| ≤ 1 / 10 ^ 9 * ∑ j ∈ range I.n, I.c j + objErr I := by
  refine big_m_error_within hE heps heps1 hI.1 hM hc Ms hB e he he1 Q hcov gap (1 / 10 ^ 9) ?_ g' hg' r hr
  intro g ρ hg f1
  obtain ⟨a1, a2, a3, a4, a5⟩ := near_answer (J := instCI I) hb (by
    rintro _ ⟨⟩
    exact ⟨hB.1, fun s hs i hi => (abs_le.1 (hB.2 s hs i hi).2).2⟩) (by simp) (by simp) hg f1
  have hcard := near_count_core (I := I) (t := wideTols) htol hE.1 le_rfl (ep := I.eps) rfl
    (pr := I.proba) hE.2 (by norm_num [wideTols]) (z := fun c => ρ (.z c)) a3 a4
  have hdom : NearDom wideTols (instCI I) fun j => ρ (.x j) := a1
  have ht : wideTols.int < 1 / 2 := by norm_num [wideTols]
  have hround : Feas I (roundVec fun j => ρ (.x j)) := by
    refine round_feas hE heps hI hM hb (nearDom_mono
      (by norm_num [wideTols, defaultTols]) (by norm_num [wideTols, defaultTols]) hdom) ?_
    refine le_trans (Finset.card_le_card fun s hs => ?_) hcard
    obtain ⟨c1, c2⟩ := Finset.mem_filter.1 hs
    refine Finset.mem_filter.2 ⟨c1, fun hzc => ?_⟩
    exact nearRows_inst (I := I) (a5 s (Finset.mem_range.1 c1) hzc) (violBy_mono (by norm_num) c2)
  exact ⟨_, hround, fun j hj => round_abs ht hb hdom hj⟩

/-- **C101 (big-Ms with errors).**  Binary instances with one decimal digit.  If big-Ms that are
doubles relax every row for every feasible point up to an error `e`, an answer to the problem with
rounded coefficients still certifies the exact problem: its bound holds for all feasible points up to the
rounding of the objective, infeasibility is true, and its point rounds to a feasible one. -/
theorem C101_big_m_error (hE : Equi I) (heps : 0 ≤ I.eps) (heps1 : I.eps ≤ 1) (htol : TolOk I)
    (hI : OneDecimal I) (hM : Model.Moderate I) (hc : NonnegC I) (hb : I.cont = false)
    (Ms : List (List ℚ)) (hB : DoubleMs (instCI I) Ms) (e : ℚ) (he : 0 ≤ e) (he1 : e ≤ 1 / 2)
    (hcov : ∀ y, Feas I y → ∀ s < I.N, ∀ i < I.m, dot I.n (I.A s i) y ≤ I.b s i + bigMAt Ms s i + e)
    (gap : ℚ) (g' : GModel) (hg' : flBuildCCLP (instCI (dbl I)) (some Ms) [] [] gap = .ok g')
    (r : GResult) (hr : GResult.FlValid cclpTols (e + 2 / 10 ^ 10) g' r) :
    (∀ y, Feas I y → obj I y ≤ r.objBnd + objErr I)
    ∧ (r.status = 3 → ∀ y, ¬ Feas I y)
    ∧ ∀ ρ, r.sol = some ρ → ∃ y, Feas I y ∧ (∀ j < I.n, |ρ (.x j) - y j| ≤ 1 / 10 ^ 9)
      ∧ |r.objVal - obj I y| ≤ 1 / 10 ^ 9 * ∑ j ∈ range I.n, I.c j + objErr I := by
  obtain ⟨h1, h2, h3⟩ := big_m_error_on hE heps heps1 htol hI hM hc hb Ms hB e he he1 (fun _ => True)
    (fun y hy _ => hcov y hy) gap g' hg' r hr
  exact ⟨fun y hy => h1 y hy trivial, fun h y hy => h2 h y hy trivial, h3⟩

/-! ## The run -/

theorem flSolveCclp_inv {J : CI} {bigM : Option (List (List ℚ))} {zs prune : List ℕ}
    {gap limit build : ℚ} {solve : GModel → GResult} {out : UBOut}
    (h : flSolveCclp J bigM zs prune gap limit build solve = .ok out) :
    ∃ g ρ, flBuildCCLP J bigM zs prune gap = .ok g ∧ (solve g).sol = some ρ
      ∧ out.x = (fun j => ρ (.x j)) ∧ out.vObj = (solve g).objVal ∧ out.vBnd = (solve g).objBnd := by
  unfold flSolveCclp at h
  cases hg : flBuildCCLP J bigM zs prune gap with
  | error e => rw [hg] at h; cases h
  | ok g =>
    rw [hg] at h
    simp only [bind, Except.bind, pure, Except.pure, setTimeLimit, optimize, getSol, getObjVal] at h
    split at h
    · cases h
    · split at h
      · cases h
      · next heq =>
        split at heq
        · cases heq
        cases heq
        cases hs : (solve g).sol with
        | none => rw [hs] at h; cases h
        | some ρ =>
          rw [hs] at h
          simp only at h
          cases h
          exact ⟨g, ρ, rfl, hs, rfl, rfl, rfl⟩

/-- The problem that method 1 hands to Gurobi. -/
def IsMethod1Problem (srt : CppSort) (I : Inst) (gap : ℚ) (g : GModel) : Prop :=
  ∃ f Ms, flViolations srt I = .ok f ∧ flSongBigMs I f = .ok Ms
    ∧ flBuildCCLP (instCI (dbl I)) (some Ms) [] [] gap = .ok g

/-- **C101 (big-Ms).**  The big-Ms of method 1 are doubles of moderate size that relax every row for every
feasible point up to `7e-10`. -/
theorem C101_big_ms (srt : CppSort) (hE : Equi I) (heps : 0 ≤ I.eps) (hm : 0 < I.m) (hn : 0 < I.n)
    (hn' : I.n ≤ 100) (hN : I.N ≤ 2 ^ 40) (hI : OneDecimal I) (hM : Model.Moderate I) (hS : SortsDefined I)
    (f : ℕ → ℕ → ℕ → WithTop ℚ) (hf : flViolations srt I = .ok f) (Ms : List (List ℚ))
    (h : flSongBigMs I f = .ok Ms) :
    DoubleMs (instCI I) Ms
    ∧ ∀ y, InBox I.n y → Chance I y → ∀ s < I.N, ∀ i < I.m,
      dot I.n (I.A s i) y ≤ I.b s i + bigMAt Ms s i + 7 / 10 ^ 10 := by
  obtain ⟨h1, h2⟩ := flSongBigMs_at h
  have hz := sized_of_moderate hI.1 hM hn'
  have hq := (flSongBigM_range (h2 0 hE.1 0 hm)).1
  have herr := songErr_moderate hn'
  obtain ⟨f', e1, hv⟩ := C96_song_valid srt I hE heps hm hn hI 20000 5000 hz hS hN hq
  rw [hf] at e1
  cases e1
  obtain ⟨-, f', e1, ha⟩ := C96_accurate srt I hE.1 hm hn hI 20000 5000 hz hS
  rw [hf] at e1
  cases e1
  refine ⟨⟨h1, fun s hs i hi => ?_⟩, fun y hy hc s hs i hi => ?_⟩
  · obtain ⟨-, t, ht, hft⟩ := flSongBigM_range (h2 s hs i hi)
    refine ⟨flViolations_double hf s t i _ hft, ?_⟩
    obtain ⟨v, w, e2, e3, e4⟩ := ha s hs t ht i hi
    rw [hft] at e2
    have e2 : bigMAt Ms s i = v := WithTop.coe_injective e2
    rw [e2]
    have h3 := abs_le.1 (song_range hI.1 hM hs hi e3)
    have h4 := abs_le.1 e4
    exact abs_le.2 ⟨by linarith, by linarith⟩
  · obtain ⟨M, e2, e3⟩ := hv s hs i hi
    rw [h2 s hs i hi] at e2
    cases e2
    have := e3 y hy hc
    linarith

/-- **C101.**  Method 1 of main.py on doubles, for binary instances with one decimal digit: violations, big-Ms,
data and right-hand sides are rounded, Gurobi answers within its tolerances (bounds hold for the points that
violate no constraint by more than `9e-10`).  If `solve` returns, `vUB` bounds all feasible points of
the exact instance up to the rounding of the objective; `xLB` is within `1e-9` of a feasible point whose
value is `vLB` up to `1e-9` times the sum of the values and the rounding of the objective; and if Gurobi
reports a gap, that point is optimal up to that gap and these errors. -/
theorem C101_method1 (hE : Equi I) (heps : 0 ≤ I.eps) (heps1 : I.eps ≤ 1) (htol : TolOk I) (hm : 0 < I.m)
    (hn : 0 < I.n) (hn' : I.n ≤ 100) (hN : I.N ≤ 2 ^ 40) (hI : OneDecimal I) (hM : Model.Moderate I)
    (hc : NonnegC I) (hb : I.cont = false) (hS : SortsDefined I) (env : Env) (timeLimit gap : ℚ)
    (hgap : 0 ≤ gap)
    (hcc : ∀ g, IsMethod1Problem env.srt I gap g → GResult.FlValid cclpTols (9 / 10 ^ 10) g (env.cc 0 g))
    (r : MilpSt) (h : flMilpSong env I timeLimit gap = .ok r) :
    (∀ y, Feas I y → obj I y ≤ r.vUB + objErr I)
    ∧ ∃ y, Feas I y ∧ (∀ j < I.n, |r.xLB j - y j| ≤ 1 / 10 ^ 9)
      ∧ |r.vLB - obj I y| ≤ 1 / 10 ^ 9 * ∑ j ∈ range I.n, I.c j + objErr I
      ∧ (|r.vUB - r.vLB| ≤ gap * |r.vLB| → ∀ y', Feas I y' →
        obj I y' ≤ (1 + gap) * (obj I y + 1 / 10 ^ 9 * ∑ j ∈ range I.n, I.c j + objErr I) + objErr I) := by
  unfold flMilpSong at h
  cases hf : flViolations env.srt I with
  | error e => rw [hf] at h; cases h
  | ok f =>
  rw [hf] at h
  simp only [bind, Except.bind, pure, Except.pure] at h
  cases hMs : flSongBigMs I f with
  | error e => rw [hMs] at h; cases h
  | ok Ms =>
  rw [hMs] at h
  simp only at h
  split at h
  · cases h
  rename_i out ho
  cases h
  obtain ⟨g, ρ, b1, b2, b3, b4, b5⟩ := flSolveCclp_inv ho
  obtain ⟨hB, hcov⟩ := C101_big_ms env.srt hE heps hm hn hn' hN hI hM hS f hf Ms hMs
  have hr := hcc g ⟨f, Ms, hf, hMs, b1⟩
  obtain ⟨k1, -, k3⟩ := C101_big_m_error hE heps heps1 htol hI hM hc hb Ms hB (7 / 10 ^ 10) (by norm_num)
    (by norm_num) (fun y hy => hcov y (inX_box hy.1) hy.2) gap g b1 (env.cc 0 g)
    (by convert hr using 1; norm_num)
  obtain ⟨y, y1, y2, y3⟩ := k3 ρ b2
  dsimp only
  rw [b3, b4, b5]
  refine ⟨k1, y, y1, y2, y3, fun hg y' hy' => ?_⟩
  have c1 := k1 y' hy'
  have c2 := abs_le.1 y3
  have c0 : 0 ≤ obj I y := obj_nonneg hc y1.1
  have c3 : |(env.cc 0 g).objVal| ≤ obj I y + (1 / 10 ^ 9 * ∑ j ∈ range I.n, I.c j + objErr I) :=
    abs_le.2 ⟨by linarith [c2.1], by linarith [c2.2]⟩
  have c4 := (abs_le.1 hg).2
  have c5 := mul_le_mul_of_nonneg_left c3 hgap
  have c6 := le_abs_self (env.cc 0 g).objVal
  linarith

/-- **C101 (index).**  If `⌊eps N⌋ + 1`, computed in doubles, is not below the number of scenarios,
method 1 ends with an `IndexError`. -/
theorem C101_index (hN : 0 < I.N) (hm : 0 < I.m) (hn : 0 < I.n) (hq : (I.N : ℤ) ≤ flFloor (dbl I) + 1)
    (env : Env) (timeLimit gap : ℚ) : flMilpSong env I timeLimit gap = .error .indexError := by
  obtain ⟨f, hf⟩ : ∃ f, flViolations env.srt I = .ok f := ⟨_, if_neg (by omega)⟩
  have h0 : 0 ≤ flFloor (dbl I) := Int.floor_nonneg.2 (fl64_nonneg _)
  obtain ⟨k, hk⟩ := Int.eq_ofNat_of_zero_le (by omega : 0 ≤ flFloor (dbl I) + 1)
  have h1 : flSongBigM I f 0 0 = .error .indexError := by
    unfold flSongBigM
    rw [hk, npGet_nat]
    unfold pyGet
    rw [List.getElem?_eq_none]
    · rfl
    · rw [List.length_insertionSort, List.length_map, List.length_range]
      omega
  have h2 : flSongBigMs I f = .error .indexError := by
    unfold flSongBigMs
    obtain ⟨N, hN'⟩ : ∃ N, I.N = N + 1 := ⟨I.N - 1, by omega⟩
    obtain ⟨m, hm'⟩ : ∃ m, I.m = m + 1 := ⟨I.m - 1, by omega⟩
    simp only [hN', hm', List.range_succ_eq_map, List.mapM_cons, h1]
    rfl
  unfold flMilpSong
  rw [hf]
  simp only [bind, Except.bind, h2]

/-! ## Examples -/

/-- Two items, four scenarios; in doubles the violations are not exact. -/
def exFlMilp : Inst :=
  { n := 2, N := 4, m := 1, A := fun s _ j => (1 + s + 2 * j : ℚ) / 10
    b := fun _ _ => 4 / 10, c := fun j => 3 - 2 * j, proba := fun _ => 1 / 4
    eps := 1 / 4, cont := false }

/-- The first item is taken. -/
def exFlMilpPoint : V → ℚ
  | .x j => if j = 0 then 1 else 0
  | .z _ => 1
  | _ => 0

/-- An answer of Gurobi. -/
def exFlMilpAnswer : GResult := { status := 2, sol := some exFlMilpPoint, objVal := 3, objBnd := 4 }

/-- An environment with this answer. -/
def exFlMilpEnv (norm : Norm) : Env := { bruteEnv norm 0 with cc := fun _ _ => exFlMilpAnswer }

theorem exFlMilp_equi : Equi exFlMilp := ⟨by decide, fun s _ => by norm_num [exFlMilp]⟩

theorem exFlMilp_grid : OneDecimal exFlMilp := by
  refine ⟨by unfold NonnegAb; decide +kernel, fun s _ i _ => ⟨⟨4, ?_⟩, fun j _ =>
    ⟨1 + s + 2 * j, ?_⟩⟩⟩ <;> norm_num [exFlMilp]

set_option synthInstance.maxSize 1000 in
theorem exFlMilp_sorts : SortsDefined exFlMilp := by unfold SortsDefined StrictWeak; decide +kernel

/-- Its big-Ms in doubles; the first row is fixed. -/
def exFlMilpMs : List (List ℚ) :=
  [[-1801439850948199 / 18014398509481984], [0], [337769972052787 / 2251799813685248],
    [5404319552844593 / 18014398509481984]]

theorem exFlMilp_ms : (flViolations .default exFlMilp >>= flSongBigMs exFlMilp)
    = .ok exFlMilpMs := by decide +kernel

theorem exFlMilp_valid (g : GModel) (h : IsMethod1Problem .default exFlMilp 0 g) :
    GResult.FlValid cclpTols (9 / 10 ^ 10) g exFlMilpAnswer := by
  obtain ⟨f, Ms, h1, h2, h3⟩ := h
  have e := exFlMilp_ms
  rw [h1] at e
  have e : flSongBigMs exFlMilp f = .ok exFlMilpMs := e
  rw [h2] at e
  cases e
  have hg : flBuildCCLP (instCI (dbl exFlMilp)) (some exFlMilpMs) [] [] 0
      = .ok (ccShape (instCI (dbl exFlMilp)) (flRowConstrs (instCI (dbl exFlMilp)) (some exFlMilpMs))
        (flChanceConstr (instCI (dbl exFlMilp))) [] 0) := by
    obtain ⟨g', hg'⟩ : ∃ g', flBuildCCLP (instCI (dbl exFlMilp)) (some exFlMilpMs) [] [] 0 = .ok g' := ⟨_, h3⟩
    rw [hg', flBuildCCLP_shape (by rintro _ ⟨⟩; exact ⟨by decide, by decide⟩) hg']
  rw [h3] at hg
  cases hg
  refine ⟨?_, ?_, by simp [exFlMilpAnswer], by simp [exFlMilpAnswer]⟩
  · rintro _ ⟨⟩
    rw [nearCC]
    exact ⟨by unfold NearCC; decide +kernel, by decide +kernel⟩
  · intro ρ hρ
    have h0 := (near_varX (t := ⟨0, 9 / 10 ^ 10⟩) ((nearCC).1 hρ).1)
    have hx : ∀ j < 2, ρ (.x j) ≤ 1 := fun j hj => by
      rcases (h0 j hj).1 rfl with h1 | h1 <;> have := abs_le.1 h1 <;> linarith [this.2]
    rw [(ccShape_fields _ _ _ _ _).1, eval_objExpr]
    have a := hx 0 (by decide)
    have b := hx 1 (by decide)
    have c0 : (dbl exFlMilp).c 0 = 3 := by decide +kernel
    have c1 : (dbl exFlMilp).c 1 = 1 := by decide +kernel
    have : dot (instCI (dbl exFlMilp)).n (instCI (dbl exFlMilp)).c (fun j => ρ (.x j))
        = 3 * ρ (.x 0) + 1 * ρ (.x 1) := by
      show ∑ j ∈ range 2, (dbl exFlMilp).c j * ρ (.x j) = _
      rw [Finset.sum_range_succ, Finset.sum_range_one, c0, c1]
    rw [this]
    show _ ≤ (4 : ℚ)
    linarith

/-- The hypotheses of C101 are met by an instance on which the method returns a point with an item. -/
example (norm : Norm) : ∃ r, flMilpSong (exFlMilpEnv norm) exFlMilp 10 0 = .ok r ∧ r.vLB = 3
    ∧ (∀ y, Feas exFlMilp y → obj exFlMilp y ≤ r.vUB + objErr exFlMilp)
    ∧ ∃ y, Feas exFlMilp y ∧ (∀ j < 2, |r.xLB j - y j| ≤ 1 / 10 ^ 9) := by
  obtain ⟨f, hf⟩ : ∃ f, flViolations .default exFlMilp = .ok f := ⟨_, rfl⟩
  have e := exFlMilp_ms
  rw [hf] at e
  have e : flSongBigMs exFlMilp f = .ok exFlMilpMs := e
  obtain ⟨r, hr, hv⟩ : ∃ r, flMilpSong (exFlMilpEnv norm) exFlMilp 10 0 = .ok r ∧ r.vLB = 3 := by
    unfold flMilpSong
    rw [show (exFlMilpEnv norm).srt = .default from rfl, hf]
    simp only [bind, Except.bind, e]
    obtain ⟨g, hg⟩ : ∃ g, flBuildCCLP (instCI (dbl exFlMilp)) (some exFlMilpMs) [] [] 0 = .ok g := ⟨_, rfl⟩
    unfold flSolveCclp
    have ht : setTimeLimit (remaining (exFlMilpEnv norm).clock 10 (milpReads true + 1)
        - ((exFlMilpEnv norm).clock (milpReads true + 4) - (exFlMilpEnv norm).clock (milpReads true + 3)))
        = .ok () := by
      unfold setTimeLimit
      rw [if_pos]
      simp [remaining, exFlMilpEnv, bruteEnv]
    rw [hg]
    simp only [bind, Except.bind, ht]
    exact ⟨_, rfl, rfl⟩
  obtain ⟨h1, y, y1, y2, -⟩ := C101_method1 exFlMilp_equi (by decide +kernel) (by decide +kernel)
    (by decide +kernel) (by decide) (by decide) (by decide) (by decide) exFlMilp_grid
    (by unfold Model.Moderate; decide +kernel) (by unfold NonnegC; decide +kernel) rfl exFlMilp_sorts
    (exFlMilpEnv norm) 10 0 le_rfl exFlMilp_valid r hr
  exact ⟨r, hr, hv, h1, y, y1, y2⟩

/-- The index is out of range for two scenarios and `epsilon = 1/2`. -/
example (env : Env) : flMilpSong env { exFlMilp with N := 2, eps := 1 / 2 } 10 0 = .error .indexError :=
  C101_index (by decide) (by decide) (by decide) (by decide +kernel) env 10 0

end Verif.Props
