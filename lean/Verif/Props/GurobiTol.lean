import Verif.Lemmas.Tolerances
import Verif.Props.Certificates
import Verif.Props.FloatViolations

/-!
# C94: what the certificates mean within Gurobi's tolerances
-/

namespace Verif.Props
open Spec Model Finset LinExpr

variable {env : Env} {cfg : Cfg} {I : Inst} {rounds fuel : ℕ}

/-- A feasible point with the same items, up to `d` in every coordinate and `d` times the sum of all
values in the objective. -/
def FeasWithin (d : ℚ) (I : Inst) (x : Vec) : Prop :=
  ∃ y, Feas I y ∧ (∀ j < I.n, |x j - y j| ≤ d)
    ∧ |obj I x - obj I y| ≤ d * ∑ j ∈ range I.n, I.c j

theorem feasWithin_good (hE : Equi I) (heps : 0 ≤ I.eps) (hI : OneDecimal I) (hM : Model.Moderate I)
    (hc : NonnegC I) (hb : I.cont = false) {x : Vec} (h : NearDom defaultTols (instCI I) x)
    (ha : Accepted I x) : FeasWithin (1 / 10 ^ 5) I x :=
  have ht : defaultTols.int < 1 / 2 := by norm_num [defaultTols]
  ⟨roundVec x, round_feas hE heps hI hM hb h (accepted_card (by norm_num) ha),
    fun _ hj => round_abs ht hb h hj, round_obj ht hc hb h⟩

/-- Runs within Gurobi's tolerances, if accepted points are within `d` of feasible ones. -/
theorem run_within (hC : NearTolContract env I) {d : ℚ}
    (hgood : ∀ x, NearDom defaultTols (instCI I) x ∧ Accepted I x → FeasWithin d I x) (hB : cfg.useBigM = true → cfg.bigMMethod ≠ "belotti")
    (r : Except PyErr (Bool × Gap)) (s : St) (h : run env cfg I rounds fuel = .ok (r, s)) :
    (∀ p ∈ s.trace,
      (∀ y, Feas I y → ∀ u : ℚ, p.1 = u → obj I y ≤ (1 + 1 / 10 ^ 4) * u
        ∨ ∃ l : ℚ, p.2 = l ∧ obj I y ≤ (1 + 1 / 10 ^ 4) * l)
      ∧ ∀ v : ℚ, p.2 = v → ∃ x, FeasWithin d I x ∧ obj I x = v)
    ∧ (∀ g, r = .ok (false, g) → 0 ≤ cfg.gap → cfg.gap < 1 → g.le cfg.gap = true →
      ∃ x, s.xLB = some x ∧ FeasWithin d I x ∧ s.vLB = (obj I x : WithBot ℚ)
        ∧ (0 ≤ obj I x →
          ∀ y, Feas I y → obj I y ≤ (1 + 1 / 10 ^ 4) * (1 + cfg.gap) * obj I x)) := by
  obtain ⟨s', h1, h2, h3, h4, h5, -⟩ := run_near hC.near
    (fun h1 => ⟨trivial, fun h2 => absurd h2 (hB h1)⟩) h
  refine ⟨fun p hp => ?_, fun g hr h0 hgap hg => ?_⟩
  · obtain ⟨t1, t2⟩ := h1.trace p (h3 ▸ hp)
    refine ⟨t1, fun v hv => ?_⟩
    obtain ⟨x, x1, x2⟩ := t2 v hv
    exact ⟨x, hgood x x1, x2⟩
  · subst hr
    obtain rfl := h4 (by rintro g' ⟨⟩)
    rcases h5 g hgap rfl with hno | ⟨b, hb⟩
    · exact absurd hg hno
    cases hl : s'.vLB with
    | bot => rw [hl] at hb; cases hb; cases hg
    | coe l =>
      obtain ⟨x, x1, x2, x3⟩ := h1.lb l hl
      refine ⟨x, x1, hgood x x2, by rw [x3], fun hl0 y hy => ?_⟩
      rw [x3] at hl0
      have hy0 := obj_nonneg hC.c hy.1
      have hlow : (1 + 1 / 10 ^ 4) * l ≤ (1 + 1 / 10 ^ 4) * (1 + cfg.gap) * l := by
        have := mul_nonneg h0 hl0
        rw [mul_assoc]
        exact mul_le_mul_of_nonneg_left (by linarith) (by norm_num)
      rw [x3]
      cases hu : s'.vUB with
      | top => rw [hl, hu] at hb; cases hb; cases hg
      | coe u =>
        rcases h1.ub y hy u hu with hc | ⟨l', hl', hc⟩
        · rcases hl0.lt_or_eq with hpos | hz
          · rw [hl, hu] at hb
            unfold computeGap at hb
            simp only [if_neg hpos.ne'] at hb
            cases hb
            simp only [Gap.le, decide_eq_true_eq] at hg
            rw [div_le_iff₀ hpos] at hg
            refine hc.trans ?_
            rw [mul_assoc]
            exact mul_le_mul_of_nonneg_left (by linarith) (by norm_num)
          · exfalso
            subst hz
            rw [hl, hu] at hb
            have hu0 : 0 ≤ u := by
              by_contra hneg
              have : (1 + 1 / 10 ^ 4 : ℚ) * u < 0 := by nlinarith
              linarith
            unfold computeGap at hb
            simp only [if_true] at hb
            split at hb
            · rw [if_neg (not_lt.2 hu0)] at hb
              split at hb <;> cases hb <;> cases hg
            · cases hb
        · rw [hl] at hl'
          obtain rfl := WithBot.coe_injective hl'
          exact hc.trans hlow

/-- **C94 (runs).**  Binary instances with one decimal digit and capacities of moderate size.  All
points returned by the solver are feasible only within Gurobi's tolerances, subset problems are
moreover solved within the default gap; indicator constraints, naive or Song big-Ms.  In every run,
however it ends: after every assignment to a bound, the objective of every feasible point is at most
`1 + 1e-4` times the larger of `vUB` and `vLB`, and `vLB`, once set, is within `1e-5` times the sum of
all values of the objective of a feasible point;
if `solve` stops on the gap, rounding `xLB` gives a feasible point, `vLB` is the objective of `xLB`,
and, unless `vLB` is negative, no feasible point exceeds it by more than the factor
`(1 + 1e-4) * (1 + gap)`. -/
theorem C94_run (hC : NearTolContract env I) (hI : OneDecimal I) (hM : Model.Moderate I)
    (hb : I.cont = false) (hB : cfg.useBigM = true → cfg.bigMMethod ≠ "belotti")
    (r : Except PyErr (Bool × Gap)) (s : St) (h : run env cfg I rounds fuel = .ok (r, s)) :
    (∀ p ∈ s.trace,
      (∀ y, Feas I y → ∀ u : ℚ, p.1 = u → obj I y ≤ (1 + 1 / 10 ^ 4) * u
        ∨ ∃ l : ℚ, p.2 = l ∧ obj I y ≤ (1 + 1 / 10 ^ 4) * l)
      ∧ ∀ v : ℚ, p.2 = v → ∃ x, FeasWithin (1 / 10 ^ 5) I x ∧ obj I x = v)
    ∧ (∀ g, r = .ok (false, g) → 0 ≤ cfg.gap → cfg.gap < 1 → g.le cfg.gap = true →
      ∃ x, s.xLB = some x ∧ FeasWithin (1 / 10 ^ 5) I x ∧ s.vLB = (obj I x : WithBot ℚ)
        ∧ (0 ≤ obj I x →
          ∀ y, Feas I y → obj I y ≤ (1 + 1 / 10 ^ 4) * (1 + cfg.gap) * obj I x)) :=
  run_within hC (fun _ hx => feasWithin_good hC.equi hC.eps hI hM hC.c hb hx.1 hx.2) hB r s h

/-- **C95 (what holds).**  Indicator constraints, binary or continuous variables.  A point
returned for the partitioned problem within the tolerances `1e-9` (even
with `FeasibilityTol` doubled) violates at most `⌊eps N⌋` subsets
by more than the tolerance of `check_feasibility`; hence either `check_feasibility` accepts it or both
refiners return a finer partition without error.  Missing from the full
claim: the same with big-Ms, which is false (`C95_counterexample`). -/
theorem C95_no_abort_partial (hE : Equi I) (heps : 0 ≤ I.eps) (htol : TolOk I) (hab : NonnegAb I)
    (hN : I.N ≤ 90000)
    (hsize : I.n + ∑ s ∈ range I.N, ∑ i ∈ range I.m, I.b s i + 1 ≤ 10 ^ 12) (norm : Norm) (P : List (List ℕ)) (hP : IsPartition I.N P) (D : PartData)
    (hD : loadPartition I P.length P = .ok D) (zs prune : List ℕ) (gap : ℚ)
    (hz : ∀ c ∈ zs, c < P.length) (hp : ∀ c ∈ prune, c < P.length) (g : GModel)
    (hg : buildCCLP (partCI I D) none zs prune gap = .ok g) (r : GResult)
    (hr : GResult.NearValid wideTols g r) (ρ : V → ℚ) (hs : r.sol = some ρ) :
    nbViolPartsBy I tol P (fun j => ρ (.x j)) ≤ kmax I
    ∧ ((checkFeasibility norm I fun j => ρ (.x j)).feasible = true
      ∨ (∀ sh fuel, kmax I + 1 ≤ fuel →
          ∃ out, refineRandom I (checkFeasibility norm I fun j => ρ (.x j)) sh false fuel P = .ok out
          ∧ IsPartition I.N out.partition ∧ P.length < out.partition.length)
        ∧ ∀ solve argsort costs vUB mem fuel,
          (∀ k g, GResult.NearSolved defaultTols g (solve k g)) → costs.length = P.length →
          MemHist (fun solve => ∀ k g, GResult.NearSolved defaultTols g (solve k g)) norm I mem →
          kmax I + 1 ≤ fuel →
          ∃ out mem', refineCost I (checkFeasibility norm I fun j => ρ (.x j)) solve argsort costs vUB
              mem fuel P = .ok (out, mem')
            ∧ IsPartition I.N out.partition ∧ P.length < out.partition.length) := by
  obtain ⟨⟨h1, h2⟩, -⟩ := ccPoint_near hE htol hr hP hD hz hp hg hs
  have hle : nbViolPartsBy I tol P (fun j => ρ (.x j)) ≤ kmax I := by
    refine le_trans ?_ h2
    unfold nbViolPartsBy
    refine List.countP_mono_left fun p _ hv => ?_
    obtain ⟨s, hs, hv⟩ := of_decide_eq_true hv
    exact decide_eq_true ⟨s, hs, violBy_mono (by norm_num) hv⟩
  refine ⟨hle, ?_⟩
  by_cases hf : (checkFeasibility norm I fun j => ρ (.x j)).feasible = true
  · exact .inl hf
  · right
    have hT : ToRefine I P fun j => ρ (.x j) := by
      refine ⟨heps, hP, hle, ?_⟩
      rw [(C02_check_feasibility_record norm I _).1, (C01_is_feasible_verdict norm I _).1] at hf
      exact Nat.lt_of_not_le fun hle' => hf (le_trans (by exact_mod_cast hle')
        (Nat.floor_le (mul_nonneg heps (by positivity))))
    refine ⟨fun sh fuel hfuel => ?_, fun solve argsort costs vUB mem fuel hsolve hc hm hfuel => ?_⟩
    · obtain ⟨out, o1, o2, o3, o4⟩ := C22_random_refine_partition norm I P _ hT sh fuel hfuel
      exact ⟨out, o1, o2, by omega⟩
    · obtain ⟨out, mem', o1, o2, -⟩ := refineCost_split (norm := norm) (argsort := argsort)
        (vUB := vUB) (fuel := fuel) hT (near_splitter hab hN hsize hsolve) hc
        (memHist_ok (hm.mono fun _ => near_splitter hab hN hsize)) (by omega)
      have o3 := refined_of o2
      exact ⟨out, mem', o1, o3.part, by have := o3.length; omega⟩

/-- **C94 (upper-bound solutions, big-Ms).**  Binary instances with one decimal digit and moderate
capacities, indicator constraints or big-Ms up to `10^6`: rounding the point returned for the
partitioned problem gives a point feasible for the partitioned problem. -/
theorem C94_rounded_points (hE : Equi I) (htol : TolOk I) (hI : OneDecimal I)
    (hM : Model.Moderate I) (hc : NonnegC I) (hb : I.cont = false) (P : List (List ℕ))
    (hP : IsPartition I.N P) (D : PartData) (hD : loadPartition I P.length P = .ok D)
    (bigM : Option (List (List ℚ)))
    (hMs : ∀ Ms, bigM = some Ms → Shape (partCI I D) Ms ∧ ∀ s < (partCI I D).nbScen,
      ∀ i < (partCI I D).nbCon s, bigMAt Ms s i ≤ 10 ^ 6)
    (zs prune : List ℕ) (gap : ℚ) (hz : ∀ c ∈ zs, c < P.length) (hp : ∀ c ∈ prune, c < P.length)
    (g : GModel) (hg : buildCCLP (partCI I D) bigM zs prune gap = .ok g) (r : GResult)
    (hr : GResult.NearValid wideTols g r) (ρ : V → ℚ) (hs : r.sol = some ρ) :
    ∃ y, PartFeas I P y ∧ (∀ j < I.n, |ρ (.x j) - y j| ≤ 1 / 10 ^ 9)
      ∧ |r.objVal - obj I y| ≤ 1 / 10 ^ 9 * ∑ j ∈ range I.n, I.c j := by
  have hnb := nbScen_part hP hD
  obtain ⟨f1, f2⟩ := hr.feas ρ hs
  have hbD : (partCI I D).cont = false := hb
  obtain ⟨a1, a2, a3, a4, a5⟩ := near_answer hbD hMs (by rw [hnb]; exact hz) (by rw [hnb]; exact hp)
    hg f1
  rw [hnb] at a3 a4 a5
  have hcard := near_count (t := wideTols) hE htol hP hD (by norm_num [wideTols])
    (z := fun c => ρ (.z c)) a3 a4
  have hdom : NearDom wideTols (instCI I) fun j => ρ (.x j) := a1
  have ht : wideTols.int < 1 / 2 := by norm_num [wideTols]
  refine ⟨roundVec fun j => ρ (.x j), round_partFeas hI hM hb hP (nearDom_mono
    (by norm_num [wideTols, defaultTols]) (by norm_num [wideTols, defaultTols]) hdom) ?_,
    fun j hj => round_abs ht hb hdom hj, ?_⟩
  · refine le_trans ?_ hcard
    rw [← slack_parts, nbViolParts_card]
    refine Finset.card_le_card fun c hc => ?_
    obtain ⟨c1, c2⟩ := Finset.mem_filter.1 hc
    refine Finset.mem_filter.2 ⟨c1, fun hzc => c2 ?_⟩
    rw [slack_satAll]
    have hc' := Finset.mem_range.1 c1
    exact fun s hs hv => nearRows_part hP.2 hD hc' (a5 c hc' hzc) s hs
      (violBy_mono (by norm_num) hv)
  · have := round_obj ht hc hb hdom
    rw [a2, eval_objExpr] at f2
    rw [← f2]
    exact this

/-- What one call of `solve_cclp_model` returns. -/
theorem solveCclp_inv {J : CI} {bigM : Option (List (List ℚ))} {zs prune : List ℕ}
    {gap limit build : ℚ} {solve : GModel → GResult} {out : UBOut}
    (h : solveCclp J bigM zs prune gap limit build solve = .ok out) :
    ∃ g ρ, buildCCLP J bigM zs prune gap = .ok g ∧ (solve g).sol = some ρ
      ∧ out.x = (fun j => ρ (.x j)) ∧ out.vObj = (solve g).objVal ∧ out.vBnd = (solve g).objBnd := by
  unfold solveCclp at h
  cases hg : buildCCLP J bigM zs prune gap with
  | error e => rw [hg] at h; cases h
  | ok g =>
    rw [hg] at h
    simp only [bind, Except.bind, pure, Except.pure, setTimeLimit, optimize, getSol, getObjVal] at h
    split at h
    · cases h
    · split at h
      · cases h
      · next heq =>
        split at heq
        · cases heq
        cases heq
        cases hs : (solve g).sol with
        | none => rw [hs] at h; cases h
        | some ρ =>
          rw [hs] at h
          cases h
          exact ⟨g, ρ, rfl, hs, rfl, rfl, rfl⟩

theorem song_range {s t i : ℕ} {w : ℚ} (hI : NonnegAb I) (hM : Model.Moderate I) (hs : s < I.N)
    (hi : i < I.m) (h : IsSongViolation I s t i w) : |w| ≤ 20000 := by
  rcases h.1 with ⟨-, rfl⟩ | ⟨l, -, -, hk⟩
  · norm_num
  · obtain ⟨x, hx, -, rfl⟩ := hk.2
    obtain ⟨m1, m2⟩ := hM s hs i hi
    obtain ⟨a1, a2⟩ := hI s hs i hi
    have h0 : 0 ≤ dot I.n (I.A s i) x := Finset.sum_nonneg fun j hj =>
      mul_nonneg (a2 j (Finset.mem_range.1 hj)) (hx j (Finset.mem_range.1 hj)).1
    have h1 : dot I.n (I.A s i) x ≤ ∑ j ∈ range I.n, I.A s i j := Finset.sum_le_sum fun j hj =>
      mul_le_of_le_one_right (a2 j (Finset.mem_range.1 hj)) (hx j (Finset.mem_range.1 hj)).2
    exact abs_le.2 ⟨by linarith, by linarith⟩

theorem song_sum {s t i : ℕ} {w : ℚ} (hI : NonnegAb I) (hs : s < I.N) (hi : i < I.m)
    (h : IsSongViolation I s t i w) : w ≤ ∑ j ∈ range I.n, I.A s i j := by
  obtain ⟨a1, a2⟩ := hI s hs i hi
  rcases h.1 with ⟨-, rfl⟩ | ⟨l, -, -, hk⟩
  · exact Finset.sum_nonneg fun j hj => a2 j (Finset.mem_range.1 hj)
  · obtain ⟨x, hx, -, rfl⟩ := hk.2
    have h1 : dot I.n (I.A s i) x ≤ ∑ j ∈ range I.n, I.A s i j := Finset.sum_le_sum fun j hj =>
      mul_le_of_le_one_right (a2 j (Finset.mem_range.1 hj)) (hx j (Finset.mem_range.1 hj)).2
    linarith

/-- Song's big-Ms are violations of other scenarios. -/
theorem song_entry {argsort : Argsort} {srt : CppSort} {solve : GModel → GResult} (hE : Equi I)
    (heps : 0 ≤ I.eps) (hm : 0 < I.m) (hn : 0 < I.n) (hI : OneDecimal I) {Ms : List (List ℚ)}
    (h : updateBigM argsort srt solve (instCI I) false I.N none "song" (some I) none = .ok Ms) :
    ∀ s < I.N, ∀ i < I.m, ∃ t, IsSongViolation I s t i (bigMAt Ms s i) := by
  intro s hs i hi
  have h0 : 0 ≤ I.eps * I.N := mul_nonneg heps (by positivity)
  obtain ⟨f, hf, hval⟩ := C45_cpp_violations_valid srt I hE.1 hm hn
    fun s hs i hi => (hI.1 s hs i hi).2
  rw [updateBigM_song _ _ _ _ _ _ _ _ _ f hf, runSong_inst] at h
  have hq : ⌊I.eps * I.N⌋₊ + 1 < I.N := by
    by_contra hq
    push Not at hq
    rw [table_error (instCI I) _ .indexError hE.1 (show 0 < I.m from hm)
      (quantile_error h0 (by simpa using hq))] at h
    cases h
  obtain ⟨M, hM1, hM2, _⟩ := quantile_ok (l := (List.range I.N).map fun sp => f s sp i) h0 (by
      intro v hv
      obtain ⟨sp, hsp, rfl⟩ := List.mem_map.1 hv
      exact (hval s hs sp (List.mem_range.1 hsp) i hi).imp fun _ h => h.1)
      (by simpa using hq)
  have hrow := (mapM_range_inv _ _ Ms [] h).2 s hs
  have hent := (mapM_range_inv _ _ _ 0 hrow).2 i hi
  rw [hM1] at hent
  have hent : M = bigMAt Ms s i := by injection hent
  rw [← hent]
  obtain ⟨t, ht, he⟩ := List.mem_map.1 hM2
  have ht := List.mem_range.1 ht
  unfold cppViolations at hf
  rw [if_neg (by have := hE.1; omega)] at hf
  have hf := Except.ok.inj hf
  rw [← hf] at he
  exact ⟨t, exact_songViolation srt I hI hs ht hi M he⟩

/-- Song's big-Ms are moderate. -/
theorem song_moderate {argsort : Argsort} {srt : CppSort} {solve : GModel → GResult} (hE : Equi I)
    (heps : 0 ≤ I.eps) (hm : 0 < I.m) (hn : 0 < I.n) (hI : OneDecimal I) (hM : Model.Moderate I)
    {Ms : List (List ℚ)}
    (h : updateBigM argsort srt solve (instCI I) false I.N none "song" (some I) none = .ok Ms) :
    ∀ s < I.N, ∀ i < I.m, |bigMAt Ms s i| ≤ 20000 := fun s hs i hi =>
  (song_entry hE heps hm hn hI h s hs i hi).elim fun _ ht => song_range hI.1 hM hs hi ht

theorem naive_entry {s i : ℕ} (hs : s < I.N) (hi : i < I.m) :
    bigMAt (naiveAll (instCI I) I.N) s i = ∑ j ∈ range I.n, I.A s i j - I.b s i := by
  unfold bigMAt naiveAll
  have h1 : ((List.range I.N).map (naiveBigM (instCI I))).getD s [] = naiveBigM (instCI I) s := by
    rw [List.getD_eq_getElem _ _ (by simpa using hs), List.getElem_map, List.getElem_range]
  rw [h1]
  unfold naiveBigM
  have hi' : i < (instCI I).nbCon s := hi
  rw [List.getD_eq_getElem _ _ (by simpa using hi'), List.getElem_map, List.getElem_range,
    list_sum_range]
  rfl

/-- The big-Ms that `MilpSolver` computes are valid and at most the sum of their row. -/
theorem milp_ms (hE : Equi I) (heps : 0 ≤ I.eps) (hm : 0 < I.m) (hn : 0 < I.n) (hI : OneDecimal I)
    {useBigM : Bool} {method : String} (hmeth : useBigM = true → method = "naive" ∨ method = "song")
    {bigM : Option (List (List ℚ))}
    (h1 : milpBigMOpt env I useBigM method = .ok bigM) :
    ∀ Ms, bigM = some Ms → Shape (instCI I) Ms
      ∧ (∀ x z, InDom (instCI I) x → ZOk (instCI I) z x → Covers (instCI I) Ms x)
      ∧ ∀ s < I.N, ∀ i < I.m, bigMAt Ms s i ≤ ∑ j ∈ range I.n, I.A s i j := by
  have hsong : milpBigM env.argsort env.srt (env.sub 0) (env.big 0) I "song"
      = updateBigM env.argsort env.srt (env.big 0) (instCI I) false I.N none "song" (some I)
          none := rfl
  have hS := C43_song_valid env.argsort env.srt (env.big 0) I none hE heps hm hn
    fun s hs i hi => (hI.1 s hs i hi).2
  rintro Ms rfl
  cases hu : useBigM with
  | false => rw [hu] at h1; cases h1
  | true =>
    rw [hu, milpBigMOpt, if_pos rfl] at h1
    cases hb : milpBigM env.argsort env.srt (env.sub 0) (env.big 0) I method with
    | error e => rw [hb] at h1; cases h1
    | ok Ms' =>
      rw [hb] at h1
      cases h1
      rcases hmeth hu with rfl | rfl
      · have hb' : naiveAll (instCI I) I.N = Ms := Except.ok.inj hb
        subst hb'
        refine ⟨naive_shape _, fun x z hx _ => naive_covers (fun s hs i hi => (hI.1 s hs i hi).2)
          (inDom_box hx), fun s hs i hi => ?_⟩
        rw [naive_entry hs hi]
        linarith [(hI.1 s hs i hi).1]
      · rw [hsong] at hb
        by_cases hq : ⌊I.eps * I.N⌋₊ + 1 < I.N
        · obtain ⟨Ms2, b1, b2, b3⟩ := hS.1 hq
          rw [b1] at hb
          cases hb
          refine ⟨b2, fun x z hx hz => b3 x (inDom_box hx) (zOk_chance hE hz), fun s hs i hi => ?_⟩
          obtain ⟨t, ht⟩ := song_entry hE heps hm hn hI b1 s hs i hi
          exact song_sum hI.1 hs hi ht
        · rw [hS.2 (by omega)] at hb
          cases hb

/-- **C94 (extended formulation).**  Binary instances with one decimal digit and moderate capacities,
indicator constraints, naive or Song big-Ms, any answer within the tolerances `1e-9`: when
`MilpSolver.solve` returns, rounding the reported point gives a point that satisfies the chance
constraint, `vLB` is within `1e-9` times the sum of all values of its objective, and `vUB` bounds every
feasible objective; a solve to status `OPTIMAL` leaves a relative gap of at most `gap`. -/
theorem C94_milp (hE : Equi I) (heps : 0 ≤ I.eps) (htol : TolOk I) (hm : 0 < I.m) (hn : 0 < I.n)
    (hI : OneDecimal I) (hM : Model.Moderate I) (hc : NonnegC I) (hb : I.cont = false)
    (timeLimit gap : ℚ) (useBigM : Bool) (method : String)
    (hmeth : useBigM = true → method = "naive" ∨ method = "song")
    (hcc : ∀ g, GResult.NearValid wideTols g (env.cc 0 g)) (r : MilpSt)
    (h : milpSolve env I timeLimit gap useBigM method = .ok r) :
    FeasWithin (1 / 10 ^ 9) I r.xLB ∧ obj I r.xLB = r.vLB ∧ (∀ y, Feas I y → obj I y ≤ r.vUB)
    ∧ (gap < 1 → (∀ g, g.mipGap = gap → (env.cc 0 g).sol.isSome →
        (env.cc 0 g).status = 2 ∧ GResult.WithinGap g (env.cc 0 g)) →
        r.vUB ≤ (1 + gap) * r.vLB) := by
  obtain ⟨bigM, out, h1, h2, h3, h4, h5⟩ := milpSolve_inv h
  have hM' : ∀ Ms, bigM = some Ms → SameSolutions (instCI I) Ms ∧ Shape (instCI I) Ms
      ∧ ∀ s < I.N, ∀ i < I.m, bigMAt Ms s i ≤ 10 ^ 6 := fun Ms e => by
    obtain ⟨m1, m2, m3⟩ := milp_ms hE heps hm hn hI hmeth h1 Ms e
    exact ⟨sameSolutions_of_valid (nonnegCI_inst hI.1 hc) m1 m2, m1, fun s hs i hi =>
      (m3 s hs i hi).trans ((hM s hs i hi).2.trans (by norm_num))⟩
  obtain ⟨g, g1, g2, g3, g4, p1, p2⟩ := inst_points hE (fun Ms e => (hM' Ms e).1) gap
  obtain ⟨g', ρ, b1, b2, b3, b4, b5⟩ := solveCclp_inv h2
  rw [g1] at b1
  cases b1
  obtain ⟨f1, f2⟩ := (hcc g).feas ρ b2
  have hbD : (instCI I).cont = false := hb
  obtain ⟨a1, a2, a3, a4, a5⟩ := near_answer hbD (fun Ms e => (hM' Ms e).2) (by simp) (by simp)
    g1 f1
  have hN : (0 : ℚ) < I.N := by exact_mod_cast hE.1
  have hcard := near_count_core (I := I) (t := wideTols) htol hE.1 le_rfl (ep := I.eps) rfl
    (pr := I.proba) hE.2 (by norm_num [wideTols]) (z := fun c => ρ (.z c)) a3 a4
  have hdom : NearDom wideTols (instCI I) fun j => ρ (.x j) := a1
  have ht : wideTols.int < 1 / 2 := by norm_num [wideTols]
  have hev : ∀ ρ, g.obj.eval ρ = obj I fun j => ρ (.x j) := fun ρ => by
    rw [g2, eval_objExpr]; rfl
  have hbd : g.Bounded := by
    refine ⟨∑ j ∈ range I.n, I.c j, fun ρ hρ => ?_⟩
    rw [if_pos g3, hev]
    unfold Spec.obj dot
    refine Finset.sum_le_sum fun j hj => ?_
    have hj := Finset.mem_range.1 hj
    exact mul_le_of_le_one_right (hc j hj) (inX_box (p1 ρ hρ).1 j hj).2
  have hbound : ∀ y, Feas I y → obj I y ≤ (env.cc 0 g).objBnd := fun y hy => by
    have := (hcc g).bound hbd _ (p2 y hy)
    rw [if_pos g3, hev] at this
    exact this
  rw [h3, h4, h5, b3, b4, b5]
  have hval : obj I (fun j => ρ (.x j)) = (env.cc 0 g).objVal := by rw [← f2, hev]
  have hround : Feas I (roundVec fun j => ρ (.x j)) := by
    refine round_feas hE heps hI hM hb (nearDom_mono
      (by norm_num [wideTols, defaultTols]) (by norm_num [wideTols, defaultTols]) hdom) ?_
    refine le_trans (Finset.card_le_card fun s hs => ?_) hcard
    obtain ⟨c1, c2⟩ := Finset.mem_filter.1 hs
    refine Finset.mem_filter.2 ⟨c1, fun hzc => ?_⟩
    exact nearRows_inst (I := I) (a5 s (Finset.mem_range.1 c1) hzc) (violBy_mono (by norm_num) c2)
  refine ⟨⟨_, hround, fun j hj => round_abs ht hb hdom hj, round_obj ht hc hb hdom⟩, hval, hbound,
    fun hg1 hst => ?_⟩
  obtain ⟨st1, st2⟩ := hst g g4 (by rw [b2]; rfl)
  have hw := st2 st1
  rw [g4] at hw
  have h0 := (obj_nonneg hc hround.1).trans (hbound _ hround)
  have h1 := le_abs_self ((env.cc 0 g).objBnd - (env.cc 0 g).objVal)
  have hv : 0 ≤ (env.cc 0 g).objVal := by
    by_contra hneg
    have hneg := not_le.1 hneg
    rw [abs_of_neg hneg] at hw
    nlinarith
  rw [abs_of_nonneg hv] at hw
  linarith

/-! ## Examples -/

instance (τ : ℚ) (ρ : V → ℚ) (l : Lin) : Decidable (l.Near τ ρ) := by
  unfold Lin.Near; split <;> infer_instance

instance (t : Tols) (ρ : V → ℚ) (c : Constr) : Decidable (c.Near t ρ) := by
  cases c <;> unfold Constr.Near <;> infer_instance

instance (t : Tols) (ρ : V → ℚ) (d : VarDecl) : Decidable (d.Near t ρ) :=
  decidable_of_iff ((d.binary = true → (|ρ d.v| ≤ t.int ∨ |ρ d.v - 1| ≤ t.int)
      ∧ -t.feas ≤ ρ d.v ∧ ρ d.v ≤ 1 + t.feas)
    ∧ (d.lb.all fun l => decide (l - t.feas ≤ ρ d.v)) = true
    ∧ (d.ub.all fun u => decide (ρ d.v ≤ u + t.feas)) = true)
    (by unfold VarDecl.Near; cases d.lb <;> cases d.ub <;> simp)

instance (t : Tols) (g : GModel) (ρ : V → ℚ) : Decidable (g.NearFeas t ρ) := by
  unfold GModel.NearFeas; infer_instance

/-- A point with items slightly too large and indicators slightly too small. -/
def shaken (d : ℚ) (ρ : V → ℚ) : V → ℚ := fun v =>
  if ρ v = 1 then match v with
    | .x _ => 1 + d
    | _ => 1 - d
  else ρ v

/-- An exact solver that moves its solution if the moved point is within the tolerances and the gap. -/
noncomputable def shakenSolver (t : Tols) (d : ℚ) (g : GModel) : GResult :=
  match (exactSolver g).sol with
  | none => exactSolver g
  | some ρ =>
    if g.NearFeas t (shaken d ρ) ∧ |(exactSolver g).objBnd - g.obj.eval (shaken d ρ)|
        ≤ g.mipGap * |g.obj.eval (shaken d ρ)| then
      { exactSolver g with sol := some (shaken d ρ), objVal := g.obj.eval (shaken d ρ) }
    else exactSolver g

theorem shakenSolver_answers (t : Tols) (d : ℚ) (g : GModel) :
    GResult.NearAnswers t g (shakenSolver t d g) := by
  have h := exactSolver_exact g
  have hexact : GResult.NearAnswers t g (exactSolver g) := by
    refine ⟨⟨⟨fun ρ hs => ⟨.inl (h.answers.valid.feas ρ hs).1, (h.answers.valid.feas ρ hs).2⟩,
      h.answers.valid.bound, h.answers.valid.infeasible, h.answers.valid.optimal⟩,
      h.answers.notInterrupted, h.answers.solved⟩, fun ho => (h.optimum ho).1, fun h0 h2 => ?_⟩
    rw [exactSolver_closed g h2, sub_self, abs_zero]
    exact mul_nonneg h0 (abs_nonneg _)
  unfold shakenSolver
  split
  · exact hexact
  · next ρ hs =>
    split
    · next hn =>
      exact ⟨⟨⟨fun ρ' h' => by cases h'; exact ⟨.inr hn.1, rfl⟩, hexact.valid.bound, (fun h3 => by
        have := (hexact.valid.infeasible h3).1
        rw [hs] at this
        cases this), fun _ => rfl⟩, hexact.notInterrupted, fun _ _ => rfl⟩, hexact.status,
        fun _ _ => hn.2⟩
    · exact hexact

/-- Four equiprobable scenarios, `epsilon = 1/4`, three binary items of values `20 + 2 * v`,
`20 + v` and 20, each heavy; the first fits in the even scenarios, the second in the odd ones, the third in all. -/
def exShaken (v : ℚ) : Inst :=
  { n := 3, N := 4, m := 1
    A := fun s _ j => if j = 0 ∧ s % 2 = 1 ∨ j = 1 ∧ s % 2 = 0 then 6000 else 3000
    b := fun _ _ => 3000
    c := fun j => if j = 0 then 20 + 2 * v else if j = 1 then 20 + v else 20
    proba := fun _ => 1 / 4, eps := 1 / 4, cont := false }

/-- All solutions are moved. -/
noncomputable def shakenEnv (d : ℚ) : Env :=
  { exactEnv exNorm 1 with
    sub := fun _ _ => shakenSolver defaultTols (1 / 10 ^ 10)
    lb := fun _ => shakenSolver defaultTols (1 / 10 ^ 10)
    acc := fun _ _ => shakenSolver defaultTols (1 / 10 ^ 10)
    cc := fun _ => shakenSolver cclpTols d }

theorem shaken_contract (d : ℚ) {v : ℚ} (hv : v = 5 ∨ v = 1 / 2000) :
    NearTolContract (shakenEnv d) (exShaken v) where
  equi := ⟨by show 0 < 4; decide, fun s _ => by norm_num [exShaken]⟩
  eps := by norm_num [exShaken]
  tolOk := by rcases hv with rfl | rfl <;> decide +kernel
  ab := by unfold NonnegAb; rcases hv with rfl | rfl <;> decide +kernel
  c := by unfold NonnegC; rcases hv with rfl | rfl <;> decide +kernel
  m := by show 0 < 1; decide
  n := by show 0 < 3; decide
  sum := by rcases hv with rfl | rfl <;> decide +kernel
  size := by rcases hv with rfl | rfl <;> decide +kernel
  sub := fun _ _ g => shakenSolver_answers _ _ g
  cc := fun _ g => NearValid_wide (shakenSolver_answers _ _ g).valid
  lb := fun _ g => (shakenSolver_answers _ _ g).valid
  acc := fun _ _ g => (shakenSolver_answers _ _ g).toNearSolved

theorem shaken_data {v : ℚ} (hv : v = 5 ∨ v = 1 / 2000) :
    OneDecimal (exShaken v) ∧ Model.Moderate (exShaken v) := by
  refine ⟨⟨by unfold NonnegAb; rcases hv with rfl | rfl <;> decide +kernel,
    fun s _ i _ => ⟨⟨30000, by norm_num [exShaken]⟩, fun j _ => ?_⟩⟩,
    by unfold Model.Moderate; rcases hv with rfl | rfl <;> decide +kernel⟩
  by_cases h : j = 0 ∧ s % 2 = 1 ∨ j = 1 ∧ s % 2 = 0
  · exact ⟨60000, by simp only [exShaken, if_pos h]; norm_num⟩
  · exact ⟨30000, by simp only [exShaken, if_neg h]; norm_num⟩

/-- The configuration of the runs. -/
def shakenCfg (big : Bool) : Cfg :=
  { exCfg with useMerger := false, useBigM := big, bigMMethod := "naive", gap := 1 / 10 ^ 4
               timeLimit := 1800 }

/-- The hypotheses of `C94_run` are met by a run in which every reported solution is moved, with
indicator constraints and with naive big-Ms, and by one that stops on the gap. -/
example : NearTolContract (shakenEnv (1 / 10 ^ 13)) (exShaken 5) ∧ OneDecimal (exShaken 5)
    ∧ Model.Moderate (exShaken 5) ∧ (exShaken 5).cont = false
    ∧ (∀ b, (shakenCfg b).useBigM = true → (shakenCfg b).bigMMethod ≠ "belotti")
    ∧ (outcome (run (shakenEnv (1 / 10 ^ 13)) (shakenCfg false) (exShaken 5) 10 10)).map
        (fun o => (o.error, o.result)) = some (none, some (true, Gap.fin (2499999999 / 10000000001)))
    ∧ (outcome (run (shakenEnv (1 / 10 ^ 13)) (shakenCfg false) (exShaken 5) 10 10)).map (·.trace)
      = some ([(⊤, ⊥), ((30000000003 / 10 ^ 9 : ℚ), ⊥),
          ((30000000003 / 10 ^ 9 : ℚ), (20000000002 / 10 ^ 9 : ℚ)),
          ((25 : ℚ), (20000000002 / 10 ^ 9 : ℚ)), ((20 : ℚ), (20000000002 / 10 ^ 9 : ℚ))]
          : List (WithTop ℚ × WithBot ℚ))
    ∧ (outcome (run (shakenEnv (1 / 10 ^ 13)) (shakenCfg true) (exShaken 5) 10 10)).map
        (fun o => (o.error, o.result)) = some (none, some (true, Gap.fin (2499999999 / 10000000001)))
    ∧ (outcome (run (shakenEnv (1 / 10 ^ 13)) (shakenCfg false) (exShaken (1 / 2000)) 10 10)).map
        (fun o => (o.error, o.result.map fun q => (q.1, q.2.le (1 / 10 ^ 4))))
      = some (none, some (false, true)) :=
  ⟨shaken_contract _ (.inl rfl), (shaken_data (.inl rfl)).1, (shaken_data (.inl rfl)).2, rfl,
    fun _ _ => by simp [shakenCfg], by decide +kernel, by decide +kernel, by decide +kernel,
    by decide +kernel⟩

/-- The hypotheses of `C95_no_abort_partial` and `C94_rounded_points` are met by a moved point that is
not feasible for the partitioned problem. -/
example : IsPartition (exShaken 5).N [[0, 2], [1], [3]]
    ∧ (∀ b, (∃ D g ρ, loadPartition (exShaken 5) 3 [[0, 2], [1], [3]] = .ok D
      ∧ buildCCLP (partCI (exShaken 5) D)
        (if b then some (naiveAll (partCI (exShaken 5) D) 3) else none) [] [] (1 / 10 ^ 4) = .ok g
      ∧ GResult.NearValid wideTols g (shakenSolver cclpTols (if b then 1 / 10 ^ 9 else 1 / 10 ^ 13) g)
      ∧ (shakenSolver cclpTols (if b then 1 / 10 ^ 9 else 1 / 10 ^ 13) g).sol = some ρ
      ∧ ρ (.x 1) = 1 + (if b then 1 / 10 ^ 9 else 1 / 10 ^ 13)
      ∧ (b = true → nbViolPartsBy (exShaken 5) tol [[0, 2], [1], [3]] (fun j => ρ (.x j)) = 3))) := by
  refine ⟨⟨by decide, by decide⟩, fun b => ?_⟩
  have key : ((loadPartition (exShaken 5) 3 [[0, 2], [1], [3]]).toOption.bind fun D =>
      (buildCCLP (partCI (exShaken 5) D)
        (if b then some (naiveAll (partCI (exShaken 5) D) 3) else none) [] []
        (1 / 10 ^ 4)).toOption.bind fun g =>
      (shakenSolver cclpTols (if b then 1 / 10 ^ 9 else 1 / 10 ^ 13) g).sol.map fun ρ =>
        (ρ (.x 1), nbViolPartsBy (exShaken 5) tol [[0, 2], [1], [3]] fun j => ρ (.x j)))
      = some (1 + (if b then 1 / 10 ^ 9 else 1 / 10 ^ 13), if b then 3 else 1) := by
    cases b <;> decide +kernel
  cases hD : loadPartition (exShaken 5) 3 [[0, 2], [1], [3]] with
  | error e => rw [hD] at key; cases key
  | ok D =>
    rw [hD] at key
    simp only [Except.toOption, Option.bind_some] at key
    cases hg : buildCCLP (partCI (exShaken 5) D)
        (if b then some (naiveAll (partCI (exShaken 5) D) 3) else none) [] [] (1 / 10 ^ 4) with
    | error e => rw [hg] at key; cases key
    | ok g =>
      rw [hg] at key
      simp only [Option.bind_some] at key
      cases hs : (shakenSolver cclpTols (if b then 1 / 10 ^ 9 else 1 / 10 ^ 13) g).sol with
      | none => rw [hs] at key; cases key
      | some ρ =>
        rw [hs] at key
        simp only [Option.map_some, Option.some.injEq, Prod.mk.injEq] at key
        exact ⟨D, g, ρ, rfl, hg, NearValid_wide (shakenSolver_answers _ _ _).valid, hs, key.1,
          fun hb => by rw [key.2, if_pos hb]⟩

/-- The hypotheses of `C94_milp` are met by calls with naive big-Ms and with Song's big-Ms that report a
moved point. -/
example : (milpSolve (shakenEnv (1 / 10 ^ 9)) (exShaken 5) 1800 (1 / 10 ^ 4) true "naive").toOption.map
      (fun r => (r.vLB, r.vUB)) = some (20 + 2 / 10 ^ 8, 20)
    ∧ (milpSolve (shakenEnv (1 / 10 ^ 13)) (exShaken 5) 1800 (1 / 10 ^ 4) true "song").toOption.map
      (fun r => (r.vLB, r.vUB)) = some (20 + 2 / 10 ^ 12, 20)
    ∧ Equi (exShaken 5) ∧ 0 ≤ (exShaken 5).eps ∧ TolOk (exShaken 5) ∧ 0 < (exShaken 5).m
    ∧ 0 < (exShaken 5).n ∧ OneDecimal (exShaken 5) ∧ Model.Moderate (exShaken 5)
    ∧ NonnegC (exShaken 5) ∧ (exShaken 5).cont = false
    ∧ ∀ d g, GResult.NearValid wideTols g ((shakenEnv d).cc 0 g) :=
  have hC := shaken_contract (1 / 10 ^ 9) (.inl rfl)
  ⟨by decide +kernel, by decide +kernel, hC.equi, hC.eps, hC.tolOk, hC.m, hC.n,
    (shaken_data (.inl rfl)).1, (shaken_data (.inl rfl)).2, hC.c, rfl,
    fun _ g => NearValid_wide (shakenSolver_answers _ _ g).valid⟩

/-- **C95 (counterexample).**  With naive big-Ms and a solver whose answers are within its
tolerances, a run ends with the `AssertionError` of `Refiner.split`: the point moved by one part in
`1e9` violates more parts of the partition than `epsilon` allows, because the big-Ms relax the rows
by the moved indicators. -/
theorem C95_counterexample : ∃ (env : Env) (cfg : Cfg) (I : Inst) (s : St),
    NearTolContract env I ∧ (∀ t g, GResult.NearValid cclpTols g (env.cc t g))
    ∧ OneDecimal I ∧ Model.Moderate I ∧ I.cont = false
    ∧ cfg.useBigM = true ∧ cfg.bigMMethod = "naive"
    ∧ run env cfg I 10 10 = .ok (.error (.assertion "Refiner.py:92"), s) := by
  have h : (outcome (run (shakenEnv (1 / 10 ^ 9)) (shakenCfg true) (exShaken 5) 10 10)).map
      (·.error) = some (some (.assertion "Refiner.py:92")) := by decide +kernel
  cases hr : run (shakenEnv (1 / 10 ^ 9)) (shakenCfg true) (exShaken 5) 10 10 with
  | error e => rw [hr] at h; cases h
  | ok r =>
    obtain ⟨r, s⟩ := r
    rw [hr] at h
    cases r with
    | ok q => cases h
    | error e =>
      simp only [outcome, Option.map_some, Option.some.injEq] at h
      subst h
      exact ⟨_, _, _, s, shaken_contract _ (.inl rfl),
        fun _ g => (shakenSolver_answers _ _ g).valid, (shaken_data (.inl rfl)).1,
        (shaken_data (.inl rfl)).2, rfl, rfl, rfl, hr⟩

end Verif.Props
