import Verif.Lemmas.Attain
import Verif.Props.Knapsack
import Verif.Props.Violations

/-!
# C39, C42–C44, C47–C49: big-M coefficients
-/

open Finset

namespace Verif.Props
open Spec Model

/-! ## Naive -/

theorem naive_covers {J : CI} (hJ : ∀ s < J.nbScen, ∀ i < J.nbCon s, ∀ j < J.n, 0 ≤ J.row s i j)
    {x : Vec} (hx : InBox J.n x) : Covers J (naiveAll J J.nbScen) x := by
  intro s hs i hi
  rw [naive_at J hs hi]
  have := dot_le_sum (hJ s hs i hi) hx
  linarith

/-- **C39.** With non-negative constraint data the naive big-M relaxes every row for all points
of the box, on the original and on every partitioned instance; there is one big-M per row. -/
theorem C39_naive_valid (I : Inst) (hA : ∀ s < I.N, ∀ i < I.m, ∀ j < I.n, 0 ≤ I.A s i j) :
    (Shape (instCI I) (naiveAll (instCI I) I.N)
      ∧ ∀ x, InBox I.n x → Covers (instCI I) (naiveAll (instCI I) I.N) x)
    ∧ ∀ P, IsPartition I.N P → ∀ D, loadPartition I P.length P = .ok D →
      Shape (partCI I D) (naiveAll (partCI I D) P.length)
      ∧ ∀ x, InBox I.n x → Covers (partCI I D) (naiveAll (partCI I D) P.length) x := by
  refine ⟨⟨naive_shape _, fun x hx => naive_covers (J := instCI I) hA hx⟩, fun P hP D hD => ?_⟩
  rw [← nbScen_part hP hD]
  refine ⟨naive_shape _, fun x hx => naive_covers (fun c hc k hk j hj => ?_) hx⟩
  rw [nbScen_part hP hD] at hc
  obtain ⟨s, _, _, _, hs, hi, hr, _⟩ := partCI_row hP hD hc hk
  rw [hr j hj]; exact hA s hs _ hi j hj

/-! ## Belotti et al. -/

theorem bigMKnapsack_feas (J : CI) (vUB : ℚ) (s i : ℕ) (gap : ℚ) (ρ : V → ℚ) :
    (buildBigMKnapsack J vUB s i gap).Feas ρ ↔
      (InDom J fun j => ρ (.x j)) ∧ dot J.n J.c (fun j => ρ (.x j)) ≤ vUB := by
  unfold buildBigMKnapsack
  rw [feas_setObjective, feas_setMIPGap, feas_addConstr, feas_addVars, varX_ok]
  simp [Constr.Holds, Lin.Holds, dot]

theorem bigMKnapsack_obj (J : CI) (vUB : ℚ) (s i : ℕ) (gap : ℚ) (ρ : V → ℚ) :
    (buildBigMKnapsack J vUB s i gap).obj.eval ρ
      = dot J.n (J.row s i) (fun j => ρ (.x j)) - J.rhs s i := by
  unfold buildBigMKnapsack
  simp [GModel.setObjective, dot]

theorem bigMKnapsack_max (J : CI) (vUB : ℚ) (s i : ℕ) (gap : ℚ) :
    (buildBigMKnapsack J vUB s i gap).maximize = true := rfl

theorem bigMKnapsack_bounded {J : CI} {s i : ℕ} (hr : ∀ j < J.n, 0 ≤ J.row s i j) (vUB gap : ℚ) :
    (buildBigMKnapsack J vUB s i gap).Bounded := by
  refine ⟨∑ j ∈ range J.n, J.row s i j - J.rhs s i, fun ρ hρ => ?_⟩
  rw [if_pos (bigMKnapsack_max _ _ _ _ _), bigMKnapsack_obj]
  have := dot_le_sum hr (inDom_box ((bigMKnapsack_feas J vUB s i gap ρ).1 hρ).1)
  linarith

/-- **C42.** Belotti et al.: on non-negative data, for continuous or binary variables and any
`vUB`, the tightening succeeds and every point of the domain with objective at most `vUB`
satisfies every row relaxed by its big-M.  `J` is an original or a partitioned instance
(`nonnegCI_inst`, `nonnegCI_part`); the MIP answers are only assumed to be valid, not optimal. -/
theorem C42_belotti_valid (argsort : Argsort) (solve : GModel → GResult)
    (hsolve : ∀ g, GResult.Answers g (solve g)) (J : CI) (hJ : NonnegCI J) (vUB : ℚ) :
    ∃ Ms, runBelotti argsort solve J J.nbScen vUB = .ok Ms ∧ Shape J Ms
      ∧ ∀ x, InDom J x → dot J.n J.c x ≤ vUB → Covers J Ms x := by
  unfold runBelotti
  split
  · unfold belottiMip
    obtain ⟨Ms, h1, h2, h3⟩ := table_ok J (fun s i => do
      let r ← optimize (solve (buildBigMKnapsack J vUB s i (1 / 10 ^ 8)))
      pure r.objBnd) (fun s _ i _ =>
        ⟨_, by rw [optimize, if_neg (hsolve _).notInterrupted]; rfl⟩)
    refine ⟨Ms, h1, h2, fun x hx hv s hs i hi => ?_⟩
    have h := h3 s hs i hi
    simp only [optimize, if_neg (hsolve _).notInterrupted, bind, Except.bind, pure, Except.pure,
      Except.ok.injEq] at h
    have hb := (hsolve (buildBigMKnapsack J vUB s i (1 / 10 ^ 8))).valid.bound
      (bigMKnapsack_bounded (hJ.1 s hs i hi).2 _ _)
      (fun v => match v with | .x j => x j | _ => 0)
      ((bigMKnapsack_feas J vUB s i _ _).2 ⟨hx, hv⟩)
    rw [if_pos (bigMKnapsack_max _ _ _ _ _), bigMKnapsack_obj, h] at hb
    linarith
  · unfold belottiContinuous
    have hk := fun s (hs : s < J.nbScen) i (hi : i < J.nbCon s) =>
      C41_never_underestimates_partial argsort J.n (J.row s i) J.c (J.rhs s i) vUB hJ.2
        (fun j hj _ => (hJ.1 s hs i hi).2 j hj)
    obtain ⟨Ms, h1, h2, h3⟩ := table_ok J (fun s i =>
      solveContinuousKnapsack argsort J.n (J.row s i) (J.rhs s i) J.c vUB)
      (fun s hs i hi => (hk s hs i hi).imp fun _ h => h.1)
    refine ⟨Ms, h1, h2, fun x hx hv s hs i hi => ?_⟩
    obtain ⟨v, hv1, hv2⟩ := hk s hs i hi
    rw [h3 s hs i hi] at hv1
    cases hv1
    have := hv2 x (inDom_box hx) hv
    linarith

theorem bigMKnapsack_bnd_le {J : CI} (hJ : NonnegCI J) {s i : ℕ} (hs : s < J.nbScen)
    (hi : i < J.nbCon s) {vUB gap : ℚ} (hUB : 0 ≤ vUB) {r : GResult}
    (hr : GResult.Exact (buildBigMKnapsack J vUB s i gap) r) :
    r.objBnd ≤ ∑ j ∈ range J.n, J.row s i j - J.rhs s i := by
  obtain ⟨x, ⟨hx, hxc⟩, hmax⟩ := dom_attains J [(J.c, vUB)] (J.row s i)
    ⟨fun _ => 0, inDom_zero J, by
      intro c hc
      rw [List.mem_singleton.1 hc]
      have : dot J.n J.c (fun _ => 0) = 0 := by simp [dot]
      rw [this]; exact hUB⟩
  have hopt : (buildBigMKnapsack J vUB s i gap).Optimal
      (fun v => match v with | .x j => x j | _ => 0) := by
    refine ⟨(bigMKnapsack_feas J vUB s i _ _).2 ⟨hx, hxc (J.c, vUB) (List.mem_singleton.2 rfl)⟩,
      fun ρ hρ => ?_⟩
    obtain ⟨hd, hc⟩ := (bigMKnapsack_feas J vUB s i _ _).1 hρ
    rw [if_pos (bigMKnapsack_max _ _ _ _ _), bigMKnapsack_obj, bigMKnapsack_obj]
    have := hmax _ hd (by intro c hcm; rw [List.mem_singleton.1 hcm]; exact hc)
    exact sub_le_sub_right this _
  obtain ⟨hst, heq⟩ := hr.optimum ⟨_, hopt⟩
  obtain ⟨ρ, hρ⟩ := Option.isSome_iff_exists.1 (hr.answers.valid.optimal hst)
  obtain ⟨hf, hv⟩ := hr.answers.valid.feas ρ hρ
  have hd := ((bigMKnapsack_feas J vUB s i _ _).1 hf).1
  rw [← heq, ← hv, bigMKnapsack_obj]
  have := dot_le_sum (hJ.1 s hs i hi).2 (inDom_box hd)
  linarith

/-- **C47 (Belotti).** For a non-negative `vUB` and exact MIP answers every Belotti big-M is at
most the naive one. -/
theorem C47_belotti_le_naive (argsort : Argsort) (solve : GModel → GResult)
    (hsolve : ∀ g, GResult.Exact g (solve g)) (J : CI) (hJ : NonnegCI J) (vUB : ℚ)
    (hUB : 0 ≤ vUB) :
    ∃ Ms, runBelotti argsort solve J J.nbScen vUB = .ok Ms
      ∧ ∀ s < J.nbScen, ∀ i < J.nbCon s,
        bigMAt Ms s i ≤ bigMAt (naiveAll J J.nbScen) s i := by
  unfold runBelotti
  split
  · unfold belottiMip
    obtain ⟨Ms, h1, h2, h3⟩ := table_ok J (fun s i => do
      let r ← optimize (solve (buildBigMKnapsack J vUB s i (1 / 10 ^ 8)))
      pure r.objBnd) (fun s _ i _ =>
        ⟨_, by rw [optimize, if_neg (hsolve _).answers.notInterrupted]; rfl⟩)
    refine ⟨Ms, h1, fun s hs i hi => ?_⟩
    have h := h3 s hs i hi
    simp only [optimize, if_neg (hsolve _).answers.notInterrupted, bind, Except.bind, pure,
      Except.pure, Except.ok.injEq] at h
    rw [naive_at J hs hi, ← h]
    exact bigMKnapsack_bnd_le hJ hs hi hUB (hsolve _)
  · unfold belottiContinuous
    have hk := fun s (hs : s < J.nbScen) i (hi : i < J.nbCon s) =>
      C40_continuous_knapsack_exact argsort J.n (J.row s i) J.c (J.rhs s i) vUB
        (hJ.1 s hs i hi).2 hJ.2 hUB
    obtain ⟨Ms, h1, h2, h3⟩ := table_ok J (fun s i =>
      solveContinuousKnapsack argsort J.n (J.row s i) (J.rhs s i) J.c vUB)
      (fun s hs i hi => (hk s hs i hi).imp fun _ h => h.1)
    refine ⟨Ms, h1, fun s hs i hi => ?_⟩
    obtain ⟨v, hv1, hv2⟩ := hk s hs i hi
    rw [h3 s hs i hi] at hv1
    cases hv1
    rw [naive_at J hs hi]
    exact knapsack_le_naive (hJ.1 s hs i hi).2 hv2

/-! ## Song et al. -/

theorem updateBigM_song (argsort : Argsort) (srt : CppSort) (solve : GModel → GResult) (J : CI)
    (isPart : Bool) (nb : ℕ) (vUB : Option ℚ) (I : Inst) (partition : Option (List (List ℕ)))
    (f : ℕ → ℕ → ℕ → WithTop ℚ) (hf : cppViolations srt I = .ok f) :
    updateBigM argsort srt solve J isPart nb vUB "song" (some I) partition
      = runSong J isPart nb I f partition := by
  unfold updateBigM
  rw [if_neg (by decide), if_pos rfl]
  simp only [hf, bind, Except.bind]

theorem runSong_inst (I : Inst) (f : ℕ → ℕ → ℕ → WithTop ℚ) :
    runSong (instCI I) false I.N I f none
      = (List.range (instCI I).nbScen).mapM fun c => (List.range ((instCI I).nbCon c)).mapM fun j =>
        quantileBigM I.eps I.N ((List.range I.N).map fun sp => f c sp j) := by
  unfold runSong
  simp [pyAssert]
  rfl

theorem card_viol (I : Inst) (x : Vec) :
    (List.range I.N).countP (fun s => ¬ Sat I s x) = (viol I x).card := by
  unfold viol
  rw [List.countP_eq_length_filter, Finset.card_def, Finset.filter_val]
  show _ = (Multiset.filter _ (Multiset.range I.N)).card
  rw [← Multiset.coe_range, Multiset.filter_coe, Multiset.coe_card]

/-- **C43.** Song et al. on the original instance, for equiprobable scenarios, `epsilon >= 0` and
a non-negative matrix: if `floor(epsilon*N) + 1 < N` the tightening succeeds and every point of
the box that satisfies the chance constraint satisfies every row relaxed by its big-M; otherwise
`IndexError` is raised. -/
theorem C43_song_valid (argsort : Argsort) (srt : CppSort) (solve : GModel → GResult) (I : Inst)
    (vUB : Option ℚ) (hE : Equi I) (heps : 0 ≤ I.eps) (hm : 0 < I.m) (hn : 0 < I.n)
    (hA : ∀ s < I.N, ∀ i < I.m, ∀ j < I.n, 0 ≤ I.A s i j) :
    (⌊I.eps * I.N⌋₊ + 1 < I.N → ∃ Ms,
      updateBigM argsort srt solve (instCI I) false I.N vUB "song" (some I) none = .ok Ms
      ∧ Shape (instCI I) Ms ∧ ∀ x, InBox I.n x → Chance I x → Covers (instCI I) Ms x)
    ∧ (I.N ≤ ⌊I.eps * I.N⌋₊ + 1 →
      updateBigM argsort srt solve (instCI I) false I.N vUB "song" (some I) none
        = .error .indexError) := by
  obtain ⟨f, hf, hval⟩ := C45_cpp_violations_valid srt I hE.1 hm hn hA
  have h0 : 0 ≤ I.eps * I.N := mul_nonneg heps (by positivity)
  rw [updateBigM_song _ _ _ _ _ _ _ _ _ f hf, runSong_inst]
  constructor
  · intro hq
    have hex : ∀ c < I.N, ∀ j < I.m, _ := fun c hc j hj =>
      quantile_ok (l := (List.range I.N).map fun sp => f c sp j) h0 (by
        intro v hv
        obtain ⟨sp, hsp, rfl⟩ := List.mem_map.1 hv
        exact (hval c hc sp (List.mem_range.1 hsp) j hj).imp fun _ h => h.1)
        (by simpa using hq)
    obtain ⟨Ms, h1, h2, h3⟩ := table_ok (instCI I) (fun c j =>
      quantileBigM I.eps I.N ((List.range I.N).map fun sp => f c sp j))
      (fun c hc j hj => (hex c hc j hj).imp fun _ h => h.1)
    refine ⟨Ms, h1, h2, fun x hx hch c hc j hj => ?_⟩
    obtain ⟨M, hM1, -, hM2⟩ := hex c hc j hj
    rw [h3 c hc j hj] at hM1
    cases hM1
    by_contra hbad
    push Not at hbad
    rw [List.countP_map] at hM2
    have hle : (List.range I.N).countP ((fun v => decide (v ≤ ((bigMAt Ms c j : ℚ) : WithTop ℚ)))
        ∘ fun sp => f c sp j) ≤ (List.range I.N).countP (fun s => ¬ Sat I s x) := by
      refine List.countP_mono_left fun sp hsp hle => ?_
      simp only [Function.comp, decide_eq_true_eq] at hle
      rw [decide_eq_true_iff]
      intro hsat
      obtain ⟨q, hq1, hq2⟩ := hval c hc sp (List.mem_range.1 hsp) j hj
      rw [hq1] at hle
      have := hq2 x hx hsat
      have hle : q ≤ bigMAt Ms c j := by exact_mod_cast hle
      change I.b c j + bigMAt Ms c j < dot I.n (I.A c j) x at hbad
      linarith
    rw [card_viol] at hle
    have := (chance_iff_card I hE heps x).1 hch
    unfold kmax at this
    omega
  · intro hq
    exact table_error (instCI I) _ _ hE.1 hm (quantile_error h0 (by simpa using hq))

theorem pyMinTop_spec {l : List (WithTop ℚ)} (h : l ≠ []) :
    ∃ v ∈ l, pyMinTop l = .ok v ∧ ∀ w ∈ l, v ≤ w := by
  cases l with
  | nil => exact absurd rfl h
  | cons a l =>
    have : ∀ (l : List (WithTop ℚ)) (a : WithTop ℚ), l.foldl min a ∈ a :: l
        ∧ ∀ w ∈ a :: l, l.foldl min a ≤ w := by
      intro l
      induction l with
      | nil => intro a; simp
      | cons b l ih =>
        intro a
        obtain ⟨h1, h2⟩ := ih (min a b)
        rw [List.foldl_cons]
        refine ⟨?_, ?_⟩
        · rcases List.mem_cons.1 h1 with h | h
          · rw [h]
            rcases min_choice a b with h | h <;> rw [h] <;> simp
          · simp [h]
        · intro w hw
          rcases List.mem_cons.1 hw with rfl | hw
          · exact (h2 (min w b) (by simp)).trans (min_le_left _ _)
          · rcases List.mem_cons.1 hw with rfl | hw
            · exact (h2 (min a w) (by simp)).trans (min_le_right _ _)
            · exact h2 _ (by simp [hw])
    exact ⟨_, (this l a).1, rfl, (this l a).2⟩

/-- One entry of `run_song_et_al_big_m` on a partition. -/
def songEntry (I : Inst) (eps : ℚ) (P : List (List ℕ)) (f : ℕ → ℕ → ℕ → WithTop ℚ) (c k : ℕ) :
    PyM ℚ := do
  let subset ← pyGet P c
  let scenario ← pyGet subset (k / I.m)
  let violations ← P.mapM fun subset => pyMinTop (subset.map fun sp => f scenario sp (k % I.m))
  quantileBigM eps P.length violations

/-- What `run_song_et_al_big_m` computes for row `k` of subset `c` of a partition. -/
theorem runSong_part (I : Inst) {P : List (List ℕ)} (hP : IsPartition I.N P) {D : PartData}
    (hD : loadPartition I P.length P = .ok D) (f : ℕ → ℕ → ℕ → WithTop ℚ)
    (hfin : ∀ s < I.N, ∀ t < I.N, ∀ i < I.m, ∃ q : ℚ, f s t i = (q : WithTop ℚ))
    (h0 : 0 ≤ (partCI I D).eps * P.length)
    (hq : ⌊(partCI I D).eps * P.length⌋₊ + 1 < P.length) :
    ∃ Ms, runSong (partCI I D) true P.length I f (some P) = .ok Ms ∧ Shape (partCI I D) Ms
      ∧ ∀ c < P.length, ∀ k < (partCI I D).nbCon c,
        ∃ mins : List ℕ → ℚ,
          (∀ p ∈ P, (∃ t ∈ p, f ((P.getD c []).getD (k / I.m) 0) t (k % I.m) = (mins p : WithTop ℚ))
            ∧ ∀ t ∈ p, (mins p : WithTop ℚ) ≤ f ((P.getD c []).getD (k / I.m) 0) t (k % I.m))
          ∧ (∃ p ∈ P, bigMAt Ms c k = mins p)
          ∧ ⌊(partCI I D).eps * P.length⌋₊ + 2 ≤ P.countP fun p => mins p ≤ bigMAt Ms c k := by
  have hnb := nbScen_part hP hD
  have hrun : runSong (partCI I D) true P.length I f (some P)
      = (List.range (partCI I D).nbScen).mapM fun c =>
          (List.range ((partCI I D).nbCon c)).mapM fun j =>
            songEntry I (partCI I D).eps P f c j := by
    rw [hnb]
    unfold runSong
    simp [pyAssert]
    rfl
  rw [hrun]
  have hent : ∀ c < P.length, ∀ k < (partCI I D).nbCon c, ∃ M : ℚ, ∃ mins : List ℕ → ℚ,
      songEntry I (partCI I D).eps P f c k = .ok M
      ∧ (∀ p ∈ P, (∃ t ∈ p, f ((P.getD c []).getD (k / I.m) 0) t (k % I.m) = (mins p : WithTop ℚ))
            ∧ ∀ t ∈ p, (mins p : WithTop ℚ) ≤ f ((P.getD c []).getD (k / I.m) 0) t (k % I.m))
      ∧ (∃ p ∈ P, M = mins p)
      ∧ ⌊(partCI I D).eps * P.length⌋₊ + 2 ≤ P.countP fun p => mins p ≤ M := by
    intro c hc k hk
    obtain ⟨s, hsP, hse, hlt, hs, hi, _, _⟩ := partCI_row hP hD hc hk
    have hmin : ∀ p, ∃ q : ℚ, p ∈ P → pyMinTop (p.map fun sp => f s sp (k % I.m)) = .ok (q : WithTop ℚ)
        ∧ (∃ t ∈ p, f s t (k % I.m) = (q : WithTop ℚ)) ∧ ∀ t ∈ p, (q : WithTop ℚ) ≤ f s t (k % I.m) := by
      intro p
      by_cases hp : p ∈ P
      · obtain ⟨v, hv, hv1, hv2⟩ := pyMinTop_spec (l := p.map fun sp => f s sp (k % I.m))
          (by simpa using hP.2 p hp)
        obtain ⟨t, ht, rfl⟩ := List.mem_map.1 hv
        obtain ⟨q, hq⟩ := hfin s hs t (mem_part_lt hP hp ht) _ hi
        exact ⟨q, fun _ => ⟨hq ▸ hv1, ⟨t, ht, hq⟩, fun t' ht' =>
          hq ▸ hv2 _ (List.mem_map.2 ⟨t', ht', rfl⟩)⟩⟩
      · exact ⟨0, fun h => absurd h hp⟩
    choose mins hmins using hmin
    obtain ⟨M, hM1, hM2, hM3⟩ := quantile_ok (l := P.map fun p => (mins p : WithTop ℚ)) h0 (by
      intro v hv
      obtain ⟨p, _, rfl⟩ := List.mem_map.1 hv
      exact ⟨_, rfl⟩) (by simpa using hq)
    refine ⟨M, mins, ?_, ?_, ?_, ?_⟩
    · unfold songEntry
      rw [pyGet_of_lt [] hc]
      simp only [bind, Except.bind]
      rw [pyGet_of_lt 0 hlt, ← hse]
      simp only
      rw [mapM_ok _ _ (fun p => (mins p : WithTop ℚ)) fun p hp => (hmins p hp).1]
      exact hM1
    · intro p hp
      rw [← hse]
      exact (hmins p hp).2
    · obtain ⟨p, hp, he⟩ := List.mem_map.1 hM2
      exact ⟨p, hp, by exact_mod_cast he.symm⟩
    · rw [List.countP_map] at hM3
      refine hM3.trans (le_of_eq ?_)
      congr 1
      funext p
      simp
  obtain ⟨Ms, h1, h2, h3⟩ := table_ok (partCI I D) _ (fun c hc k hk => by
    rw [hnb] at hc
    obtain ⟨M, _, hM, _⟩ := hent c hc k hk
    exact ⟨M, hM⟩)
  refine ⟨Ms, h1, h2, fun c hc k hk => ?_⟩
  obtain ⟨M, mins, hM, hrest⟩ := hent c hc k hk
  rw [h3 c (by rw [hnb]; exact hc) k hk] at hM
  cases hM
  exact ⟨mins, hrest⟩

theorem partEps (I : Inst) {P : List (List ℕ)} (hE : Equi I) (hP : IsPartition I.N P)
    {D : PartData} (hD : loadPartition I P.length P = .ok D) :
    (partCI I D).eps * P.length = I.eps * I.N := by
  have hpos : ∀ s < I.N, 0 < I.proba s := fun s hs => by
    rw [hE.2 s hs]
    have : (0 : ℚ) < I.N := by exact_mod_cast hE.1
    positivity
  obtain ⟨D', hD', _, _, _, _, hq⟩ := C09_partition_probabilities I P hE.1 hP hpos
  rw [hD] at hD'
  cases hD'
  exact (hq hE).2

/-- **C44.** `update_big_M(method='song')` on a partition with more than `floor(epsilon*N) + 1`
subsets succeeds, and every point of the box violating at most `floor(epsilon*N)` subsets
satisfies every row of every subset relaxed by its big-M. -/
theorem C44_song_partition_valid (argsort : Argsort) (srt : CppSort) (solve : GModel → GResult)
    (I : Inst) (vUB : Option ℚ) (hE : Equi I) (heps : 0 ≤ I.eps) (hm : 0 < I.m) (hn : 0 < I.n)
    (hA : ∀ s < I.N, ∀ i < I.m, ∀ j < I.n, 0 ≤ I.A s i j) (P : List (List ℕ))
    (hP : IsPartition I.N P) (D : PartData) (hD : loadPartition I P.length P = .ok D)
    (hK : ⌊I.eps * I.N⌋₊ + 1 < P.length) :
    ∃ Ms, updateBigM argsort srt solve (partCI I D) true P.length vUB "song" (some I) (some P)
        = .ok Ms
      ∧ Shape (partCI I D) Ms
      ∧ ∀ x, InBox I.n x → nbViolParts I P x ≤ kmax I → Covers (partCI I D) Ms x := by
  obtain ⟨f, hf, hval⟩ := C45_cpp_violations_valid srt I hE.1 hm hn hA
  have he := partEps I hE hP hD
  have h0 : 0 ≤ I.eps * I.N := mul_nonneg heps (by positivity)
  rw [updateBigM_song _ _ _ _ _ _ _ _ _ f hf]
  obtain ⟨Ms, h1, h2, h3⟩ := runSong_part I hP hD f
    (fun s hs t ht i hi => (hval s hs t ht i hi).imp fun _ h => h.1) (he ▸ h0) (he ▸ hK)
  refine ⟨Ms, h1, h2, fun x hx hv c hc k hk => ?_⟩
  rw [nbScen_part hP hD] at hc
  obtain ⟨s, _, hse, _, hs, hi, hr, hb⟩ := partCI_row hP hD hc hk
  obtain ⟨mins, hm1, _, hm3⟩ := h3 c hc k hk
  rw [he] at hm3
  by_contra hbad
  push Not at hbad
  have hdot : dot (partCI I D).n ((partCI I D).row c k) x = dot I.n (I.A s (k % I.m)) x :=
    Finset.sum_congr rfl fun j hj => by rw [hr j (Finset.mem_range.1 hj)]
  rw [hdot, hb] at hbad
  have hle : (P.countP fun p => mins p ≤ bigMAt Ms c k) ≤ nbViolParts I P x := by
    refine List.countP_mono_left fun p hp hle => ?_
    rw [decide_eq_true_iff] at hle ⊢
    intro hsat
    obtain ⟨⟨t, ht, hft⟩, _⟩ := hm1 p hp
    rw [← hse] at hft
    obtain ⟨q, hq1, hq2⟩ := hval s hs t (mem_part_lt hP hp ht) _ hi
    have := hq2 x hx (hsat t ht)
    rw [hq1] at hft
    have : q = mins p := by exact_mod_cast hft
    linarith
  unfold kmax at hv
  omega

/-! ## Song against naive -/

/-- On one-decimal data with two or more constraints per scenario no entry of the compiled
violations exceeds the naive big-M. -/
theorem cpp_le_naive (srt : CppSort) (I : Inst) (hN : 0 < I.N) (hm : 2 ≤ I.m) (hn : 0 < I.n)
    (hI : OneDecimal I) :
    ∃ f, cppViolations srt I = .ok f ∧ ∀ s < I.N, ∀ t < I.N, ∀ i < I.m,
      f s t i ≤ ((∑ j ∈ range I.n, I.A s i j - I.b s i : ℚ) : WithTop ℚ) := by
  obtain ⟨hI1, hI2⟩ := id hI
  have hex : ∀ s i t l, ∃ v, s < I.N → i < I.m → t < I.N → l < I.m →
      IsKnapsackMax I.n (I.A s i) (I.A t l) (I.b s i) (I.b t l) v := by
    intro s i t l
    by_cases h : s < I.N ∧ i < I.m ∧ t < I.N ∧ l < I.m
    · obtain ⟨hs, hi, ht, hl⟩ := h
      obtain ⟨v, _, h2⟩ := C40_continuous_knapsack_exact .default I.n (I.A s i) (I.A t l)
        (I.b s i) (I.b t l) (hI1 s hs i hi).2 (hI1 t ht l hl).2 (hI1 t ht l hl).1
      exact ⟨v, fun _ _ _ _ => h2⟩
    · exact ⟨0, fun a b c d => absurd ⟨a, b, c, d⟩ h⟩
  choose K hK using hex
  refine ⟨_, if_neg (by omega), fun s hs t ht i hi => ?_⟩
  have hfold := (exact_fold srt I hI K (fun s hs i hi t ht l hl => hK s i t l hs hi ht hl)
    (cppOps1 I.N I.n I.m ++ cppOps2 I.N I.n I.m) (cpp_ops_ok I)
    { viols := cppInit I.N I.m, indices := List.range I.n } (List.Perm.refl _) ht hi hs _).1
    (le_refl _)
  have hgo : ∀ l < I.m, (mkOp I.N I.n I.m s i t l ∈ cppOps1 I.N I.n I.m ++ cppOps2 I.N I.n I.m
      ∨ mkOp I.N I.n I.m t l s i ∈ cppOps1 I.N I.n I.m ++ cppOps2 I.N I.n I.m) → _ ≤ ((∑ j ∈ range I.n, I.A s i j - I.b s i : ℚ) : WithTop ℚ) :=
    fun l hl hop => (hfold.2 l hl hop).trans (by
      exact_mod_cast knapsack_le_naive (hI1 s hs i hi).2 (hK s i t l hs hi ht hl))
  by_cases hst : s = t
  · subst hst
    obtain ⟨l, hl, hne⟩ : ∃ l < I.m, l ≠ i := by
      by_cases h : i = 0
      · exact ⟨1, by omega, by omega⟩
      · exact ⟨0, by omega, by omega⟩
    refine hgo l hl ?_
    rcases Nat.lt_or_gt_of_ne hne with h | h
    · exact Or.inr ((mem_cppOps _ _ _ _).2 (Or.inl ⟨s, l, i, hs, h, hi, rfl⟩))
    · exact Or.inl ((mem_cppOps _ _ _ _).2 (Or.inl ⟨s, i, l, hs, h, hl, rfl⟩))
  · refine hgo 0 (by omega) ?_
    rcases Nat.lt_or_gt_of_ne hst with h | h
    · exact Or.inl ((mem_cppOps _ _ _ _).2 (Or.inr ⟨s, t, i, 0, h, ht, hi, by omega, rfl⟩))
    · exact Or.inr ((mem_cppOps _ _ _ _).2 (Or.inr ⟨t, s, 0, i, h, hs, by omega, hi, rfl⟩))

/-- Full statement of **C47** for Song et al. on the original instance. -/
def SongLeNaive (I : Inst) : Prop :=
  ∀ (argsort : Argsort) (srt : CppSort) (solve : GModel → GResult) (vUB : Option ℚ) (Ms : _),
    updateBigM argsort srt solve (instCI I) false I.N vUB "song" (some I) none = .ok Ms →
    ∀ s < I.N, ∀ i < I.m, bigMAt Ms s i ≤ bigMAt (naiveAll (instCI I) I.N) s i

/-- Full statement of **C47** for Song et al. on a partition. -/
def SongPartLeNaive (I : Inst) (P : List (List ℕ)) : Prop :=
  ∀ (argsort : Argsort) (srt : CppSort) (solve : GModel → GResult) (vUB : Option ℚ) (D : _) (Ms : _),
    loadPartition I P.length P = .ok D →
    updateBigM argsort srt solve (partCI I D) true P.length vUB "song" (some I) (some P) = .ok Ms →
    ∀ c < P.length, ∀ k < (partCI I D).nbCon c,
      bigMAt Ms c k ≤ bigMAt (naiveAll (partCI I D) P.length) c k

/-- **C47 (Song, partial).** On non-negative one-decimal data with at least two constraints per
scenario no Song big-M exceeds the naive one, on the original instance and on every partition
with more than `floor(epsilon*N) + 1` subsets.  Missing: one constraint per scenario, for which
it is false, and data off the one-decimal grid, for which it is false too. -/
theorem C47_song_le_naive_partial (I : Inst) (hE : Equi I) (heps : 0 ≤ I.eps) (hm : 2 ≤ I.m)
    (hn : 0 < I.n) (hI : OneDecimal I) :
    SongLeNaive I ∧ ∀ P, IsPartition I.N P → ⌊I.eps * I.N⌋₊ + 1 < P.length → SongPartLeNaive I P := by
  have hA : ∀ s < I.N, ∀ i < I.m, ∀ j < I.n, 0 ≤ I.A s i j := fun s hs i hi => (hI.1 s hs i hi).2
  have h0 : 0 ≤ I.eps * I.N := mul_nonneg heps (by positivity)
  refine ⟨fun argsort srt solve vUB Ms hMs s hs i hi => ?_, fun P hP hK argsort srt solve vUB D Ms hD hMs c hc k hk => ?_⟩
  · obtain ⟨f, hf, hle⟩ := cpp_le_naive srt I hE.1 hm hn hI
    obtain ⟨f', hf', hval⟩ := C45_cpp_violations_valid srt I hE.1 (by omega) hn hA
    rw [hf] at hf'; cases hf'
    rw [updateBigM_song _ _ _ _ _ _ _ _ _ f hf, runSong_inst] at hMs
    have hq : ⌊I.eps * I.N⌋₊ + 1 < I.N := by
      by_contra hq
      push Not at hq
      rw [table_error (instCI I) _ .indexError hE.1 (by show 0 < I.m; omega)
        (quantile_error h0 (by simpa using hq))] at hMs
      cases hMs
    obtain ⟨M, hM1, hM2, _⟩ := quantile_ok (l := (List.range I.N).map fun sp => f s sp i) h0 (by
        intro v hv
        obtain ⟨sp, hsp, rfl⟩ := List.mem_map.1 hv
        exact (hval s hs sp (List.mem_range.1 hsp) i hi).imp fun _ h => h.1)
        (by simpa using hq)
    have hrow := (mapM_range_inv _ _ Ms [] hMs).2 s hs
    have hent := (mapM_range_inv _ _ _ 0 hrow).2 i hi
    rw [hM1] at hent
    have hent : M = bigMAt Ms s i := by injection hent
    have hnaive : bigMAt (naiveAll (instCI I) I.N) s i = _ := naive_at (instCI I) hs hi
    rw [hnaive, ← hent]
    obtain ⟨sp, hsp, he⟩ := List.mem_map.1 hM2
    have := hle s hs sp (List.mem_range.1 hsp) i hi
    rw [he] at this
    exact_mod_cast this
  · obtain ⟨f, hf, hle⟩ := cpp_le_naive srt I hE.1 hm hn hI
    obtain ⟨f', hf', hval⟩ := C45_cpp_violations_valid srt I hE.1 (by omega) hn hA
    rw [hf] at hf'; cases hf'
    have he := partEps I hE hP hD
    rw [updateBigM_song _ _ _ _ _ _ _ _ _ f hf] at hMs
    obtain ⟨Ms', h1, h2, h3⟩ := runSong_part I hP hD f
      (fun s hs t ht i hi => (hval s hs t ht i hi).imp fun _ h => h.1) (he ▸ h0) (he ▸ hK)
    rw [h1] at hMs
    cases hMs
    obtain ⟨s, _, hse, _, hs, hi, hr, hb⟩ := partCI_row hP hD hc hk
    obtain ⟨mins, hm1, ⟨p, hp, hmp⟩, -⟩ := h3 c hc k hk
    obtain ⟨⟨t, ht, hft⟩, _⟩ := hm1 p hp
    rw [← nbScen_part hP hD, naive_at _ (by rw [nbScen_part hP hD]; exact hc) hk, hmp, hb]
    have hsum : ∑ j ∈ range (partCI I D).n, (partCI I D).row c k j
        = ∑ j ∈ range I.n, I.A s (k % I.m) j :=
      Finset.sum_congr rfl fun j hj => hr j (Finset.mem_range.1 hj)
    rw [hsum]
    have := hle s hs t (mem_part_lt hP hp ht) _ hi
    rw [← hse] at hft
    rw [hft] at this
    exact_mod_cast this

/-- Two copies of the single constraint `0.1 x <= 1`. -/
def exSongNaive : Inst :=
  { n := 1, N := 2, m := 1, A := fun _ _ _ => 1 / 10, b := fun _ _ => 1, c := fun _ => 1
    proba := fun _ => 1 / 2, eps := 0, cont := true }

/-- **C47 is false** for Song et al. with one constraint per scenario: the diagonal violation is
0 although the constraint is always slack, so the Song big-M is 0 and the naive one -0.9. -/
theorem C47_song_one_row_counterexample : OneDecimal exSongNaive ∧ ¬ SongLeNaive exSongNaive := by
  constructor
  · refine ⟨by unfold NonnegAb; decide +kernel, fun s _ i _ => ⟨⟨10, ?_⟩, fun j _ => ⟨1, ?_⟩⟩⟩
    · norm_num [exSongNaive]
    · norm_num [exSongNaive]
  · intro h
    obtain ⟨solve, _⟩ := GResult.exists_exact
    have := h .default .default solve none [[0], [0]] (by
      obtain ⟨f, hf⟩ : ∃ f, cppViolations .default exSongNaive = .ok f := ⟨_, rfl⟩
      rw [updateBigM_song _ _ _ _ _ _ _ _ _ _ rfl]
      decide +kernel) 0 (by decide) 0 (by decide)
    revert this
    decide +kernel

/-- Two scenarios with two copies of `2e-6 x <= 2.5e-6` each. -/
def exSongFine : Inst :=
  { n := 1, N := 2, m := 2, A := fun _ _ _ => 2 / 10 ^ 6, b := fun _ _ => 5 / (2 * 10 ^ 6)
    c := fun _ => 1, proba := fun _ => 1 / 2, eps := 0, cont := true }

/-- **C47 is false** for Song et al. off the one-decimal grid, also with several constraints per
scenario: within the tolerance of the capacity test an item is packed more than once, so the Song
big-M is 0 and the naive one -5e-7. -/
theorem C47_song_fine_data_counterexample :
    Equi exSongFine ∧ NonnegAb exSongFine ∧ ¬ SongLeNaive exSongFine := by
  refine ⟨⟨by decide, fun s hs => ?_⟩, by unfold NonnegAb; decide +kernel, ?_⟩
  · norm_num [exSongFine]
  · intro h
    obtain ⟨solve, _⟩ := GResult.exists_exact
    have := h .default .default solve none [[0, 0], [0, 0]] (by
      obtain ⟨f, hf⟩ : ∃ f, cppViolations .default exSongFine = .ok f := ⟨_, rfl⟩
      rw [updateBigM_song _ _ _ _ _ _ _ _ _ _ rfl]
      decide +kernel) 0 (by decide) 0 (by decide)
    revert this
    decide +kernel

/-! ## Equivalence with indicator constraints -/

/-- The big-M model and the indicator model have the same objective and the same feasible
assignments of `x` and `z`, for every warm start and every set of pruned indicators. -/
def SameSolutions (J : CI) (Ms : List (List ℚ)) : Prop :=
  ∀ (zStart prune : List ℕ) (gap : ℚ), (∀ s ∈ zStart, s < J.nbScen) → (∀ s ∈ prune, s < J.nbScen) →
    ∃ g g', buildCCLP J (some Ms) zStart prune gap = .ok g
      ∧ buildCCLP J none zStart prune gap = .ok g'
      ∧ g.obj = g'.obj ∧ g.maximize = true ∧ g'.maximize = true
      ∧ ∀ ρ, g.Feas ρ ↔ g'.Feas ρ

/-- Any big-M valid for the points that satisfy the chance constraint gives an equivalent
model. -/
theorem sameSolutions_of_valid {J : CI} (hJ : NonnegCI J) {Ms : List (List ℚ)} (hS : Shape J Ms)
    (hvalid : ∀ x z, InDom J x → ZOk J z x → Covers J Ms x) : SameSolutions J Ms := by
  intro zStart prune gap hz hp
  obtain ⟨g, hg, ho, hmx, _, hf⟩ := buildCCLP_ok J (some Ms) (by rintro _ ⟨⟩; exact hS) zStart prune
    gap hz hp
  obtain ⟨g', hg', ho', hmx', _, hf'⟩ := buildCCLP_ok J none (by rintro _ ⟨⟩) zStart prune gap hz hp
  refine ⟨g, g', hg, hg', ho.trans ho'.symm, hmx, hmx', fun ρ => ?_⟩
  rw [hf, hf']
  refine and_congr_right fun hbase => ?_
  obtain ⟨hx, hzb, hch, _⟩ := hbase
  constructor
  · intro hrows s hs hz1 i hi
    by_cases hM : bigMAt Ms s i ≥ -(1 / 10 ^ 6)
    · have := hrows s hs i hi
      rw [BigMRow, if_pos hM, hz1] at this
      linarith
    · by_cases hc : J.cont = true
      · refine skipped_rows_hold hJ hc hvalid hx hzb hch (fun s hs hz i hi hM => ?_) hs hi hM
        have := hrows s hs i hi
        rw [BigMRow, if_pos hM, hz] at this
        linarith
      · have := hrows s hs i hi
        rw [BigMRow, if_neg hM] at this
        have := this.resolve_left hc
        push Not at hM
        linarith [show (0 : ℚ) < 1 / 10 ^ 6 by norm_num]
  · intro hind s hs i hi
    have hcov := hvalid _ _ hx ⟨hzb, hch, hind⟩ s hs i hi
    unfold BigMRow
    split
    · show _ ≤ _ + _ * (1 - ρ (.z s))
      rcases hzb s hs with h0 | h1
      · rw [h0]; linarith
      · rw [h1]
        have := hind s hs h1 i hi
        linarith
    · exact Or.inr hcov

/-- **C49.** Non-negative data, any valid big-M: every assignment feasible for the built model,
which for continuous variables leaves out the rows with big-M below `-1e-6`, satisfies all big-M
rows, also the ones left out. -/
theorem C49_skipping_is_exact (J : CI) (hJ : NonnegCI J)
    (Ms : List (List ℚ)) (hS : Shape J Ms)
    (hvalid : ∀ x z, InDom J x → ZOk J z x → Covers J Ms x)
    (zStart prune : List ℕ) (gap : ℚ) (g : GModel)
    (hg : buildCCLP J (some Ms) zStart prune gap = .ok g) (ρ : V → ℚ) (hρ : g.Feas ρ) :
    ∀ s < J.nbScen, ∀ i < J.nbCon s,
      dot J.n (J.row s i) (fun j => ρ (.x j)) ≤ J.rhs s i + bigMAt Ms s i * (1 - ρ (.z s)) := by
  have hz : ∀ s ∈ zStart, s < J.nbScen := by
    by_contra h
    push Not at h
    obtain ⟨s, h1, h2⟩ := h
    unfold buildCCLP at hg
    rw [if_pos ⟨s, h1, by omega⟩] at hg
    cases hg
  have hp : ∀ s ∈ prune, s < J.nbScen := by
    by_contra h
    push Not at h
    obtain ⟨s, h1, h2⟩ := h
    unfold buildCCLP at hg
    rw [if_neg (by push Not; exact hz)] at hg
    simp only [allBigM_ok hS, if_pos (show ∃ s ∈ prune, ¬ s < J.nbScen from ⟨s, h1, by omega⟩),
      bind, Except.bind] at hg
    cases hg
  obtain ⟨g1, g2, hg1, hg2, _, _, _, hsame⟩ := sameSolutions_of_valid hJ hS hvalid zStart prune gap hz hp
  obtain ⟨g', hg', _, _, _, hf'⟩ := buildCCLP_ok J none (by rintro _ ⟨⟩) zStart prune gap hz hp
  rw [hg] at hg1; cases hg1
  rw [hg2] at hg'; cases hg'
  obtain ⟨⟨hx, hzb, hch, _⟩, hind⟩ := (hf' ρ).1 ((hsame ρ).1 hρ)
  intro s hs i hi
  rcases hzb s hs with h0 | h1
  · rw [h0]
    have := hvalid _ _ hx ⟨hzb, hch, hind⟩ s hs i hi
    linarith
  · rw [h1]
    have := hind s hs h1 i hi
    linarith

/-- **C48 (naive).** -/
theorem C48_naive_equivalent (J : CI) (hJ : NonnegCI J) : SameSolutions J (naiveAll J J.nbScen) :=
  sameSolutions_of_valid hJ (naive_shape J) fun _ _ hx _ =>
    naive_covers (fun s hs i hi => (hJ.1 s hs i hi).2) (inDom_box hx)

/-- **C48 (Belotti).**  Provided no point satisfying the chance constraint has an objective
above `vUB`. -/
theorem C48_belotti_equivalent (argsort : Argsort) (solve : GModel → GResult)
    (hsolve : ∀ g, GResult.Answers g (solve g)) (J : CI) (hJ : NonnegCI J) (vUB : ℚ)
    (hopt : ∀ x z, InDom J x → ZOk J z x → dot J.n J.c x ≤ vUB) :
    ∃ Ms, runBelotti argsort solve J J.nbScen vUB = .ok Ms ∧ SameSolutions J Ms := by
  obtain ⟨Ms, h1, h2, h3⟩ := C42_belotti_valid argsort solve hsolve J hJ vUB
  exact ⟨Ms, h1, sameSolutions_of_valid hJ h2 fun x z hx hz => h3 x hx (hopt x z hx hz)⟩

theorem zOk_chance {I : Inst} (hE : Equi I) {z : ℕ → ℚ} {x : Vec} (h : ZOk (instCI I) z x) :
    Chance I x := by
  obtain ⟨hz, hch, hrows⟩ := h
  have hN : (0 : ℚ) < I.N := by exact_mod_cast hE.1
  have hp : ∀ s < I.N, 0 ≤ I.proba s := fun s hs => by rw [hE.2 s hs]; positivity
  have hone : ∑ s ∈ range I.N, I.proba s = 1 := by
    rw [Finset.sum_congr rfl fun s hs => hE.2 s (Finset.mem_range.1 hs)]
    simp [hN.ne']
  change ∑ s ∈ range I.N, I.proba s * z s ≥ 1 - I.eps at hch
  unfold Chance viol
  rw [Finset.sum_filter]
  have : ∑ s ∈ range I.N, (if ¬ Sat I s x then I.proba s else 0)
      ≤ ∑ s ∈ range I.N, (I.proba s - I.proba s * z s) := by
    refine Finset.sum_le_sum fun s hs => ?_
    have hs := Finset.mem_range.1 hs
    rcases hz s hs with h0 | h1
    · rw [h0]; split
      · linarith
      · linarith [hp s hs]
    · have hsat : Sat I s x := hrows s hs h1
      rw [if_neg (not_not.2 hsat), h1]; linarith
  rw [Finset.sum_sub_distrib, hone] at this
  linarith

theorem zOk_partFeas {I : Inst} (hE : Equi I) (heps : 0 ≤ I.eps) {P : List (List ℕ)}
    (hP : IsPartition I.N P) {D : PartData} (hD : loadPartition I P.length P = .ok D)
    {z : ℕ → ℚ} {x : Vec} (h : ZOk (partCI I D) z x) : nbViolParts I P x ≤ kmax I := by
  obtain ⟨hz, hch, hrows⟩ := h
  rw [nbScen_part hP hD] at hz hch hrows
  have hc := (C12_chance_constraint_count I P hE heps hP D hD z hz).1 (by
    simpa only [mul_comm] using hch)
  refine le_trans ?_ hc
  have hcount : nbViolParts I P x
      = ((range P.length).filter fun c => ¬ SatAll I (P.getD c []) x).card := by
    unfold nbViolParts
    rw [Finset.card_filter, List.countP_eq_length_filter]
    have := sum_range_getD P [] fun p => if ¬ SatAll I p x then 1 else 0
    rw [this]
    induction P with
    | nil => rfl
    | cons p P ih =>
      clear ih
      have : ∀ P : List (List ℕ), (P.filter fun p => decide (¬ SatAll I p x)).length
          = (P.map fun p => if ¬ SatAll I p x then 1 else 0).sum := by
        intro P
        induction P with
        | nil => rfl
        | cons p P ih =>
          rw [List.filter_cons, List.map_cons, List.sum_cons, ← ih]
          by_cases h : SatAll I p x <;> simp [h, add_comm]
      exact this _
  rw [hcount]
  refine Finset.card_le_card fun c hc => ?_
  rw [Finset.mem_filter, Finset.mem_range] at hc ⊢
  refine ⟨hc.1, ?_⟩
  rcases hz c hc.1 with h0 | h1
  · exact h0
  · exact absurd ((C10_subset_rows I P hP.2 D hD c hc.1).2 x |>.1 (hrows c hc.1 h1)) hc.2

/-- **C48 (Song).**  On the original instance and on partitions, whenever the method does not
raise `IndexError` (C43, C44). -/
theorem C48_song_equivalent (argsort : Argsort) (srt : CppSort) (solve : GModel → GResult)
    (I : Inst) (vUB : Option ℚ) (hE : Equi I) (heps : 0 ≤ I.eps) (hm : 0 < I.m) (hn : 0 < I.n)
    (hI : NonnegAb I) (hc : NonnegC I) :
    (⌊I.eps * I.N⌋₊ + 1 < I.N → ∃ Ms,
      updateBigM argsort srt solve (instCI I) false I.N vUB "song" (some I) none = .ok Ms
      ∧ SameSolutions (instCI I) Ms)
    ∧ ∀ P, IsPartition I.N P → ⌊I.eps * I.N⌋₊ + 1 < P.length →
      ∀ D, loadPartition I P.length P = .ok D → ∃ Ms,
      updateBigM argsort srt solve (partCI I D) true P.length vUB "song" (some I) (some P) = .ok Ms
      ∧ SameSolutions (partCI I D) Ms := by
  have hA : ∀ s < I.N, ∀ i < I.m, ∀ j < I.n, 0 ≤ I.A s i j := fun s hs i hi => (hI s hs i hi).2
  refine ⟨fun hq => ?_, fun P hP hK D hD => ?_⟩
  · obtain ⟨Ms, h1, h2, h3⟩ :=
      (C43_song_valid argsort srt solve I vUB hE heps hm hn hA).1 hq
    exact ⟨Ms, h1, sameSolutions_of_valid (nonnegCI_inst hI hc) h2 fun x z hx hz =>
      h3 x (inX_box hx) (zOk_chance hE hz)⟩
  · obtain ⟨Ms, h1, h2, h3⟩ :=
      C44_song_partition_valid argsort srt solve I vUB hE heps hm hn hA P hP D hD hK
    exact ⟨Ms, h1, sameSolutions_of_valid (nonnegCI_part hI hc hP hD) h2 fun x z hx hz =>
      h3 x (inX_box hx) (zOk_partFeas hE heps hP hD hz)⟩

/-! ## Examples -/

/-- Four equiprobable scenarios, two items, two rows each, `epsilon = 1/4`. -/
def exBigM : Inst :=
  { n := 2, N := 4, m := 2, A := fun s i j => (1 + s + 2 * i + 3 * j : ℚ) / 10
    b := fun s i => (2 + s * i : ℚ) / 10, c := fun j => 1 + j, proba := fun _ => 1 / 4
    eps := 1 / 4, cont := true }

/-- Two binary items, otherwise the same. -/
def exBigMBin : Inst := { exBigM with cont := false }

theorem exBigM_equi : Equi exBigM := ⟨by decide, fun s _ => by norm_num [exBigM]⟩

theorem exBigM_grid : OneDecimal exBigM := by
  refine ⟨by unfold NonnegAb; decide +kernel, fun s _ i _ => ⟨⟨2 + s * i, ?_⟩, fun j _ =>
    ⟨1 + s + 2 * i + 3 * j, ?_⟩⟩⟩ <;> norm_num [exBigM]

theorem exBigM_nonneg : NonnegCI (instCI exBigM) :=
  nonnegCI_inst exBigM_grid.1 (by unfold NonnegC; decide +kernel)

theorem exBigMBin_nonneg : NonnegCI (instCI exBigMBin) := exBigM_nonneg

/-- Hypotheses of C39, C43 and `C47_song_le_naive_partial`; the quantile index is in range. -/
example : Equi exBigM ∧ 0 ≤ exBigM.eps ∧ 2 ≤ exBigM.m ∧ 0 < exBigM.n ∧ OneDecimal exBigM
    ∧ ⌊exBigM.eps * exBigM.N⌋₊ + 1 < exBigM.N :=
  ⟨exBigM_equi, by decide +kernel, by decide, by decide, exBigM_grid, by decide +kernel⟩

/-- Song is much tighter than naive here. -/
example : updateBigM .default .default (fun _ => ⟨3, none, 0, 0⟩) (instCI exBigM) false exBigM.N
      none "song" (some exBigM) none
      = .ok [[-1 / 15, 0], [-1 / 30, -1 / 30], [0, -1 / 15], [1 / 15, -1 / 10]]
    ∧ naiveAll (instCI exBigM) exBigM.N
      = [[3 / 10, 7 / 10], [1 / 2, 4 / 5], [7 / 10, 9 / 10], [9 / 10, 1]] := by
  constructor
  · rw [updateBigM_song _ _ _ _ _ _ _ _ _ _ rfl]
    decide +kernel
  · decide +kernel

/-- Hypotheses of C44 and of the partition parts: three subsets, `floor(epsilon*N) + 1 = 2`. -/
example : IsPartition exBigM.N [[0, 3], [1], [2]]
    ∧ ⌊exBigM.eps * exBigM.N⌋₊ + 1 < [[0, 3], [1], [2]].length
    ∧ ∃ D, loadPartition exBigM 3 [[0, 3], [1], [2]] = .ok D :=
  ⟨⟨by decide, by decide⟩, by decide +kernel, _, rfl⟩

/-- Hypotheses of C42, `C47_belotti_le_naive` and the `C48` theorems, continuous and binary; a
solver meeting the contract exists, and the sum of the costs bounds every objective. -/
example : NonnegCI (instCI exBigM) ∧ NonnegCI (instCI exBigMBin)
    ∧ (∃ solve : GModel → GResult, ∀ g, GResult.Exact g (solve g))
    ∧ ∀ x z, InDom (instCI exBigMBin) x → ZOk (instCI exBigMBin) z x →
        dot 2 exBigM.c x ≤ ∑ j ∈ range 2, exBigM.c j :=
  ⟨exBigM_nonneg, exBigMBin_nonneg, GResult.exists_exact, fun _ _ hx _ =>
    dot_le_sum exBigMBin_nonneg.2 (inDom_box hx)⟩

/-- C49 on a model in which both rows are left out. -/
example : NonnegCI (instCI exSongNaive) ∧ Shape (instCI exSongNaive) [[-9 / 10], [-9 / 10]]
    ∧ (∀ x z, InDom (instCI exSongNaive) x → ZOk (instCI exSongNaive) z x →
        Covers (instCI exSongNaive) [[-9 / 10], [-9 / 10]] x)
    ∧ ∃ g, buildCCLP (instCI exSongNaive) (some [[-9 / 10], [-9 / 10]]) [] [] 0 = .ok g
      ∧ g.constrs.length = 1 := by
  have h : naiveAll (instCI exSongNaive) 2 = [[-9 / 10], [-9 / 10]] := by decide +kernel
  have hJ : NonnegCI (instCI exSongNaive) :=
    nonnegCI_inst (by unfold NonnegAb; decide +kernel) (by unfold NonnegC; decide +kernel)
  rw [← h]
  exact ⟨hJ, naive_shape (instCI exSongNaive), fun x z hx _ => naive_covers
    (fun s hs i hi => (hJ.1 s hs i hi).2) (inDom_box hx), _, rfl, by decide +kernel⟩

end Verif.Props
