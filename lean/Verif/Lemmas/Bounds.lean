import Verif.Lemmas.Bracket

/-!
# The invariant of the main loop: upper and lower bound
-/

namespace Verif.Model
open Spec Props Finset

variable {env : Env} {cfg : Cfg} {I : Inst} {rounds : ℕ}

/-- The invariant of the main loop. -/
structure LInv (env : Env) (cfg : Cfg) (I : Inst) (rounds : ℕ) (s : St) : Prop where
  shape : SShape env I s
  size : kmax I + 1 ≤ s.partition.length
  br : Bracket I s
  ub : ∀ y, PartFeas I s.partition y → (obj I y : WithTop ℚ) ≤ s.vUB
  det : ∃ cuts, DetInv (instCI I) s.lb.deter s.lb.scenarios cuts
    ∧ ∀ q ∈ cuts, ((q : ℚ) : WithBot ℚ) ≤ s.vLB
  counter : s.lb.counter.length = I.N
  mem : SplitHistory env.norm I s.memory
  zlen : ∀ z, s.zUB = some z → z.length ≤ s.partition.length
  ready : Strong env cfg I rounds → s.partition.length = kmax I + 1
    ∨ (s.zUB.isSome ∧ s.xUB.isSome ∧ s.vUB ≠ ⊤)

/-- The attributes it depends on, and the last check. -/
def key (s : St) : (List (List ℕ) × ℕ × PartData × List ℚ × List Vec) × Option CheckOut
    × (WithTop ℚ × WithBot ℚ × Option Vec × List (WithTop ℚ × WithBot ℚ)) × LBState × Memory
    × Option (List ℚ) × Option Vec :=
  ((s.partition, s.nbSubsets, s.part, s.costs, s.sols), s.feas, bnds s, s.lb, s.memory, s.zUB, s.xUB)

theorem LInv.congr {s s' : St} (h : LInv env cfg I rounds s) (hk : key s' = key s) :
    LInv env cfg I rounds s' := by
  simp only [key, bnds, Prod.mk.injEq] at hk
  obtain ⟨⟨a1, a2, a3, a4, a5⟩, a6, ⟨b1, b2, b3, b4⟩, a7, a8, a9, a10⟩ := hk
  refine ⟨⟨?_, ?_, ?_, ?_⟩, ?_, h.br.congr ?_, ?_, ?_, ?_, ?_, ?_, ?_⟩
  · rw [a1]; exact h.shape.part
  · rw [a1, a2]; exact h.shape.nb
  · rw [a1, a3]; exact h.shape.load
  · rw [a1, a4, a5]; exact h.shape.aligned
  · rw [a1]; exact h.size
  · simp only [bnds, Prod.mk.injEq]; exact ⟨b1, b2, b3, b4⟩
  · rw [a1, b1]; exact h.ub
  · rw [a7, b2]; exact h.det
  · rw [a7]; exact h.counter
  · rw [a8]; exact h.mem
  · rw [a9, a1]; exact h.zlen
  · rw [a1, a9, a10, b1]; exact h.ready

theorem key_bnds {s s' : St} (h : key s' = key s) : bnds s' = bnds s := by
  simp only [key, Prod.mk.injEq] at h
  exact h.2.2.1

theorem key_part {s s' : St} (h : key s' = key s) : s'.partition = s.partition := by
  simp only [key, Prod.mk.injEq] at h
  exact h.1.1

theorem key_feas {s s' : St} (h : key s' = key s) : s'.feas = s.feas := by
  simp only [key, Prod.mk.injEq] at h
  exact h.2.1

theorem key_xUB {s s' : St} (h : key s' = key s) : s'.xUB = s.xUB := by
  simp only [key, Prod.mk.injEq] at h
  exact h.2.2.2.2.2.2

theorem key_vUB {s s' : St} (h : key s' = key s) : s'.vUB = s.vUB := by
  simp only [key, bnds, Prod.mk.injEq] at h
  exact h.2.2.1.1

/-! ## Big-Ms -/

theorem wp_bigM_bounds (hC : Contract env I) (s : St) (h : LInv env cfg I rounds s) :
    wp (bigMStep env cfg I)
      (fun M s' => key s' = key s ∧ s'.reads = s.reads ∧
        ∀ Ms, M = some Ms → SameSolutions (partCI I s.part) Ms)
      (fun _ s' => key s' = key s ∧ ¬ Strong env cfg I rounds) s := by
  unfold bigMStep
  rw [wp_bind, wp_get, wp_ite]
  refine ⟨fun hc => ?_, fun _ => ⟨rfl, rfl, by rintro _ ⟨⟩⟩⟩
  rw [wp_bind, wp_nextTick, wp_bind, wp_lift]
  have hK : kmax I + 1 < s.partition.length := by
    rw [← minSize_eq hC.eps, ← h.shape.nb]; exact hc.2
  have hcall : ∃ r, updateBigM env.argsort env.srt (env.big s.tick) (partCI I s.part) true
      s.nbSubsets s.vUB cfg.bigMMethod (some I) (some s.partition) = r
      ∧ (∀ Ms, r = .ok Ms → SameSolutions (partCI I s.part) Ms)
      ∧ ∀ e, r = .error e → ¬ Strong env cfg I rounds := by
    refine ⟨_, rfl, ?_⟩
    have hnb := nbScen_part h.shape.part h.shape.load
    have hnn := nonnegCI_part hC.ab hC.c h.shape.part h.shape.load
    rw [h.shape.nb]
    unfold updateBigM
    by_cases m1 : cfg.bigMMethod = "belotti"
    · rw [if_pos m1]
      cases hu : s.vUB with
      | top =>
        refine ⟨by rintro _ ⟨⟩, fun e _ hS => ?_⟩
        rcases h.ready hS with h1 | h1
        · omega
        · exact h1.2.2 hu
      | coe u =>
        obtain ⟨Ms, b1, b2⟩ := C48_belotti_equivalent env.argsort (env.big s.tick)
          (hC.big s.tick) (partCI I s.part) hnn u (fun x z hx hz => by
            have := h.ub x ⟨hx, zOk_partFeas hC.equi hC.eps h.shape.part h.shape.load hz⟩
            rw [hu] at this
            exact WithTop.coe_le_coe.1 this)
        rw [hnb] at b1
        have hcast : (match ((u : WithTop ℚ) : Option ℚ) with
          | some v => runBelotti env.argsort (env.big s.tick) (partCI I s.part) s.partition.length v
          | none => .error (.assertion "BigMFinder.py:228")) = .ok Ms := b1
        refine ⟨fun Ms' hMs => ?_, fun e he => ?_⟩
        · have := hcast.symm.trans hMs
          cases this
          exact b2
        · have := hcast.symm.trans he
          cases this
    · rw [if_neg m1]
      by_cases m2 : cfg.bigMMethod = "song"
      · obtain ⟨Ms, b1, b2⟩ := (C48_song_equivalent env.argsort env.srt (env.big s.tick) I s.vUB
          hC.equi hC.eps hC.m hC.n hC.ab hC.c).2 s.partition h.shape.part hK s.part h.shape.load
        unfold updateBigM at b1
        rw [if_neg (by decide)] at b1
        rw [m2]
        rw [b1]
        exact ⟨by rintro _ ⟨⟩; exact b2, by rintro _ ⟨⟩⟩
      · rw [if_neg m2]
        by_cases m3 : cfg.bigMMethod = "naive"
        · rw [if_pos m3]
          have := C48_naive_equivalent _ hnn
          rw [hnb] at this
          exact ⟨by rintro _ ⟨⟩; exact this, by rintro _ ⟨⟩⟩
        · rw [if_neg m3]
          refine ⟨by rintro _ ⟨⟩, fun e _ hS => ?_⟩
          rcases hS.bigM hc.1 with h' | h' | h'
          · exact m3 h'
          · exact m1 h'
          · exact m2 h'
  obtain ⟨r, r1, r2, r3⟩ := hcall
  rw [show updateBigM env.argsort env.srt (env.big s.tick) (partCI I s.part) true
      s.nbSubsets s.vUB cfg.bigMMethod (some I) (some s.partition) = r from r1]
  refine ⟨fun Ms hMs => ⟨rfl, rfl, ?_⟩, fun e he => ⟨rfl, r3 e he⟩⟩
  rintro _ ⟨⟩
  exact r2 Ms hMs

/-! ## Upper bound -/

theorem zStartLoop_lt (deleted : List ℕ) : ∀ (z : List ℚ) (i count : ℕ),
    ∀ c ∈ zStartLoop deleted z i count, c < count + z.length
  | [], _, _, c, hc => by simp [zStartLoop] at hc
  | a :: l, i, count, c, hc => by
    unfold zStartLoop at hc
    split at hc
    · rcases List.mem_append.1 hc with hc | hc
      · split at hc
        · rw [List.mem_singleton.1 hc]; simp
        · simp at hc
      · have := zStartLoop_lt deleted l _ _ c hc
        simp only [List.length_cons]; omega
    · have := zStartLoop_lt deleted l _ _ c hc
      simp only [List.length_cons]; omega

theorem leTol_of_le {v : ℚ} {u : WithTop ℚ} (h : (v : WithTop ℚ) ≤ u) : leTol v u = true := by
  unfold leTol
  rw [decide_eq_true_eq]
  refine h.trans ?_
  cases u with
  | top => simp
  | coe u =>
    rw [← WithTop.coe_add]
    exact WithTop.coe_le_coe.2 (by linarith [show (0 : ℚ) < 1 / 10 ^ 8 by norm_num])

theorem le_of_not_leTol {v : ℚ} {u : WithTop ℚ} (h : ¬ leTol v u = true) :
    u ≤ (v : WithTop ℚ) :=
  (le_total u (v : WithTop ℚ)).elim id fun h' => absurd (leTol_of_le h') h

/-- A model whose construction takes longer than the remaining time is finished after the
deadline. -/
theorem late_build {clock : ℕ → ℚ} {limit : ℚ} {k : ℕ} (hm : Monotone clock)
    (h : remaining clock limit (k + 1) < clock (k + 1 + 2) - clock (k + 1 + 1)) :
    remaining clock limit (k + 1 + 2) = 0 := by
  have h1 := (le_max_left _ _).trans_lt h
  have h2 := hm (show k + 1 ≤ k + 1 + 1 by omega)
  exact max_eq_right (by linarith)

theorem wp_computeUB_bounds (hC : Contract env I) (s : St) (h : LInv env cfg I rounds s)
    {M : Option (List (List ℚ))}
    (hM : ∀ Ms, M = some Ms → SameSolutions (partCI I s.part) Ms) :
    wp (computeUB env cfg I M)
      (fun out s' => key s' = key s ∧ s.reads ≤ s'.reads ∧ UBSpec env I s.partition out
        ∧ (s.partition.length = kmax I + 1 → out.vObj = out.vBnd))
      (fun e s' => key s' = key s ∧ (Strong env cfg I rounds → Allowed env cfg I s' e)) s := by
  have hcosts := aligned_costs hC h.shape.aligned
  unfold computeUB
  rw [wp_bind, wp_get, wp_ite, h.shape.nb, minSize_eq hC.eps]
  refine ⟨fun hsz => ?_, fun hsz => ?_⟩
  · obtain ⟨R, r1, r2, r3, r4, r5, c, -, -, r6⟩ := C14_first_iteration_bound I s.partition s.costs
      s.sols hsz hcosts
    rw [wp_lift, r1]
    refine ⟨?_, by rintro e ⟨⟩⟩
    rintro _ ⟨⟩
    exact ⟨rfl, le_rfl, ⟨r2, r3, r5, by rw [r6]; simp, fun _ => r4.symm, fun _ => by
      rw [r4, sub_self, abs_zero]; positivity⟩, fun _ => r4.symm⟩
  · unfold partitionBound
    rw [wp_bind, wp_availableTime, wp_bind, wp_get, wp_bind, wp_lift]
    refine ⟨fun zs hzs => ?_, fun e he => ⟨rfl, fun hS => ?_⟩⟩
    · have hz : ∀ c ∈ zs, c < s.partition.length := by
        intro c hc
        have hzs' : getZStart s.zUB s.deleted = .ok zs := hzs
        unfold getZStart at hzs'
        cases hzu : s.zUB with
        | none => rw [hzu] at hzs'; cases hzs'
        | some z =>
          rw [hzu] at hzs'
          cases hzs'
          have h1 := zStartLoop_lt s.deleted z 0 0 c hc
          have h2 := h.zlen z hzu
          omega
      rw [wp_bind, wp_nextTick, wp_bind, wp_buildTime, wp_bind, wp_lift]
      have hspec := cclp_spec hC h.shape.part h.shape.load hcosts (vLB := s.vLB)
        (fun v hv => (h.br.lb v hv).imp fun x hx => hx.2) hM hz (gap := 1 / 10 ^ 8) (hgap := rfl)
        (limit := remaining env.clock cfg.timeLimit (s.reads + 1))
        (build := env.clock (s.reads + 1 + 2) - env.clock (s.reads + 1 + 1)) (t := s.tick)
      refine ⟨fun out hout => ?_, fun e he => ⟨rfl, fun hS => ?_⟩⟩
      · have hsp := hspec.1 out hout
        rw [wp_bind, wp_lift]
        refine ⟨fun _ _ => ⟨rfl, by show s.reads ≤ s.reads + 1 + 2; omega, hsp, fun h' => absurd h' hsz⟩, fun e he =>
          ⟨rfl, fun hS => ?_⟩⟩
        have he' : checkResults I.n I.cont s.didMerge out.x out.vObj s.xUB s.vUB = .error e := he
        unfold checkResults at he'
        split at he'
        · rename_i hcont
          have hle : leTol out.vObj s.vUB = true := by
            rw [← hsp.obj]; exact leTol_of_le (h.ub _ hsp.point)
          rw [pyAssert_true hle] at he'
          unfold checkSame at he'
          split at he'
          · cases he'
          · rcases h.ready hS with h1 | h1
            · exact absurd h1 hsz
            · obtain ⟨y, hy⟩ := Option.isSome_iff_exists.1 h1.2.1
              rw [hy] at he'
              simp only at he'
              by_cases hcl : allClose I.n out.x y = false
              · rw [pyAssert_true hcl] at he'; cases he'
              · rw [pyAssert_false hcl] at he'
                cases he'
                exact .inr (.inl ⟨rfl, hcont⟩)
        · cases he'
      · obtain ⟨h1, h2⟩ := hspec.2.2 e (hS.cc s.tick) he
        exact .inr (.inr ⟨h1, late_build hS.clock h2⟩)
    · rcases h.ready hS with h1 | h1
      · exact absurd h1 hsz
      · obtain ⟨z, hz⟩ := Option.isSome_iff_exists.1 h1.1
        have he' : getZStart s.zUB s.deleted = .error e := he
        rw [hz] at he'
        cases he'

theorem gap_error {u : WithTop ℚ} {l : WithBot ℚ} {b : Bool} {e : PyErr}
    (h : computeGap u l b = .error e) :
    e = .zeroDivisionError ∧ l = ((0 : ℚ) : WithBot ℚ) := by
  unfold computeGap at h
  repeat' split at h
  all_goals cases h
  subst_vars
  exact ⟨rfl, rfl⟩

/-- What the upper bound leaves behind: either time ran out and nothing changed, or a solution of
the partitioned problem is stored. -/
def UBPost (env : Env) (cfg : Cfg) (I : Inst) (rounds : ℕ) (s : St) (r : Option Vec × Bool)
    (s' : St) : Prop :=
  LInv env cfg I rounds s' ∧ s'.partition = s.partition
  ∧ s'.lastRem = remaining env.clock cfg.timeLimit s'.reads
  ∧ ((key s' = key s ∧ r = (s.xUB, false) ∧ s'.lastRem ≤ 0)
    ∨ ∃ out, UBSpec env I s.partition out
      ∧ r = (some out.x, (checkFeasibility env.norm I out.x).feasible)
      ∧ s'.feas = some (checkFeasibility env.norm I out.x)
      ∧ s'.vUB ≠ ⊤ ∧ s'.zUB.isSome ∧ (Strong env cfg I rounds → s'.xUB.isSome)
      ∧ (Tight env → s'.vUB = obj I out.x ∧ s'.xUB = some out.x)
      ∧ (s.partition.length = kmax I + 1 → out.vObj = out.vBnd)
      ∧ s'.vUB ≤ (out.vBnd : WithTop ℚ))

theorem wp_upperBound_bounds (hC : Contract env I) (s : St) (h : LInv env cfg I rounds s)
    {M : Option (List (List ℚ))}
    (hM : ∀ Ms, M = some Ms → SameSolutions (partCI I s.part) Ms) :
    wp (upperBound env cfg I M) (UBPost env cfg I rounds s)
      (fun e s' => Bracket I s' ∧ (Strong env cfg I rounds → Allowed env cfg I s' e)) s := by
  unfold upperBound
  rw [wp_bind]
  refine wp_mono (wp_computeUB_bounds hC s h hM) (fun out s1 h1 => ?_)
    fun e s' h' => ⟨h.br.congr (key_bnds h'.1), h'.2⟩
  obtain ⟨k1, k2, k3, k4⟩ := h1
  have hl1 : LInv env cfg I rounds s1 := h.congr k1
  have hP1 : s1.partition = s.partition := key_part k1
  rw [wp_bind, wp_availableTime, wp_ite]
  refine ⟨fun ht => ?_, fun _ => ?_⟩
  · rw [wp_bind, wp_get]
    exact ⟨hl1.congr rfl, hP1, rfl, .inl ⟨k1, by rw [← key_xUB k1], ht⟩⟩
  · have hshape := hl1.shape
    have hbound1 : ∀ y, PartFeas I s1.partition y → obj I y ≤ out.vBnd := by
      rw [hP1]; exact k3.bound
    have hle1 : leTol out.vObj s1.vUB = true := by
      rw [← k3.obj]; exact leTol_of_le (hl1.ub _ (by rw [hP1]; exact k3.point))
    have hb' : ∀ y, Feas I y → obj I y ≤ out.vBnd := fun y hy =>
      hbound1 y (feas_partFeas hC.equi hC.eps hshape.part hy)
    have hz1 : out.z.length ≤ s1.partition.length := by rw [hP1, k3.z]
    have hcnt : (s1.lb.saveFeasible (getFeasibleScenarios
        (checkFeasibility env.norm I out.x))).counter.length = I.N := by
      unfold LBState.saveFeasible
      simp only [List.length_zipWith]
      rw [hl1.counter, (C02_check_feasibility_record env.norm I out.x).2.2.2.1, min_self]
    unfold storeUB updateUB currentGap storeInfo
    wp_simp
    refine ⟨fun hb => ?_, fun hb => ?_⟩
    · have hl : LInv env cfg I rounds { s1 with
          reads := s1.reads + 1
          lastRem := remaining env.clock cfg.timeLimit (s1.reads + 1)
          feas := some (checkFeasibility env.norm I out.x), zUB := some out.z
          xUB := some out.x, vUB := (out.vBnd : WithTop ℚ), vUBNumpy := false
          trace := s1.trace ++ [((out.vBnd : WithTop ℚ), s1.vLB)]
          lb := s1.lb.saveFeasible (getFeasibleScenarios (checkFeasibility env.norm I out.x)) } :=
        ⟨⟨hshape.1, hshape.2, hshape.3, hshape.4⟩, hl1.size,
          (hl1.br.newUB hb' (some out.x)).congr rfl,
          fun y hy => WithTop.coe_le_coe.2 (hbound1 y hy), hl1.det, hcnt, hl1.mem,
          fun z hz => by cases hz; exact hz1, fun _ => .inr ⟨rfl, rfl, WithTop.coe_ne_top⟩⟩
      rw [if_pos hle1]
      refine ⟨fun g _ => ⟨hl.congr rfl, hP1, rfl, .inr ⟨out, k3, rfl, rfl, WithTop.coe_ne_top, rfl,
        fun _ => rfl, fun ht => ⟨?_, rfl⟩, k4, le_rfl⟩⟩, fun e he => ⟨hl.br.congr rfl, fun _ => .inl ?_⟩⟩
      · rw [k3.obj, k3.tight ht]
      · exact gap_error he
    · have hnt : s1.vUB ≠ ⊤ := by
        intro ht
        rw [show s1.vUB = ⊤ from ht] at hb
        exact hb (by simp [leTol])
      have hsz : s.partition.length ≠ kmax I + 1 := fun h' => hb (by rw [← k4 h']; exact hle1)
      have hxs : Strong env cfg I rounds → s1.xUB.isSome := fun hS => by
        rcases hl1.ready hS with h1 | h1
        · rw [hP1] at h1; exact absurd h1 hsz
        · exact h1.2.1
      have hl : LInv env cfg I rounds { s1 with
          reads := s1.reads + 1
          lastRem := remaining env.clock cfg.timeLimit (s1.reads + 1)
          feas := some (checkFeasibility env.norm I out.x), zUB := some out.z
          lb := s1.lb.saveFeasible (getFeasibleScenarios (checkFeasibility env.norm I out.x)) } :=
        ⟨⟨hshape.1, hshape.2, hshape.3, hshape.4⟩, hl1.size, hl1.br.congr rfl, hl1.ub, hl1.det,
          hcnt, hl1.mem, fun z hz => by cases hz; exact hz1, fun hS => .inr ⟨rfl, hxs hS, hnt⟩⟩
      refine ⟨fun g _ => ⟨hl.congr rfl, hP1, rfl, .inr ⟨out, k3, rfl, rfl, hnt, rfl, hxs,
        fun ht => ?_, k4, ?_⟩⟩, fun e he => ⟨hl.br.congr rfl, fun _ => .inl ?_⟩⟩
      · exact absurd (by rw [← k3.tight ht]; exact hle1) hb
      · exact le_of_not_leTol hb
      · exact gap_error he

/-! ## Lower bound -/

theorem bounded_max (hC : Contract env I) {g : GModel} (hm : g.maximize = true)
    (hev : ∀ ρ, g.obj.eval ρ = obj I fun j => ρ (.x j))
    (hx : ∀ ρ, g.Feas ρ → InX I fun j => ρ (.x j)) : g.Bounded := by
  refine ⟨∑ j ∈ range I.n, I.c j, fun ρ hρ => ?_⟩
  rw [if_pos hm, hev]
  unfold Spec.obj dot
  refine Finset.sum_le_sum fun j hj => ?_
  have hj := Finset.mem_range.1 hj
  exact mul_le_of_le_one_right (hC.c j hj) (inX_box (hx ρ hρ) j hj).2

theorem length_index {norm : Norm} {projection : String} {counter : List ℚ} {x : Option Vec}
    {index : List ℚ} (hc : counter.length = I.N)
    (h : indexScenarios norm I projection counter x = .ok index) : index.length = I.N := by
  unfold indexScenarios at h
  repeat' split at h
  all_goals cases h
  · simpa using hc
  · simp [violationIndex]

/-- What an answer of the lower-bound problem means. -/
theorem deterministicBound_sound (hE : Equi I) (heps : 0 ≤ I.eps) (htol : TolOk I)
    (hab : NonnegAb I) {solve : GModel → GResult}
    (hval0 : ∀ g, GResult.Valid g (solve g)) {st0 : LBState} {vLB : WithBot ℚ}
    (hd : ∃ cuts, DetInv (instCI I) st0.deter st0.scenarios cuts
      ∧ ∀ q ∈ cuts, ((q : ℚ) : WithBot ℚ) ≤ vLB) (hcount : st0.counter.length = I.N)
    (hl : ∀ v : ℚ, vLB = v → 0 ≤ v) {projection : String}
    {x : Option Vec} {st : LBState} {out : LBOut}
    (hok : deterministicBound env.norm env.argsort I projection solve st0 vLB x = .ok (st, out)) :
    st.counter.length = I.N
      ∧ (∃ cuts, DetInv (instCI I) st.deter st.scenarios cuts
        ∧ ∀ q ∈ cuts, ((q : ℚ) : WithBot ℚ) ≤ vLB)
      ∧ (vLB < (out.v : WithBot ℚ) → ∃ y, out.x = some y ∧ Feas I y ∧ obj I y = out.v) := by
  obtain ⟨cuts, hdet, hcuts⟩ := hd
  have hinv := deterministicBound_inv (norm := env.norm) (argsort := env.argsort)
    (projection := projection) (solve := solve) (vLB := vLB) (xUB := x) hdet
  have hkept : ∀ q ∈ cuts ++ keptCuts st0.prevVLB [vLB], ((q : ℚ) : WithBot ℚ) ≤ vLB := by
    intro q hq
    rcases List.mem_append.1 hq with hq | hq
    · exact hcuts q hq
    · cases hv : vLB with
      | bot => rw [hv] at hq; simp [keptCuts] at hq
      | coe v =>
        rw [hv] at hq
        have : q = v := by
          change q ∈ (if st0.prevVLB ≤ (v : WithBot ℚ) then [v] else []) ++ [] at hq
          split at hq
          · simpa using hq
          · simp at hq
        rw [this]
  have hvLB : vLB = ⊥ ∨ ∃ v : ℚ, vLB = v ∧ 0 ≤ v := by
    cases hv : vLB with
    | bot => exact .inl rfl
    | coe v => exact .inr ⟨v, rfl, hl v hv⟩
  obtain ⟨⟨index, i1, i2⟩, -, i4, i5, i6⟩ := hinv.1 st out hok
  refine ⟨by rw [i4]; exact hcount, ⟨_, i5, hkept⟩, fun hlt => ?_⟩
  have hlen := length_index hcount i1
  have hval := hval0 st.deter.g
  unfold readDeter at i6
  split at i6
  · next h3 =>
    cases i6
    rcases hvLB with hv | ⟨v, hv, hv0⟩
    · -- no cut: the zero point is feasible
      exfalso
      refine (hval.infeasible h3).2 (fun _ => 0) ((i5.feas _).2
        ⟨zero_inX I, fun s' hs' => ?_, fun q hq => ?_⟩)
      · have := ((C17_selection I env.argsort index hlen).1 _ i2).2.1 s' hs'
        exact zero_sat hab this
      · have := hkept q hq
        rw [hv] at this
        exact absurd this (by simp)
    · rw [hv] at hlt
      have := WithBot.coe_lt_coe.1 hlt
      norm_num at this
      linarith
  · unfold getX getObjVal getSol at i6
    cases hs : (solve st.deter.g).sol with
    | none => rw [hs] at i6; cases i6
    | some ρ =>
      rw [hs] at i6
      cases i6
      obtain ⟨f1, f2⟩ := hval.feas ρ hs
      obtain ⟨g1, g2, -⟩ := (i5.feas ρ).1 f1
      refine ⟨_, rfl, ⟨g1, C17_chance_partial I env.argsort index hlen hE heps htol _ i2
        _ g2⟩, ?_⟩
      rw [← f2, i5.obj, eval_objExpr]
      rfl

/-- What the answer of the lower-bound problem means. -/
theorem deterministicBound_bounds (hC : Contract env I) {s : St} (h : LInv env cfg I rounds s)
    {x : Option Vec} {t : ℕ} :
    (∀ st out, deterministicBound env.norm env.argsort I cfg.projection (env.lb t) s.lb s.vLB x
        = .ok (st, out) →
      st.counter.length = I.N
      ∧ (∃ cuts, DetInv (instCI I) st.deter st.scenarios cuts
        ∧ ∀ q ∈ cuts, ((q : ℚ) : WithBot ℚ) ≤ s.vLB)
      ∧ (s.vLB < (out.v : WithBot ℚ) → ∃ y, out.x = some y ∧ Feas I y ∧ obj I y = out.v))
    ∧ (Strong env cfg I rounds → x.isSome → ∃ r,
      deterministicBound env.norm env.argsort I cfg.projection (env.lb t) s.lb s.vLB x = .ok r) := by
  obtain ⟨cuts, hdet, -⟩ := h.det
  constructor
  · exact fun st out hok => deterministicBound_sound hC.equi hC.eps hC.tolOk hC.ab (hC.lb t)
      h.det h.counter (fun v hv => by
        obtain ⟨y, -, hy, hv⟩ := h.br.lb v hv
        exact hv ▸ obj_nonneg hC.c hy.1) hok
  · intro hS hx
    obtain ⟨y, rfl⟩ := Option.isSome_iff_exists.1 hx
    obtain ⟨index, hi⟩ : ∃ index,
        indexScenarios env.norm I cfg.projection s.lb.counter (some y) = .ok index := by
      unfold indexScenarios
      rcases hS.proj with hp | hp
      · rw [if_pos hp]; exact ⟨_, rfl⟩
      · rw [hp, if_neg (by decide), if_pos rfl]; exact ⟨_, rfl⟩
    have hlen := length_index h.counter hi
    obtain ⟨sel, hsel⟩ := C17_selection_exists I env.argsort index hlen hC.equi.1
      (equi_sum hC.equi) hC.eps
    have hnd := ((C17_selection I env.argsort index hlen).1 sel hsel).1
    obtain ⟨st, u1, u2, u3, u4, u5⟩ := updateDeter_spec (vLB := s.vLB) hdet hnd
    unfold deterministicBound solveDeter
    rw [hi]
    simp only [bind, Except.bind]
    rw [hsel]
    simp only
    rw [u1]
    simp only
    have hA := hS.lb t st.deter.g
    unfold optimize
    rw [if_neg hA.notInterrupted]
    simp only
    unfold readDeter
    by_cases h3 : (env.lb t st.deter.g).status = 3
    · rw [if_pos h3]; exact ⟨_, rfl⟩
    · rw [if_neg h3]
      have hpt : ∃ ρ, st.deter.g.Feas ρ := by
        by_contra hno
        push Not at hno
        exact h3 (hS.lbInf t _ hno)
      have hbd : st.deter.g.Bounded := bounded_max hC u5.maximize
        (fun ρ => by rw [u5.obj, eval_objExpr]; rfl) fun ρ hρ => ((u5.feas ρ).1 hρ).1
      obtain ⟨ρ, hs⟩ := Option.isSome_iff_exists.1 (hA.solved hbd hpt)
      unfold getX getObjVal getSol
      simp only [hs, bind, Except.bind]
      exact ⟨_, rfl⟩

/-- Keeping the invariant while the lower bound grows. -/
theorem LInv.improved {s s' : St} (h : LInv env cfg I rounds s) (hi : Improved I s s') :
    LInv env cfg I rounds s' := by
  obtain ⟨x, v, b, t, h1, rfl, h3⟩ := hi
  obtain ⟨cuts, d1, d2⟩ := h.det
  exact ⟨⟨h.shape.1, h.shape.2, h.shape.3, h.shape.4⟩, h.size, h3, h.ub,
    ⟨cuts, d1, fun q hq => (d2 q hq).trans h1⟩, h.counter, h.mem, h.zlen, h.ready⟩

/-- What the lower bound leaves behind. -/
def LBPost (env : Env) (cfg : Cfg) (I : Inst) (rounds : ℕ) (s : St) (g : Gap) (s' : St) : Prop :=
  LInv env cfg I rounds s' ∧ s'.partition = s.partition ∧ s'.feas = s.feas
    ∧ s'.xUB = s.xUB ∧ s'.vUB = s.vUB ∧ s'.zUB = s.zUB ∧ s'.reads = s.reads
    ∧ ∃ b, computeGap s'.vUB s'.vLB b = .ok g

theorem wp_lowerBound_bounds (hC : Contract env I) (s : St) (h : LInv env cfg I rounds s)
    (x : Option Vec) :
    wp (lowerBound env cfg I x) (LBPost env cfg I rounds s)
      (fun e s' => Bracket I s' ∧ (Strong env cfg I rounds → x.isSome → Allowed env cfg I s' e)) s := by
  obtain ⟨hok, herr⟩ := deterministicBound_bounds hC h (x := x) (t := s.tick)
  unfold lowerBound
  rw [wp_bind, wp_get, wp_bind, wp_nextTick, wp_bind, wp_lift]
  refine ⟨?_, fun e he => ⟨h.br.congr rfl, fun hS hx => ?_⟩⟩
  · rintro ⟨st, out⟩ hrun
    obtain ⟨c1, ⟨cuts, c2, c3⟩, c4⟩ := hok st out hrun
    have hl : LInv env cfg I rounds { s with tick := s.tick + 1, lb := st } :=
      ⟨⟨h.shape.1, h.shape.2, h.shape.3, h.shape.4⟩, h.size, h.br.congr rfl, h.ub,
        ⟨cuts, c2, c3⟩, c1, h.mem, h.zlen, h.ready⟩
    unfold storeLB currentGap storeInfo
    wp_simp
    refine ⟨fun hlt => ?_, fun _ => ?_⟩
    · obtain ⟨y, hy, hf, hv⟩ := c4 hlt
      have hl' := hl.improved (s' := { s with
          tick := s.tick + 1, lb := st, xLB := some y, vLB := (out.v : WithBot ℚ)
          vLBNumpy := false, trace := s.trace ++ [(s.vUB, (out.v : WithBot ℚ))] })
        ⟨some y, (out.v : WithBot ℚ), false, _, hlt.le, rfl, (h.br.newLB hf hv false).congr rfl⟩
      rw [← hy] at hl'
      exact ⟨fun g hg => ⟨hl'.congr rfl, rfl, rfl, rfl, rfl, rfl, rfl, _, hg⟩,
        fun e he => ⟨hl'.br.congr rfl, fun _ _ => .inl (gap_error he)⟩⟩
    · exact ⟨fun g hg => ⟨hl.congr rfl, rfl, rfl, rfl, rfl, rfl, rfl, _, hg⟩,
        fun e he => ⟨hl.br.congr rfl, fun _ _ => .inl (gap_error he)⟩⟩
  · obtain ⟨r, hr⟩ := herr hS hx
    have he' := hr.symm.trans he
    cases he'

/-! ## Split -/

/-- A successful refinement was possible, and is one of the two calls. -/
theorem refineStep_call (hC : Contract env I) {t : ℕ} {s : St} (h : LInv env cfg I rounds s)
    (hf : FeasInv env I s) :
    (∀ out mem, refineStep env cfg I rounds t s = .ok (out, mem) →
      SplitHistory env.norm I mem ∧ ∃ x, s.feas = some (checkFeasibility env.norm I x)
        ∧ ToRefine I s.partition x ∧ RefineCall env.norm I s.partition x out)
    ∧ (Strong env cfg I rounds →
        (∃ x, s.feas = some (checkFeasibility env.norm I x) ∧ PartFeas I s.partition x) →
        ∃ r, refineStep env cfg I rounds t s = .ok r) := by
  constructor
  · exact fun out mem hr => refineStep_inv hC.eps
      (.inr fun t => splitter_any (fun s hs i hi => (hC.ab s hs i hi).1) (hC.acc t)) h.shape h.mem hf hr
  · rintro hS ⟨x, hF, hx⟩
    obtain ⟨hfe, -⟩ := hf _ hF
    have hinf := infeas_of_check hC.eps hfe
    have hto : ToRefine I s.partition x :=
      ⟨hC.eps, h.shape.part, (nbViolPartsBy_le _ _).trans hx.2, hinf⟩
    unfold refineStep
    rw [hF]
    simp only
    rcases hS.method with ⟨m1, m2⟩ | ⟨m1, m2⟩
    · rw [if_pos m1, m2]
      obtain ⟨out, h1, -⟩ := refineRandom_ok (sh := env.shuffle t) (fuel := rounds) hC.eps
        (marks_check env.norm I x) h.shape.part (by rw [countP_any_violBy]; exact hto.feas)
        (by rw [countP_violBy]; exact hto.infeas) (by have := hS.rounds; omega)
      rw [h1]
      exact ⟨_, rfl⟩
    · rw [m1, if_neg (by decide)]
      have hb : ∀ s < I.N, ∀ i < I.m, 0 ≤ I.b s i := fun s hs i hi => (hC.ab s hs i hi).1
      obtain ⟨out, mem', h1, -⟩ := refineCost_split (norm := env.norm) (argsort := env.argsort)
        (vUB := s.vUB) (fuel := rounds) hto (splitter_any hb (hC.acc t)) h.shape.aligned.lenC
        (memHist_ok h.mem) (by have := hS.rounds; omega)
      exact ⟨_, h1⟩

/-- A bound, possibly infinite, on the points of a partitioned problem. -/
def UBound (I : Inst) (P : List (List ℕ)) (u : WithTop ℚ) : Prop :=
  ∀ y, PartFeas I P y → (obj I y : WithTop ℚ) ≤ u

theorem ubound_split {norm : Norm} {P : List (List ℕ)} {x : Vec} (hP : ToRefine I P x)
    {out : RefineOut} (hr : RefineCall norm I P x out) {u : WithTop ℚ} (hu : UBound I P u) :
    UBound I out.partition u := by
  cases u with
  | top => intro y _; exact le_top
  | coe u =>
    intro y hy
    exact WithTop.coe_le_coe.2 ((C35_bound_kept norm I P x hP out hr u fun y hy =>
      WithTop.coe_le_coe.1 (hu y hy)).1 y hy)

theorem ubound_merge {norm : Norm} {P : List (List ℕ)} {x x' : Vec} (hP : ToRefine I P x)
    {out : RefineOut} (hr : RefineCall norm I P x out) {u : WithTop ℚ} (hu : UBound I P u)
    (hc : ∀ c ∈ out.newSubsets, ∃ v xc, DetOpt I (out.partition.getD c []) v xc
      ∧ (v : WithTop ℚ) ≤ u) {m : MState} (hm : MergeCall norm I x' out m) :
    UBound I m.partition u := by
  cases u with
  | top => intro y _; exact le_top
  | coe u =>
    intro y hy
    exact WithTop.coe_le_coe.2 ((C35_bound_kept norm I P x hP out hr u fun y hy =>
      WithTop.coe_le_coe.1 (hu y hy)).2 (fun c hcn => by
        obtain ⟨v, xc, h1, h2⟩ := hc c hcn
        exact ⟨v, xc, h1, WithTop.coe_le_coe.1 h2⟩) m x' hm y hy)

/-- What the split leaves behind. -/
structure SplitPost (env : Env) (cfg : Cfg) (I : Inst) (rounds : ℕ) (s : St)
    (r : RefineOut × List ℚ) (s' : St) : Prop where
  inv : LInv env cfg I rounds s'
  feas : s'.feas = s.feas
  vUB : s'.vUB = s.vUB
  xUB : s'.xUB = s.xUB
  zUB : s'.zUB = s.zUB
  part : s'.partition = r.1.partition
  reads : s'.reads = s.reads
  len : r.2.length = r.1.newSubsets.length
  costs : ∀ c ∈ r.1.newSubsets, ∃ v ∈ r.2, ∃ xc, DetOpt I (r.1.partition.getD c []) v xc
  costs' : ∀ v ∈ r.2, ∃ p ∈ r.1.partition, ∃ xc, DetOpt I p v xc
  call : ∃ x, s.feas = some (checkFeasibility env.norm I x) ∧ ToRefine I s.partition x
    ∧ RefineCall env.norm I s.partition x r.1

theorem wp_split_bounds (hC : Contract env I) (s : St) (h : LInv env cfg I rounds s)
    (hf : FeasInv env I s)
    (hready : Strong env cfg I rounds → s.zUB.isSome ∧ s.xUB.isSome ∧ s.vUB ≠ ⊤) :
    wp (split env cfg I rounds) (SplitPost env cfg I rounds s)
      (fun _ s' => Bracket I s' ∧ (Strong env cfg I rounds →
        ¬ ∃ x, s.feas = some (checkFeasibility env.norm I x) ∧ PartFeas I s.partition x)) s := by
  obtain ⟨hok, herr⟩ := refineStep_call hC h hf (t := s.tick)
  refine wp_split h.shape.aligned.lenC h.shape.aligned.lenS
    (fun e he => ⟨h.br.congr rfl, fun hS hx => ?_⟩)
    (fun e s' _ _ he => absurd he (subErr_false hC)) fun out mem D costs sols hr hS hD hF => ?_
  · obtain ⟨r, hr⟩ := herr hS hx
    rw [hr] at he; cases he
  · obtain ⟨hmem, x, hx, hto, hcall⟩ := hok out mem hr
    have hal := hF.aligned h.shape.aligned hS
    have hdet := aligned_costs hC hal
    have hl : LInv env cfg I rounds
        { s with tick := s.tick + 1, partition := out.partition, nbSubsets := out.partition.length
                 memory := mem, part := D, costs, sols } := by
      have hlen : s.partition.length ≤ out.partition.length := by rw [hS.len]; omega
      exact ⟨⟨hS.part, rfl, hD, hal⟩, h.size.trans hlen, h.br.congr rfl,
        ubound_split hto hcall h.ub, h.det, h.counter, hmem, fun z hz => (h.zlen z hz).trans hlen,
        fun hS => .inr (hready hS)⟩
    refine wp_mono (wp_improve_bracket hC hl.br fun y hy => ?_) (fun _ s' hs' => ?_)
      fun _ _ h => h
    · obtain ⟨c, hc, rfl⟩ := List.mem_map.1 hy
      exact computed_inX hC (hF.comp c hc)
    · have hl' := hl.improved hs'
      obtain ⟨a, b, c, d, -, rfl, -⟩ := hs'
      refine ⟨hl', rfl, rfl, rfl, rfl, rfl, rfl, by simp, fun c hc => ⟨costs.getD c 0,
        List.mem_map.2 ⟨c, hc, rfl⟩, _, hdet.2.2 c (hS.lt c hc)⟩, fun v hv => ?_,
        x, hx, hto, hcall⟩
      simp only [List.map_map] at hv
      obtain ⟨c, hc, rfl⟩ := List.mem_map.1 hv
      have hlt := hS.lt c hc
      have hd := hdet.2.2 c hlt
      rw [List.getD_eq_getElem _ _ hlt] at hd
      exact ⟨_, List.getElem_mem hlt, _, hd⟩

/-! ## Merge -/

theorem le_foldl_max (l : List ℚ) : ∀ a : ℚ, a ≤ l.foldl max a ∧ ∀ v ∈ l, v ≤ l.foldl max a := by
  induction l with
  | nil => intro a; simp
  | cons b l ih =>
    intro a
    obtain ⟨h1, h2⟩ := ih (max a b)
    refine ⟨(le_max_left a b).trans h1, fun v hv => ?_⟩
    rcases List.mem_cons.1 hv with rfl | hv
    · exact (le_max_right a v).trans h1
    · exact h2 v hv

theorem pyMax_ge {l : List ℚ} {v : ℚ} (h : pyMax l = .ok v) : ∀ w ∈ l, w ≤ v := by
  cases l with
  | nil => cases h
  | cons a l =>
    cases h
    obtain ⟨h1, h2⟩ := le_foldl_max l a
    intro w hw
    rcases List.mem_cons.1 hw with rfl | hw
    · exact h1
    · exact h2 w hw

theorem foldl_max_mem : ∀ (l : List ℚ) (a : ℚ), l.foldl max a ∈ a :: l
  | [], a => by simp
  | b :: l, a => by
    have h := foldl_max_mem l (max a b)
    rw [List.foldl_cons]
    rcases List.mem_cons.1 h with h | h
    · rw [h]
      rcases max_choice a b with h' | h' <;> rw [h'] <;> simp
    · exact List.mem_cons_of_mem _ (List.mem_cons_of_mem _ h)

theorem pyMax_mem {l : List ℚ} {v : ℚ} (h : pyMax l = .ok v) : v ∈ l := by
  cases l with
  | nil => cases h
  | cons a l =>
    cases h
    exact foldl_max_mem l a

/-- What the merge leaves behind: either no merge, or a partition of the size before the split. -/
structure MergePost (env : Env) (cfg : Cfg) (I : Inst) (rounds : ℕ) (s s1 s' : St)
    (out : RefineOut) : Prop where
  inv : LInv env cfg I rounds s'
  feas : s'.feas = s1.feas
  vUB : s'.vUB = s1.vUB
  xUB : s'.xUB = s1.xUB
  reads : s'.reads = s1.reads
  size : (s'.partition = out.partition ∧ (cfg.useMerger = true →
      ∃ p ∈ out.partition, ∃ v xc, DetOpt I p v xc ∧ s1.vUB < (v : WithTop ℚ)))
    ∨ s'.partition.length = s.partition.length ∧ cfg.useMerger = true
  cut : ∀ x, s.feas = some (checkFeasibility env.norm I x) → ToRefine I s.partition x →
    RefineCall env.norm I s.partition x out → nbViolPartsBy I tol s'.partition x = kmax I + 1

theorem wp_applyMerge_bounds (hC : Contract env I) {s s1 : St} {r : RefineOut × List ℚ}
    (h : LInv env cfg I rounds s) (hp : SplitPost env cfg I rounds s r s1)
    (hready : Strong env cfg I rounds → s.zUB.isSome ∧ s.xUB.isSome ∧ s.vUB ≠ ⊤)
    (hu : cfg.useMerger = true)
    (hcost : ∀ v ∈ r.2, (v : WithTop ℚ) ≤ s1.vUB) {m : MState} {x' : Vec} {cs : List ℕ}
    (hm : MergeCall env.norm I x' r.1 m) (hcs : mergeAll r.1.partition cs = .ok m)
    (hnd : cs.Nodup) (h2 : 2 ≤ cs.length) (hlt : ∀ c ∈ cs, c < r.1.partition.length) :
    wp (applyMerge env I m) (fun _ s' => MergePost env cfg I rounds s s1 s' r.1
        ∧ s'.partition.length = s.partition.length)
      (fun _ _ => False) { s1 with didMerge := false } := by
  obtain ⟨x, hx, hto, hcall⟩ := hp.call
  obtain ⟨mn, hmg⟩ := merging_of h2 hnd hlt hcs
  have hP1 : s1.partition = r.1.partition := hp.part
  have hlen := (C37_merge_dispatch env.norm I s.partition x hto h.size r.1 hcall).2.2.2 m x' hm
  have hub : UBound I m.partition s1.vUB := by
    refine ubound_merge hto hcall (by rw [hp.vUB]; exact h.ub) (fun c hc => ?_) hm
    obtain ⟨v, hv, xc, hd⟩ := hp.costs c hc
    exact ⟨v, xc, hd, hcost v hv⟩
  have hsh := hp.inv.shape
  refine wp_applyMerge (cs := cs) (mn := mn) hsh.aligned.lenC hsh.aligned.lenS hsh.part
    (by simp only [hP1]; exact hcs) (by simp only [hP1]; exact hmg)
    (fun e s' _ _ he => subErr_false hC he) fun D v y hD hr => ?_
  have hmg' : Merging s1.partition cs m mn := by rw [hP1]; exact hmg
  have hcs' : mergeAll s1.partition cs = .ok m := by rw [hP1]; exact hcs
  have hcomp : Computed env I (m.partition.getD mn []) v y := ⟨_, _, hr⟩
  have hl : LInv env cfg I rounds
      { s1 with didMerge := false, tick := s1.tick + 1, partition := m.partition
                nbSubsets := m.partition.length
                deleted := m.deleted, part := D
                costs := (keepIdx s1.costs m.deleted).set mn v
                sols := (keepIdx s1.sols m.deleted).set mn y } :=
    ⟨⟨hmg'.isPartition hsh.part hcs', rfl, hD, hmg'.aligned hsh.aligned hcomp⟩,
      by show _ ≤ m.partition.length; rw [hlen]; exact h.size, hp.inv.br.congr rfl, hub,
      hp.inv.det, hp.inv.counter, hp.inv.mem,
      fun z hz => by
        show _ ≤ m.partition.length
        rw [hlen]; exact h.zlen z (hp.zUB ▸ hz),
      fun hS => .inr (by
        show s1.zUB.isSome ∧ s1.xUB.isSome ∧ s1.vUB ≠ ⊤
        rw [hp.zUB, hp.xUB, hp.vUB]; exact hready hS)⟩
  refine wp_mono (wp_improve_bracket hC hl.br fun w hw => ?_) (fun _ s' hs' => ?_)
    fun _ _ h => h
  · rw [List.mem_singleton.1 hw]; exact computed_inX hC hcomp
  · have hl' := hl.improved hs'
    obtain ⟨a, b, c, d, -, rfl, -⟩ := hs'
    exact ⟨⟨hl', rfl, rfl, rfl, rfl, .inr ⟨hlen, hu⟩, fun w _ hto' hcall' =>
      (C34_merge_keeps_cut env.norm I s.partition w hto' r.1 hcall' m x' hm).1⟩, hlen⟩

theorem MergePost.congr {s s1 s2 s' : St} {out : RefineOut}
    (h : MergePost env cfg I rounds s s1 s2 out) (hk : key s' = key s2)
    (hr : s'.reads = s2.reads) : MergePost env cfg I rounds s s1 s' out :=
  ⟨h.inv.congr hk, (key_feas hk).trans h.feas, (key_vUB hk).trans h.vUB, (key_xUB hk).trans h.xUB,
    hr.trans h.reads, by rw [key_part hk]; exact h.size, by rw [key_part hk]; exact h.cut⟩

theorem wp_merge_bounds (hC : Contract env I) {s s1 : St} {r : RefineOut × List ℚ}
    (h : LInv env cfg I rounds s) (hp : SplitPost env cfg I rounds s r s1)
    (hready : Strong env cfg I rounds → s.zUB.isSome ∧ s.xUB.isSome ∧ s.vUB ≠ ⊤)
    (x' : Option Vec) :
    wp (merge env cfg I x' r.1 r.2) (fun _ s' => MergePost env cfg I rounds s s1 s' r.1)
      (fun _ s' => Bracket I s' ∧ x' = none) s1 := by
  obtain ⟨x, hx, hto, hcall⟩ := hp.call
  have hok := hcall.ok hto
  obtain ⟨d1, d2, ⟨t0, d3, d3'⟩, -⟩ := C37_merge_dispatch env.norm I s.partition x hto h.size r.1
    hcall
  have hnone : (cfg.useMerger = true → ∃ v ∈ r.2, s1.vUB < (v : WithTop ℚ)) →
      MergePost env cfg I rounds s s1 { s1 with didMerge := false } r.1 := fun hw =>
    ⟨hp.inv.congr rfl, rfl, rfl, rfl, rfl, .inl ⟨hp.part, fun hu => by
      obtain ⟨v, hv, hlt⟩ := hw hu
      obtain ⟨p, hp1, xc, hp2⟩ := hp.costs' v hv
      exact ⟨p, hp1, v, xc, hp2, hlt⟩⟩, fun w _ hto' hcall' => by
      show nbViolPartsBy I tol s1.partition w = _
      rw [hp.part, ← countP_any_violBy]
      exact (length_feasible (hcall'.ok hto')).2.1⟩
  have hnd : r.1.feasibleSubsets.Nodup := hok.feasSorted.imp fun h => h.ne
  have hlt : ∀ c ∈ r.1.feasibleSubsets, c < r.1.partition.length :=
    fun c hc => ((hok.feasible c).1 hc).1
  have hmu := hok.muPos
  unfold merge
  rw [wp_bind, wp_modify, wp_ite]
  refine ⟨fun hu => ?_, fun hu => hnone fun hu' => absurd hu' hu⟩
  rw [wp_bind, wp_lift]
  refine ⟨fun v hv => ?_, fun e he => ?_⟩
  · rw [wp_bind, wp_get, wp_ite]
    refine ⟨fun hvu => ?_, fun hvu => hnone fun _ => ⟨v, pyMax_mem hv, not_le.1 hvu⟩⟩
    have hcost : ∀ w ∈ r.2, (w : WithTop ℚ) ≤ s1.vUB := fun w hw =>
      (WithTop.coe_le_coe.2 (pyMax_ge hv w hw)).trans hvu
    unfold mergeDispatch
    rw [wp_ite]
    refine ⟨fun hlen => ?_, fun hlen => ?_⟩
    · unfold mergeAllFeasible
      rw [wp_bind, wp_get]
      have hfind : ∃ t, (sortSubsetCosts (List.range s1.nbSubsets) s1.costs).find?
          (fun c => c ∉ r.1.feasibleSubsets) = some t := by
        rw [← Option.isSome_iff_exists, List.find?_isSome]
        refine ⟨t0, mem_sortSubsetCosts_range ?_ ?_, by simpa using d3'⟩
        · rw [hp.inv.shape.aligned.lenC, hp.inv.shape.nb]
        · rw [hp.inv.shape.nb, hp.part]; exact d3
      obtain ⟨t, ht⟩ := hfind
      simp only [ht]
      have ht1 := List.mem_of_find?_eq_some ht
      have ht2 := List.find?_some ht
      simp only [decide_eq_true_eq] at ht2
      have ht4 : t < r.1.partition.length := by
        have := List.mem_range.1 (mem_sortSubsetCosts ht1)
        rw [hp.inv.shape.nb, hp.part] at this
        exact this
      have hndt : (r.1.feasibleSubsets ++ [t]).Nodup := by
        rw [List.nodup_append]
        exact ⟨hnd, by simp, fun a ha b hb => by
          rw [List.mem_singleton.1 hb]; rintro rfl; exact ht2 ha⟩
      have hltt : ∀ c ∈ r.1.feasibleSubsets ++ [t], c < r.1.partition.length := by
        intro c hc
        rcases List.mem_append.1 hc with hc | hc
        · exact hlt c hc
        · rw [List.mem_singleton.1 hc]; exact ht4
      obtain ⟨mn, -, -, hmok⟩ := mergeAll_ok (P := r.1.partition)
        (cs := r.1.feasibleSubsets ++ [t]) (by simp) hndt hltt
      rw [wp_bind, wp_lift, hp.part]
      refine ⟨fun m hm => ?_, fun e he => by rw [hmok] at he; cases he⟩
      have hmc : MergeCall env.norm I (fun _ => 0) r.1 m := .all t hlen ht4 ht2 hm
      rw [wp_bind]
      refine wp_mono (wp_applyMerge_bounds hC h hp hready hu hcost hmc hm hndt
        (by simp; omega) hltt) (fun _ s2 h2 => ?_) fun _ _ h => h.elim
      rw [wp_bind, wp_get, wp_bind, wp_lift]
      have hsz : s2.nbSubsets = minSize I := by
        rw [h2.1.inv.shape.nb, minSize_eq hC.eps, ← d2.1 hlen, h2.2]
      rw [pyAssert_true hsz]
      exact ⟨fun _ _ => h2.1.congr rfl rfl, by rintro e ⟨⟩⟩
    · rw [wp_ite]
      refine ⟨fun hlen2 => ?_, fun hlen2 => absurd (by omega) hlen2⟩
      unfold mergeMuPlusOne
      rw [wp_bind, wp_get]
      cases x' with
      | none => exact ⟨hp.inv.br.congr rfl, rfl⟩
      | some x' =>
        simp only
        have hD : loadPartition I r.1.partition.length r.1.partition = .ok s1.part := by
          rw [← hp.part]; exact hp.inv.shape.load
        have hne : ∀ p ∈ r.1.partition, p ≠ [] := by rw [← hp.part]; exact hp.inv.shape.part.2
        obtain ⟨st, top, e1, e2, e3, e4, e5, -, -⟩ := C31_merge_feasible env.norm I r.1.partition
          hne s1.part hD x' r.1.feasibleSubsets hlt r.1.mu (by rw [hnd.dedup]; exact hlen2)
        rw [wp_bind, wp_lift, hp.part]
        refine ⟨fun m hm => ?_, fun e he => ?_⟩
        · have hm' := hm
          rw [show mergeFeasible env.norm (partCI I s1.part) r.1.partition x' r.1.feasibleSubsets
            r.1.mu = _ from e1] at hm'
          cases hm'
          have hmc : MergeCall env.norm I x' r.1 st := .best s1.part hlen2 hD e1
          rw [wp_bind]
          refine wp_mono (wp_applyMerge_bounds hC h hp hready hu hcost hmc e5 e2
            (by omega) fun c hc => hlt c (e4 c hc)) (fun _ s2 h2 => ?_) fun _ _ h => h.elim
          exact h2.1.congr rfl rfl
        · have he' := e1.symm.trans he
          cases he'
  · exfalso
    have hl := hp.len
    cases hr2 : r.2 with
    | cons a l => rw [hr2] at he; cases he
    | nil =>
      rw [hr2] at hl
      obtain ⟨st, hst, hmu', -, hn⟩ := hok.inv
      have h3 : r.1.newSubsets ≠ [] := by
        rw [hn]
        intro h4
        have := hst.newIdx
        rw [h4, hmu'] at this
        have := congrArg List.length this
        simp at this
        omega
      exact h3 (List.length_eq_zero_iff.1 hl.symm)

end Verif.Model
