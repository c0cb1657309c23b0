import Verif.Lemmas.MergeSites
import Verif.Contract

/-!
# The bounds bracket the optimum: points, models, single methods
-/

namespace Verif.Model
open Spec Props Finset

variable {env : Env} {cfg : Cfg} {I : Inst} {rounds : ℕ}

/-! ## Points -/

theorem zero_inX (I : Inst) : InX I fun _ => 0 := fun j _ => by split <;> simp

theorem zero_sat (h : NonnegAb I) {s : ℕ} (hs : s < I.N) : Sat I s fun _ => 0 := fun i hi => by
  simpa [dot] using (h s hs i hi).1

theorem zero_satAll (h : NonnegAb I) {l : List ℕ} (hl : ∀ s ∈ l, s < I.N) :
    SatAll I l fun _ => 0 := fun s hs => zero_sat h (hl s hs)

theorem feas_partFeas (hE : Equi I) (heps : 0 ≤ I.eps) {P : List (List ℕ)}
    (hP : IsPartition I.N P) {y : Vec} (hy : Feas I y) : PartFeas I P y := by
  refine ⟨hy.1, ?_⟩
  have h1 := (chance_iff_card I hE heps y).1 hy.2
  rw [nbViolParts_eq]
  refine (countP_any_le P _).trans (le_trans (le_of_eq ?_) h1)
  rw [hP.1.countP_eq, viol, List.countP_eq_length_filter, Finset.card_def, Finset.filter_val]
  show _ = (Multiset.filter _ (Multiset.range I.N)).card
  rw [← Multiset.coe_range, Multiset.filter_coe, Multiset.coe_card]

theorem obj_nonneg (hc : NonnegC I) {x : Vec} (hx : InX I x) : 0 ≤ obj I x :=
  dot_nonneg hc fun j hj => (inX_box hx j hj).1

theorem subErr_false (hC : Contract env I) {e : PyErr} (h : SubErr env I e) : False := by
  obtain ⟨t, k, p, -, h2, h3⟩ := h
  obtain ⟨v, x, h4⟩ := (subsetCost_spec (I := I) (ss := p) (hC.sub t k _)).2.1
    ⟨_, zero_inX I, zero_satAll hC.ab h2⟩
  rw [h3] at h4
  cases h4

/-- A candidate accepted by the tolerance test is feasible. -/
theorem sharp_feas (hE : Equi I) (heps : 0 ≤ I.eps) {x : Vec} (hx : InX I x) (hs : Sharp I x)
    (h : ((violBy I (1 / 10 ^ 6) x).card : ℚ) ≤ I.eps * I.N) : Feas I x := by
  refine ⟨hx, (chance_iff_card I hE heps x).2 ?_⟩
  unfold kmax
  refine Nat.le_floor (le_trans ?_ h)
  have : viol I x ⊆ violBy I (1 / 10 ^ 6) x := by
    intro s hs'
    obtain ⟨h1, h2⟩ := Finset.mem_filter.1 hs'
    have h3 := hs s (Finset.mem_range.1 h1) h2
    refine Finset.mem_filter.2 ⟨h1, ?_⟩
    have : tol = 1 / 10 ^ 6 := by norm_num [tol]
    rw [← this]; exact h3
  exact_mod_cast Finset.card_le_card this

theorem aligned_costs (hC : Contract env I) {P : List (List ℕ)} {costs : List ℚ}
    {sols : List Vec} (h : Aligned env I P costs sols) : PartCosts I P costs sols := by
  refine ⟨h.lenC, h.lenS, fun c hc => ?_⟩
  obtain ⟨t, k, h4⟩ := h.comp c hc
  exact (subsetCost_spec (I := I) (hC.sub t k _)).1 _ _ h4

theorem computed_inX (hC : Contract env I) {p : List ℕ} {v : ℚ} {x : Vec}
    (h : Computed env I p v x) : InX I x ∧ Sharp I x := by
  obtain ⟨t, k, h⟩ := h
  exact ⟨((subsetCost_spec (I := I) (hC.sub t k _)).1 _ _ h).1.1, hC.sharp t k p v x h⟩

/-! ## The bracket -/

/-- The upper bound is above every feasible objective, the lower bound is the objective of the
stored feasible point, and so were all earlier ones. -/
structure Bracket (I : Inst) (s : St) : Prop where
  ub : ∀ y, Feas I y → (obj I y : WithTop ℚ) ≤ s.vUB
  lb : ∀ v : ℚ, s.vLB = v → ∃ x, s.xLB = some x ∧ Feas I x ∧ obj I x = v
  trace : ∀ p ∈ s.trace, (∀ y, Feas I y → (obj I y : WithTop ℚ) ≤ p.1)
    ∧ ∀ v : ℚ, p.2 = v → ∃ x, Feas I x ∧ obj I x = v

/-- The attributes it depends on. -/
def bnds (s : St) : WithTop ℚ × WithBot ℚ × Option Vec × List (WithTop ℚ × WithBot ℚ) :=
  (s.vUB, s.vLB, s.xLB, s.trace)

theorem Bracket.congr {s s' : St} (h : Bracket I s) (hc : bnds s' = bnds s) : Bracket I s' := by
  simp only [bnds, Prod.mk.injEq] at hc
  obtain ⟨h1, h2, h3, h4⟩ := hc
  exact ⟨by rw [h1]; exact h.ub, by rw [h2, h3]; exact h.lb, by rw [h4]; exact h.trace⟩

theorem Bracket.of_view {s s' : St} (h : Bracket I s) (hv : view s' = view s)
    (hx : s'.xLB = s.xLB) : Bracket I s' := by
  refine h.congr ?_
  simp only [view, View.mk.injEq] at hv
  simp only [bnds, Prod.mk.injEq]
  exact ⟨hv.1, hv.2.1, hx, hv.2.2.1⟩

/-- A new feasible point. -/
theorem Bracket.newLB {s : St} (h : Bracket I s) {x : Vec} {v : ℚ} (hx : Feas I x)
    (hv : obj I x = v) (b : Bool) :
    Bracket I { s with xLB := some x, vLB := (v : WithBot ℚ), vLBNumpy := b
                       trace := s.trace ++ [(s.vUB, (v : WithBot ℚ))] } := by
  refine ⟨h.ub, fun w hw => ⟨x, rfl, hx, ?_⟩, fun p hp => ?_⟩
  · rw [hv]; exact WithBot.coe_injective hw
  · rcases List.mem_append.1 hp with hp | hp
    · exact h.trace p hp
    · rw [List.mem_singleton.1 hp]
      exact ⟨h.ub, fun w hw => ⟨x, hx, by rw [hv]; exact WithBot.coe_injective hw⟩⟩

/-- A new upper bound. -/
theorem Bracket.newUB {s : St} (h : Bracket I s) {u : ℚ} (hu : ∀ y, Feas I y → obj I y ≤ u)
    (xUB : Option Vec) :
    Bracket I { s with xUB, vUB := (u : WithTop ℚ), vUBNumpy := false
                       trace := s.trace ++ [((u : WithTop ℚ), s.vLB)] } := by
  have hu' : ∀ y, Feas I y → (obj I y : WithTop ℚ) ≤ (u : WithTop ℚ) := fun y hy =>
    WithTop.coe_le_coe.2 (hu y hy)
  refine ⟨hu', h.lb, fun p hp => ?_⟩
  rcases List.mem_append.1 hp with hp | hp
  · exact h.trace p hp
  · rw [List.mem_singleton.1 hp]
    refine ⟨hu', fun w hw => ?_⟩
    obtain ⟨x, -, h1, h2⟩ := h.lb w hw
    exact ⟨x, h1, h2⟩

/-- The lower bound only grows, and nothing else changes. -/
def Improved (I : Inst) (s s' : St) : Prop :=
  ∃ (x : Option Vec) (v : WithBot ℚ) (b : Bool) (t : List (WithTop ℚ × WithBot ℚ)),
    s.vLB ≤ v ∧ s' = { s with xLB := x, vLB := v, vLBNumpy := b, trace := t } ∧ Bracket I s'

theorem wp_improve_bracket (hC : Contract env I) {cands : List Vec} {s : St} (h : Bracket I s)
    (hc : ∀ x ∈ cands, InX I x ∧ Sharp I x) {E : PyErr → St → Prop} :
    wp (improve env I cands) (fun _ s' => Improved I s s') E s := by
  refine wp_improve (fun _ => ⟨s.xLB, s.vLB, s.vLBNumpy, s.trace, le_rfl, rfl, h⟩)
    fun x v hx => ?_
  obtain ⟨h1, h2, h3, -⟩ := (C19_best_incumbent env.norm env.argsort I cands s.vUB s.vLB).1 x v hx
  refine ⟨some x, v, true, _, ?_, rfl, ?_⟩
  · cases hl : s.vLB with
    | bot => exact bot_le
    | coe l =>
      have := h3.2.2 l hl
      rw [h2]
      exact WithBot.coe_le_coe.2 (by linarith [show (0 : ℚ) < 1 / 10 ^ 8 by norm_num])
  · exact h.newLB (sharp_feas hC.equi hC.eps (hc x h1).1 (hc x h1).2 h3.1) h2.symm true

/-! ## The partitioned problem -/

/-- The assignment that selects the satisfied subsets. -/
def pointOf (I : Inst) (P : List (List ℕ)) (y : Vec) : V → ℚ
  | .x j => y j
  | .z c => if SatAll I (P.getD c []) y then 1 else 0
  | _ => 0

theorem nbViolParts_card (I : Inst) (P : List (List ℕ)) (y : Vec) :
    nbViolParts I P y = ((range P.length).filter fun c => ¬ SatAll I (P.getD c []) y).card := by
  unfold nbViolParts
  rw [countP_getD P [], List.countP_eq_length_filter, Finset.card_def, Finset.filter_val]
  show _ = (Multiset.filter _ (Multiset.range P.length)).card
  rw [← Multiset.coe_range, Multiset.filter_coe, Multiset.coe_card]

/-- The points of the partitioned model without pruned subsets. -/
theorem cclp_points (hE : Equi I) (heps : 0 ≤ I.eps) {P : List (List ℕ)}
    (hP : IsPartition I.N P) {D : PartData} (hD : loadPartition I P.length P = .ok D)
    {bigM : Option (List (List ℚ))}
    (hM : ∀ Ms, bigM = some Ms → SameSolutions (partCI I D) Ms) {zs : List ℕ}
    (hz : ∀ c ∈ zs, c < P.length) {gap : ℚ} {g : GModel}
    (hg : buildCCLP (partCI I D) bigM zs [] gap = .ok g) :
    g.obj = objExpr (partCI I D) ∧ g.maximize = true
    ∧ (∀ ρ, g.Feas ρ → PartFeas I P fun j => ρ (.x j))
    ∧ ∀ y, PartFeas I P y → g.Feas (pointOf I P y) := by
  have hnb := nbScen_part hP hD
  obtain ⟨g0, h1, h2, h3, -, h4⟩ := buildCCLP_ok (partCI I D) none (by rintro _ ⟨⟩) zs [] gap
    (by rw [hnb]; exact hz) (by simp)
  have hrow := fun c hc x => (C10_subset_rows I P hP.2 D hD c hc).2 x
  have key : (∀ ρ, g0.Feas ρ → PartFeas I P fun j => ρ (.x j))
      ∧ ∀ y, PartFeas I P y → g0.Feas (pointOf I P y) := by
    constructor
    · intro ρ hρ
      obtain ⟨⟨a1, a2, a3, -⟩, a4⟩ := (h4 ρ).1 hρ
      exact ⟨a1, zOk_partFeas hE heps hP hD (z := fun s => ρ (.z s)) ⟨a2, a3, a4⟩⟩
    · intro y hy
      refine (h4 _).2 ⟨⟨hy.1, fun c _ => ?_, ?_, by simp⟩, fun c hc hz1 => ?_⟩
      · show (if SatAll I (P.getD c []) y then (1 : ℚ) else 0) = 0 ∨ _ = (1 : ℚ)
        show _ ∨ (if SatAll I (P.getD c []) y then (1 : ℚ) else 0) = 1
        split
        · right; rfl
        · left; rfl
      · have hc := (C12_chance_constraint_count I P hE heps hP D hD
          (fun c => if SatAll I (P.getD c []) y then 1 else 0) (fun c _ => by
            split
            · right; rfl
            · left; rfl)).2 (by
            have h5 := hy.2
            rw [nbViolParts_card] at h5
            refine le_trans (le_of_eq ?_) h5
            congr 1
            refine Finset.filter_congr fun c _ => ?_
            by_cases hs : SatAll I (P.getD c []) y
            · simp only [hs, not_true_eq_false]; norm_num
            · simp only [if_neg hs]; simpa using hs)
        rw [hnb]
        refine hc.le.trans (le_of_eq (Finset.sum_congr rfl fun c _ => mul_comm _ _))
      · rw [hnb] at hc
        rw [hrow c hc]
        show SatAll I (P.getD c []) y
        by_contra hno
        have : (if SatAll I (P.getD c []) y then (1 : ℚ) else 0) = 1 := hz1
        rw [if_neg hno] at this
        norm_num at this
  cases bigM with
  | none =>
    rw [h1] at hg
    cases hg
    exact ⟨h2, h3, key.1, key.2⟩
  | some Ms =>
    obtain ⟨k, k0, b1, b2, b3, b4, -, b6⟩ := hM Ms rfl zs [] gap (by rw [hnb]; exact hz) (by simp)
    rw [hg] at b1
    cases b1
    rw [h1] at b2
    cases b2
    exact ⟨b3.trans h2, b4, fun ρ hρ => key.1 ρ ((b6 ρ).1 hρ), fun y hy => (b6 _).2 (key.2 y hy)⟩

/-- A bound on the points of the partitioned problem. -/
structure UBSpec (env : Env) (I : Inst) (P : List (List ℕ)) (out : UBOut) : Prop where
  point : PartFeas I P out.x
  obj : obj I out.x = out.vObj
  bound : ∀ y, PartFeas I P y → Spec.obj I y ≤ out.vBnd
  z : out.z.length = P.length
  tight : (∀ t g ρ, (env.cc t g).sol = some ρ → (env.cc t g).objVal = (env.cc t g).objBnd) →
    out.vObj = out.vBnd
  near : NearTight env → |out.vBnd - out.vObj| ≤ 1 / 10 ^ 8 * |out.vObj|

theorem UBSpec.le {P : List (List ℕ)} {out : UBOut} (h : UBSpec env I P out) :
    out.vObj ≤ out.vBnd := h.obj ▸ h.bound _ h.point

/-- The partitioned problem with pruning gives a valid bound, and a point. -/
theorem cclp_spec (hC : Contract env I) {P : List (List ℕ)} (hP : IsPartition I.N P)
    {D : PartData} (hD : loadPartition I P.length P = .ok D) {costs : List ℚ} {sols : List Vec}
    (hc : PartCosts I P costs sols) {vLB : WithBot ℚ}
    (hl : ∀ v : ℚ, vLB = v → ∃ x, Feas I x ∧ obj I x = v) {bigM : Option (List (List ℚ))}
    (hM : ∀ Ms, bigM = some Ms → SameSolutions (partCI I D) Ms) {zs : List ℕ}
    (hz : ∀ c ∈ zs, c < P.length) {gap limit build : ℚ} (hgap : gap = 1 / 10 ^ 8) {t : ℕ} :
    (∀ out, solveCclp (partCI I D) bigM zs (pruneIndices costs vLB) gap limit build (env.cc t)
        = .ok out →
      UBSpec env I P out)
    ∧ ((∀ g, GResult.Answers g (env.cc t g)) → build ≤ limit →
      ∃ out, solveCclp (partCI I D) bigM zs (pruneIndices costs vLB) gap limit build (env.cc t)
        = .ok out)
    ∧ (∀ e, (∀ g, GResult.Answers g (env.cc t g)) →
      solveCclp (partCI I D) bigM zs (pruneIndices costs vLB) gap limit build (env.cc t) = .error e →
      e = .gurobiErrorAt "Solver.py:113" ∧ limit < build) := by
  obtain ⟨g, g', h1, h2, h3, h3m, h4, h5⟩ := C16_pruning_safe I P hP.2 D hD costs sols hc vLB bigM hM zs hz
    gap
  obtain ⟨o1, o2, p1, p2⟩ := cclp_points hC.equi hC.eps hP hD hM hz h1
  have hmax : g'.maximize = true := h3m.trans o2
  have hev : ∀ ρ, g'.obj.eval ρ = obj I fun j => ρ (.x j) := fun ρ => by
    rw [h3, o1, eval_objExpr]; rfl
  have hbd : g'.Bounded := by
    refine ⟨∑ j ∈ range I.n, I.c j, fun ρ hρ => ?_⟩
    rw [if_pos hmax, hev]
    unfold Spec.obj dot
    refine Finset.sum_le_sum fun j hj => ?_
    have hj := Finset.mem_range.1 hj
    have := inX_box (p1 ρ (h4 ρ hρ)).1 j hj
    exact mul_le_of_le_one_right (hC.c j hj) this.2
  -- every point is below the bound
  have hbound : ∀ y, PartFeas I P y → obj I y ≤ (env.cc t g').objBnd := by
    have hgood : ∀ y, PartFeas I P y → (∀ v : ℚ, vLB = v → v - 1 / 10 ^ 3 < obj I y) →
        obj I y ≤ (env.cc t g').objBnd := fun y hy hv => by
      have := (hC.cc t g').bound hbd _ (h5 _ (p2 y hy) hv)
      rw [if_pos hmax, hev] at this
      exact this
    intro y hy
    by_cases hv : ∀ v : ℚ, vLB = v → v - 1 / 10 ^ 3 < obj I y
    · exact hgood y hy hv
    · push Not at hv
      obtain ⟨v, hv1, hv2⟩ := hv
      obtain ⟨x, hx1, hx2⟩ := hl v hv1
      have := hgood x (feas_partFeas hC.equi hC.eps hP hx1) (fun w hw => by
        rw [hv1] at hw
        rw [hx2, ← WithBot.coe_injective hw]
        linarith [show (0 : ℚ) < 1 / 10 ^ 3 by norm_num])
      linarith [show (0 : ℚ) < 1 / 10 ^ 3 by norm_num]
  have hrun : solveCclp (partCI I D) bigM zs (pruneIndices costs vLB) gap limit build (env.cc t)
      = (setTimeLimit (limit - build) >>= fun _ => do
      let r ← optimize (env.cc t g')
      let ρ ← getSol r
      let v ← getObjVal r
      pure { x := fun j => ρ (.x j), z := (List.range (partCI I D).nbScen).map fun s => ρ (.z s)
             vObj := v, vBnd := r.objBnd }) := by
    unfold solveCclp
    rw [h2]
    rfl
  rw [hrun]
  have hanswer : (∀ g, GResult.Answers g (env.cc t g)) → ∃ out, (do
      let r ← optimize (env.cc t g')
      let ρ ← getSol r
      let v ← getObjVal r
      pure { x := fun j => ρ (.x j), z := (List.range (partCI I D).nbScen).map fun s => ρ (.z s)
             vObj := v, vBnd := r.objBnd } : PyM UBOut) = .ok out := by
    intro hans
    have hpt : ∃ ρ, g'.Feas ρ := by
      cases hv : vLB with
      | bot =>
        refine ⟨_, h5 _ (p2 (fun _ => 0) ⟨zero_inX I, ?_⟩) fun v hv' => ?_⟩
        · rw [nbViolParts_card, Finset.filter_false_of_mem]
          · simp
          · intro c hc
            rw [not_not, List.getD_eq_getElem _ _ (Finset.mem_range.1 hc)]
            exact zero_satAll hC.ab (part_valid hP _ (List.getElem_mem _)).2
        · rw [hv] at hv'; cases hv'
      | coe v =>
        obtain ⟨x, hx1, hx2⟩ := hl v hv
        refine ⟨_, h5 _ (p2 x (feas_partFeas hC.equi hC.eps hP hx1)) fun w hw => ?_⟩
        rw [hv] at hw
        show _ < obj I x
        rw [hx2, ← WithBot.coe_injective hw]
        linarith [show (0 : ℚ) < 1 / 10 ^ 3 by norm_num]
    have hsol := (hans g').solved hbd hpt
    obtain ⟨ρ, hs⟩ := Option.isSome_iff_exists.1 hsol
    unfold optimize getSol getObjVal
    rw [if_neg (hans g').notInterrupted]
    simp only [bind, Except.bind, hs]
    exact ⟨_, rfl⟩
  refine ⟨fun out hout => ?_, fun hans hle => ?_, fun e hans he => ?_⟩
  · by_cases h0 : 0 ≤ limit - build
    swap
    · rw [setTimeLimit, if_neg h0] at hout; cases hout
    rw [setTimeLimit, if_pos h0] at hout
    replace hout : (do
      let r ← optimize (env.cc t g')
      let ρ ← getSol r
      let v ← getObjVal r
      pure { x := fun j => ρ (.x j), z := (List.range (partCI I D).nbScen).map fun s => ρ (.z s)
             vObj := v, vBnd := r.objBnd } : PyM UBOut) = .ok out := hout
    unfold optimize at hout
    split at hout
    · cases hout
    · simp only [bind, Except.bind] at hout
      unfold getSol getObjVal at hout
      cases hs : (env.cc t g').sol with
      | none => rw [hs] at hout; cases hout
      | some ρ =>
        rw [hs] at hout
        cases hout
        obtain ⟨f1, f2⟩ := (hC.cc t g').feas ρ hs
        refine ⟨p1 ρ (h4 ρ f1), by rw [← f2, hev], hbound, by simp [nbScen_part hP hD],
          fun htight => htight t g' ρ hs, fun hn => ?_⟩
        have hmg : g'.mipGap = 1 / 10 ^ 8 := (buildCCLP_mipGap h2).trans hgap
        obtain ⟨n1, n2⟩ := hn t g' ρ hmg hs
        rw [← hmg]
        exact n2 n1
  · obtain ⟨out, h⟩ := hanswer hans
    exact ⟨out, by rw [setTimeLimit, if_pos (by linarith)]; exact h⟩
  · unfold setTimeLimit at he
    split at he
    · obtain ⟨out, h⟩ := hanswer hans
      have := h.symm.trans he
      cases this
    · cases he
      exact ⟨rfl, by linarith⟩

end Verif.Model
