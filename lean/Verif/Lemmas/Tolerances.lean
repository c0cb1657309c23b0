import Verif.Model.Tolerances
import Verif.Lemmas.GapRun

/-!
# Answers within Gurobi's tolerances
-/

namespace Verif.Model
open Spec Props Finset LinExpr

variable {I : Inst} {env : Env} {t : Tols}

/-! ## Models -/

theorem near_addConstrs (g : GModel) (cs : List Constr) (ρ : V → ℚ) :
    (g.addConstrs cs).NearFeas t ρ ↔ g.NearFeas t ρ ∧ ∀ c ∈ cs, c.Near t ρ := by
  unfold GModel.NearFeas
  rw [addConstrs_vars, (addConstrs_fields cs g).2.2.2.2.2, and_assoc]
  refine and_congr_right fun _ => ?_
  have hm : ∀ c, c ∈ cs ↔ ∃ k, (c, k) ∈ cs.zipIdx g.next := fun c => by
    constructor
    · intro hc
      obtain ⟨i, hi, rfl⟩ := List.mem_iff_getElem.1 hc
      exact ⟨g.next + i, by
        rw [List.mk_mem_zipIdx_iff_le_and_getElem?_sub]
        simp [hi]⟩
    · rintro ⟨k, hk⟩
      exact (List.mem_zipIdx hk).2.2 ▸ List.getElem_mem _
  constructor
  · intro h
    refine ⟨fun c hc => h c (List.mem_append_left _ hc), fun c hc => ?_⟩
    obtain ⟨k, hk⟩ := (hm c).1 hc
    exact h (k, c) (List.mem_append_right _ (List.mem_map.2 ⟨(c, k), hk, rfl⟩))
  · rintro ⟨h1, h2⟩ c hc
    rcases List.mem_append.1 hc with hc | hc
    · exact h1 c hc
    · obtain ⟨p, hp, rfl⟩ := List.mem_map.1 hc
      exact h2 p.1 ((hm p.1).2 ⟨p.2, hp⟩)

theorem near_addConstr (g : GModel) (c : Constr) (ρ : V → ℚ) :
    (g.addConstr c).NearFeas t ρ ↔ g.NearFeas t ρ ∧ c.Near t ρ := by
  have := near_addConstrs (t := t) g [c] ρ
  simpa [GModel.addConstrs] using this

theorem near_addVars (g : GModel) (ds : List VarDecl) (ρ : V → ℚ) :
    (g.addVars ds).NearFeas t ρ ↔ g.NearFeas t ρ ∧ ∀ d ∈ ds, d.Near t ρ := by
  unfold GModel.NearFeas GModel.addVars
  simp only [List.mem_append]
  constructor
  · rintro ⟨h1, h2⟩
    exact ⟨⟨fun d hd => h1 d (.inl hd), h2⟩, fun d hd => h1 d (.inr hd)⟩
  · rintro ⟨⟨h1, h2⟩, h3⟩
    exact ⟨fun d hd => hd.elim (h1 d) (h3 d), h2⟩

/-- Indicator constraints are on binary variables. -/
def IndBinary (g : GModel) : Prop :=
  ∀ c ∈ g.constrs, ∀ v val l, c.2 = .ind v val l → ∃ d ∈ g.vars, d.v = v ∧ d.binary = true

theorem near_of_feas (h1 : 0 ≤ t.int) (h2 : 0 ≤ t.feas) (h3 : t.int < 1) {g : GModel}
    (hg : IndBinary g) {ρ : V → ℚ} (h : g.Feas ρ) : g.NearFeas t ρ := by
  have hlin : ∀ l : Lin, l.Holds ρ → l.Near t.feas ρ := fun l hl => by
    unfold Lin.Holds at hl
    unfold Lin.Near
    cases hr : l.rel <;> rw [hr] at hl <;> simp only at hl ⊢
    · linarith
    · linarith
    · rw [hl, sub_self, abs_zero]; exact h2
  refine ⟨fun d hd => ?_, fun c hc => ?_⟩
  · obtain ⟨a1, a2, a3⟩ := h.1 d hd
    refine ⟨fun hb => ?_, fun l hl => by linarith [a2 l hl], fun u hu => by linarith [a3 u hu]⟩
    rcases a1 hb with h0 | h0
    · rw [h0]; exact ⟨.inl (by simpa using h1), by linarith, by linarith⟩
    · rw [h0]; exact ⟨.inr (by simpa using h1), by linarith, by linarith⟩
  · have hc' := h.2 c hc
    have hgc := hg c hc
    cases hcc : c.2 with
    | lin l => rw [hcc] at hc'; exact hlin l hc'
    | ind v val l =>
      rw [hcc] at hc'
      intro hv
      refine hlin l (hc' ?_)
      obtain ⟨d, hd, rfl, hb⟩ := hgc v val l hcc
      have hlt := hv.trans_lt h3
      rcases (h.1 d hd).1 hb with h0 | h0 <;> rw [h0] at hlt ⊢ <;> cases val <;> simp at hlt ⊢

theorem mem_addConstrs {g : GModel} {cs : List Constr} {c : ℕ × Constr}
    (h : c ∈ (g.addConstrs cs).constrs) : c ∈ g.constrs ∨ c.2 ∈ cs := by
  rw [(addConstrs_fields cs g).2.2.2.2.2] at h
  rcases List.mem_append.1 h with h | h
  · exact .inl h
  · obtain ⟨p, hp, rfl⟩ := List.mem_map.1 h
    exact .inr ((List.mem_zipIdx hp).2.2 ▸ List.getElem_mem _)

theorem indBinary_det {J : CI} {d : Deter} {scen : List ℕ} {cuts : List ℚ} (h : DetInv J d scen cuts) :
    IndBinary d.g := by
  intro c hc v val l he
  have hm := h.constrs.mem_iff.1 (List.mem_map.2 ⟨c, hc, rfl⟩)
  rw [he] at hm
  rcases List.mem_append.1 hm with hm | hm
  · obtain ⟨s, -, hm⟩ := List.mem_flatMap.1 hm
    obtain ⟨i, -, hm⟩ := List.mem_map.1 hm
    cases hm
  · obtain ⟨q, -, hm⟩ := List.mem_map.1 hm
    cases hm

theorem indBinary_add {J : CI} (ss : List ℕ) : ∀ d : Deter, IndBinary d.g →
    IndBinary (Deter.add J d ss).g := by
  induction ss with
  | nil => intro d h; exact h
  | cons s ss ih =>
    intro d h
    refine ih (d.add1 J s) fun c hc v val l he => ?_
    rcases mem_addConstrs hc with hc | hc
    · have := h c hc v val l he
      rwa [show (d.add1 J s).g.vars = d.g.vars from addConstrs_vars _ _]
    · rw [he] at hc
      obtain ⟨i, -, hm⟩ := List.mem_map.1 hc
      cases hm

theorem indBinary_build (J : CI) (ss : List ℕ) : IndBinary (Deter.build J ss).g :=
  indBinary_add ss (Deter.start J) (by
    intro c hc
    simp [Deter.start, GModel.setObjective, GModel.addVars, GModel.empty] at hc)

theorem indBinary_cclp {J : CI} {cs : List Constr} {prune : List ℕ} {gap : ℚ}
    (hcs : ∀ c ∈ cs, ∀ v val l, c = .ind v val l → ∃ s < J.nbScen, v = .z s) :
    IndBinary (cclpModel J cs prune gap) := by
  intro c hc v val l he
  have hv : (cclpModel J cs prune gap).vars = varX J ++ varZ J := by
    unfold cclpModel
    show (GModel.addConstrs _ _).vars = _
    rw [addConstrs_vars]
    show (GModel.addConstrs _ _).vars = _
    rw [addConstrs_vars]
    rfl
  rw [hv]
  have hc' : c ∈ (((((GModel.empty.addVars (varX J)).setObjective (objExpr J) true).addVars
        (varZ J)).addConstrs cs).addConstr (chanceConstr J)).constrs
      ∨ c.2 ∈ prune.map fixZero := mem_addConstrs hc
  rcases hc' with hc' | hc'
  · rcases List.mem_append.1 hc' with hc' | hc'
    · rcases mem_addConstrs hc' with hc' | hc'
      · simp [GModel.setObjective, GModel.addVars, GModel.empty] at hc'
      · obtain ⟨s, hs, rfl⟩ := hcs _ hc' v val l he
        exact ⟨_, List.mem_append_right _ (List.mem_map.2 ⟨s, List.mem_range.2 hs, rfl⟩), rfl, rfl⟩
    · rw [List.mem_singleton.1 hc'] at he
      cases he
  · obtain ⟨s, -, hm⟩ := List.mem_map.1 hc'
    rw [he] at hm
    cases hm

theorem ind_indicators {J : CI} : ∀ c ∈ allIndicators J, ∀ v val l, c = .ind v val l →
    ∃ s < J.nbScen, v = .z s := by
  intro c hc v val l he
  unfold allIndicators at hc
  obtain ⟨_, h1, h2⟩ := List.mem_flatten.1 hc
  obtain ⟨s, hs, rfl⟩ := List.mem_map.1 h1
  obtain ⟨i, -, rfl⟩ := List.mem_map.1 h2
  cases he
  exact ⟨s, List.mem_range.1 hs, rfl⟩

theorem ind_bigM {J : CI} {Ms : List (List ℚ)} : ∀ c ∈ ((List.range J.nbScen).map fun s =>
      ((List.range (J.nbCon s)).map fun i =>
        bigMConstrs J s i (bigMAt Ms s i)).flatten).flatten, ∀ v val l, c = .ind v val l →
    ∃ s < J.nbScen, v = .z s := by
  intro c hc v val l he
  obtain ⟨_, hl, hc⟩ := List.mem_flatten.1 hc
  obtain ⟨s, hs, rfl⟩ := List.mem_map.1 hl
  obtain ⟨_, hl, hc⟩ := List.mem_flatten.1 hc
  obtain ⟨i, -, rfl⟩ := List.mem_map.1 hl
  unfold bigMConstrs at hc
  subst he
  split at hc
  · cases List.mem_singleton.1 hc
  · split at hc
    · cases hc
    · cases List.mem_singleton.1 hc

theorem wideTols_pos : 0 ≤ wideTols.int ∧ 0 ≤ wideTols.feas ∧ wideTols.int < 1 := by
  norm_num [wideTols]

theorem defaultTols_pos : 0 ≤ defaultTols.int ∧ 0 ≤ defaultTols.feas ∧ defaultTols.int < 1 := by
  norm_num [defaultTols]

/-- Exactly feasible points are feasible within the tolerances. -/
theorem near_or (ht : 0 ≤ t.int ∧ 0 ≤ t.feas ∧ t.int < 1) {g : GModel} (hg : IndBinary g)
    {ρ : V → ℚ} (h : g.Feas ρ ∨ g.NearFeas t ρ) : g.NearFeas t ρ :=
  h.elim (near_of_feas ht.1 ht.2.1 ht.2.2 hg) id

/-- `x` respects the kind of variables up to tolerances. -/
def NearDom (t : Tols) (J : CI) (x : Vec) : Prop :=
  ∀ j < J.n, (J.cont = false → |x j| ≤ t.int ∨ |x j - 1| ≤ t.int) ∧ -t.feas ≤ x j ∧ x j ≤ 1 + t.feas

theorem near_varX {J : CI} {ρ : V → ℚ} (h : ∀ d ∈ varX J, d.Near t ρ) :
    NearDom t J fun j => ρ (.x j) := by
  intro j hj
  have := h _ (List.mem_map.2 ⟨j, List.mem_range.2 hj, rfl⟩)
  cases hc : J.cont with
  | true =>
    rw [hc] at this
    obtain ⟨-, h2, h3⟩ := this
    have h2 := h2 0 rfl
    have h3 := h3 1 rfl
    exact ⟨by simp, by simpa using h2, h3⟩
  | false =>
    rw [hc] at this
    obtain ⟨h1, -, -⟩ := this
    obtain ⟨h1, h2, h3⟩ := h1 rfl
    exact ⟨fun _ => h1, h2, h3⟩

theorem near_varZ {J : CI} {ρ : V → ℚ} (h : ∀ d ∈ varZ J, d.Near t ρ) :
    ∀ s < J.nbScen, (|ρ (.z s)| ≤ t.int ∨ |ρ (.z s) - 1| ≤ t.int) ∧ -t.feas ≤ ρ (.z s)
      ∧ ρ (.z s) ≤ 1 + t.feas := fun s hs =>
  (h _ (List.mem_map.2 ⟨s, List.mem_range.2 hs, rfl⟩)).1 rfl

/-- Rows of a scenario up to a tolerance. -/
def NearRows (τ : ℚ) (J : CI) (s : ℕ) (x : Vec) : Prop :=
  ∀ i < J.nbCon s, dot J.n (J.row s i) x ≤ J.rhs s i + τ

theorem DetInv.near {J : CI} {d : Deter} {scen : List ℕ} {cuts : List ℚ} (h : DetInv J d scen cuts)
    {ρ : V → ℚ} (hρ : d.g.NearFeas t ρ) :
    NearDom t J (fun j => ρ (.x j)) ∧ ∀ s ∈ scen, NearRows t.feas J s fun j => ρ (.x j) := by
  obtain ⟨h1, h2⟩ := hρ
  rw [h.vars] at h1
  refine ⟨near_varX h1, fun s hs i hi => ?_⟩
  have hm : rowC J s i ∈ d.g.constrs.map Prod.snd := h.constrs.mem_iff.2
    (List.mem_append_left _ (List.mem_flatMap.2 ⟨s, hs, List.mem_map.2 ⟨i, List.mem_range.2 hi, rfl⟩⟩))
  obtain ⟨c, hc, he⟩ := List.mem_map.1 hm
  have := h2 c hc
  rw [he] at this
  simpa [rowC, Constr.Near, Lin.Near, eval_lhsExpr] using this

theorem near_cclp {J : CI} {cs : List Constr} {prune : List ℕ} {gap : ℚ} {ρ : V → ℚ}
    (h : (cclpModel J cs prune gap).NearFeas t ρ) :
    NearDom t J (fun j => ρ (.x j))
    ∧ (∀ s < J.nbScen, (|ρ (.z s)| ≤ t.int ∨ |ρ (.z s) - 1| ≤ t.int) ∧ -t.feas ≤ ρ (.z s)
      ∧ ρ (.z s) ≤ 1 + t.feas)
    ∧ 1 - J.eps - t.feas ≤ ∑ s ∈ range J.nbScen, J.proba s * ρ (.z s)
    ∧ ∀ c ∈ cs, c.Near t ρ := by
  unfold cclpModel at h
  have h' : GModel.NearFeas t (((((((GModel.empty.addVars (varX J)).setObjective (objExpr J) true).addVars
        (varZ J)).addConstrs cs).addConstr (chanceConstr J)).addConstrs
        (prune.map fixZero))) ρ := h
  rw [near_addConstrs, near_addConstr, near_addConstrs, near_addVars] at h'
  obtain ⟨⟨⟨⟨h1, h2⟩, h3⟩, h4⟩, -⟩ := h'
  refine ⟨near_varX (t := t) (J := J) fun d hd => h1.1 d ?_, near_varZ h2, ?_, h3⟩
  · exact List.mem_append_right _ hd
  · simpa [chanceConstr, Constr.Near, Lin.Near] using h4

theorem near_indicators {J : CI} {ρ : V → ℚ} (h : ∀ c ∈ allIndicators J, c.Near t ρ) :
    ∀ s < J.nbScen, |ρ (.z s) - 1| ≤ t.int → NearRows t.feas J s fun j => ρ (.x j) := by
  intro s hs hz i hi
  have := h (.ind (.z s) true ⟨lhsExpr J s i, .le, ofConst (J.rhs s i)⟩) (by
    unfold allIndicators
    rw [List.mem_flatten]
    exact ⟨_, List.mem_map.2 ⟨s, List.mem_range.2 hs, rfl⟩,
      List.mem_map.2 ⟨i, List.mem_range.2 hi, rfl⟩⟩)
  have := this (by simpa using hz)
  simpa [Lin.Near, eval_lhsExpr] using this

/-! ## Instances with larger capacities -/

/-- The instance with all capacities raised by `τ`. -/
def slack (τ : ℚ) (I : Inst) : Inst := { I with b := fun s i => I.b s i + τ }

theorem slack_sat (τ : ℚ) (I : Inst) (s : ℕ) (x : Vec) : Sat (slack τ I) s x ↔ ¬ ViolBy I τ s x := by
  unfold Sat ViolBy slack
  push Not
  refine forall_congr' fun i => forall_congr' fun _ => ?_
  constructor <;> intro h <;> linarith

theorem slack_viol (τ : ℚ) (I : Inst) (x : Vec) : viol (slack τ I) x = violBy I τ x := by
  unfold viol violBy
  refine Finset.filter_congr fun s _ => ?_
  rw [slack_sat, not_not]

theorem slack_satAll (τ : ℚ) (I : Inst) (l : List ℕ) (x : Vec) :
    SatAll (slack τ I) l x ↔ ∀ s ∈ l, ¬ ViolBy I τ s x := by
  unfold SatAll
  simp only [slack_sat]

theorem slack_parts (τ : ℚ) (I : Inst) (P : List (List ℕ)) (x : Vec) :
    nbViolParts (slack τ I) P x = nbViolPartsBy I τ P x := by
  unfold nbViolParts nbViolPartsBy
  refine List.countP_congr fun p _ => ?_
  rw [decide_eq_true_iff, decide_eq_true_iff, slack_satAll]
  push Not
  rfl

theorem loadPartition_slack (τ : ℚ) (I : Inst) (k : ℕ) (P : List (List ℕ)) :
    loadPartition (slack τ I) k P = loadPartition I k P := rfl

theorem nearRows_part {τ : ℚ} {P : List (List ℕ)} (hne : ∀ p ∈ P, p ≠ []) {D : PartData}
    (hD : loadPartition I P.length P = .ok D) {c : ℕ} (hc : c < P.length) {x : Vec}
    (h : NearRows τ (partCI I D) c x) : ∀ s ∈ P.getD c [], ¬ ViolBy I τ s x :=
  (slack_satAll τ I _ x).1 (((C10_subset_rows (slack τ I) P hne D
    ((loadPartition_slack τ I _ _).trans hD) c hc).2 x).1 h)

theorem violBy_mono {σ τ : ℚ} (h : σ ≤ τ) {s : ℕ} {x : Vec} (hv : ViolBy I τ s x) : ViolBy I σ s x := by
  obtain ⟨i, hi, h'⟩ := hv
  exact ⟨i, hi, by linarith⟩

/-- Within tolerances the indicators of at most `kmax` of `K` equiprobable subsets are 0. -/
theorem near_count_core (htol : TolOk I) {K : ℕ} (hK0 : 0 < K) (hKN : K ≤ I.N) {ep : ℚ}
    (hep : ep * K = I.eps * I.N) {pr : ℕ → ℚ} (hpr : ∀ c < K, pr c = 1 / K)
    (ht : t.int + t.feas ≤ 1 / 10 ^ 7) {z : ℕ → ℚ}
    (hz : ∀ c < K, |z c| ≤ t.int ∨ |z c - 1| ≤ t.int)
    (hch : 1 - ep - t.feas ≤ ∑ c ∈ range K, pr c * z c) :
    ((range K).filter fun c => ¬ |z c - 1| ≤ t.int).card ≤ kmax I := by
  have hK : (0 : ℚ) < K := by exact_mod_cast hK0
  have hKN : (K : ℚ) ≤ I.N := by exact_mod_cast hKN
  have h1 : ∑ c ∈ range K, pr c * z c = (∑ c ∈ range K, z c) / K := by
    rw [Finset.sum_div]
    refine Finset.sum_congr rfl fun c hc => ?_
    rw [hpr c (Finset.mem_range.1 hc)]; ring
  have h2 : ∑ c ∈ range K, z c
      ≤ ∑ c ∈ range K, ((1 + t.int) - if ¬ |z c - 1| ≤ t.int then 1 else 0) := by
    refine Finset.sum_le_sum fun c hc => ?_
    by_cases h : |z c - 1| ≤ t.int
    · simp only [h, not_true_eq_false, if_false]
      linarith [(abs_le.1 h).2]
    · simp only [h, not_false_eq_true, if_true]
      have := ((hz c (Finset.mem_range.1 hc)).resolve_right h)
      linarith [(abs_le.1 this).2]
  rw [Finset.sum_sub_distrib, Finset.sum_boole] at h2
  have he : ep = I.eps * I.N / K := by
    rw [eq_div_iff hK.ne']; exact hep
  rw [h1, he, le_div_iff₀ hK] at hch
  simp only [Finset.sum_const, Finset.card_range, nsmul_eq_mul] at h2
  have h3 : (1 - I.eps * I.N / K - t.feas) * K = K - I.eps * I.N - t.feas * K := by
    field_simp
  rw [h3] at hch
  have h4 : (t.int + t.feas) * K ≤ 1 / 10 ^ 7 * I.N :=
    mul_le_mul ht hKN hK.le (by norm_num)
  have h5 : (((range K).filter fun c => ¬ |z c - 1| ≤ t.int).card : ℚ) < (kmax I : ℚ) + 1 := by
    have := htol
    unfold TolOk at this
    unfold kmax
    linarith
  have : ((range K).filter fun c => ¬ |z c - 1| ≤ t.int).card < kmax I + 1 := by exact_mod_cast h5
  omega

/-- The partitioned instance. -/
theorem near_count (hE : Equi I) (htol : TolOk I) {P : List (List ℕ)}
    (hP : IsPartition I.N P) {D : PartData} (hD : loadPartition I P.length P = .ok D)
    (ht : t.int + t.feas ≤ 1 / 10 ^ 7) {z : ℕ → ℚ}
    (hz : ∀ c < P.length, |z c| ≤ t.int ∨ |z c - 1| ≤ t.int)
    (hch : 1 - (partCI I D).eps - t.feas ≤ ∑ c ∈ range P.length, (partCI I D).proba c * z c) :
    ((range P.length).filter fun c => ¬ |z c - 1| ≤ t.int).card ≤ kmax I := by
  have hN : (0 : ℚ) < I.N := by exact_mod_cast hE.1
  have hpos : ∀ s < I.N, 0 < I.proba s := fun s hs => by
    rw [hE.2 s hs]; positivity
  obtain ⟨D', hD', _, _, _, _, hq⟩ := C09_partition_probabilities I P hE.1 hP hpos
  rw [hD] at hD'
  cases hD'
  obtain ⟨hq1, hq2⟩ := hq hE
  exact near_count_core htol (List.length_pos_of_ne_nil (isPartition_ne_nil hP hE.1))
    (partition_length_le hP) hq2 hq1 ht hz hch

/-- Big-M rows of binary instances. -/
theorem near_bigM {J : CI} (hb : J.cont = false) {Ms : List (List ℚ)}
    (hM : ∀ s < J.nbScen, ∀ i < J.nbCon s, bigMAt Ms s i ≤ 10 ^ 6) {ρ : V → ℚ}
    (h : ∀ c ∈ ((List.range J.nbScen).map fun s =>
      ((List.range (J.nbCon s)).map fun i =>
        bigMConstrs J s i (bigMAt Ms s i)).flatten).flatten, c.Near wideTols ρ) :
    ∀ s < J.nbScen, |ρ (.z s) - 1| ≤ wideTols.int → NearRows (1 / 500) J s fun j => ρ (.x j) := by
  intro s hs hz i hi
  have h1 : ∀ c ∈ bigMConstrs J s i (bigMAt Ms s i), c.Near wideTols ρ := fun c hc =>
    h c (List.mem_flatten.2 ⟨_, List.mem_map.2 ⟨s, List.mem_range.2 hs, rfl⟩,
      List.mem_flatten.2 ⟨_, List.mem_map.2 ⟨i, List.mem_range.2 hi, rfl⟩, hc⟩⟩)
  have hM' := hM s hs i hi
  unfold bigMConstrs at h1
  simp only [wideTols] at hz
  split at h1
  · next hlow =>
    have h2 := h1 (bigMConstr J s i (bigMAt Ms s i)) (by simp)
    simp only [bigMConstr, Constr.Near, Lin.Near, wideTols] at h2
    simp [eval_lhsExpr] at h2
    have h3 : bigMAt Ms s i * (1 - ρ (.z s)) ≤ 1 / 10 ^ 3 := by
      refine (le_abs_self _).trans ?_
      rw [abs_mul, abs_sub_comm]
      have : |bigMAt Ms s i| ≤ 10 ^ 6 := abs_le.2 ⟨by linarith, hM'⟩
      calc |bigMAt Ms s i| * |ρ (.z s) - 1| ≤ 10 ^ 6 * (1 / 10 ^ 9) :=
            mul_le_mul this hz (abs_nonneg _) (by norm_num)
        _ = 1 / 10 ^ 3 := by norm_num
    linarith
  · next hlow =>
    rw [hb] at h1
    have h2 := h1 (fixedConstr J s i (bigMAt Ms s i)) (by simp)
    simp only [fixedConstr, Constr.Near, Lin.Near, wideTols] at h2
    simp [eval_lhsExpr] at h2
    push Not at hlow
    linarith

/-- The answer of a chance-constrained problem: its point and the subsets it satisfies. -/
theorem near_answer {J : CI} (hb : J.cont = false) {bigM : Option (List (List ℚ))}
    (hM : ∀ Ms, bigM = some Ms → Shape J Ms
      ∧ ∀ s < J.nbScen, ∀ i < J.nbCon s, bigMAt Ms s i ≤ 10 ^ 6)
    {zs prune : List ℕ} {gap : ℚ} (hz : ∀ c ∈ zs, c < J.nbScen) (hp : ∀ c ∈ prune, c < J.nbScen)
    {g : GModel} (hg : buildCCLP J bigM zs prune gap = .ok g) {ρ : V → ℚ}
    (hρ : g.Feas ρ ∨ g.NearFeas wideTols ρ) :
    NearDom wideTols J (fun j => ρ (.x j)) ∧ g.obj = objExpr J
    ∧ (∀ s < J.nbScen, |ρ (.z s)| ≤ wideTols.int ∨ |ρ (.z s) - 1| ≤ wideTols.int)
    ∧ 1 - J.eps - wideTols.feas ≤ ∑ s ∈ range J.nbScen, J.proba s * ρ (.z s)
    ∧ ∀ s < J.nbScen, |ρ (.z s) - 1| ≤ wideTols.int → NearRows (1 / 500) J s fun j => ρ (.x j) := by
  have hz' : ¬ ∃ s ∈ zs, ¬ s < J.nbScen := fun ⟨s, h1, h2⟩ => h2 (hz s h1)
  have hp' : ¬ ∃ s ∈ prune, ¬ s < J.nbScen := fun ⟨s, h1, h2⟩ => h2 (hp s h1)
  unfold buildCCLP at hg
  cases bigM with
  | none =>
    simp only [if_neg hz', if_neg hp', bind, Except.bind, pure, Except.pure] at hg
    have hg' : g = cclpModel J (allIndicators J) prune gap := by cases hg; rfl
    rw [hg'] at hρ ⊢
    obtain ⟨h1, h2, h3, h4⟩ := near_cclp (near_or wideTols_pos (indBinary_cclp ind_indicators) hρ)
    refine ⟨h1, (cclpModel_fields _ _ _ _).1, fun s hs => (h2 s hs).1, h3, fun s hs hzs i hi => ?_⟩
    have := near_indicators h4 s hs hzs i hi
    simp only [wideTols] at this
    linarith
  | some Ms =>
    obtain ⟨m1, m2⟩ := hM Ms rfl
    simp only [if_neg hz', if_neg hp', allBigM_ok m1, bind, Except.bind, pure, Except.pure] at hg
    have hg' : g = cclpModel J ((List.range J.nbScen).map fun s =>
      ((List.range (J.nbCon s)).map fun i =>
        bigMConstrs J s i (bigMAt Ms s i)).flatten).flatten prune gap := by cases hg; rfl
    rw [hg'] at hρ ⊢
    obtain ⟨h1, h2, h3, h4⟩ := near_cclp (near_or wideTols_pos (indBinary_cclp ind_bigM) hρ)
    exact ⟨h1, (cclpModel_fields _ _ _ _).1, fun s hs => (h2 s hs).1, h3, near_bigM hb m2 h4⟩

theorem NearFeas_mono {t u : Tols} (hi : t.int = u.int) (hf : t.feas ≤ u.feas) {g : GModel} {ρ : V → ℚ}
    (h : g.NearFeas t ρ) : g.NearFeas u ρ := by
  have hl : ∀ l : Lin, l.Near t.feas ρ → l.Near u.feas ρ := by
    intro l hl
    unfold Lin.Near at hl ⊢
    cases hr : l.rel <;> simp only [hr] at hl ⊢ <;> linarith
  refine ⟨fun d hd => ?_, fun c hc => ?_⟩
  · obtain ⟨h1, h2, h3⟩ := h.1 d hd
    refine ⟨fun hb => ?_, fun l hl => by linarith [h2 l hl], fun u' hu => by linarith [h3 u' hu]⟩
    obtain ⟨b1, b2, b3⟩ := h1 hb
    exact ⟨hi ▸ b1, by linarith, by linarith⟩
  · have := h.2 c hc
    cases hc2 : c.2 with
    | lin l => rw [hc2] at this; exact hl l this
    | ind v val l => rw [hc2] at this; exact fun hv => hl l (this (by rw [hi]; exact hv))

/-- Gurobi's own tolerances are among those allowed here. -/
theorem NearValid_wide {g : GModel} {r : GResult} (h : GResult.NearValid cclpTols g r) :
    GResult.NearValid wideTols g r :=
  ⟨fun ρ hs => ⟨(h.feas ρ hs).1.imp id (NearFeas_mono (t := cclpTols) (u := wideTols) rfl (by norm_num [cclpTols, wideTols])),
    (h.feas ρ hs).2⟩, h.bound, h.infeasible, h.optimal⟩

/-- Points of subset problems within the default tolerances. -/
def NearSub (I : Inst) (l : List ℕ) (x : Vec) : Prop :=
  NearDom defaultTols (instCI I) x ∧ ∀ s ∈ l, ¬ ViolBy I (1 / 10 ^ 6) s x

theorem nearDom_mono {t u : Tols} (hi : t.int ≤ u.int) (hf : t.feas ≤ u.feas) {J : CI} {x : Vec}
    (h : NearDom t J x) : NearDom u J x := fun j hj => by
  obtain ⟨h1, h2, h3⟩ := h j hj
  exact ⟨fun hc => (h1 hc).imp (le_trans · hi) (le_trans · hi), by linarith, by linarith⟩

theorem nearRows_inst {τ : ℚ} {s : ℕ} {x : Vec} (h : NearRows τ (instCI I) s x) : ¬ ViolBy I τ s x := by
  rintro ⟨i, hi, hv⟩
  have : dot I.n (I.A s i) x ≤ I.b s i + τ := h i hi
  linarith

/-- The point of a partitioned problem with indicator constraints. -/
theorem ccPoint_near (hE : Equi I) (htol : TolOk I) {r : GResult} {P : List (List ℕ)} {D : PartData}
    {zs prune : List ℕ} {gap : ℚ} {g : GModel} {ρ : V → ℚ} (hr : GResult.NearValid wideTols g r)
    (hP : IsPartition I.N P) (hD : loadPartition I P.length P = .ok D) (hz : ∀ c ∈ zs, c < P.length)
    (hp : ∀ c ∈ prune, c < P.length) (hg : buildCCLP (partCI I D) none zs prune gap = .ok g)
    (hs : r.sol = some ρ) :
    (NearDom wideTols (instCI I) (fun j => ρ (.x j))
      ∧ nbViolPartsBy I (2 / 10 ^ 9) P (fun j => ρ (.x j)) ≤ kmax I)
    ∧ obj I (fun j => ρ (.x j)) = r.objVal := by
  have hnb := nbScen_part hP hD
  obtain ⟨f1, f2⟩ := hr.feas ρ hs
  have hg' : g = cclpModel (partCI I D) (allIndicators (partCI I D)) prune gap := by
    have hz' : ¬ ∃ s ∈ zs, ¬ s < (partCI I D).nbScen := fun ⟨s, h1, h2⟩ => h2 (hnb ▸ hz s h1)
    have hp' : ¬ ∃ s ∈ prune, ¬ s < (partCI I D).nbScen := fun ⟨s, h1, h2⟩ => h2 (hnb ▸ hp s h1)
    unfold buildCCLP at hg
    simp only [if_neg hz', if_neg hp', bind, Except.bind, pure, Except.pure] at hg
    cases hg
    rfl
  rw [hg'] at f1 f2
  obtain ⟨h1, h2, h3, h4⟩ := near_cclp (near_or wideTols_pos (indBinary_cclp ind_indicators) f1)
  rw [hnb] at h2 h3
  refine ⟨⟨h1, ?_⟩, ?_⟩
  · have hcard := near_count (t := wideTols) hE htol hP hD (by norm_num [wideTols])
      (z := fun c => ρ (.z c)) (fun c hc => (h2 c hc).1) h3
    refine le_trans ?_ hcard
    rw [← slack_parts, nbViolParts_card]
    refine Finset.card_le_card fun c hc => ?_
    obtain ⟨c1, c2⟩ := Finset.mem_filter.1 hc
    refine Finset.mem_filter.2 ⟨c1, fun hzc => c2 ?_⟩
    rw [slack_satAll]
    have hc' := Finset.mem_range.1 c1
    exact nearRows_part hP.2 hD hc' (near_indicators h4 c (by rw [hnb]; exact hc') hzc)
  · rw [← f2, (cclpModel_fields _ _ _ _).1, eval_objExpr]
    rfl

theorem subPoint_near (ht : 0 ≤ t.int ∧ 0 ≤ t.feas ∧ t.int < 1) {r : GResult} {d : Deter} {l : List ℕ} {cuts : List ℚ} {ρ : V → ℚ}
    (hr : GResult.NearValid t d.g r) (hd : DetInv (instCI I) d l cuts) (hs : r.sol = some ρ) :
    (NearDom t (instCI I) (fun j => ρ (.x j)) ∧ ∀ s ∈ l, ¬ ViolBy I t.feas s fun j => ρ (.x j))
    ∧ obj I (fun j => ρ (.x j)) = r.objVal := by
  obtain ⟨f1, f2⟩ := hr.feas ρ hs
  obtain ⟨g1, g2⟩ := hd.near (near_or ht (indBinary_det hd) f1)
  refine ⟨⟨g1, fun s hs => nearRows_inst (g2 s hs)⟩, ?_⟩
  rw [← f2, hd.obj, eval_objExpr]
  rfl

theorem near_add {J : CI} (ss : List ℕ) : ∀ (d : Deter) (ρ : V → ℚ),
    (Deter.add J d ss).g.NearFeas t ρ → d.g.NearFeas t ρ ∧ ∀ s ∈ ss, ∀ c ∈ rowsC J s, c.Near t ρ := by
  induction ss with
  | nil => intro d ρ h; exact ⟨h, by simp⟩
  | cons s ss ih =>
    intro d ρ h
    obtain ⟨h1, h2⟩ := ih (d.add1 J s) ρ h
    obtain ⟨h3, h4⟩ := (near_addConstrs d.g (rowsC J s) ρ).1 h1
    refine ⟨h3, fun s' hs' => ?_⟩
    rcases List.mem_cons.1 hs' with rfl | hs'
    · exact h4
    · exact h2 s' hs'

theorem build_near {l : List ℕ} {ρ : V → ℚ} (h : (Deter.build (instCI I) l).g.NearFeas t ρ) :
    NearDom t (instCI I) (fun j => ρ (.x j)) ∧ ∀ s ∈ l, ¬ ViolBy I t.feas s fun j => ρ (.x j) := by
  obtain ⟨h1, h2⟩ := near_add l (Deter.start (instCI I)) ρ h
  refine ⟨near_varX fun d hd => h1.1 d (List.mem_append_right _ hd), fun s hs =>
    nearRows_inst fun i hi => ?_⟩
  have := h2 s hs (rowC (instCI I) s i) (List.mem_map.2 ⟨i, List.mem_range.2 hi, rfl⟩)
  simpa [rowC, Constr.Near, Lin.Near, eval_lhsExpr] using this

/-! ## Split problems -/

theorem indBinary_acc (J : CI) (scenarios inf : List ℕ) : IndBinary (buildAccObj J scenarios inf) := by
  intro c hc v val l he
  have hv : (buildAccObj J scenarios inf).vars = accVars J scenarios := by
    unfold buildAccObj
    rw [addConstrs_vars]
    rfl
  rw [hv]
  have hc' := mem_addConstrs (by unfold buildAccObj at hc; exact hc)
  rcases hc' with hc' | hc'
  · simp [GModel.setObjective, GModel.addVars, GModel.empty] at hc'
  · rw [he] at hc'
    rcases List.mem_append.1 hc' with hc' | hc'
    · rcases List.mem_append.1 hc' with hc' | hc'
      · exfalso
        simp only [List.mem_append, List.mem_cons, List.not_mem_nil, or_false, List.mem_map] at hc'
        rcases hc' with ((h | h) | ⟨j, -, h⟩) | ⟨j, -, h⟩ <;> cases h
      · unfold accIndicators at hc'
        obtain ⟨_, h1, h2⟩ := List.mem_flatten.1 hc'
        obtain ⟨s, hs, rfl⟩ := List.mem_map.1 h1
        obtain ⟨_, h1, h2⟩ := List.mem_flatten.1 h2
        obtain ⟨i, -, rfl⟩ := List.mem_map.1 h1
        have hs := List.mem_range.1 hs
        simp only [List.mem_cons, List.not_mem_nil, or_false] at h2
        rcases h2 with h2 | h2 <;> cases h2
        · exact ⟨{ v := .pi false s, binary := true, lb := some 0, ub := some 1 },
            by unfold accVars; simp [hs], rfl, rfl⟩
        · exact ⟨{ v := .pi true s, binary := true, lb := some 0, ub := some 1 },
            by unfold accVars; simp [hs], rfl, rfl⟩
    · exfalso
      unfold accAssignment at hc'
      simp only [List.mem_append, List.mem_map] at hc'
      rcases hc' with ⟨j, -, h⟩ | ⟨j, -, h⟩ <;> cases h

/-- The constraints of the split problem within tolerances. -/
theorem acc_near {J : CI} {scenarios inf : List ℕ} {ρ : V → ℚ}
    (h : (buildAccObj J scenarios inf).NearFeas t ρ) (right : Bool) :
    (∀ s < scenarios.length, |ρ (.pi right s)| ≤ t.int ∨ |ρ (.pi right s) - 1| ≤ t.int)
    ∧ (∀ k < 2 * J.n, -t.feas ≤ ρ (.lam right k))
    ∧ (∀ s < scenarios.length, ∀ i < J.nbCon (scenarios.getD s 0), -t.feas ≤ ρ (.eta right s i))
    ∧ (∑ k ∈ range (2 * J.n), (if k < J.n then 0 else 1) * ρ (.lam right k)
        + ∑ s ∈ range scenarios.length, ∑ i ∈ range (J.nbCon (scenarios.getD s 0)),
            J.rhs (scenarios.getD s 0) i * ρ (.eta right s i) - t.feas ≤ ρ .alpha)
    ∧ (∀ s < scenarios.length, |ρ (.pi false s) + ρ (.pi true s) - 1| ≤ t.feas)
    ∧ 1 - t.feas ≤ (((List.range scenarios.length).filter fun s => scenarios.getD s 0 ∈ inf).map
        fun s => ρ (.pi right s)).sum := by
  unfold buildAccObj at h
  obtain ⟨h0, hcs⟩ := (near_addConstrs _ _ _).1 h
  have hvars : ∀ d ∈ accVars J scenarios, d.Near t ρ := fun d hd => h0.1 d (by
    simpa [GModel.setObjective, GModel.addVars, GModel.empty] using hd)
  refine ⟨fun s hs => ?_, fun k hk => ?_, fun s hs i hi => ?_, ?_, fun s hs => ?_, ?_⟩
  · have := hvars { v := .pi right s, binary := true, lb := some 0, ub := some 1 } (by
      unfold accVars
      cases right <;> simp [hs])
    exact (this.1 rfl).1
  · have := hvars { v := .lam right k, binary := false, lb := some 0, ub := none } (by
      unfold accVars
      cases right <;> simp [hk])
    have := this.2.1 0 rfl
    simpa using this
  · have := hvars { v := .eta right s i, binary := false, lb := some 0, ub := none } (by
      unfold accVars
      refine List.mem_append_right _ (List.mem_flatten.2 ⟨_, List.mem_map.2
        ⟨s, List.mem_range.2 hs, rfl⟩, ?_⟩)
      cases right
      · exact List.mem_append_left _ (List.mem_map.2 ⟨i, List.mem_range.2 hi, rfl⟩)
      · exact List.mem_append_right _ (List.mem_map.2 ⟨i, List.mem_range.2 hi, rfl⟩))
    have := this.2.1 0 rfl
    simpa using this
  · have := hcs (accDualCost J scenarios right) (by cases right <;> simp)
    simp only [accDualCost, Constr.Near, Lin.Near, eval_var, eval_sumExpr, List.map_cons,
      List.sum_cons, List.map_map, Function.comp_def, eval_quicksum_range] at this
    rw [← list_sum_range] at this
    exact this
  · have := hcs (.lin ⟨add (var (.pi false s)) (var (.pi true s)), .eq, ofConst 1⟩) (by
      refine List.mem_append_right _ ?_
      unfold accAssignment
      exact List.mem_append_left _ (List.mem_map.2 ⟨s, List.mem_range.2 hs, rfl⟩))
    simpa [Constr.Near, Lin.Near] using this
  · have := hcs (.lin ⟨quicksum ((List.range scenarios.length).filter fun s =>
      scenarios.getD s 0 ∈ inf) (fun _ => 1) (.pi right), .ge, ofConst 1⟩) (by
      refine List.mem_append_right _ ?_
      unfold accAssignment
      refine List.mem_append_right _ (List.mem_map.2 ⟨right, by cases right <;> simp, rfl⟩))
    simp only [Constr.Near, Lin.Near, eval_quicksum, eval_ofConst, one_mul] at this
    exact this

theorem list_sum_le {l : List ℕ} {f : ℕ → ℚ} {d : ℚ} (h : ∀ s ∈ l, f s ≤ d) :
    (l.map f).sum ≤ l.length * d := by
  induction l with
  | nil => simp
  | cons a l ih =>
    have h1 := ih fun s hs => h s (List.mem_cons_of_mem _ hs)
    have h2 := h a List.mem_cons_self
    simp only [List.map_cons, List.sum_cons, List.length_cons, Nat.cast_add, Nat.cast_one]
    linarith

/-- Answers within the default tolerances give valid splits. -/
theorem near_splitter (hI : NonnegAb I) (hN : I.N ≤ 90000)
    (hsize : I.n + ∑ s ∈ range I.N, ∑ i ∈ range I.m, I.b s i + 1 ≤ 10 ^ 12)
    {solve : ℕ → GModel → GResult} (h : ∀ k g, GResult.NearSolved defaultTols g (solve k g)) :
    Splitter I (fun _ _ => True) solve := by
  intro k scenarios inf hnd hlt htwo
  have hb : ∀ s < I.N, ∀ i < I.m, 0 ≤ I.b s i := fun s hs i hi => (hI s hs i hi).1
  set g := buildAccObj (instCI I) scenarios inf with hg
  have hA := h k g
  obtain ⟨ρ, hρ⟩ := Option.isSome_iff_exists.1 (hA.solved (accObj_bounded
    fun ρ => costsLow_of_nonneg hb scenarios inf ρ hlt) (accObj_feasible_two htwo))
  obtain ⟨hf, hval⟩ := hA.valid.feas ρ hρ
  have hnear := near_or defaultTols_pos (indBinary_acc _ _ _) hf
  have hval : ρ .alpha = (solve k g).objVal := by
    rw [← hval]; exact (accObj_obj _ _ _ _).symm
  have hlen : scenarios.length ≤ 90000 := by
    have h1 := List.toFinset_card_of_nodup hnd
    have h2 := Finset.card_le_card (show scenarios.toFinset ⊆ range I.N from fun s hs =>
      Finset.mem_range.2 (hlt s (List.mem_toFinset.1 hs)))
    rw [Finset.card_range] at h2
    omega
  have hp := accSubsets_perm scenarios ρ
  refine ⟨⟨(solve k g).objVal, (accSubsets scenarios ρ).1, (accSubsets scenarios ρ).2⟩, ?_,
    hp.nodup_iff.2 hnd, List.toFinset_eq_of_perm _ _ hp, ?_, ?_, trivial, trivial, ?_⟩
  · unfold accurateObjSplit optimize
    rw [← hg, if_neg hA.notInterrupted]
    simp only [bind, Except.bind, getObjVal, getSol, hρ]
    rfl
  · obtain ⟨h1, -, -, -, -, h6⟩ := acc_near hnear false
    by_contra hno
    push Not at hno
    have := list_sum_le (l := (List.range scenarios.length).filter fun s =>
      scenarios.getD s 0 ∈ inf) (f := fun s => ρ (.pi false s)) (d := 1 / 10 ^ 5) fun s hs => by
        obtain ⟨hs1, hs2⟩ := List.mem_filter.1 hs
        rcases h1 s (List.mem_range.1 hs1) with h0 | h0
        · exact (abs_le.1 h0).2
        · exfalso
          refine hno (scenarios.getD s 0) ?_ (List.mem_toFinset.2 (of_decide_eq_true hs2))
          unfold accSubsets
          refine List.mem_map.2 ⟨s, List.mem_filter.2 ⟨hs1, ?_⟩, rfl⟩
          have := abs_le.1 h0
          simp only [defaultTols] at this
          rw [decide_eq_true_iff]
          constructor <;> linarith
    have hl : (((List.range scenarios.length).filter fun s =>
        scenarios.getD s 0 ∈ inf).length : ℚ) ≤ 90000 := by
      have := List.length_filter_le (fun s => decide (scenarios.getD s 0 ∈ inf))
        (List.range scenarios.length)
      rw [List.length_range] at this
      exact_mod_cast this.trans hlen
    simp only [defaultTols] at h6
    linarith
  · obtain ⟨h1, -, -, -, h5, h6⟩ := acc_near hnear true
    by_contra hno
    push Not at hno
    have := list_sum_le (l := (List.range scenarios.length).filter fun s =>
      scenarios.getD s 0 ∈ inf) (f := fun s => ρ (.pi true s)) (d := 1 / 10 ^ 5) fun s hs => by
        obtain ⟨hs1, hs2⟩ := List.mem_filter.1 hs
        rcases h1 s (List.mem_range.1 hs1) with h0 | h0
        · exact (abs_le.1 h0).2
        · exfalso
          refine hno (scenarios.getD s 0) ?_ (List.mem_toFinset.2 (of_decide_eq_true hs2))
          unfold accSubsets
          refine List.mem_map.2 ⟨s, List.mem_filter.2 ⟨hs1, ?_⟩, rfl⟩
          have a1 := abs_le.1 h0
          have a2 := abs_le.1 (h5 s (List.mem_range.1 hs1))
          simp only [defaultTols] at a1 a2
          rw [decide_eq_true_iff]
          rintro ⟨b1, -⟩
          linarith
    have hl : (((List.range scenarios.length).filter fun s =>
        scenarios.getD s 0 ∈ inf).length : ℚ) ≤ 90000 := by
      have := List.length_filter_le (fun s => decide (scenarios.getD s 0 ∈ inf))
        (List.range scenarios.length)
      rw [List.length_range] at this
      exact_mod_cast this.trans hlen
    simp only [defaultTols] at h6
    linarith
  · obtain ⟨-, h2, h3, h4, -, -⟩ := acc_near hnear false
    simp only
    rw [← hval]
    have e1 : -(1 / 10 ^ 6) * (I.n : ℚ)
        ≤ ∑ k ∈ range (2 * I.n), (if k < I.n then 0 else 1) * ρ (.lam false k) := by
      rw [two_mul, Finset.sum_range_add]
      rw [Finset.sum_eq_zero (fun k hk => by rw [if_pos (Finset.mem_range.1 hk), zero_mul]), zero_add]
      have : ∑ _k ∈ range I.n, (-(1 / 10 ^ 6) : ℚ)
          ≤ ∑ k ∈ range I.n, (if I.n + k < I.n then 0 else 1) * ρ (.lam false (I.n + k)) := by
        refine Finset.sum_le_sum fun k hk => ?_
        rw [if_neg (by omega), one_mul]
        exact h2 (I.n + k) (by have := Finset.mem_range.1 hk; show _ < 2 * I.n; omega)
      rw [Finset.sum_const, Finset.card_range, nsmul_eq_mul] at this
      linarith
    have e2 : -(1 / 10 ^ 6) * ∑ s ∈ range I.N, ∑ i ∈ range I.m, I.b s i
        ≤ ∑ s ∈ range scenarios.length, ∑ i ∈ range I.m,
            I.b (scenarios.getD s 0) i * ρ (.eta false s i) := by
      have hsum : ∑ s ∈ range scenarios.length, ∑ i ∈ range I.m, I.b (scenarios.getD s 0) i
          ≤ ∑ s ∈ range I.N, ∑ i ∈ range I.m, I.b s i := by
        rw [list_sum_range scenarios.length fun s => ∑ i ∈ range I.m, I.b (scenarios.getD s 0) i]
        have h3 : ((List.range scenarios.length).map fun s => ∑ i ∈ range I.m,
            I.b (scenarios.getD s 0) i) = scenarios.map fun s => ∑ i ∈ range I.m, I.b s i := by
          apply List.ext_getElem
          · simp
          · intro i h1 h2; simp at h2; simp [List.getElem?_eq_getElem h2]
        rw [h3, ← List.sum_toFinset _ hnd]
        refine Finset.sum_le_sum_of_subset_of_nonneg (fun s hs => Finset.mem_range.2
          (hlt s (List.mem_toFinset.1 hs))) fun s hs _ => Finset.sum_nonneg fun i hi =>
            hb s (Finset.mem_range.1 hs) i (Finset.mem_range.1 hi)
      have : ∑ s ∈ range scenarios.length, ∑ i ∈ range I.m,
            I.b (scenarios.getD s 0) i * (-(1 / 10 ^ 6))
          ≤ ∑ s ∈ range scenarios.length, ∑ i ∈ range I.m,
            I.b (scenarios.getD s 0) i * ρ (.eta false s i) := by
        refine Finset.sum_le_sum fun s hs => Finset.sum_le_sum fun i hi => ?_
        have hs := Finset.mem_range.1 hs
        refine mul_le_mul_of_nonneg_left (h3 s hs i (Finset.mem_range.1 hi))
          (hb _ (hlt _ ?_) i (Finset.mem_range.1 hi))
        rw [List.getD_eq_getElem _ _ hs]
        exact List.getElem_mem _
      simp only [← Finset.sum_mul] at this
      linarith
    have h4 : ∑ k ∈ range (2 * I.n), (if k < I.n then 0 else 1) * ρ (.lam false k)
        + ∑ s ∈ range scenarios.length, ∑ i ∈ range I.m,
            I.b (scenarios.getD s 0) i * ρ (.eta false s i) - 1 / 10 ^ 6 ≤ ρ .alpha := h4
    linarith


/-- Answers within Gurobi's tolerances. -/
structure NearTolContract (env : Env) (I : Inst) : Prop where
  equi : Equi I
  eps : 0 ≤ I.eps
  tolOk : TolOk I
  ab : NonnegAb I
  c : NonnegC I
  m : 0 < I.m
  n : 0 < I.n
  sum : ∑ j ∈ range I.n, I.c j ≤ 10 ^ 12
  size : I.N ≤ 90000 ∧ I.n + ∑ s ∈ range I.N, ∑ i ∈ range I.m, I.b s i + 1 ≤ 10 ^ 12
  sub : ∀ t k g, GResult.NearAnswers defaultTols g (env.sub t k g)
  cc : ∀ t g, GResult.NearValid wideTols g (env.cc t g)
  lb : ∀ t g, GResult.NearValid defaultTols g (env.lb t g)
  acc : ∀ t k g, GResult.NearSolved defaultTols g (env.acc t k g)

theorem subsetCost_tol (hc : NonnegC I) {solve : GModel → GResult} {ss : List ℕ}
    (h : GResult.NearAnswers defaultTols (Deter.build (instCI I) ss).g
      (solve (Deter.build (instCI I) ss).g))
    {v : ℚ} {x : Vec} (hr : subsetCost I solve ss = .ok (v, x)) :
    NearBy (1 / 10 ^ 4) (NearSub I) I ss v x := by
  unfold subsetCost at hr
  rw [optimize, if_neg h.notInterrupted] at hr
  simp only [bind, Except.bind] at hr
  cases hs : (solve (Deter.build (instCI I) ss).g).sol with
  | none => simp only [getObjVal, hs] at hr; cases hr
  | some ρ =>
    simp only [getObjVal, getX, getSol, hs, bind, Except.bind, pure, Except.pure] at hr
    cases hr
    obtain ⟨f1, f2⟩ := h.valid.feas ρ hs
    rw [build_obj] at f2
    refine ⟨⟨build_near (near_or defaultTols_pos (indBinary_build _ _) f1), f2⟩, fun y hy1 hy2 => ?_⟩
    have hyf := (build_feas I ss (fun w => match w with | .x j => y j | _ => 0)).2 ⟨hy1, hy2⟩
    have hb := h.valid.bound (build_bounded I ss) _ hyf
    rw [if_pos (build_max _ _), build_obj] at hb
    have hg := h.gap (by rw [build_mipGap]; norm_num) (h.status (build_optimal ⟨_, hy1, hy2⟩))
    rw [build_mipGap] at hg
    have hb' : obj I y ≤ (solve (Deter.build (instCI I) ss).g).objBnd := hb
    have h0 := obj_nonneg hc hy1
    have h1 := le_abs_self ((solve (Deter.build (instCI I) ss).g).objBnd
      - (solve (Deter.build (instCI I) ss).g).objVal)
    have hv : 0 ≤ (solve (Deter.build (instCI I) ss).g).objVal := by
      by_contra hneg
      rw [abs_of_neg (not_le.1 hneg)] at hg
      linarith [not_le.1 hneg]
    rw [abs_of_nonneg hv] at hg
    linarith

theorem obj_near (hc : NonnegC I) (hsum : ∑ j ∈ range I.n, I.c j ≤ 10 ^ 12) {x : Vec}
    (h : NearDom defaultTols (instCI I) x) : -(10 ^ 6) ≤ obj I x := by
  have : ∑ j ∈ range I.n, I.c j * (-(1 / 10 ^ 6)) ≤ obj I x := by
    unfold obj dot
    refine Finset.sum_le_sum fun j hj => mul_le_mul_of_nonneg_left ?_ (hc j (Finset.mem_range.1 hj))
    exact (h j (Finset.mem_range.1 hj)).2.1
  rw [← Finset.sum_mul] at this
  linarith

theorem NearTolContract.near (h : NearTolContract env I) :
    NearContract (1 / 10 ^ 4) (fun x => NearDom defaultTols (instCI I) x ∧ Accepted I x)
      (NearSub I) (fun _ _ => True) True env I where
  equi := h.equi
  eps := h.eps
  tolOk := h.tolOk
  ab := h.ab
  c := h.c
  m := h.m
  n := h.n
  delta := by norm_num
  sub := fun t k l hl => by
    have hA := h.sub t k (Deter.build (instCI I) l).g
    have hs := hA.solved (build_bounded I l)
      ⟨fun _ => 0, (build_feas I l _).2 ⟨zero_inX I, zero_satAll h.ab hl⟩⟩
    obtain ⟨ρ, hs⟩ := Option.isSome_iff_exists.1 hs
    unfold subsetCost
    rw [optimize, if_neg hA.notInterrupted]
    simp only [getObjVal, getX, getSol, hs, bind, Except.bind, pure, Except.pure]
    exact ⟨_, rfl⟩
  near := fun t k l v x hr => subsetCost_tol h.c (h.sub t k _) hr
  good := fun x hx => ⟨obj_near h.c h.sum hx.1, fun h0 => absurd h0 (by norm_num)⟩
  cand := fun t k l v x hr ha => ⟨(subsetCost_tol h.c (h.sub t k _) hr).1.1.1, ha⟩
  ccBound := fun t g => (h.cc t g).bound
  ccPoint := fun t P D M zs prune gap g ρ hP hD hM hz hp hg hs => by
    refine ⟨trivial, ?_⟩
    have hnb := nbScen_part hP hD
    have key : g.obj = objExpr (partCI I D) := by
      obtain ⟨g0, h1, h2, -, -, -⟩ := buildCCLP_ok (partCI I D) none (by rintro _ ⟨⟩) zs prune gap
        (by rw [hnb]; exact hz) (by rw [hnb]; exact hp)
      cases M with
      | none => rw [h1] at hg; cases hg; exact h2
      | some Ms =>
        obtain ⟨k, k0, b1, b2, b3, -, -, -⟩ := (hM Ms rfl).1 zs prune gap (by rw [hnb]; exact hz)
          (by rw [hnb]; exact hp)
        rw [hg] at b1
        cases b1
        rw [h1] at b2
        cases b2
        exact b3.trans h2
    rw [← ((h.cc t g).feas ρ hs).2, key, eval_objExpr]
    rfl
  ptExact := fun h0 => absurd h0 (by norm_num)
  first := fun _ _ _ _ _ _ => trivial
  lbInf := fun t g h3 => ((h.lb t g).infeasible h3).2
  lbPoint := fun t d _ _ _ hd hs => subPoint_near defaultTols_pos (h.lb t d.g) hd hs
  lbGood := fun argsort index l x hlen hsel hx => by
    refine ⟨hx.1, ?_⟩
    have := C17_chance_partial (slack (1 / 10 ^ 6) I) argsort index hlen h.equi h.eps h.tolOk l hsel x
      ((slack_satAll _ _ _ _).2 hx.2)
    have := (chance_iff_card (slack (1 / 10 ^ 6) I) h.equi h.eps x).1 this
    rw [slack_viol] at this
    unfold Accepted
    have h2 : ((kmax I : ℕ) : ℚ) ≤ I.eps * I.N := Nat.floor_le (mul_nonneg h.eps (by positivity))
    refine le_trans ?_ h2
    exact_mod_cast this
  acc := fun t => near_splitter h.ab h.size.1 h.size.2 fun k g => h.acc t k g

/-! ## Rounding -/

/-- The nearest 0-1 vector. -/
def roundVec (x : Vec) : Vec := fun j => if 1 / 2 ≤ x j then 1 else 0

/-- Capacities and weights of the size of the instances of the library. -/
def Moderate (I : Inst) : Prop :=
  ∀ s < I.N, ∀ i < I.m, I.b s i ≤ 5000 ∧ ∑ j ∈ range I.n, I.A s i j ≤ 20000

theorem round_inX (hb : I.cont = false) (x : Vec) : InX I (roundVec x) := by
  intro j hj
  rw [hb]
  simp only [Bool.false_eq_true, if_false, roundVec]
  split_ifs <;> simp

theorem round_le (hb : I.cont = false) {x : Vec} (h : NearDom defaultTols (instCI I) x) {j : ℕ}
    (hj : j < I.n) : roundVec x j ≤ x j + 1 / 10 ^ 6 + 1 / 10 ^ 5 * roundVec x j := by
  obtain ⟨h1, h2, h3⟩ := h j hj
  have h1 := h1 hb
  simp only [defaultTols] at h1 h2 h3
  unfold roundVec
  split_ifs with hx
  · have : |x j - 1| ≤ 1 / 10 ^ 5 := h1.resolve_left fun h' => by
      have := (abs_le.1 h').2
      norm_num at this hx
      linarith
    linarith [(abs_le.1 this).1]
  · linarith

theorem round_sat (hI : OneDecimal I) (hM : Moderate I) (hb : I.cont = false) {x : Vec}
    (h : NearDom defaultTols (instCI I) x) {s : ℕ} (hs : s < I.N)
    (hv : ¬ ViolBy I (1 / 100) s x) : Sat I s (roundVec x) := by
  intro i hi
  by_contra hlt
  have hx : dot I.n (I.A s i) x ≤ I.b s i + 1 / 100 := by
    by_contra hno
    exact hv ⟨i, hi, by linarith [not_le.1 hno]⟩
  have hx' : ∀ j < I.n, roundVec x j = 0 ∨ roundVec x j = 1 := fun j hj => by
    have := round_inX hb x j hj
    rw [hb] at this
    simpa using this
  obtain ⟨k, hk⟩ := dot_grid (fun j hj => (hI.2 s hs i hi).2 j hj) (hI.2 s hs i hi).1 hx'
  have hgrid : 1 / 10 ≤ dot I.n (I.A s i) (roundVec x) - I.b s i := by
    have h0 : 0 < dot I.n (I.A s i) (roundVec x) - I.b s i := sub_pos.2 (not_le.1 hlt)
    rw [hk] at h0 ⊢
    have : (0 : ℚ) < k := by linarith
    have h1 : (1 : ℤ) ≤ k := by exact_mod_cast this
    have : (1 : ℚ) ≤ k := by exact_mod_cast h1
    linarith
  obtain ⟨m1, m2⟩ := hM s hs i hi
  have hA : ∀ j < I.n, 0 ≤ I.A s i j := fun j hj => (hI.1 s hs i hi).2 j hj
  have h1 : dot I.n (I.A s i) (roundVec x) ≤ dot I.n (I.A s i) x
      + 1 / 10 ^ 6 * (∑ j ∈ range I.n, I.A s i j) + 1 / 10 ^ 5 * dot I.n (I.A s i) (roundVec x) := by
    unfold dot
    rw [Finset.mul_sum, Finset.mul_sum, ← Finset.sum_add_distrib, ← Finset.sum_add_distrib]
    refine Finset.sum_le_sum fun j hj => ?_
    have hj := Finset.mem_range.1 hj
    have := mul_le_mul_of_nonneg_left (round_le hb h hj) (hA j hj)
    linarith
  linarith

theorem round_feas (hE : Equi I) (heps : 0 ≤ I.eps) (hI : OneDecimal I) (hM : Moderate I)
    (hb : I.cont = false) {x : Vec} (h : NearDom defaultTols (instCI I) x)
    (ha : (violBy I (1 / 100) x).card ≤ kmax I) : Feas I (roundVec x) := by
  refine ⟨round_inX hb x, (chance_iff_card I hE heps _).2 (le_trans (Finset.card_le_card ?_) ha)⟩
  intro s hs
  obtain ⟨a1, a2⟩ := Finset.mem_filter.1 hs
  refine Finset.mem_filter.2 ⟨a1, ?_⟩
  by_contra hno
  exact a2 (round_sat hI hM hb h (Finset.mem_range.1 a1) hno)

theorem accepted_card {τ : ℚ} (hτ : 1 / 10 ^ 6 ≤ τ) {x : Vec} (ha : Accepted I x) :
    (violBy I τ x).card ≤ kmax I := by
  refine le_trans (Finset.card_le_card fun s hs => ?_) (Nat.le_floor ha)
  obtain ⟨a1, a2⟩ := Finset.mem_filter.1 hs
  exact Finset.mem_filter.2 ⟨a1, violBy_mono hτ a2⟩

theorem round_partFeas (hI : OneDecimal I) (hM : Moderate I) (hb : I.cont = false)
    {P : List (List ℕ)} (hP : IsPartition I.N P) {x : Vec} (h : NearDom defaultTols (instCI I) x)
    (ha : nbViolPartsBy I (1 / 100) P x ≤ kmax I) : PartFeas I P (roundVec x) := by
  refine ⟨round_inX hb x, le_trans ?_ ha⟩
  unfold nbViolParts nbViolPartsBy
  refine List.countP_mono_left fun p hp hv => ?_
  have hv := of_decide_eq_true hv
  refine decide_eq_true ?_
  by_contra hno
  push Not at hno
  exact hv fun s hs => round_sat hI hM hb h (List.mem_range.1 (hP.1.mem_iff.1
    (List.mem_flatten.2 ⟨p, hp, hs⟩))) (hno s hs)

theorem round_abs (ht : t.int < 1 / 2) (hb : I.cont = false) {x : Vec}
    (h : NearDom t (instCI I) x) {j : ℕ} (hj : j < I.n) : |x j - roundVec x j| ≤ t.int := by
  have h1 := (h j hj).1 hb
  unfold roundVec
  split_ifs with hx
  · exact h1.resolve_left fun h' => by linarith [(abs_le.1 h').2]
  · have : |x j| ≤ t.int := h1.resolve_right fun h' => by linarith [(abs_le.1 h').1]
    simpa using this

theorem round_obj (ht : t.int < 1 / 2) (hc : NonnegC I) (hb : I.cont = false) {x : Vec}
    (h : NearDom t (instCI I) x) :
    |obj I x - obj I (roundVec x)| ≤ t.int * ∑ j ∈ range I.n, I.c j := by
  have : obj I x - obj I (roundVec x) = ∑ j ∈ range I.n, I.c j * (x j - roundVec x j) := by
    unfold obj dot
    rw [← Finset.sum_sub_distrib]
    exact Finset.sum_congr rfl fun j _ => by ring
  rw [this, Finset.mul_sum]
  refine (Finset.abs_sum_le_sum_abs _ _).trans (Finset.sum_le_sum fun j hj => ?_)
  have hj := Finset.mem_range.1 hj
  rw [abs_mul, abs_of_nonneg (hc j hj)]
  have := mul_le_mul_of_nonneg_left (round_abs ht hb h hj) (hc j hj)
  linarith

end Verif.Model
