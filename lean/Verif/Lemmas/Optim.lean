import Verif.Model.Optim
import Verif.Lemmas.PartInst
import Mathlib.Algebra.BigOperators.Ring.Finset

/-!
# Evaluation of expressions and feasibility of the models of src/optim
-/

open Finset

namespace Verif.Model
open LinExpr Spec

@[simp] theorem eval_ofConst (ρ : V → ℚ) (q : ℚ) : (ofConst q).eval ρ = q := by
  simp [eval, ofConst]

@[simp] theorem eval_var (ρ : V → ℚ) (v : V) : (var v).eval ρ = ρ v := by
  simp [eval, var]

@[simp] theorem eval_add (ρ : V → ℚ) (a b : LinExpr) :
    (add a b).eval ρ = a.eval ρ + b.eval ρ := by
  simp only [eval, add, List.map_append, List.sum_append]; ring

@[simp] theorem eval_smul (ρ : V → ℚ) (q : ℚ) (a : LinExpr) :
    (smul q a).eval ρ = q * a.eval ρ := by
  simp only [eval, smul, List.map_map]
  have : (a.terms.map ((fun t => t.1 * ρ t.2) ∘ fun t => (q * t.1, t.2))).sum
      = q * (a.terms.map fun t => t.1 * ρ t.2).sum := by
    induction a.terms with
    | nil => simp
    | cons t l ih => simp only [List.map_cons, List.sum_cons, ih, Function.comp]; ring
  rw [this]; ring

@[simp] theorem eval_sub (ρ : V → ℚ) (a b : LinExpr) :
    (sub a b).eval ρ = a.eval ρ - b.eval ρ := by
  simp [sub]; ring

theorem eval_quicksum {ι : Type} (ρ : V → ℚ) (l : List ι) (f : ι → ℚ) (v : ι → V) :
    (quicksum l f v).eval ρ = (l.map fun j => f j * ρ (v j)).sum := by
  simp only [eval, quicksum, List.map_map, zero_add]; rfl

@[simp] theorem eval_quicksum_range (ρ : V → ℚ) (n : ℕ) (f : ℕ → ℚ) (v : ℕ → V) :
    (quicksum (List.range n) f v).eval ρ = ∑ j ∈ range n, f j * ρ (v j) := by
  rw [eval_quicksum, list_sum_range]

theorem eval_sumExpr (ρ : V → ℚ) (es : List LinExpr) :
    (sumExpr es).eval ρ = (es.map fun e => e.eval ρ).sum := by
  have : ∀ (es : List LinExpr) (a : LinExpr),
      (es.foldl LinExpr.add a).eval ρ = a.eval ρ + (es.map fun e => e.eval ρ).sum := by
    intro es
    induction es with
    | nil => simp
    | cons e es ih => intro a; rw [List.foldl_cons, ih]; simp; ring
  rw [sumExpr, this]; simp

/-! ## Lists of constraints -/

@[simp] theorem addVars_vars (g : GModel) (ds : List VarDecl) :
    (g.addVars ds).vars = g.vars ++ ds := rfl
@[simp] theorem addVars_constrs (g : GModel) (ds : List VarDecl) :
    (g.addVars ds).constrs = g.constrs := rfl
@[simp] theorem setObjective_vars (g : GModel) (e : LinExpr) (m : Bool) :
    (g.setObjective e m).vars = g.vars := rfl
@[simp] theorem setObjective_constrs (g : GModel) (e : LinExpr) (m : Bool) :
    (g.setObjective e m).constrs = g.constrs := rfl
@[simp] theorem setMIPGap_vars (g : GModel) (q : ℚ) : (g.setMIPGap q).vars = g.vars := rfl
@[simp] theorem setMIPGap_constrs (g : GModel) (q : ℚ) :
    (g.setMIPGap q).constrs = g.constrs := rfl
@[simp] theorem addConstr_vars (g : GModel) (c : Constr) : (g.addConstr c).vars = g.vars := rfl

theorem addConstrs_fields (cs : List Constr) (g : GModel) :
    (g.addConstrs cs).vars = g.vars ∧ (g.addConstrs cs).obj = g.obj
    ∧ (g.addConstrs cs).maximize = g.maximize ∧ (g.addConstrs cs).mipGap = g.mipGap
    ∧ (g.addConstrs cs).next = g.next + cs.length
    ∧ (g.addConstrs cs).constrs
        = g.constrs ++ (cs.zipIdx g.next).map fun p => (p.2, p.1) := by
  induction cs generalizing g with
  | nil => simp [GModel.addConstrs]
  | cons c cs ih =>
    have := ih (g.addConstr c)
    simp only [GModel.addConstrs, List.foldl_cons] at this ⊢
    obtain ⟨h1, h2, h3, h4, h5, h6⟩ := this
    refine ⟨h1, h2, h3, h4, ?_, ?_⟩
    · rw [h5]; simp [GModel.addConstr]; omega
    · rw [h6]; simp [GModel.addConstr]

@[simp] theorem addConstrs_vars (g : GModel) (cs : List Constr) :
    (g.addConstrs cs).vars = g.vars := (addConstrs_fields cs g).1

@[simp] theorem addConstrs_obj (g : GModel) (cs : List Constr) :
    (g.addConstrs cs).obj = g.obj := (addConstrs_fields cs g).2.1

@[simp] theorem addConstrs_maximize (g : GModel) (cs : List Constr) :
    (g.addConstrs cs).maximize = g.maximize := (addConstrs_fields cs g).2.2.1

theorem feas_addConstrs (g : GModel) (cs : List Constr) (ρ : V → ℚ) :
    (g.addConstrs cs).Feas ρ ↔ g.Feas ρ ∧ ∀ c ∈ cs, c.Holds ρ := by
  unfold GModel.Feas
  rw [addConstrs_vars, (addConstrs_fields cs g).2.2.2.2.2, and_assoc]
  refine and_congr_right fun _ => ?_
  have hm : ∀ c, c ∈ cs ↔ ∃ k, (c, k) ∈ cs.zipIdx g.next := fun c => by
    constructor
    · intro hc
      obtain ⟨i, hi, rfl⟩ := List.mem_iff_getElem.1 hc
      refine ⟨g.next + i, List.mem_iff_getElem.2 ⟨i, by simpa using hi, by simp⟩⟩
    · rintro ⟨k, hk⟩
      exact (List.mem_zipIdx hk).2.2 ▸ List.getElem_mem _
  constructor
  · intro h
    refine ⟨fun c hc => h c (by simp [hc]), fun c hc => ?_⟩
    obtain ⟨k, hk⟩ := (hm c).1 hc
    exact h (k, c) (List.mem_append_right _ (List.mem_map.2 ⟨(c, k), hk, rfl⟩))
  · rintro ⟨h1, h2⟩ c hc
    rcases List.mem_append.1 hc with hc | hc
    · exact h1 c hc
    · obtain ⟨p, hp, rfl⟩ := List.mem_map.1 hc
      exact h2 p.1 ((hm p.1).2 ⟨p.2, hp⟩)

theorem feas_addConstr (g : GModel) (c : Constr) (ρ : V → ℚ) :
    (g.addConstr c).Feas ρ ↔ g.Feas ρ ∧ c.Holds ρ := by
  have := feas_addConstrs g [c] ρ
  simpa [GModel.addConstrs] using this

theorem feas_addVars (g : GModel) (ds : List VarDecl) (ρ : V → ℚ) :
    (g.addVars ds).Feas ρ ↔ g.Feas ρ ∧ ∀ d ∈ ds, d.Ok ρ := by
  unfold GModel.Feas
  simp only [addVars_vars, addVars_constrs, List.mem_append]
  constructor
  · rintro ⟨h1, h2⟩
    exact ⟨⟨fun d hd => h1 d (Or.inl hd), h2⟩, fun d hd => h1 d (Or.inr hd)⟩
  · rintro ⟨⟨h1, h2⟩, h3⟩
    exact ⟨fun d hd => hd.elim (h1 d) (h3 d), h2⟩

@[simp] theorem feas_setObjective (g : GModel) (e : LinExpr) (m : Bool) (ρ : V → ℚ) :
    (g.setObjective e m).Feas ρ ↔ g.Feas ρ := Iff.rfl

@[simp] theorem feas_setMIPGap (g : GModel) (q : ℚ) (ρ : V → ℚ) :
    (g.setMIPGap q).Feas ρ ↔ g.Feas ρ := Iff.rfl

@[simp] theorem feas_empty (ρ : V → ℚ) : GModel.empty.Feas ρ := by
  simp [GModel.Feas, GModel.empty]

/-! ## Variables -/

/-- The domain of the `x` variables. -/
def InDom (J : CI) (x : Vec) : Prop :=
  ∀ j < J.n, if J.cont then 0 ≤ x j ∧ x j ≤ 1 else x j = 0 ∨ x j = 1

theorem varX_ok (J : CI) (ρ : V → ℚ) :
    (∀ d ∈ varX J, d.Ok ρ) ↔ InDom J fun j => ρ (.x j) := by
  unfold varX InDom
  simp only [List.mem_map, List.mem_range, forall_exists_index, and_imp]
  constructor
  · intro h j hj
    have := h _ j hj rfl
    cases hc : J.cont
    · rw [hc] at this; simpa [VarDecl.Ok] using this
    · rw [hc] at this; simpa [VarDecl.Ok] using this
  · intro h d j hj hd
    have := h j hj
    subst hd
    cases hc : J.cont
    · rw [hc] at this; simpa [VarDecl.Ok] using this
    · rw [hc] at this; simpa [VarDecl.Ok] using this

theorem inDom_inst (I : Inst) (x : Vec) : InDom (instCI I) x ↔ InX I x := Iff.rfl

theorem inDom_part (I : Inst) (D : PartData) (x : Vec) : InDom (partCI I D) x ↔ InX I x := Iff.rfl

theorem inX_box {I : Inst} {x : Vec} (h : InX I x) : InBox I.n x := by
  intro j hj
  have := h j hj
  cases hc : I.cont
  · rw [hc] at this
    simp only [Bool.false_eq_true, if_false] at this
    rcases this with h | h <;> rw [h] <;> norm_num
  · rw [hc] at this; simpa using this

theorem inX_zero (I : Inst) : InX I fun _ => 0 := by
  intro j _; split <;> simp

theorem eval_objExpr (J : CI) (ρ : V → ℚ) :
    (objExpr J).eval ρ = dot J.n J.c fun j => ρ (.x j) := by
  simp [objExpr, dot]

theorem eval_lhsExpr (J : CI) (s i : ℕ) (ρ : V → ℚ) :
    (lhsExpr J s i).eval ρ = dot J.n (J.row s i) fun j => ρ (.x j) := by
  simp [lhsExpr, dot]

/-! ## The split-selection model -/

theorem accObj_obj (J : CI) (scenarios inf : List ℕ) (ρ : V → ℚ) :
    (buildAccObj J scenarios inf).obj.eval ρ = ρ .alpha := by
  unfold buildAccObj
  rw [addConstrs_obj]; simp [GModel.setObjective]

theorem accObj_min (J : CI) (scenarios inf : List ℕ) :
    (buildAccObj J scenarios inf).maximize = false := by
  unfold buildAccObj
  rw [addConstrs_maximize]; rfl

theorem accObj_feas (J : CI) (scenarios inf : List ℕ) (ρ : V → ℚ) :
    (buildAccObj J scenarios inf).Feas ρ ↔
      (∀ d ∈ accVars J scenarios, d.Ok ρ)
      ∧ (∀ right, (accDualCost J scenarios right).Holds ρ)
      ∧ (∀ right, ∀ j < J.n, (accPrimalCost J scenarios right j).Holds ρ)
      ∧ (∀ c ∈ accIndicators J scenarios, c.Holds ρ)
      ∧ (∀ c ∈ accAssignment scenarios inf, c.Holds ρ) := by
  unfold buildAccObj
  rw [feas_addConstrs, feas_setObjective, feas_addVars]
  simp only [feas_empty, true_and, List.mem_append, List.mem_cons, List.not_mem_nil, or_false,
    List.mem_map, List.mem_range]
  constructor
  · rintro ⟨h0, h⟩
    refine ⟨h0, fun r => ?_, fun r j hj => ?_, fun c hc => h c (by tauto), fun c hc => h c (by tauto)⟩
    · cases r
      · exact h _ (by tauto)
      · exact h _ (by tauto)
    · cases r
      · exact h _ (Or.inl (Or.inl (Or.inl (Or.inr ⟨j, hj, rfl⟩))))
      · exact h _ (Or.inl (Or.inl (Or.inr ⟨j, hj, rfl⟩)))
  · rintro ⟨h0, h1, h2, h3, h4⟩
    refine ⟨h0, ?_⟩
    rintro c ((((( rfl | rfl) | ⟨j, hj, rfl⟩) | ⟨j, hj, rfl⟩) | hc) | hc)
    · exact h1 _
    · exact h1 _
    · exact h2 _ j hj
    · exact h2 _ j hj
    · exact h3 c hc
    · exact h4 c hc

/-- The constraints of the split-selection model, spelled out for one side. -/
theorem accObj_side {J : CI} {scenarios inf : List ℕ} {ρ : V → ℚ}
    (h : (buildAccObj J scenarios inf).Feas ρ) (right : Bool) :
    (∀ s < scenarios.length, ρ (.pi right s) = 0 ∨ ρ (.pi right s) = 1)
    ∧ (∀ k < 2 * J.n, 0 ≤ ρ (.lam right k))
    ∧ (∀ s < scenarios.length, ∀ i < J.nbCon (scenarios.getD s 0), 0 ≤ ρ (.eta right s i))
    ∧ (∑ k ∈ range (2 * J.n), (if k < J.n then 0 else 1) * ρ (.lam right k)
        + ∑ s ∈ range scenarios.length, ∑ i ∈ range (J.nbCon (scenarios.getD s 0)),
            J.rhs (scenarios.getD s 0) i * ρ (.eta right s i) ≤ ρ .alpha)
    ∧ (∀ j < J.n, -ρ (.lam right j) + ρ (.lam right (j + J.n))
        + ∑ s ∈ range scenarios.length, ∑ i ∈ range (J.nbCon (scenarios.getD s 0)),
            J.row (scenarios.getD s 0) i j * ρ (.eta right s i) = J.c j)
    ∧ (∀ s < scenarios.length, ρ (.pi right s) = 0 →
        ∀ i < J.nbCon (scenarios.getD s 0), ρ (.eta right s i) = 0)
    ∧ (∀ s < scenarios.length, ρ (.pi false s) + ρ (.pi true s) = 1)
    ∧ 1 ≤ (((List.range scenarios.length).filter fun s => scenarios.getD s 0 ∈ inf).map
        fun s => ρ (.pi right s)).sum := by
  obtain ⟨h0, h1, h2, h3, h4⟩ := (accObj_feas J scenarios inf ρ).1 h
  refine ⟨fun s hs => ?_, fun k hk => ?_, fun s hs i hi => ?_, ?_, fun j hj => ?_,
    fun s hs hp i hi => ?_, fun s hs => ?_, ?_⟩
  · have := h0 { v := .pi right s, binary := true, lb := some 0, ub := some 1 } (by
      unfold accVars
      cases right <;> simp [hs])
    exact this.1 rfl
  · have := h0 { v := .lam right k, binary := false, lb := some 0, ub := none } (by
      unfold accVars
      cases right <;> simp [hk])
    exact this.2.1 0 rfl
  · have := h0 { v := .eta right s i, binary := false, lb := some 0, ub := none } (by
      unfold accVars
      refine List.mem_append_right _ (List.mem_flatten.2 ⟨_, List.mem_map.2
        ⟨s, List.mem_range.2 hs, rfl⟩, ?_⟩)
      cases right
      · exact List.mem_append_left _ (List.mem_map.2 ⟨i, List.mem_range.2 hi, rfl⟩)
      · exact List.mem_append_right _ (List.mem_map.2 ⟨i, List.mem_range.2 hi, rfl⟩))
    exact this.2.1 0 rfl
  · have := h1 right
    simp only [accDualCost, Constr.Holds, Lin.Holds, eval_var, eval_sumExpr, List.map_cons,
      List.sum_cons, List.map_map, Function.comp_def, eval_quicksum_range] at this
    rw [← list_sum_range] at this
    exact this
  · have := h2 right j hj
    simp only [accPrimalCost, Constr.Holds, Lin.Holds, eval_var, eval_sumExpr, List.map_cons,
      List.sum_cons, List.map_map, Function.comp_def, eval_quicksum_range, eval_add, eval_smul,
      eval_ofConst] at this
    rw [← list_sum_range] at this
    rw [← this]; ring
  · have := h3 (.ind (.pi right s) false ⟨var (.eta right s i), .eq, ofConst 0⟩) (by
      unfold accIndicators
      refine List.mem_flatten.2 ⟨_, List.mem_map.2 ⟨s, List.mem_range.2 hs, rfl⟩,
        List.mem_flatten.2 ⟨_, List.mem_map.2 ⟨i, List.mem_range.2 hi, rfl⟩, ?_⟩⟩
      cases right <;> simp)
    simpa [Constr.Holds, Lin.Holds] using this (by simpa using hp)
  · have := h4 (.lin ⟨add (var (.pi false s)) (var (.pi true s)), .eq, ofConst 1⟩) (by
      unfold accAssignment
      exact List.mem_append_left _ (List.mem_map.2 ⟨s, List.mem_range.2 hs, rfl⟩))
    simpa [Constr.Holds, Lin.Holds] using this
  · have := h4 (.lin ⟨quicksum ((List.range scenarios.length).filter fun s =>
      scenarios.getD s 0 ∈ inf) (fun _ => 1) (.pi right), .ge, ofConst 1⟩) (by
      unfold accAssignment
      refine List.mem_append_right _ (List.mem_map.2 ⟨right, by cases right <;> simp, rfl⟩))
    simp only [Constr.Holds, Lin.Holds, eval_quicksum, eval_ofConst, one_mul] at this
    exact this

/-- Weak duality for one side: the objective bounds every point of the box that satisfies the
scenarios assigned to that side. -/
theorem accObj_weak_duality {J : CI} {scenarios inf : List ℕ} {ρ : V → ℚ}
    (h : (buildAccObj J scenarios inf).Feas ρ) (right : Bool) {x : Vec} (hx : InBox J.n x)
    (hsat : ∀ s < scenarios.length, ρ (.pi right s) = 1 →
      ∀ i < J.nbCon (scenarios.getD s 0),
        dot J.n (J.row (scenarios.getD s 0) i) x ≤ J.rhs (scenarios.getD s 0) i) :
    dot J.n J.c x ≤ ρ .alpha := by
  obtain ⟨hpi, hlam, heta, hdual, hprim, hind, -, -⟩ := accObj_side h right
  refine le_trans ?_ hdual
  have h1 : dot J.n J.c x = ∑ j ∈ range J.n, (-ρ (.lam right j) + ρ (.lam right (j + J.n))) * x j
      + ∑ s ∈ range scenarios.length, ∑ i ∈ range (J.nbCon (scenarios.getD s 0)),
          ρ (.eta right s i) * dot J.n (J.row (scenarios.getD s 0) i) x := by
    have e1 : ∑ s ∈ range scenarios.length, ∑ i ∈ range (J.nbCon (scenarios.getD s 0)),
          ρ (.eta right s i) * dot J.n (J.row (scenarios.getD s 0) i) x
        = ∑ j ∈ range J.n, (∑ s ∈ range scenarios.length,
            ∑ i ∈ range (J.nbCon (scenarios.getD s 0)),
            J.row (scenarios.getD s 0) i j * ρ (.eta right s i)) * x j := by
      simp only [dot, Finset.mul_sum, Finset.sum_mul]
      have : ∀ s ∈ range scenarios.length,
          ∑ i ∈ range (J.nbCon (scenarios.getD s 0)), ∑ j ∈ range J.n,
            ρ (.eta right s i) * (J.row (scenarios.getD s 0) i j * x j)
          = ∑ j ∈ range J.n, ∑ i ∈ range (J.nbCon (scenarios.getD s 0)),
            J.row (scenarios.getD s 0) i j * ρ (.eta right s i) * x j := fun s _ => by
        rw [Finset.sum_comm]
        exact Finset.sum_congr rfl fun j _ => Finset.sum_congr rfl fun i _ => by ring
      rw [Finset.sum_congr rfl this, Finset.sum_comm]
    rw [e1, ← Finset.sum_add_distrib, dot]
    refine Finset.sum_congr rfl fun j hj => ?_
    rw [← hprim j (Finset.mem_range.1 hj)]; ring
  rw [h1]
  refine add_le_add ?_ ?_
  · have e2 : ∑ k ∈ range (2 * J.n), (if k < J.n then 0 else 1) * ρ (.lam right k)
        = ∑ j ∈ range J.n, ρ (.lam right (j + J.n)) := by
      rw [two_mul, Finset.sum_range_add]
      rw [Finset.sum_eq_zero (fun k hk => by rw [if_pos (Finset.mem_range.1 hk), zero_mul]), zero_add]
      refine Finset.sum_congr rfl fun j _ => ?_
      rw [if_neg (by omega), one_mul, add_comm]
    rw [e2]
    refine Finset.sum_le_sum fun j hj => ?_
    have hj := Finset.mem_range.1 hj
    obtain ⟨hx0, hx1⟩ := hx j hj
    have a1 := hlam j (by omega)
    have a2 := hlam (j + J.n) (by omega)
    nlinarith [mul_nonneg a1 hx0, mul_nonneg a2 (sub_nonneg.2 hx1)]
  · refine Finset.sum_le_sum fun s hs => Finset.sum_le_sum fun i hi => ?_
    have hs := Finset.mem_range.1 hs
    have hi := Finset.mem_range.1 hi
    rcases hpi s hs with hp | hp
    · rw [hind s hs hp i hi]; simp
    · rw [mul_comm (J.rhs _ _)]
      exact mul_le_mul_of_nonneg_left (hsat s hs hp i hi) (heta s hs i hi)

theorem accSubsets_perm (scenarios : List ℕ) (ρ : V → ℚ) :
    ((accSubsets scenarios ρ).1 ++ (accSubsets scenarios ρ).2).Perm scenarios := by
  unfold accSubsets
  simp only
  rw [← List.map_append]
  have h1 := List.filter_append_perm
    (fun s => decide (9 / 10 ≤ ρ (.pi false s) ∧ ρ (.pi false s) ≤ 11 / 10))
    (List.range scenarios.length)
  have h2 := h1.map fun s => scenarios.getD s 0
  have h3 : ((List.range scenarios.length).map fun s => scenarios.getD s 0) = scenarios := by
    apply List.ext_getElem
    · simp
    · intro i h1 h2; simp [List.getElem?_eq_getElem h2]
  rw [h3] at h2
  convert h2 using 4
  funext s
  exact decide_not

/-- Positions assigned to a side. -/
theorem mem_accSubsets {J : CI} {scenarios inf : List ℕ} {ρ : V → ℚ}
    (h : (buildAccObj J scenarios inf).Feas ρ) (right : Bool) (s : ℕ)
    (hs : s < scenarios.length) (hp : ρ (.pi right s) = 1) :
    scenarios.getD s 0 ∈ if right then (accSubsets scenarios ρ).2 else (accSubsets scenarios ρ).1 := by
  have hsum := (accObj_side h right).2.2.2.2.2.2.1 s hs
  unfold accSubsets
  cases right
  · simp only [Bool.false_eq_true, if_false]
    refine List.mem_map.2 ⟨s, List.mem_filter.2 ⟨List.mem_range.2 hs, ?_⟩, rfl⟩
    rw [decide_eq_true_iff, hp]; norm_num
  · simp only [if_true]
    refine List.mem_map.2 ⟨s, List.mem_filter.2 ⟨List.mem_range.2 hs, ?_⟩, rfl⟩
    have : ρ (.pi false s) = 0 := by linarith
    rw [decide_eq_true_iff, this]; norm_num

theorem accSubsets_inf {J : CI} {scenarios inf : List ℕ} {ρ : V → ℚ}
    (h : (buildAccObj J scenarios inf).Feas ρ) (right : Bool) :
    ∃ s ∈ (if right then (accSubsets scenarios ρ).2 else (accSubsets scenarios ρ).1), s ∈ inf := by
  obtain ⟨hpi, -, -, -, -, -, -, hge⟩ := accObj_side h right
  by_contra hno
  push Not at hno
  have : (((List.range scenarios.length).filter fun s => scenarios.getD s 0 ∈ inf).map
        fun s => ρ (.pi right s)).sum = 0 := by
    refine List.sum_eq_zero fun q hq => ?_
    obtain ⟨s, hs, rfl⟩ := List.mem_map.1 hq
    obtain ⟨hs1, hs2⟩ := List.mem_filter.1 hs
    have hs1 := List.mem_range.1 hs1
    rcases hpi s hs1 with hp | hp
    · exact hp
    · exact absurd (by simpa using hs2) (hno _ (mem_accSubsets h right s hs1 hp))
  linarith

/-- The split-selection model has a solution whenever the subset has two infeasible scenarios. -/
theorem accObj_feasible (J : CI) (scenarios inf : List ℕ) {a b : ℕ} (hab : a ≠ b)
    (ha : a < scenarios.length) (hb : b < scenarios.length) (hai : scenarios.getD a 0 ∈ inf)
    (hbi : scenarios.getD b 0 ∈ inf) : ∃ ρ, (buildAccObj J scenarios inf).Feas ρ := by
  refine ⟨fun v => match v with
    | .alpha => ∑ j ∈ range J.n, max (J.c j) 0
    | .pi r s => if s = a then (if r then 0 else 1) else (if r then 1 else 0)
    | .lam _ k => if k < J.n then max (-J.c k) 0 else max (J.c (k - J.n)) 0
    | _ => 0, ?_⟩
  rw [accObj_feas]
  refine ⟨fun d hd => ?_, fun r => ?_, fun r j hj => ?_, fun c hc => ?_, fun c hc => ?_⟩
  · unfold accVars at hd
    simp only [List.mem_append, List.mem_singleton, List.mem_map, List.mem_range,
      List.mem_flatten] at hd
    rcases hd with ((((rfl | ⟨s, _, rfl⟩) | ⟨s, _, rfl⟩) | ⟨s, _, rfl⟩) | ⟨s, _, rfl⟩) |
      ⟨l, ⟨s, _, rfl⟩, hd⟩
    · simp [VarDecl.Ok]
    · by_cases h : s = a <;> simp [VarDecl.Ok, h]
    · by_cases h : s = a <;> simp [VarDecl.Ok, h]
    · by_cases h : s < J.n <;> simp [VarDecl.Ok, h]
    · by_cases h : s < J.n <;> simp [VarDecl.Ok, h]
    · rcases List.mem_append.1 hd with hd | hd <;>
      · obtain ⟨i, _, rfl⟩ := List.mem_map.1 hd
        simp [VarDecl.Ok]
  · simp only [accDualCost, Constr.Holds, Lin.Holds, eval_var, eval_sumExpr, List.map_cons,
      List.sum_cons, List.map_map, Function.comp_def, eval_quicksum_range, mul_zero,
      Finset.sum_const_zero]
    have e : ∑ k ∈ range (2 * J.n), (if k < J.n then (0 : ℚ) else 1)
        * (if k < J.n then max (-J.c k) 0 else max (J.c (k - J.n)) 0)
        = ∑ j ∈ range J.n, max (J.c j) 0 := by
      rw [two_mul, Finset.sum_range_add, Finset.sum_eq_zero, zero_add]
      · refine Finset.sum_congr rfl fun j _ => ?_
        rw [if_neg (by omega), if_neg (by omega), one_mul, Nat.add_sub_cancel_left]
      · intro k hk
        rw [if_pos (Finset.mem_range.1 hk), zero_mul]
    rw [e]
    simp
  · simp only [accPrimalCost, Constr.Holds, Lin.Holds, eval_var, eval_sumExpr, List.map_cons,
      List.sum_cons, List.map_map, Function.comp_def, eval_quicksum_range, mul_zero, eval_add,
      eval_smul, eval_ofConst, Finset.sum_const_zero]
    rw [if_pos hj, if_neg (by omega), Nat.add_sub_cancel]
    simp only [List.map_const', List.sum_replicate, nsmul_zero, add_zero]
    rcases le_total 0 (J.c j) with h | h
    · rw [max_eq_left h, max_eq_right (by linarith)]; ring
    · rw [max_eq_right h, max_eq_left (by linarith)]; ring
  · unfold accIndicators at hc
    simp only [List.mem_flatten, List.mem_map, List.mem_range] at hc
    obtain ⟨_, ⟨s, _, rfl⟩, hc⟩ := hc
    simp only [List.mem_flatten, List.mem_map, List.mem_range] at hc
    obtain ⟨_, ⟨i, _, rfl⟩, hc⟩ := hc
    simp only [List.mem_cons, List.not_mem_nil, or_false] at hc
    rcases hc with rfl | rfl <;> simp [Constr.Holds, Lin.Holds]
  · unfold accAssignment at hc
    rcases List.mem_append.1 hc with hc | hc
    · obtain ⟨s, _, rfl⟩ := List.mem_map.1 hc
      by_cases h : s = a <;> simp [Constr.Holds, Lin.Holds, h]
    · obtain ⟨r, _, rfl⟩ := List.mem_map.1 hc
      simp only [Constr.Holds, Lin.Holds, eval_quicksum, eval_ofConst, one_mul]
      have key : ∀ t < scenarios.length, scenarios.getD t 0 ∈ inf →
          (if t = a then (if r then (0 : ℚ) else 1) else (if r then 1 else 0)) = 1 →
          1 ≤ (((List.range scenarios.length).filter fun s => scenarios.getD s 0 ∈ inf).map
            fun s => if s = a then (if r then (0 : ℚ) else 1) else (if r then 1 else 0)).sum := by
        intro t ht hti hv
        have := le_sum_map_of_mem
          (l := (List.range scenarios.length).filter fun s => scenarios.getD s 0 ∈ inf)
          (f := fun s => if s = a then (if r then (0 : ℚ) else 1) else (if r then 1 else 0))
          (fun s _ => by cases r <;> by_cases h : s = a <;> simp [h])
          (List.mem_filter.2 ⟨List.mem_range.2 ht, by simpa using hti⟩)
        rw [hv] at this; exact this
      cases r
      · exact key a ha hai (by simp)
      · exact key b hb hbi (by simp [Ne.symm hab])

end Verif.Model
