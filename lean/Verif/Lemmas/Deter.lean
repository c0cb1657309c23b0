import Verif.Model.Evaluator
import Verif.Model.LowerBounder
import Verif.Lemmas.CostRefiner
import Verif.Lemmas.Attain

/-!
# The persistent deterministic model
-/

namespace Verif.Model
open LinExpr Spec Props

/-- Row `i` of scenario `s` as a constraint. -/
def rowC (J : CI) (s i : ℕ) : Constr := .lin ⟨lhsExpr J s i, .le, ofConst (J.rhs s i)⟩

/-- The rows of scenario `s` as constraints. -/
def rowsC (J : CI) (s : ℕ) : List Constr := (List.range (J.nbCon s)).map (rowC J s)

/-- The constraint `objective >= v`. -/
def cutC (J : CI) (v : ℚ) : Constr := .lin ⟨objExpr J, .ge, ofConst v⟩

@[simp] theorem rowsC_length (J : CI) (s : ℕ) : (rowsC J s).length = J.nbCon s := by
  simp [rowsC]

theorem holds_rowC (J : CI) (s i : ℕ) (ρ : V → ℚ) :
    (rowC J s i).Holds ρ ↔ dot J.n (J.row s i) (fun j => ρ (.x j)) ≤ J.rhs s i := by
  simp [rowC, Constr.Holds, Lin.Holds, eval_lhsExpr]

theorem holds_rowsC (J : CI) (s : ℕ) (ρ : V → ℚ) :
    (∀ c ∈ rowsC J s, c.Holds ρ) ↔ RowsHold J s fun j => ρ (.x j) := by
  unfold rowsC RowsHold
  simp only [List.mem_map, List.mem_range, forall_exists_index, and_imp, forall_apply_eq_imp_iff₂,
    holds_rowC]

theorem holds_cutC (J : CI) (v : ℚ) (ρ : V → ℚ) :
    (cutC J v).Holds ρ ↔ v ≤ dot J.n J.c fun j => ρ (.x j) := by
  simp [cutC, Constr.Holds, Lin.Holds, eval_objExpr]

/-- The model `d` holds exactly the rows of the scenarios `scen` and the cuts. -/
structure DetInv (J : CI) (d : Deter) (scen : List ℕ) (cuts : List ℚ) : Prop where
  vars : d.g.vars = varX J
  obj : d.g.obj = objExpr J
  maximize : d.g.maximize = true
  nodupScen : scen.Nodup
  nodup : (d.g.constrs.map Prod.fst).Nodup
  lt : ∀ c ∈ d.g.constrs, c.1 < d.g.next
  rows : ∃ (H : ℕ → List ℕ) (K : List (ℕ × Constr)),
    (∀ s ∈ scen, assocGet d.handles s = .ok (H s) ∧ (H s).length = J.nbCon s)
    ∧ d.g.constrs.Perm (scen.flatMap (fun s => (H s).zip (rowsC J s)) ++ K)
    ∧ K.map Prod.snd = cuts.map (cutC J)

theorem DetInv.perm {J : CI} {d : Deter} {scen scen' : List ℕ} {cuts : List ℚ}
    (h : DetInv J d scen cuts) (hp : scen.Perm scen') : DetInv J d scen' cuts := by
  obtain ⟨H, K, h1, h2, h3⟩ := h.rows
  refine ⟨h.vars, h.obj, h.maximize, hp.nodup_iff.1 h.nodupScen, h.nodup, h.lt, H, K, ?_, ?_, h3⟩
  · intro s hs; exact h1 s (hp.mem_iff.2 hs)
  · exact h2.trans ((hp.flatMap_right _).append_right _)

theorem DetInv.constrs {J : CI} {d : Deter} {scen : List ℕ} {cuts : List ℚ}
    (h : DetInv J d scen cuts) :
    (d.g.constrs.map Prod.snd).Perm (scen.flatMap (rowsC J) ++ cuts.map (cutC J)) := by
  obtain ⟨H, K, h1, h2, h3⟩ := h.rows
  refine (h2.map _).trans ?_
  rw [List.map_append, h3, List.map_flatMap]
  have : scen.flatMap (fun s => ((H s).zip (rowsC J s)).map Prod.snd) = scen.flatMap (rowsC J) := by
    refine List.flatMap_congr ?_
    intro s hs
    rw [List.map_snd_zip]
    rw [rowsC_length, (h1 s hs).2]
  rw [this]

/-- Feasible assignments of such a model. -/
theorem DetInv.feas {J : CI} {d : Deter} {scen : List ℕ} {cuts : List ℚ}
    (h : DetInv J d scen cuts) (ρ : V → ℚ) :
    d.g.Feas ρ ↔ InDom J (fun j => ρ (.x j)) ∧ (∀ s ∈ scen, RowsHold J s fun j => ρ (.x j))
      ∧ ∀ v ∈ cuts, v ≤ dot J.n J.c fun j => ρ (.x j) := by
  unfold GModel.Feas
  rw [h.vars, varX_ok]
  refine and_congr_right fun _ => ?_
  have hm : (∀ c ∈ d.g.constrs, c.2.Holds ρ)
      ↔ ∀ c ∈ d.g.constrs.map Prod.snd, c.Holds ρ := by
    rw [List.forall_mem_map]
  rw [hm]
  have := h.constrs
  constructor
  · intro hc
    refine ⟨fun s hs => (holds_rowsC J s ρ).1 fun c hcc => hc c (this.mem_iff.2 ?_), fun v hv =>
      (holds_cutC J v ρ).1 (hc _ (this.mem_iff.2 ?_))⟩
    · exact List.mem_append_left _ (List.mem_flatMap.2 ⟨s, hs, hcc⟩)
    · exact List.mem_append_right _ (List.mem_map.2 ⟨v, hv, rfl⟩)
  · rintro ⟨h1, h2⟩ c hc
    rcases List.mem_append.1 (this.mem_iff.1 hc) with hc | hc
    · obtain ⟨s, hs, hcs⟩ := List.mem_flatMap.1 hc
      exact (holds_rowsC J s ρ).2 (h1 s hs) c hcs
    · obtain ⟨v, hv, rfl⟩ := List.mem_map.1 hc
      exact (holds_cutC J v ρ).2 (h2 v hv)

/-- The model before any scenario is added. -/
def Deter.start (J : CI) : Deter :=
  { g := (GModel.empty.addVars (varX J)).setObjective (objExpr J) true, handles := [] }

theorem detInv_start (J : CI) : DetInv J (Deter.start J) [] [] := by
  refine ⟨?_, rfl, rfl, List.nodup_nil, ?_, ?_, fun _ => [], [], ?_, ?_, rfl⟩ <;>
    simp [Deter.start, GModel.empty, GModel.addVars, GModel.setObjective]

theorem zipIdx_swap {α : Type} (cs : List α) (k : ℕ) :
    (cs.zipIdx k).map (fun p => (p.2, p.1)) = ((List.range cs.length).map fun i => k + i).zip cs := by
  refine List.ext_getElem (by simp) ?_
  intro i h1 h2
  simp

theorem detInv_add1 {J : CI} {d : Deter} {scen : List ℕ} {cuts : List ℚ} {s : ℕ}
    (h : DetInv J d scen cuts) (hs : s ∉ scen) : DetInv J (d.add1 J s) (s :: scen) cuts := by
  obtain ⟨H, K, h1, h2, h3⟩ := h.rows
  obtain ⟨f1, f2, f3, -, f5, f6⟩ := addConstrs_fields (rowsC J s) d.g
  have hg : (d.add1 J s).g = d.g.addConstrs (rowsC J s) := rfl
  have hh : (d.add1 J s).handles
      = assocSet d.handles s ((List.range (J.nbCon s)).map fun i => d.g.next + i) := rfl
  rw [zipIdx_swap, rowsC_length] at f6
  rw [rowsC_length] at f5
  have hz : (((List.range (J.nbCon s)).map fun i => d.g.next + i).zip (rowsC J s)).map Prod.fst
      = (List.range (J.nbCon s)).map fun i => d.g.next + i := by
    rw [List.map_fst_zip]; simp
  refine ⟨?_, ?_, ?_, List.nodup_cons.2 ⟨hs, h.nodupScen⟩, ?_, ?_, ?_⟩
  · rw [hg, f1, h.vars]
  · rw [hg, f2, h.obj]
  · rw [hg, f3, h.maximize]
  · rw [hg, f6, List.map_append, hz, List.nodup_append]
    refine ⟨h.nodup, ?_, ?_⟩
    · exact List.nodup_range.map fun a b hab => by simpa using hab
    · intro a ha b hb hab
      obtain ⟨c, hc, rfl⟩ := List.mem_map.1 ha
      obtain ⟨i, -, rfl⟩ := List.mem_map.1 hb
      have := h.lt c hc
      omega
  · intro c hc
    rw [hg, f5]
    rw [hg, f6] at hc
    rcases List.mem_append.1 hc with hc | hc
    · have := h.lt c hc; omega
    · have : c.1 ∈ (((List.range (J.nbCon s)).map fun i => d.g.next + i).zip
        (rowsC J s)).map Prod.fst := List.mem_map.2 ⟨c, hc, rfl⟩
      rw [hz] at this
      obtain ⟨i, hi, hi'⟩ := List.mem_map.1 this
      have := List.mem_range.1 hi
      omega
  · refine ⟨fun t => if t = s then (List.range (J.nbCon s)).map fun i => d.g.next + i else H t, K,
      ?_, ?_, h3⟩
    · intro t ht
      rw [hh, assocGet_set]
      by_cases hts : t = s
      · subst hts; simp
      · simp only [if_neg hts]
        exact h1 t ((List.mem_cons.1 ht).resolve_left hts)
    · rw [hg, f6, List.flatMap_cons]
      simp only [if_true]
      have : scen.flatMap (fun t => (if t = s then (List.range (J.nbCon s)).map
          (fun i => d.g.next + i) else H t).zip (rowsC J t))
          = scen.flatMap fun t => (H t).zip (rowsC J t) := by
        refine List.flatMap_congr ?_
        intro t ht
        have hne : t ≠ s := fun e => hs (e ▸ ht)
        rw [if_neg hne]
      rw [this, List.append_assoc]
      exact (h2.append_right _).trans (List.perm_append_comm)

theorem detInv_add {J : CI} {cuts : List ℚ} (ss : List ℕ) : ∀ {d : Deter} {scen : List ℕ},
    DetInv J d scen cuts → ss.Nodup → (∀ s ∈ ss, s ∉ scen) →
    DetInv J (d.add J ss) (ss ++ scen) cuts := by
  induction ss with
  | nil => intro d scen h _ _; exact h
  | cons s ss ih =>
    intro d scen h hnd hdis
    have h1 := detInv_add1 h (hdis s (by simp))
    have h2 := ih h1 (List.nodup_cons.1 hnd).2 (by
      intro t ht hm
      rcases List.mem_cons.1 hm with rfl | hm
      · exact (List.nodup_cons.1 hnd).1 ht
      · exact hdis t (by simp [ht]) hm)
    exact DetInv.perm (d := (d.add J (s :: ss))) h2 (List.perm_middle)

/-- Removing a list of present handles keeps the other constraints. -/
theorem remove_handles (hs : List ℕ) : ∀ (g : GModel), hs.Nodup →
    (∀ h ∈ hs, h ∈ g.constrs.map Prod.fst) →
    hs.foldlM GModel.remove g
      = .ok { g with constrs := g.constrs.filter fun c => c.1 ∉ hs } := by
  induction hs with
  | nil => intro g _ _; simp [pure, Except.pure]
  | cons h hs ih =>
    intro g hnd hm
    rw [List.foldlM_cons]
    have : g.remove h = .ok { g with constrs := g.constrs.filter fun c => c.1 ≠ h } := by
      unfold GModel.remove
      rw [if_pos (hm h (by simp))]
    rw [this]
    simp only [bind, Except.bind]
    rw [ih _ (List.nodup_cons.1 hnd).2]
    · congr 2
      rw [List.filter_filter]
      refine List.filter_congr fun c _ => ?_
      simp [List.mem_cons, not_or, Bool.and_comm]
    · intro k hk
      obtain ⟨c, hc, rfl⟩ := List.mem_map.1 (hm k (by simp [hk]))
      refine List.mem_map.2 ⟨c, List.mem_filter.2 ⟨hc, ?_⟩, rfl⟩
      have : c.1 ≠ h := fun e => (List.nodup_cons.1 hnd).1 (e ▸ hk)
      simpa using this

theorem detInv_remove1 {J : CI} {d : Deter} {scen : List ℕ} {cuts : List ℚ} {s : ℕ}
    (h : DetInv J d (s :: scen) cuts) :
    ∃ d', d.remove1 J s = .ok d' ∧ DetInv J d' scen cuts ∧ d'.g.mipGap = d.g.mipGap := by
  obtain ⟨H, K, h1, h2, h3⟩ := h.rows
  obtain ⟨hget, hlen⟩ := h1 s (by simp)
  rw [List.flatMap_cons, List.append_assoc] at h2
  have hz : ((H s).zip (rowsC J s)).map Prod.fst = H s := by
    rw [List.map_fst_zip]; rw [rowsC_length, hlen]
  have hnd := h.nodup
  have hfst := h2.map Prod.fst
  rw [List.map_append, hz] at hfst
  have hnd2 := hfst.nodup_iff.1 hnd
  rw [List.nodup_append] at hnd2
  have hrun : (List.range (J.nbCon s)).foldlM (Deter.removeRow d.handles s) d.g
      = (H s).foldlM GModel.remove d.g := by
    have hgen : ∀ (l : List ℕ) (g : GModel), (∀ i ∈ l, i < (H s).length) →
        l.foldlM (Deter.removeRow d.handles s) g
        = (l.map fun i => (H s).getD i 0).foldlM GModel.remove g := by
      intro l
      induction l with
      | nil => intro g _; rfl
      | cons i l ih =>
        intro g hl
        rw [List.foldlM_cons, List.map_cons, List.foldlM_cons]
        have hi := hl i (by simp)
        simp only [Deter.removeRow, hget, bind, Except.bind, List.getElem?_eq_getElem hi,
          List.getD_eq_getElem _ _ hi]
        cases g.remove (H s)[i] with
        | error e => rfl
        | ok g' => exact ih g' fun j hj => hl j (List.mem_cons_of_mem _ hj)
    rw [hgen _ _ (by intro i hi; rw [hlen]; exact List.mem_range.1 hi)]
    congr 1
    refine List.ext_getElem (by simp [hlen]) ?_
    intro i h1 h2
    simp [List.getElem?_eq_getElem h2]
  have hrem := remove_handles (H s) d.g hnd2.1 (by
    intro k hk; exact hfst.mem_iff.2 (List.mem_append_left _ hk))
  refine ⟨{ d with g := { d.g with constrs := d.g.constrs.filter fun c => c.1 ∉ H s } }, ?_, ?_,
    rfl⟩
  · unfold Deter.remove1
    rw [hrun, hrem]; rfl
  · refine ⟨h.vars, h.obj, h.maximize, (List.nodup_cons.1 h.nodupScen).2, ?_, ?_, H, K, ?_, ?_,
      h3⟩
    · exact hnd.sublist ((List.filter_sublist).map _)
    · intro c hc; exact h.lt c (List.mem_filter.1 hc).1
    · intro t ht; exact h1 t (by simp [ht])
    · have h4 := h2.filter fun c => decide (c.1 ∉ H s)
      refine h4.trans ?_
      rw [List.filter_append]
      have e1 : ((H s).zip (rowsC J s)).filter (fun c => decide (c.1 ∉ H s)) = [] := by
        rw [List.filter_eq_nil_iff]
        intro c hc
        have : c.1 ∈ ((H s).zip (rowsC J s)).map Prod.fst := List.mem_map.2 ⟨c, hc, rfl⟩
        rw [hz] at this
        simpa using this
      have e2 : (scen.flatMap (fun s => (H s).zip (rowsC J s)) ++ K).filter
          (fun c => decide (c.1 ∉ H s)) = scen.flatMap (fun s => (H s).zip (rowsC J s)) ++ K := by
        rw [List.filter_eq_self]
        intro c hc
        have : c.1 ∉ H s := fun hm =>
          hnd2.2.2 c.1 hm c.1 (List.mem_map.2 ⟨c, hc, rfl⟩) rfl
        simpa using this
      rw [e1, e2, List.nil_append]

theorem detInv_remove {J : CI} {cuts : List ℚ} (ss : List ℕ) : ∀ {d : Deter} {scen : List ℕ},
    DetInv J d (ss ++ scen) cuts →
    ∃ d', d.remove J ss = .ok d' ∧ DetInv J d' scen cuts ∧ d'.g.mipGap = d.g.mipGap := by
  induction ss with
  | nil => intro d scen h; exact ⟨d, rfl, h, rfl⟩
  | cons s ss ih =>
    intro d scen h
    obtain ⟨d1, h1, h2, h3⟩ := detInv_remove1 (scen := ss ++ scen) h
    obtain ⟨d2, h4, h5, h6⟩ := ih h2
    refine ⟨d2, ?_, h5, h6.trans h3⟩
    unfold Deter.remove at h4 ⊢
    rw [List.foldlM_cons, h1]
    exact h4

theorem detInv_build {J : CI} {ss : List ℕ} (h : ss.Nodup) :
    DetInv J (Deter.build J ss) ss [] := by
  have := detInv_add ss (detInv_start J) h (by simp)
  rw [List.append_nil] at this
  exact this

theorem detInv_setMIPGap {J : CI} {d : Deter} {scen : List ℕ} {cuts : List ℚ} (q : ℚ)
    (h : DetInv J d scen cuts) : DetInv J { d with g := d.g.setMIPGap q } scen cuts :=
  ⟨h.vars, h.obj, h.maximize, h.nodupScen, h.nodup, h.lt, h.rows⟩

theorem detInv_cut {J : CI} {d : Deter} {scen : List ℕ} {cuts : List ℚ} (v : ℚ)
    (h : DetInv J d scen cuts) : DetInv J (addCut J d (v : WithBot ℚ)) scen (cuts ++ [v]) := by
  obtain ⟨H, K, h1, h2, h3⟩ := h.rows
  have hg : (addCut J d (v : WithBot ℚ)).g = d.g.addConstr (cutC J v) := rfl
  refine ⟨h.vars, h.obj, h.maximize, h.nodupScen, ?_, ?_, H, K ++ [(d.g.next, cutC J v)], h1, ?_,
    ?_⟩
  · rw [hg]
    show ((d.g.constrs ++ [(d.g.next, cutC J v)]).map Prod.fst).Nodup
    rw [List.map_append, List.nodup_append]
    refine ⟨h.nodup, by simp, ?_⟩
    intro a ha b hb hab
    obtain ⟨c, hc, rfl⟩ := List.mem_map.1 ha
    simp only [List.map_cons, List.map_nil, List.mem_singleton] at hb
    have := h.lt c hc
    omega
  · intro c hc
    rcases List.mem_append.1 (show c ∈ d.g.constrs ++ [(d.g.next, cutC J v)] from hc) with hc | hc
    · exact Nat.lt_succ_of_lt (h.lt c hc)
    · rw [List.mem_singleton.1 hc]; exact Nat.lt_succ_self _
  · rw [← List.append_assoc]
    exact h2.append_right _
  · rw [List.map_append, List.map_append, h3]; rfl

/-! ## The model built at once (repetitions allowed) -/

theorem build_fields (J : CI) (ss : List ℕ) :
    (Deter.build J ss).g.vars = varX J ∧ (Deter.build J ss).g.obj = objExpr J
    ∧ (Deter.build J ss).g.maximize = true
    ∧ ∀ ρ, (Deter.build J ss).g.Feas ρ ↔
      InDom J (fun j => ρ (.x j)) ∧ ∀ s ∈ ss, RowsHold J s fun j => ρ (.x j) := by
  have : ∀ (ss : List ℕ) (d : Deter), d.g.vars = varX J → d.g.obj = objExpr J →
      d.g.maximize = true →
      (d.add J ss).g.vars = varX J ∧ (d.add J ss).g.obj = objExpr J
      ∧ (d.add J ss).g.maximize = true
      ∧ ∀ ρ, (d.add J ss).g.Feas ρ ↔ d.g.Feas ρ ∧ ∀ s ∈ ss, RowsHold J s fun j => ρ (.x j) := by
    intro ss
    induction ss with
    | nil => intro d h1 h2 h3; exact ⟨h1, h2, h3, fun ρ => by simp [Deter.add]⟩
    | cons s ss ih =>
      intro d h1 h2 h3
      have hg : (d.add1 J s).g = d.g.addConstrs (rowsC J s) := rfl
      obtain ⟨f1, f2, f3, -⟩ := addConstrs_fields (rowsC J s) d.g
      obtain ⟨g1, g2, g3, g4⟩ := ih (d.add1 J s) (by rw [hg, f1, h1]) (by rw [hg, f2, h2])
        (by rw [hg, f3, h3])
      refine ⟨g1, g2, g3, fun ρ => ?_⟩
      have := g4 ρ
      rw [hg, feas_addConstrs, holds_rowsC] at this
      refine this.trans ?_
      simp only [List.mem_cons, forall_eq_or_imp, and_assoc]
  obtain ⟨h1, h2, h3, h4⟩ := this ss (Deter.start J) rfl rfl rfl
  refine ⟨h1, h2, h3, fun ρ => (h4 ρ).trans (and_congr_left fun _ => ?_)⟩
  have := (detInv_start J).feas ρ
  simpa using this

/-- The deterministic model of a list of scenarios: its points are those of the domain that
satisfy all of them. -/
theorem build_feas (I : Inst) (ss : List ℕ) (ρ : V → ℚ) :
    (Deter.build (instCI I) ss).g.Feas ρ ↔
      InX I (fun j => ρ (.x j)) ∧ SatAll I ss fun j => ρ (.x j) :=
  (build_fields (instCI I) ss).2.2.2 ρ

theorem build_obj (I : Inst) (ss : List ℕ) (ρ : V → ℚ) :
    (Deter.build (instCI I) ss).g.obj.eval ρ = obj I fun j => ρ (.x j) := by
  rw [(build_fields (instCI I) ss).2.1, eval_objExpr]; rfl

theorem build_max (J : CI) (ss : List ℕ) : (Deter.build J ss).g.maximize = true :=
  (build_fields J ss).2.2.1

/-- An exact answer on the deterministic model is an optimal solution, with its value. -/
theorem exact_detOpt {I : Inst} {ss : List ℕ} {r : GResult}
    (h : r.Exact (Deter.build (instCI I) ss).g) {ρ : V → ℚ} (hr : r.sol = some ρ) :
    DetOpt I ss r.objVal fun j => ρ (.x j) := by
  have hf := h.answers.valid.feas ρ hr
  rw [build_feas, build_obj] at hf
  obtain ⟨v, y, hy1, hy2⟩ := detOpt_exists I ss ⟨_, hf.1⟩
  let ρ' : V → ℚ := fun w => match w with | .x j => y j | _ => 0
  have hopt : (Deter.build (instCI I) ss).g.Optimal ρ' := by
    refine ⟨(build_feas I ss ρ').2 ⟨hy1.1, hy1.2.1⟩, fun ρ'' h'' => ?_⟩
    rw [if_pos (build_max _ _), build_obj, build_obj]
    have h3 := (build_feas I ss ρ'').1 h''
    have : obj I (fun j => ρ' (.x j)) = v := hy1.2.2
    rw [this]; exact hy2 _ h3.1 h3.2
  have hb : (Deter.build (instCI I) ss).g.Bounded :=
    ⟨_, fun ρ'' h'' => by
      rw [if_pos (build_max _ _)]
      have := hopt.2 ρ'' h''
      rw [if_pos (build_max _ _)] at this
      exact this⟩
  have hopt2 := h.optimum ⟨ρ', hopt⟩
  refine ⟨⟨hf.1.1, hf.1.2, hf.2⟩, fun z hz1 hz2 => ?_⟩
  let ρz : V → ℚ := fun w => match w with | .x j => z j | _ => 0
  have := h.answers.valid.bound hb ρz ((build_feas I ss ρz).2 ⟨hz1, hz2⟩)
  rw [if_pos (build_max _ _), build_obj, ← hopt2.2] at this
  exact this

theorem build_bounded (I : Inst) (ss : List ℕ) : (Deter.build (instCI I) ss).g.Bounded := by
  by_cases h : ∃ x, InX I x ∧ SatAll I ss x
  · obtain ⟨v, y, -, hy2⟩ := detOpt_exists I ss h
    refine ⟨v, fun ρ hρ => ?_⟩
    rw [if_pos (build_max _ _), build_obj]
    have := (build_feas I ss ρ).1 hρ
    exact hy2 _ this.1 this.2
  · exact ⟨0, fun ρ hρ => absurd ⟨_, (build_feas I ss ρ).1 hρ⟩ h⟩

/-- With exact answers, `subset_cost` either returns the optimum of the subset's problem or
raises because there is none. -/
theorem subsetCost_spec {I : Inst} {solve : GModel → GResult} {ss : List ℕ}
    (h : (solve (Deter.build (instCI I) ss).g).Exact (Deter.build (instCI I) ss).g) :
    (∀ v x, subsetCost I solve ss = .ok (v, x) → DetOpt I ss v x)
    ∧ ((∃ x, InX I x ∧ SatAll I ss x) → ∃ v x, subsetCost I solve ss = .ok (v, x))
    ∧ ((¬ ∃ x, InX I x ∧ SatAll I ss x) → subsetCost I solve ss = .error .attributeError) := by
  generalize hr : solve (Deter.build (instCI I) ss).g = r at h
  have hopt : optimize r = .ok r := by
    unfold optimize; rw [if_neg h.answers.notInterrupted]
  have hrun : subsetCost I solve ss = (do
      let v ← getObjVal r
      let x ← getX r
      pure (v, x)) := by
    unfold subsetCost; rw [hr, hopt]; rfl
  rw [hrun]
  cases hs : r.sol with
  | none =>
    have he : (do
      let v ← getObjVal r
      let x ← getX r
      pure (v, x) : PyM (ℚ × Vec)) = .error .attributeError := by
      simp only [getObjVal, hs, bind, Except.bind]
    rw [he]
    refine ⟨fun v x hvx => (by cases hvx), fun ⟨x, hx⟩ => ?_, fun _ => rfl⟩
    have := h.answers.solved (build_bounded I ss) ⟨fun w => match w with | .x j => x j | _ => 0,
      (build_feas I ss _).2 hx⟩
    rw [hs] at this; cases this
  | some ρ =>
    have he : (do
      let v ← getObjVal r
      let x ← getX r
      pure (v, x) : PyM (ℚ × Vec)) = .ok (r.objVal, fun j => ρ (.x j)) := by
      simp only [getObjVal, getX, getSol, hs, bind, Except.bind, pure, Except.pure]
    rw [he]
    refine ⟨fun v x hvx => ?_, fun _ => ⟨_, _, rfl⟩, fun hno => ?_⟩
    · cases hvx; exact exact_detOpt h hs
    · exact absurd ⟨_, (build_feas I ss ρ).1 (h.answers.valid.feas ρ hs).1⟩ hno

end Verif.Model
