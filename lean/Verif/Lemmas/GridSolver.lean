import Verif.Lemmas.ExactSolver

/-!
# An exact solver that can be run on some models with continuous variables

`gridSolver` answers models whose rows bound one continuous variable each, with bounds taken from
a given list, by trying the values of the list.  All other models get the answer of
`exactSolver`.  It meets the contract `GResult.Exact` on every model, and concrete runs on such
instances can be computed.
-/

namespace Verif.Model

/-- Whether a variable is one of the instance variables. -/
def V.isX : V → Bool
  | .x _ => true
  | _ => false

/-- No instance variable has a coefficient other than 0. -/
def LinExpr.noX (e : LinExpr) : Bool := e.terms.all fun t => !t.2.isX || decide (t.1 = 0)

/-- No instance variable has a negative coefficient. -/
def LinExpr.monoX (e : LinExpr) : Bool := e.terms.all fun t => !t.2.isX || decide (0 ≤ t.1)

/-- The row bounds one instance variable from above by a value of the list (or by more than 1). -/
def Lin.caps (grid : List ℚ) (l : Lin) : Bool :=
  match l.lhs.terms.filter (fun t => decide (t.1 ≠ 0)) with
  | [(a, .x _)] => decide (0 < a) && decide (l.rel = .le) && l.rhs.terms.isEmpty
      && decide ((l.rhs.const - l.lhs.const) / a ∈ grid)
  | _ => false

/-- Rows that remain true if the instance variables are raised to the next value of the list. -/
def Lin.steps (grid : List ℚ) (l : Lin) : Bool :=
  (l.lhs.noX && l.rhs.noX) || (decide (l.rel = .ge) && l.lhs.monoX && l.rhs.noX) || l.caps grid

def Constr.steps (grid : List ℚ) : Constr → Bool
  | .lin l => l.steps grid
  | .ind v _ l => !v.isX && l.steps grid

/-- Declarations of the variables that the solver can treat. -/
def VarDecl.steps (d : VarDecl) : Bool :=
  (d.binary && !d.v.isX) || (!d.binary && d.v.isX && decide (d.lb = some 0) && decide (d.ub = some 1))

/-- The models that the solver can treat. -/
def GModel.steps (grid : List ℚ) (g : GModel) : Bool :=
  let vs := g.vars.map VarDecl.v
  g.maximize && g.vars.all VarDecl.steps && g.obj.closed vs && g.obj.monoX
    && g.constrs.all fun c => c.2.closed vs && c.2.steps grid

/-- All assignments with instance variables in the list and other variables 0 or 1. -/
def gridAssign (grid : List ℚ) : List VarDecl → List (V → ℚ)
  | [] => [fun _ => 0]
  | d :: ds => (gridAssign grid ds).flatMap fun ρ =>
      (if d.binary then [0, 1] else grid).map fun q v => if v = d.v then q else ρ v

/-- Search over these assignments. -/
def gridBrute (grid : List ℚ) (g : GModel) : GResult :=
  match bruteBest g ((gridAssign grid g.vars).filter fun ρ => decide (g.Feas ρ)) with
  | none => ⟨3, none, 0, 0⟩
  | some r => ⟨2, some r.2, r.1, r.1⟩

theorem mem_gridAssign {grid : List ℚ} : ∀ (ds : List VarDecl) (ρ : V → ℚ),
    (∀ d ∈ ds, ρ d.v ∈ if d.binary then [0, 1] else grid) →
    ∃ ρ' ∈ gridAssign grid ds, ∀ d ∈ ds, ρ' d.v = ρ d.v
  | [], ρ, _ => ⟨fun _ => 0, List.mem_singleton.2 rfl, by simp⟩
  | d :: ds, ρ, h => by
    obtain ⟨ρ', h1, h2⟩ := mem_gridAssign ds ρ fun e he => h e (List.mem_cons_of_mem _ he)
    refine ⟨fun v => if v = d.v then ρ d.v else ρ' v,
      List.mem_flatMap.2 ⟨ρ', h1, List.mem_map.2 ⟨ρ d.v, h d List.mem_cons_self, rfl⟩⟩,
      fun e he => ?_⟩
    by_cases hv : e.v = d.v
    · simp only [hv, if_true]
    · simp only [if_neg hv]
      rcases List.mem_cons.1 he with rfl | he
      · exact absurd rfl hv
      · exact h2 e he

/-- The next value of the list. -/
theorem exists_step : ∀ (grid : List ℚ) (q : ℚ), (∃ g ∈ grid, q ≤ g) →
    ∃ g ∈ grid, q ≤ g ∧ ∀ c ∈ grid, q ≤ c → g ≤ c
  | [], q, h => by obtain ⟨g, hg, -⟩ := h; cases hg
  | a :: grid, q, h => by
    by_cases hr : ∃ g ∈ grid, q ≤ g
    · obtain ⟨g, h1, h2, h3⟩ := exists_step grid q hr
      by_cases ha : q ≤ a ∧ a ≤ g
      · refine ⟨a, List.mem_cons_self, ha.1, fun c hc hq => ?_⟩
        rcases List.mem_cons.1 hc with rfl | hc
        · exact le_rfl
        · exact ha.2.trans (h3 c hc hq)
      · refine ⟨g, List.mem_cons_of_mem _ h1, h2, fun c hc hq => ?_⟩
        rcases List.mem_cons.1 hc with rfl | hc
        · exact (not_le.1 fun h' => ha ⟨hq, h'⟩).le
        · exact h3 c hc hq
    · obtain ⟨g, hg, hq⟩ := h
      rcases List.mem_cons.1 hg with rfl | hg
      · refine ⟨g, List.mem_cons_self, hq, fun c hc hqc => ?_⟩
        rcases List.mem_cons.1 hc with rfl | hc
        · exact le_rfl
        · exact absurd ⟨c, hc, hqc⟩ hr
      · exact absurd ⟨g, hg, hq⟩ hr

theorem LinExpr.eval_noX {e : LinExpr} (h : e.noX = true) {ρ ρ' : V → ℚ}
    (hz : ∀ v, v.isX = false → ρ' v = ρ v) : e.eval ρ' = e.eval ρ := by
  unfold LinExpr.eval
  congr 2
  refine List.map_congr_left fun t ht => ?_
  have := List.all_eq_true.1 h t ht
  cases hx : t.2.isX with
  | false => rw [hz _ hx]
  | true =>
    rw [hx] at this
    have h0 : t.1 = 0 := by simpa using this
    rw [h0]; ring

theorem LinExpr.eval_mono {e : LinExpr} (h : e.monoX = true) {ρ ρ' : V → ℚ}
    (hz : ∀ v, v.isX = false → ρ' v = ρ v) (hx : ∀ v, v.isX = true → ρ v ≤ ρ' v) :
    e.eval ρ ≤ e.eval ρ' := by
  unfold LinExpr.eval
  have key : ∀ l : List (ℚ × V), (∀ t ∈ l, (!t.2.isX || decide (0 ≤ t.1)) = true) →
      (l.map fun t => t.1 * ρ t.2).sum ≤ (l.map fun t => t.1 * ρ' t.2).sum := by
    intro l hl
    induction l with
    | nil => exact le_rfl
    | cons t l ih =>
      simp only [List.map_cons, List.sum_cons]
      refine add_le_add ?_ (ih fun u hu => hl u (List.mem_cons_of_mem _ hu))
      have := hl t List.mem_cons_self
      cases hv : t.2.isX with
      | false => rw [hz _ hv]
      | true =>
        rw [hv] at this
        have h0 : 0 ≤ t.1 := by simpa using this
        exact mul_le_mul_of_nonneg_left (hx _ hv) h0
  have := key e.terms (List.all_eq_true.1 h)
  linarith

/-- Terms with coefficient 0 do not count. -/
theorem LinExpr.eval_filter (e : LinExpr) (ρ : V → ℚ) :
    e.eval ρ = e.const + ((e.terms.filter fun t => decide (t.1 ≠ 0)).map fun t => t.1 * ρ t.2).sum := by
  unfold LinExpr.eval
  congr 1
  generalize e.terms = l
  induction l with
  | nil => rfl
  | cons t l ih =>
    by_cases h0 : t.1 = 0
    · rw [List.filter_cons_of_neg (by simpa using h0)]
      simp only [List.map_cons, List.sum_cons, h0]
      rw [ih]; ring
    · rw [List.filter_cons_of_pos (by simpa using h0)]
      simp only [List.map_cons, List.sum_cons]
      rw [ih]

/-- What raising the instance variables to the next values of the list does. -/
structure Raised (grid : List ℚ) (ρ ρ' : V → ℚ) : Prop where
  other : ∀ v, v.isX = false → ρ' v = ρ v
  le : ∀ v, v.isX = true → ρ v ≤ ρ' v
  least : ∀ v, v.isX = true → ∀ c ∈ grid, ρ v ≤ c → ρ' v ≤ c

theorem Lin.holds_raised {grid : List ℚ} {l : Lin} (h : l.steps grid = true) {ρ ρ' : V → ℚ}
    (hr : Raised grid ρ ρ') (hl : l.Holds ρ) : l.Holds ρ' := by
  unfold Lin.steps at h
  simp only [Bool.or_eq_true, Bool.and_eq_true, decide_eq_true_eq] at h
  rcases h with (⟨h1, h2⟩ | ⟨⟨h1, h2⟩, h3⟩) | h
  · unfold Lin.Holds at hl ⊢
    rw [LinExpr.eval_noX h1 hr.other, LinExpr.eval_noX h2 hr.other]
    exact hl
  · unfold Lin.Holds at hl ⊢
    rw [h1] at hl ⊢
    simp only at hl ⊢
    rw [LinExpr.eval_noX h3 hr.other]
    exact hl.trans (LinExpr.eval_mono h2 hr.other hr.le)
  · unfold Lin.caps at h
    split at h
    · next a j hf =>
      simp only [Bool.and_eq_true, decide_eq_true_eq, List.isEmpty_iff] at h
      obtain ⟨⟨⟨ha, hrel⟩, hrhs⟩, hmem⟩ := h
      have e1 : ∀ ρ : V → ℚ, l.lhs.eval ρ = l.lhs.const + a * ρ (.x j) := by
        intro ρ
        rw [LinExpr.eval_filter, hf]
        simp
      have e2 : ∀ ρ : V → ℚ, l.rhs.eval ρ = l.rhs.const := by
        intro ρ
        unfold LinExpr.eval
        rw [hrhs]; simp
      unfold Lin.Holds at hl ⊢
      rw [hrel] at hl ⊢
      simp only [e1, e2] at hl ⊢
      have h1 : ρ (.x j) ≤ (l.rhs.const - l.lhs.const) / a := by
        rw [le_div_iff₀ ha]; linarith
      have h2 := hr.least (.x j) rfl _ hmem h1
      rw [le_div_iff₀ ha] at h2
      linarith
    · cases h

theorem Constr.holds_raised {grid : List ℚ} {c : Constr} (h : c.steps grid = true) {ρ ρ' : V → ℚ}
    (hr : Raised grid ρ ρ') (hl : c.Holds ρ) : c.Holds ρ' := by
  cases c with
  | lin l => exact Lin.holds_raised h hr hl
  | ind v val l =>
    unfold Constr.steps at h
    simp only [Bool.and_eq_true, Bool.not_eq_true'] at h
    intro hv
    rw [hr.other v h.1] at hv
    exact Lin.holds_raised h.2 hr (hl hv)

/-- Every feasible point is dominated by one of the assignments tried. -/
theorem gridAssign_dominates {grid : List ℚ} {g : GModel} (h : g.steps grid = true)
    (h1 : (1 : ℚ) ∈ grid) {ρ : V → ℚ} (hρ : g.Feas ρ) :
    ∃ ρ' ∈ (gridAssign grid g.vars).filter fun ρ => decide (g.Feas ρ),
      g.obj.eval ρ ≤ g.obj.eval ρ' := by
  classical
  unfold GModel.steps at h
  simp only [Bool.and_eq_true, List.all_eq_true] at h
  obtain ⟨⟨⟨⟨-, hvars⟩, hobj⟩, hmono⟩, hcon⟩ := h
  have hup : ∀ v, ∃ q, (v.isX = false → q = ρ v) ∧ (v.isX = true → ρ v ≤ 1 →
      q ∈ grid ∧ ρ v ≤ q ∧ ∀ c ∈ grid, ρ v ≤ c → q ≤ c)
      ∧ (v.isX = true → ¬ ρ v ≤ 1 → q = ρ v) := by
    intro v
    by_cases hx : v.isX = true
    · by_cases hle : ρ v ≤ 1
      · obtain ⟨q, a1, a2, a3⟩ := exists_step grid (ρ v) ⟨1, h1, hle⟩
        exact ⟨q, fun h' => absurd (hx.symm.trans h') (by decide), fun _ _ => ⟨a1, a2, a3⟩,
          fun _ h' => absurd hle h'⟩
      · exact ⟨ρ v, fun _ => rfl, fun _ h' => absurd h' hle, fun _ _ => rfl⟩
    · exact ⟨ρ v, fun _ => rfl, fun h' => absurd h' hx, fun h' => absurd h' hx⟩
  choose u hu1 hu2 hu3 using hup
  have hr : Raised grid ρ u := by
    refine ⟨hu1, fun v hv => ?_, fun v hv c hc hle => ?_⟩
    · by_cases hle : ρ v ≤ 1
      · exact (hu2 v hv hle).2.1
      · rw [hu3 v hv hle]
    · by_cases hle' : ρ v ≤ 1
      · exact (hu2 v hv hle').2.2 c hc hle
      · rw [hu3 v hv hle']; exact hle
  have hfeas : g.Feas u := by
    refine ⟨fun d hd => ?_, fun c hc => Constr.holds_raised (hcon c hc).2 hr (hρ.2 c hc)⟩
    have hok := hρ.1 d hd
    have hs := hvars d hd
    unfold VarDecl.steps at hs
    simp only [Bool.or_eq_true, Bool.and_eq_true, Bool.not_eq_true', decide_eq_true_eq] at hs
    rcases hs with ⟨-, hx⟩ | ⟨⟨⟨hb, hx⟩, hlb⟩, hub⟩
    · unfold VarDecl.Ok at hok ⊢
      rw [hu1 _ hx]; exact hok
    · have hle := hok.2.2 1 hub
      refine ⟨fun h' => absurd (hb.symm.trans h') (by decide), fun l hl => ?_, fun w hw => ?_⟩
      · exact (hok.2.1 l hl).trans (hu2 _ hx hle).2.1
      · rw [hub] at hw
        cases hw
        exact (hu2 _ hx hle).2.2 1 h1 hle
  obtain ⟨ρ', m1, m2⟩ := mem_gridAssign (grid := grid) g.vars u fun d hd => by
    have hok := hρ.1 d hd
    have hs := hvars d hd
    unfold VarDecl.steps at hs
    simp only [Bool.or_eq_true, Bool.and_eq_true, Bool.not_eq_true', decide_eq_true_eq] at hs
    rcases hs with ⟨hb, hx⟩ | ⟨⟨⟨hb, hx⟩, hlb⟩, hub⟩
    · rw [if_pos hb, hu1 _ hx]
      have := hok.1 hb
      simpa using this
    · rw [if_neg (by rw [hb]; decide)]
      exact (hu2 _ hx (hok.2.2 1 hub)).1
  have hag : ∀ v ∈ g.vars.map VarDecl.v, ρ' v = u v := by
    intro v hv
    obtain ⟨d, hd, rfl⟩ := List.mem_map.1 hv
    exact m2 d hd
  refine ⟨ρ', List.mem_filter.2 ⟨m1, decide_eq_true ⟨fun d hd => ?_, fun c hc => ?_⟩⟩, ?_⟩
  · have := hfeas.1 d hd
    unfold VarDecl.Ok at this ⊢
    rw [m2 d hd]; exact this
  · exact (Constr.holds_congr (hcon c hc).1 hag).2 (hfeas.2 c hc)
  · rw [LinExpr.eval_congr hobj hag]
    exact LinExpr.eval_mono hmono hr.other hr.le

/-- The search is exact on these models. -/
theorem gridBrute_exact {grid : List ℚ} {g : GModel} (h : g.steps grid = true)
    (h1 : (1 : ℚ) ∈ grid) : GResult.Exact g (gridBrute grid g) := by
  have hmax : g.maximize = true := by
    have h' := h
    unfold GModel.steps at h'
    simp only [Bool.and_eq_true] at h'
    exact h'.1.1.1.1
  unfold gridBrute
  cases hb : bruteBest g ((gridAssign grid g.vars).filter fun ρ => decide (g.Feas ρ)) with
  | none =>
    have hno : ∀ ρ, ¬ g.Feas ρ := fun ρ hρ => by
      obtain ⟨ρ', h1, -⟩ := gridAssign_dominates h h1 hρ
      rw [bruteBest_none hb] at h1
      cases h1
    refine ⟨⟨⟨?_, ?_, ?_, ?_⟩, ?_, ?_⟩, ?_, ?_⟩
    · intro ρ hρ; cases hρ
    · intro _ ρ hρ; exact absurd hρ (hno ρ)
    · intro _; exact ⟨rfl, hno⟩
    · intro h'; cases h'
    · simp
    · rintro - ⟨ρ, hρ⟩; exact absurd hρ (hno ρ)
    · rintro ⟨ρ, hρ, -⟩; exact absurd hρ (hno ρ)
    · intro _; rfl
  | some r =>
    obtain ⟨a1, a2, a3⟩ := bruteBest_some hb
    have hf := of_decide_eq_true (List.mem_filter.1 a1).2
    have hbest : ∀ ρ, g.Feas ρ →
        if g.maximize then g.obj.eval ρ ≤ r.1 else r.1 ≤ g.obj.eval ρ := fun ρ hρ => by
      obtain ⟨ρ', b1, b2⟩ := gridAssign_dominates h h1 hρ
      have := a3 ρ' b1
      rw [hmax, if_pos rfl] at this ⊢
      exact b2.trans this
    refine ⟨⟨⟨?_, ?_, ?_, ?_⟩, ?_, ?_⟩, ?_, ?_⟩
    · intro ρ hρ; cases hρ; exact ⟨hf, a2.symm⟩
    · intro _ ρ hρ; exact hbest ρ hρ
    · intro h'; cases h'
    · intro _; rfl
    · simp
    · intro _ _; rfl
    · intro _; exact ⟨rfl, rfl⟩
    · intro h'; exact absurd hf (h' _)

/-- The search where it is exact, another exact answer elsewhere. -/
noncomputable def gridSolver (grid : List ℚ) (g : GModel) : GResult :=
  match g.steps grid with
  | true => gridBrute grid g
  | false => exactSolver g

theorem gridSolver_exact {grid : List ℚ} (h1 : (1 : ℚ) ∈ grid) (g : GModel) :
    GResult.Exact g (gridSolver grid g) := by
  unfold gridSolver
  split
  · next h => exact gridBrute_exact h h1
  · exact exactSolver_exact g

/-- `bruteEnv` with this solver. -/
noncomputable def gridEnv (norm : Norm) (d : ℚ) (grid : List ℚ) : Env :=
  { bruteEnv norm d with
    sub := fun _ _ => gridSolver grid
    cc := fun _ => gridSolver grid
    lb := fun _ => gridSolver grid
    acc := fun _ _ => gridSolver grid
    big := fun _ => gridSolver grid }

end Verif.Model
