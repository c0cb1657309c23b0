import Verif.Lemmas.Brute

/-!
# An exact solver that can be run on binary models

`exactSolver` answers models with declared binary variables by exhaustive search, all others by
an unknown exact answer.  It meets the contract `GResult.Exact` on every model, and concrete runs
on binary instances can be computed.
-/

namespace Verif.Model

/-- All variables of the expression are declared. -/
def LinExpr.closed (vs : List V) (e : LinExpr) : Bool := e.terms.all fun t => decide (t.2 ∈ vs)

def Lin.closed (vs : List V) (l : Lin) : Bool := l.lhs.closed vs && l.rhs.closed vs

def Constr.closed (vs : List V) : Constr → Bool
  | .lin l => l.closed vs
  | .ind v _ l => decide (v ∈ vs) && l.closed vs

/-- All variables are binary and declared. -/
def GModel.plain (g : GModel) : Bool :=
  let vs := g.vars.map VarDecl.v
  g.vars.all (·.binary) && g.obj.closed vs && g.constrs.all fun c => c.2.closed vs

theorem LinExpr.eval_congr {vs : List V} {e : LinExpr} (h : e.closed vs = true) {ρ ρ' : V → ℚ}
    (hρ : ∀ v ∈ vs, ρ v = ρ' v) : e.eval ρ = e.eval ρ' := by
  unfold LinExpr.eval
  congr 2
  refine List.map_congr_left fun t ht => ?_
  have := List.all_eq_true.1 h t ht
  rw [hρ _ (of_decide_eq_true this)]

theorem Lin.holds_congr {vs : List V} {l : Lin} (h : l.closed vs = true) {ρ ρ' : V → ℚ}
    (hρ : ∀ v ∈ vs, ρ v = ρ' v) : l.Holds ρ ↔ l.Holds ρ' := by
  unfold Lin.closed at h
  rw [Bool.and_eq_true] at h
  unfold Lin.Holds
  rw [LinExpr.eval_congr h.1 hρ, LinExpr.eval_congr h.2 hρ]

theorem Constr.holds_congr {vs : List V} {c : Constr} (h : c.closed vs = true) {ρ ρ' : V → ℚ}
    (hρ : ∀ v ∈ vs, ρ v = ρ' v) : c.Holds ρ ↔ c.Holds ρ' := by
  cases c with
  | lin l => exact Lin.holds_congr h hρ
  | ind v val l =>
    unfold Constr.closed at h
    rw [Bool.and_eq_true] at h
    simp only [Constr.Holds]
    rw [hρ v (of_decide_eq_true h.1), Lin.holds_congr h.2 hρ]

theorem GModel.feas_congr {g : GModel} (h : g.plain = true) {ρ ρ' : V → ℚ}
    (hρ : ∀ v ∈ g.vars.map VarDecl.v, ρ v = ρ' v) : g.Feas ρ ↔ g.Feas ρ' := by
  unfold GModel.plain at h
  simp only [Bool.and_eq_true, List.all_eq_true] at h
  unfold GModel.Feas
  refine and_congr ?_ ?_
  · refine forall₂_congr fun d hd => ?_
    unfold VarDecl.Ok
    rw [hρ d.v (List.mem_map_of_mem hd)]
  · exact forall₂_congr fun c hc => Constr.holds_congr (h.2 c hc) hρ

theorem mem_bruteAssign : ∀ (ds : List VarDecl) (ρ : V → ℚ),
    (∀ d ∈ ds, ρ d.v = 0 ∨ ρ d.v = 1) →
    ∃ ρ' ∈ bruteAssign ds, (∀ d ∈ ds, ρ' d.v = ρ d.v) ∧ ∀ v, v ∉ ds.map VarDecl.v → ρ' v = 0
  | [], ρ, _ => ⟨fun _ => 0, List.mem_singleton.2 rfl, by simp, by simp⟩
  | d :: ds, ρ, h => by
    obtain ⟨ρ', h1, h2, h3⟩ := mem_bruteAssign ds ρ fun e he => h e (List.mem_cons_of_mem _ he)
    have hmem : ∀ q ∈ [ρ', fun v => if v = d.v then 1 else ρ' v], q ∈ bruteAssign (d :: ds) :=
      fun q hq => List.mem_flatMap.2 ⟨ρ', h1, hq⟩
    rcases h d List.mem_cons_self with h0 | h0
    · by_cases hd : d.v ∈ ds.map VarDecl.v
      · obtain ⟨e, he, hev⟩ := List.mem_map.1 hd
        refine ⟨ρ', hmem _ (by simp), fun e' he' => ?_, fun v hv => h3 v fun h' => hv (by simp_all)⟩
        rcases List.mem_cons.1 he' with rfl | he'
        · rw [← hev]; exact h2 e he
        · exact h2 e' he'
      · refine ⟨ρ', hmem _ (by simp), fun e' he' => ?_, fun v hv => h3 v fun h' => hv (by simp_all)⟩
        rcases List.mem_cons.1 he' with rfl | he'
        · rw [h0]; exact h3 _ hd
        · exact h2 e' he'
    · refine ⟨_, hmem (fun v => if v = d.v then 1 else ρ' v) (by simp), fun e' he' => ?_,
        fun v hv => ?_⟩
      · by_cases hv : e'.v = d.v
        · simp only [hv, if_true]; exact h0.symm
        · simp only [if_neg hv]
          rcases List.mem_cons.1 he' with rfl | he'
          · exact absurd rfl hv
          · exact h2 e' he'
      · simp only [List.map_cons, List.mem_cons, not_or] at hv
        simp only [if_neg hv.1]
        exact h3 v hv.2

theorem bruteBest_none {g : GModel} : ∀ {l : List (V → ℚ)}, bruteBest g l = none → l = []
  | [], _ => rfl
  | ρ :: l, h => by
    unfold bruteBest at h
    simp only at h
    repeat' split at h
    all_goals cases h

theorem bruteBest_some {g : GModel} : ∀ {l : List (V → ℚ)} {r : ℚ × (V → ℚ)},
    bruteBest g l = some r → r.2 ∈ l ∧ r.1 = g.obj.eval r.2
      ∧ ∀ ρ ∈ l, if g.maximize then g.obj.eval ρ ≤ r.1 else r.1 ≤ g.obj.eval ρ
  | [], _, h => by cases h
  | ρ :: l, r, h => by
    unfold bruteBest at h
    simp only at h
    cases hb : bruteBest g l with
    | none =>
      rw [hb] at h
      have := bruteBest_none hb
      subst this
      cases h
      refine ⟨List.mem_cons_self, rfl, fun q hq => ?_⟩
      rw [List.mem_singleton.1 hq]
      split <;> exact le_rfl
    | some r' =>
      rw [hb] at h
      obtain ⟨a1, a2, a3⟩ := bruteBest_some hb
      simp only at h
      by_cases hm : g.maximize = true
      · simp only [hm, if_true] at h a3 ⊢
        split at h
        · next hle =>
          cases h
          refine ⟨List.mem_cons_self, rfl, fun q hq => ?_⟩
          rcases List.mem_cons.1 hq with rfl | hq
          · exact le_rfl
          · exact (a3 q hq).trans hle
        · next hle =>
          cases h
          refine ⟨List.mem_cons_of_mem _ a1, a2, fun q hq => ?_⟩
          rcases List.mem_cons.1 hq with rfl | hq
          · exact (not_le.1 hle).le
          · exact a3 q hq
      · simp only [hm, Bool.false_eq_true, if_false] at h a3 ⊢
        split at h
        · next hle =>
          cases h
          refine ⟨List.mem_cons_self, rfl, fun q hq => ?_⟩
          rcases List.mem_cons.1 hq with rfl | hq
          · exact le_rfl
          · exact le_trans hle (a3 q hq)
        · next hle =>
          cases h
          refine ⟨List.mem_cons_of_mem _ a1, a2, fun q hq => ?_⟩
          rcases List.mem_cons.1 hq with rfl | hq
          · exact (not_le.1 hle).le
          · exact a3 q hq

/-- Exhaustive search is exact on such models. -/
theorem brute_exact {g : GModel} (h : g.plain = true) : GResult.Exact g (brute g) := by
  have hbin : ∀ d ∈ g.vars, d.binary = true := by
    have h' := h
    unfold GModel.plain at h'
    simp only [Bool.and_eq_true, List.all_eq_true] at h'
    exact h'.1.1
  have hobj : g.obj.closed (g.vars.map VarDecl.v) = true := by
    have h' := h
    unfold GModel.plain at h'
    simp only [Bool.and_eq_true] at h'
    exact h'.1.2
  have hrep : ∀ ρ, g.Feas ρ → ∃ ρ' ∈ (bruteAssign g.vars).filter fun ρ => decide (g.Feas ρ),
      g.obj.eval ρ' = g.obj.eval ρ := by
    intro ρ hρ
    obtain ⟨ρ', h1, h2, -⟩ := mem_bruteAssign g.vars ρ fun d hd => (hρ.1 d hd).1 (hbin d hd)
    have hag : ∀ v ∈ g.vars.map VarDecl.v, ρ' v = ρ v := by
      rintro v hv
      obtain ⟨d, hd, rfl⟩ := List.mem_map.1 hv
      exact h2 d hd
    exact ⟨ρ', List.mem_filter.2 ⟨h1, decide_eq_true ((GModel.feas_congr h hag).2 hρ)⟩,
      LinExpr.eval_congr hobj hag⟩
  unfold brute
  cases hb : bruteBest g ((bruteAssign g.vars).filter fun ρ => decide (g.Feas ρ)) with
  | none =>
    have hno : ∀ ρ, ¬ g.Feas ρ := fun ρ hρ => by
      obtain ⟨ρ', h1, -⟩ := hrep ρ hρ
      rw [bruteBest_none hb] at h1
      cases h1
    refine ⟨⟨⟨?_, ?_, ?_, ?_⟩, ?_, ?_⟩, ?_, ?_⟩
    · intro ρ hρ; cases hρ
    · intro _ ρ hρ; exact absurd hρ (hno ρ)
    · intro _; exact ⟨rfl, hno⟩
    · intro h'; cases h'
    · simp
    · rintro - ⟨ρ, hρ⟩; exact absurd hρ (hno ρ)
    · rintro ⟨ρ, hρ, -⟩; exact absurd hρ (hno ρ)
    · intro _; rfl
  | some r =>
    obtain ⟨a1, a2, a3⟩ := bruteBest_some hb
    have hf := of_decide_eq_true (List.mem_filter.1 a1).2
    have hbest : ∀ ρ, g.Feas ρ →
        if g.maximize then g.obj.eval ρ ≤ r.1 else r.1 ≤ g.obj.eval ρ := fun ρ hρ => by
      obtain ⟨ρ', h1, h2⟩ := hrep ρ hρ
      rw [← h2]; exact a3 ρ' h1
    refine ⟨⟨⟨?_, ?_, ?_, ?_⟩, ?_, ?_⟩, ?_, ?_⟩
    · intro ρ hρ; cases hρ; exact ⟨hf, a2.symm⟩
    · intro _ ρ hρ; exact hbest ρ hρ
    · intro h'; cases h'
    · intro _; rfl
    · simp
    · intro _ _; rfl
    · intro _; exact ⟨rfl, rfl⟩
    · intro h'; exact absurd hf (h' _)

/-- The exact contract can be met with closed gap whenever status `OPTIMAL` is reported. -/
theorem exists_exact_closed : ∃ solve : GModel → GResult, ∀ g, GResult.Exact g (solve g)
    ∧ ((solve g).status = 2 → (solve g).objVal = (solve g).objBnd) := by
  classical
  obtain ⟨f, hf⟩ := GResult.exists_exact
  refine ⟨fun g => if (∃ ρ, g.Optimal ρ) ∨ (f g).status ≠ 2 then f g else { f g with status := 13 },
    fun g => ?_⟩
  have h := hf g
  by_cases hc : (∃ ρ, g.Optimal ρ) ∨ (f g).status ≠ 2
  · simp only [if_pos hc]
    refine ⟨h, fun h2 => ?_⟩
    rcases hc with ho | hn
    · exact (h.optimum ho).2
    · exact absurd h2 hn
  · simp only [if_neg hc]
    push Not at hc
    refine ⟨⟨⟨⟨h.answers.valid.feas, h.answers.valid.bound, ?_, ?_⟩, ?_, h.answers.solved⟩, ?_, ?_⟩, ?_⟩
    · intro h'; cases h'
    · intro h'; cases h'
    · simp
    · rintro ⟨ρ, hρ⟩; exact absurd hρ (hc.1 ρ)
    · intro hno
      have := h.noPoint hno
      rw [hc.2] at this
      cases this
    · intro h'; cases h'

/-- Exhaustive search where it is exact, an unknown exact answer elsewhere. -/
noncomputable def exactSolver (g : GModel) : GResult :=
  match g.plain with
  | true => brute g
  | false => exists_exact_closed.choose g

theorem exactSolver_exact (g : GModel) : GResult.Exact g (exactSolver g) := by
  unfold exactSolver
  split
  · next h => exact brute_exact h
  · exact (exists_exact_closed.choose_spec g).1

theorem exactSolver_closed (g : GModel) (h : (exactSolver g).status = 2) :
    (exactSolver g).objVal = (exactSolver g).objBnd := by
  unfold exactSolver at h ⊢
  split at h
  · unfold brute
    split <;> rfl
  · exact (exists_exact_closed.choose_spec g).2 h

/-- There is a solver with valid answers that reports a solution only with closed gap, and solves
every model that has an optimal assignment. -/
theorem exists_tight : ∃ solve : GModel → GResult, ∀ g, GResult.Valid g (solve g)
    ∧ (∀ ρ, (solve g).sol = some ρ → (solve g).objVal = (solve g).objBnd ∧ (solve g).status = 2)
    ∧ ((∃ ρ, g.Optimal ρ) → (solve g).sol.isSome) := by
  classical
  have : ∀ g : GModel, ∃ r, GResult.Valid g r ∧ (∀ ρ, r.sol = some ρ →
      r.objVal = r.objBnd ∧ r.status = 2) ∧ ((∃ ρ, g.Optimal ρ) → r.sol.isSome) := by
    intro g
    by_cases ho : ∃ ρ, g.Optimal ρ
    · obtain ⟨ρ, h1, h2⟩ := ho
      refine ⟨⟨2, some ρ, g.obj.eval ρ, g.obj.eval ρ⟩, ⟨?_, ?_, ?_, ?_⟩, fun _ _ => ⟨rfl, rfl⟩,
        fun _ => rfl⟩
      · rintro ρ' h; cases h; exact ⟨h1, rfl⟩
      · intro _ ρ' h; exact h2 ρ' h
      · intro h; cases h
      · intro _; rfl
    · by_cases hb : g.Bounded
      · obtain ⟨B, hB⟩ := hb
        refine ⟨⟨9, none, 0, B⟩, ⟨?_, ?_, ?_, ?_⟩, ?_, fun h => absurd h ho⟩
        · rintro ρ' h; cases h
        · intro _ ρ' h; exact hB ρ' h
        · intro h; cases h
        · intro h; cases h
        · rintro ρ' h; cases h
      · refine ⟨⟨5, none, 0, 0⟩, ⟨?_, ?_, ?_, ?_⟩, ?_, fun h => absurd h ho⟩
        · rintro ρ' h; cases h
        · intro h; exact absurd h hb
        · intro h; cases h
        · intro h; cases h
        · rintro ρ' h; cases h
  choose f hf using this
  exact ⟨f, hf⟩

/-- Exhaustive search where it is exact, such an answer elsewhere. -/
noncomputable def tightSolver (g : GModel) : GResult :=
  match g.plain with
  | true => brute g
  | false => exists_tight.choose g

theorem tightSolver_valid (g : GModel) : GResult.Valid g (tightSolver g) := by
  unfold tightSolver
  split
  · next h => exact (brute_exact h).answers.valid
  · exact (exists_tight.choose_spec g).1

theorem tightSolver_solved (g : GModel) (ρ : V → ℚ) (h : (tightSolver g).sol = some ρ) :
    (tightSolver g).objVal = (tightSolver g).objBnd ∧ (tightSolver g).status = 2 := by
  unfold tightSolver at h ⊢
  split at h
  · unfold brute at h ⊢
    split
    · next h' => rw [h'] at h; cases h
    · exact ⟨rfl, rfl⟩
  · exact (exists_tight.choose_spec g).2.1 ρ h

theorem tightSolver_tight (g : GModel) (ρ : V → ℚ) (h : (tightSolver g).sol = some ρ) :
    (tightSolver g).objVal = (tightSolver g).objBnd := (tightSolver_solved g ρ h).1

deriving instance DecidableEq for LinExpr
deriving instance DecidableEq for Lin
deriving instance DecidableEq for Constr
deriving instance DecidableEq for VarDecl
deriving instance DecidableEq for GModel

/-- A solver that knows the answers to some models. -/
noncomputable def tableSolver (t : List (GModel × GResult)) (g : GModel) : GResult :=
  match t with
  | [] => exactSolver g
  | (g', r) :: t => if g = g' then r else tableSolver t g

theorem tableSolver_exact {t : List (GModel × GResult)} (h : ∀ p ∈ t, GResult.Exact p.1 p.2)
    (g : GModel) : GResult.Exact g (tableSolver t g) := by
  induction t with
  | nil => exact exactSolver_exact g
  | cons p t ih =>
    unfold tableSolver
    split
    · next hg => rw [hg]; exact h p List.mem_cons_self
    · exact ih fun q hq => h q (List.mem_cons_of_mem _ hq)

/-- `bruteEnv` with this solver. -/
noncomputable def exactEnv (norm : Norm) (d : ℚ) : Env :=
  { bruteEnv norm d with
    sub := fun _ _ => exactSolver
    cc := fun _ => exactSolver
    lb := fun _ => exactSolver
    acc := fun _ _ => exactSolver
    big := fun _ => exactSolver }

end Verif.Model
