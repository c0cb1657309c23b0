import Verif.Props.Bounding
import Verif.Lemmas.ExactSolver

/-!
# C18: the lower-bound problems are solved within 1e-4

The persistent model gets `MIPGap = 1e-4` when the lower bounder is constructed; removing and
adding rows does not change it.
-/

namespace Verif.Props
open Spec Model Finset

theorem foldlM_keeps {α β ε : Type} {f : α → β → Except ε α} {P : α → Prop}
    (h : ∀ a b a', P a → f a b = .ok a' → P a') :
    ∀ (l : List β) (a a' : α), P a → l.foldlM f a = .ok a' → P a'
  | [], a, a', ha, hr => by
    cases hr; exact ha
  | b :: l, a, a', ha, hr => by
    rw [List.foldlM_cons] at hr
    cases hf : f a b with
    | error e => rw [hf] at hr; cases hr
    | ok a1 =>
      rw [hf] at hr
      exact foldlM_keeps h l a1 a' (h a b a1 ha hf) hr

theorem remove_mipGap {J : CI} {d d' : Deter} {ss : List ℕ} (h : d.remove J ss = .ok d') :
    d'.g.mipGap = d.g.mipGap := by
  refine foldlM_keeps (P := fun e : Deter => e.g.mipGap = d.g.mipGap) ?_ ss d d' rfl h
  intro a s a' ha hr
  unfold Deter.remove1 at hr
  cases hf : (List.range (J.nbCon s)).foldlM (Deter.removeRow a.handles s) a.g with
  | error e => rw [hf] at hr; cases hr
  | ok g =>
    rw [hf] at hr
    cases hr
    refine foldlM_keeps (P := fun g : GModel => g.mipGap = d.g.mipGap) ?_ _ _ _ ha hf
    intro g i g' hg hr
    unfold Deter.removeRow at hr
    cases hget : assocGet a.handles s with
    | error e => rw [hget] at hr; cases hr
    | ok hs =>
      rw [hget] at hr
      simp only [bind, Except.bind] at hr
      split at hr
      · unfold GModel.remove at hr
        split at hr
        · cases hr; exact hg
        · cases hr
      · cases hr

theorem add_mipGap (J : CI) : ∀ (ss : List ℕ) (d : Deter), (d.add J ss).g.mipGap = d.g.mipGap
  | [], _ => rfl
  | s :: ss, d => by
    rw [show Deter.add J d (s :: ss) = Deter.add J (Deter.add1 J d s) ss from rfl, add_mipGap J ss]
    exact (addConstrs_fields _ _).2.2.2.1

theorem addCut_mipGap (J : CI) (d : Deter) (v : WithBot ℚ) :
    (addCut J d v).g.mipGap = d.g.mipGap := by
  cases v <;> rfl

theorem updateDeter_mipGap {I : Inst} {st st' : LBState} {vLB : WithBot ℚ} {sel : List ℕ}
    (h : updateDeter I st vLB sel = .ok st') : st'.deter.g.mipGap = st.deter.g.mipGap := by
  unfold updateDeter at h
  cases hr : st.deter.remove (instCI I) (st.scenarios.filter fun s => s ∉ sel) with
  | error e => rw [hr] at h; cases h
  | ok d =>
    rw [hr] at h
    cases h
    rw [← remove_mipGap hr]
    show (if st.prevVLB ≤ vLB then _ else _ : Deter).g.mipGap = _
    split
    · rw [addCut_mipGap, add_mipGap]
    · rw [add_mipGap]

theorem deterministicBound_mipGap {norm : Norm} {argsort : Argsort} {I : Inst}
    {projection : String} {solve : GModel → GResult} {st st' : LBState} {vLB : WithBot ℚ}
    {xUB : Option Vec} {out : LBOut}
    (h : deterministicBound norm argsort I projection solve st vLB xUB = .ok (st', out)) :
    st'.deter.g.mipGap = st.deter.g.mipGap := by
  unfold deterministicBound at h
  cases hi : indexScenarios norm I projection st.counter xUB with
  | error e => rw [hi] at h; cases h
  | ok index =>
    rw [hi] at h
    simp only [bind, Except.bind] at h
    cases hs : selectedScenarios argsort I index with
    | error e => rw [hs] at h; cases h
    | ok o =>
      rw [hs] at h
      cases o with
      | none => cases h
      | some sel =>
        simp only [solveDeter] at h
        cases hu : updateDeter I st vLB sel with
        | error e => rw [hu] at h; cases h
        | ok st1 =>
          rw [hu] at h
          simp only [bind, Except.bind] at h
          repeat' split at h
          all_goals cases h
          exact updateDeter_mipGap hu

theorem lbRun_mipGap {norm : Norm} {argsort : Argsort} {I : Inst} {projection : String} :
    ∀ (calls : List LBCall) {st st' : LBState},
    lbRun norm argsort I projection st calls = .ok st' → st'.deter.g.mipGap = st.deter.g.mipGap
  | [], st, st', h => by cases h; rfl
  | c :: cs, st, st', h => by
    unfold lbRun at h
    cases hd : deterministicBound norm argsort I projection c.solve (st.saveFeasible c.feasible)
        c.vLB c.xUB with
    | error e => rw [hd] at h; cases h
    | ok r =>
      rw [hd] at h
      exact (lbRun_mipGap cs h).trans
        (deterministicBound_mipGap (st := st.saveFeasible c.feasible) (out := r.2) hd)

/-- **C18, value of a call.** After any history of calls, a further call whose problem is solved
to status `OPTIMAL` (validly, within the `MIPGap` set in the model) returns a point of the domain
that satisfies all selected scenarios together with its objective, and no point that satisfies
them and the cuts exceeds this objective by more than the relative gap `1e-4`. -/
theorem C18_within_gap (norm : Norm) (argsort : Argsort) (I : Inst) (projection : String)
    (calls : List LBCall) (st st' : LBState) (c : LBCall) (out : LBOut)
    (h0 : lbRun norm argsort I projection (LBState.init I) calls = .ok st)
    (h : deterministicBound norm argsort I projection c.solve (st.saveFeasible c.feasible)
      c.vLB c.xUB = .ok (st', out))
    (hopt : (c.solve st'.deter.g).status = 2)
    (hvalid : (c.solve st'.deter.g).Valid st'.deter.g)
    (hgap : (c.solve st'.deter.g).WithinGap st'.deter.g) :
    ∃ x, out.x = some x ∧ InX I x ∧ SatAll I st'.scenarios x ∧ out.v = obj I x
      ∧ ∀ y, InX I y → SatAll I st'.scenarios y →
        (∀ v ∈ keptCuts ((-(10 ^ 6) : ℚ) : WithBot ℚ) ((calls ++ [c]).map LBCall.vLB), v ≤ obj I y) →
        obj I y ≤ obj I x + 1 / 10 ^ 4 * |obj I x| := by
  have hrun : lbRun norm argsort I projection (LBState.init I) (calls ++ [c]) = .ok st' := by
    have gen : ∀ (calls : List LBCall) (s : LBState),
        lbRun norm argsort I projection s calls = .ok st →
        lbRun norm argsort I projection s (calls ++ [c]) = .ok st' := by
      intro calls
      induction calls with
      | nil =>
        intro s hs
        cases hs
        rw [List.nil_append]
        unfold lbRun
        rw [h]; rfl
      | cons d ds ih =>
        intro s hs
        rw [List.cons_append]
        unfold lbRun at hs ⊢
        cases hd : deterministicBound norm argsort I projection d.solve (s.saveFeasible d.feasible)
            d.vLB d.xUB with
        | error e => rw [hd] at hs; cases hs
        | ok r =>
          rw [hd] at hs
          exact ih _ hs
    exact gen calls _ h0
  have hg : st'.deter.g.mipGap = 1 / 10 ^ 4 := lbRun_mipGap _ hrun
  obtain ⟨-, hobj, hmax, hfeas⟩ :=
    (C18_incremental_model norm argsort I projection (calls ++ [c])).1 st' hrun
  have hI := (lbRun_inv (norm := norm) (argsort := argsort) (projection := projection) calls
    (lbInit_inv I)).1 st h0
  obtain ⟨-, -, -, -, hread⟩ := (deterministicBound_inv (norm := norm) (argsort := argsort)
    (projection := projection) (solve := c.solve) (vLB := c.vLB) (xUB := c.xUB)
    (st := st.saveFeasible c.feasible) hI).1 st' out h
  have hev : ∀ ρ, st'.deter.g.obj.eval ρ = obj I fun j => ρ (.x j) := by
    intro ρ
    rw [hobj, eval_objExpr]; rfl
  have hb : st'.deter.g.Bounded := by
    by_cases hne : ∃ x, InX I x ∧ SatAll I st'.scenarios x
    · obtain ⟨v, y, -, hy⟩ := detOpt_exists I st'.scenarios hne
      refine ⟨v, fun ρ hρ => ?_⟩
      rw [if_pos hmax, hev]
      have := (hfeas ρ).1 hρ
      exact hy _ this.1 this.2.1
    · exact ⟨0, fun ρ hρ => absurd ⟨_, ((hfeas ρ).1 hρ).1, ((hfeas ρ).1 hρ).2.1⟩ hne⟩
  obtain ⟨ρ, hρ⟩ := Option.isSome_iff_exists.1 (hvalid.optimal hopt)
  obtain ⟨hf, hv⟩ := hvalid.feas ρ hρ
  have hout : out = ⟨some fun j => ρ (.x j), (c.solve st'.deter.g).objVal⟩ := by
    unfold readDeter at hread
    rw [if_neg (by rw [hopt]; decide)] at hread
    simp only [getX, getObjVal, getSol, hρ, bind, Except.bind, pure, Except.pure] at hread
    cases hread
    rfl
  subst hout
  rw [hev] at hv
  refine ⟨_, rfl, ((hfeas ρ).1 hf).1, ((hfeas ρ).1 hf).2.1, hv.symm, fun y h1 h2 h3 => ?_⟩
  let ρy : V → ℚ := fun w => match w with | .x j => y j | _ => 0
  have h4 := hvalid.bound hb ρy ((hfeas ρy).2 ⟨h1, h2, h3⟩)
  rw [if_pos hmax, hev] at h4
  have h5 := hgap hopt
  rw [hg, ← hv] at h5
  have h6 := (abs_le.1 h5).2
  have : obj I (fun j => ρy (.x j)) = obj I y := rfl
  rw [this] at h4
  linarith

/-- The hypotheses are met by exact answers: a second call with another selection; the answer has
status `OPTIMAL`. -/
example :
    (((do
      let st ← lbRun exNorm .default exSort "counter" (.init exSort)
        [⟨[false, true, true, true], ⊥, none, exactSolver⟩]
      let r ← deterministicBound exNorm .default exSort "counter" exactSolver
        (st.saveFeasible [true, false, false, false]) ((0 : ℚ) : WithBot ℚ) none
      pure (r.2.v, r.1.scenarios, (exactSolver r.1.deter.g).status)
        : PyM (ℚ × List ℕ × ℕ))).toOption) = some (0, [0, 1, 2], 2)
    ∧ ∀ g, GResult.Exact g (exactSolver g) :=
  ⟨by decide +kernel, exactSolver_exact⟩

end Verif.Props
