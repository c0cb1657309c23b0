import Verif.Lemmas.Deter

/-!
# Lower bounds: selection of scenarios, incremental model, incumbent search
-/

namespace Verif.Model
open LinExpr Spec Props

/-- Outcome of the selection loop. -/
theorem selectLoop_some {proba : ℕ → ℚ} {eps : ℚ} (l : List ℕ) : ∀ {k : ℕ} {total : ℚ} {r : ℕ},
    selectLoop proba eps l k total = some r →
    ∃ d, d < l.length ∧ r = k + (d + 1)
      ∧ total + ((l.take (d + 1)).map proba).sum ≥ 1 - eps - 1 / 10 ^ 7
      ∧ ∀ e < d, total + ((l.take (e + 1)).map proba).sum < 1 - eps - 1 / 10 ^ 7 := by
  induction l with
  | nil => intro k total r h; cases h
  | cons s l ih =>
    intro k total r h
    unfold selectLoop at h
    simp only at h
    by_cases hge : total + proba s ≥ 1 - eps - 1 / 10 ^ 7
    · rw [if_pos hge] at h
      cases h
      exact ⟨0, by simp, rfl, by simpa using hge, by simp⟩
    · rw [if_neg hge] at h
      obtain ⟨d, h1, h2, h3, h4⟩ := ih h
      refine ⟨d + 1, by simpa using h1, by omega, ?_, ?_⟩
      · simp only [List.take_succ_cons, List.map_cons, List.sum_cons] at h3 ⊢
        linarith
      · intro e he
        cases e with
        | zero => simpa using not_le.1 hge
        | succ e =>
          have := h4 e (by omega)
          simp only [List.take_succ_cons, List.map_cons, List.sum_cons] at this ⊢
          linarith

theorem selectLoop_none {proba : ℕ → ℚ} {eps : ℚ} (l : List ℕ) : ∀ {k : ℕ} {total : ℚ},
    selectLoop proba eps l k total = none →
    ∀ e < l.length, total + ((l.take (e + 1)).map proba).sum < 1 - eps - 1 / 10 ^ 7 := by
  induction l with
  | nil => intro k total _ e he; simp at he
  | cons s l ih =>
    intro k total h e he
    unfold selectLoop at h
    simp only at h
    by_cases hge : total + proba s ≥ 1 - eps - 1 / 10 ^ 7
    · rw [if_pos hge] at h; cases h
    · rw [if_neg hge] at h
      cases e with
      | zero => simpa using not_le.1 hge
      | succ e =>
        have := ih h e (by simpa using he)
        simp only [List.take_succ_cons, List.map_cons, List.sum_cons] at this ⊢
        linarith

/-- The values of `vLB` for which a cut is kept: those at least as large as the one before. -/
def keptCuts : WithBot ℚ → List (WithBot ℚ) → List ℚ
  | _, [] => []
  | prev, v :: l =>
    (match v with
      | ⊥ => []
      | (q : ℚ) => if prev ≤ (q : WithBot ℚ) then [q] else []) ++ keptCuts v l

/-- Updating the model keeps the invariant. -/
theorem updateDeter_spec {I : Inst} {st : LBState} {cuts : List ℚ} {vLB : WithBot ℚ}
    {sel : List ℕ} (h : DetInv (instCI I) st.deter st.scenarios cuts) (hs : sel.Nodup) :
    ∃ st', updateDeter I st vLB sel = .ok st' ∧ st'.scenarios = sel ∧ st'.prevVLB = vLB
      ∧ st'.counter = st.counter
      ∧ DetInv (instCI I) st'.deter sel (cuts ++ keptCuts st.prevVLB [vLB]) := by
  have hp : st.scenarios.Perm ((st.scenarios.filter fun s => s ∉ sel)
      ++ st.scenarios.filter fun s => s ∈ sel) := by
    have := List.filter_append_perm (fun s => decide (s ∉ sel)) st.scenarios
    refine this.symm.trans (List.Perm.append_left _ ?_)
    refine List.Perm.of_eq (List.filter_congr fun s _ => ?_)
    simp
  obtain ⟨d1, h1, h2, -⟩ := detInv_remove _ (h.perm hp)
  have h3 := detInv_add (sel.filter fun s => s ∉ st.scenarios) h2 (hs.filter _) (by
    intro s hs1 hs2
    have a := (List.mem_filter.1 hs1).2
    have b := (List.mem_filter.1 hs2).1
    simp only [decide_eq_true_eq] at a
    exact a b)
  have hp2 : ((sel.filter fun s => s ∉ st.scenarios) ++ st.scenarios.filter fun s => s ∈ sel).Perm
      sel := by
    rw [List.perm_ext_iff_of_nodup h3.nodupScen hs]
    intro s
    simp only [List.mem_append, List.mem_filter, decide_eq_true_eq]
    tauto
  have h4 := h3.perm hp2
  let d2 := d1.add (instCI I) (sel.filter fun s => s ∉ st.scenarios)
  refine ⟨{ st with scenarios := sel,
                    deter := if st.prevVLB ≤ vLB then addCut (instCI I) d2 vLB else d2,
                    prevVLB := vLB }, ?_, rfl, rfl, rfl, ?_⟩
  · unfold updateDeter
    rw [h1]; rfl
  · show DetInv _ (if st.prevVLB ≤ vLB then addCut (instCI I) d2 vLB else d2) _ _
    cases vLB with
    | bot =>
      have : (if st.prevVLB ≤ (⊥ : WithBot ℚ) then addCut (instCI I) d2 ⊥ else d2) = d2 := by
        split <;> rfl
      rw [this]
      have hk : keptCuts st.prevVLB [⊥] = [] := by
        rfl
      rw [hk, List.append_nil]; exact h4
    | coe v =>
      by_cases hle : st.prevVLB ≤ (v : WithBot ℚ)
      · rw [if_pos hle]
        have hk : keptCuts st.prevVLB [(v : WithBot ℚ)] = [v] := by
          show (if st.prevVLB ≤ (v : WithBot ℚ) then [v] else []) ++ [] = _
          rw [if_pos hle]; rfl
        rw [hk]
        exact detInv_cut v h4
      · rw [if_neg hle]
        have hk : keptCuts st.prevVLB [(v : WithBot ℚ)] = [] := by
          show (if st.prevVLB ≤ (v : WithBot ℚ) then [v] else []) ++ [] = _
          rw [if_neg hle]; rfl
        rw [hk, List.append_nil]; exact h4

theorem lbInit_inv (I : Inst) :
    DetInv (instCI I) (LBState.init I).deter (LBState.init I).scenarios [] :=
  detInv_setMIPGap _ (detInv_build (by simp))

end Verif.Model
