import Verif.Model.UpperBounder
import Verif.Lemmas.PartInst
import Verif.Lemmas.Initializer

open Finset

namespace Verif.Model
open Spec

/-- What the quantile loop returns: the cost of the last scenario of the shortest prefix whose
probability reaches `eps + 1e-7`. -/
theorem quantileLoop_some {costs : List ℚ} {proba : ℕ → ℚ} {eps : ℚ} {l : List ℕ} {t v : ℚ}
    (h : quantileLoop costs proba eps l t = some v) :
    ∃ pre s post, l = pre ++ s :: post ∧ v = costs.getD s 0
      ∧ eps + 1 / 10 ^ 7 ≤ t + ((pre ++ [s]).map proba).sum := by
  induction l generalizing t with
  | nil => simp [quantileLoop] at h
  | cons a l ih =>
    simp only [quantileLoop] at h
    split at h
    · next hge =>
      cases h
      exact ⟨[], a, l, rfl, rfl, by simpa using hge⟩
    · obtain ⟨pre, s, post, rfl, hv, hs⟩ := ih h
      refine ⟨a :: pre, s, post, rfl, hv, ?_⟩
      simp only [List.cons_append, List.map_cons, List.sum_cons]
      linarith

theorem quantileLoop_none {costs : List ℚ} {proba : ℕ → ℚ} {eps : ℚ} {l : List ℕ} {t : ℚ}
    (hp : ∀ s ∈ l, 0 ≤ proba s) (hl : l ≠ []) :
    quantileLoop costs proba eps l t = none ↔ t + (l.map proba).sum < eps + 1 / 10 ^ 7 := by
  induction l generalizing t with
  | nil => exact absurd rfl hl
  | cons a l ih =>
    have hl0 : 0 ≤ (l.map proba).sum := List.sum_nonneg fun y hy => by
      obtain ⟨s, hs, rfl⟩ := List.mem_map.1 hy
      exact hp s (by simp [hs])
    simp only [quantileLoop, List.map_cons, List.sum_cons]
    split
    · next hge =>
      constructor
      · intro h; cases h
      · intro h; exfalso; linarith
    · next hge =>
      by_cases hl' : l = []
      · subst hl'
        simp only [quantileLoop, List.map_nil, List.sum_nil, true_iff]
        push Not at hge; linarith
      · rw [ih (fun s hs => hp s (by simp [hs])) hl']
        rw [add_assoc]

theorem argmaxLoop_spec (l pre : List ℚ) (best : ℕ) (v : ℚ) (hb : (pre ++ l)[best]? = some v)
    (hbl : best < pre.length) (hmax : ∀ a ∈ pre, a ≤ v) :
    ∃ r, argmaxLoop l pre.length best v = r ∧ r < (pre ++ l).length
      ∧ ∀ a ∈ pre ++ l, a ≤ (pre ++ l).getD r 0 := by
  induction l generalizing pre best v with
  | nil =>
    refine ⟨best, rfl, by simpa using hbl, ?_⟩
    intro a ha
    rw [List.getD_eq_getElem?_getD, hb]
    exact hmax a (by simpa using ha)
  | cons a l ih =>
    have hcat : pre ++ a :: l = (pre ++ [a]) ++ l := by simp
    simp only [argmaxLoop]
    split
    · next hlt =>
      have := ih (pre ++ [a]) pre.length a (by simp) (by simp) (by
        intro b hb'
        rcases List.mem_append.1 hb' with h | h
        · exact (hmax b h).trans hlt.le
        · rw [List.mem_singleton.1 h])
      rw [hcat]
      simpa using this
    · next hlt =>
      have := ih (pre ++ [a]) best v (by rw [← hcat]; exact hb) (by simp; omega) (by
        intro b hb'
        rcases List.mem_append.1 hb' with h | h
        · exact hmax b h
        · rw [List.mem_singleton.1 h]; exact not_lt.1 hlt)
      rw [hcat]
      simpa using this

theorem npArgmax_ok {l : List ℚ} (hl : l ≠ []) :
    ∃ r, npArgmax l = .ok r ∧ r < l.length ∧ ∀ a ∈ l, a ≤ l.getD r 0 := by
  cases l with
  | nil => exact absurd rfl hl
  | cons a l =>
    obtain ⟨r, h1, h2, h3⟩ := argmaxLoop_spec l [a] 0 a (by simp) (by simp) (by simp)
    exact ⟨r, by simpa [npArgmax] using h1, by simpa using h2, by simpa using h3⟩

theorem firstIterationBound_ok {costs : List ℚ} {sols : List Vec} (hc : costs ≠ [])
    (hl : sols.length = costs.length) :
    ∃ c, c < costs.length ∧ (∀ a ∈ costs, a ≤ costs.getD c 0)
      ∧ firstIterationBound costs sols
        = .ok { x := sols.getD c (fun _ => 0), z := (List.replicate costs.length 0).set c 1
                vObj := costs.getD c 0, vBnd := costs.getD c 0 } := by
  obtain ⟨c, h1, h2, h3⟩ := npArgmax_ok hc
  refine ⟨c, h2, h3, ?_⟩
  unfold firstIterationBound
  rw [h1]
  simp only [bind, Except.bind]
  rw [pyGet_of_lt (fun _ => 0) (by omega : c < sols.length)]
  simp only [pySet, List.length_replicate, if_pos h2]
  rw [pyGet_of_lt 0 h2]
  rfl

end Verif.Model
