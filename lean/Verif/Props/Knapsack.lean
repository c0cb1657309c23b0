import Verif.Lemmas.Knapsack

/-!
# C40, C41: the continuous knapsack routine
-/

open Finset

namespace Verif.Props
open Spec Model

/-- `v` is the maximum of `r.x - k` over the points of the unit box with `w.x <= cap`. -/
def IsKnapsackMax (n : ℕ) (r w : Vec) (k cap v : ℚ) : Prop :=
  (∀ x, InBox n x → dot n w x ≤ cap → dot n r x - k ≤ v)
  ∧ ∃ x, InBox n x ∧ dot n w x ≤ cap ∧ dot n r x - k = v

/-- **C40.** On non-negative data `solve_continuous_knapsack` returns the exact maximum, for
every order `np.argsort` may choose. -/
theorem C40_continuous_knapsack_exact (argsort : Argsort) (n : ℕ) (r w : Vec) (k cap : ℚ)
    (hr : ∀ j < n, 0 ≤ r j) (hw : ∀ j < n, 0 ≤ w j) (hcap : 0 ≤ cap) :
    ∃ v, solveContinuousKnapsack argsort n r k w cap = .ok v ∧ IsKnapsackMax n r w k cap v := by
  obtain ⟨lam, hl, he⟩ := knapsack_dual argsort n r w k cap hw (fun j hj _ => hr j hj) hcap
  obtain ⟨x, hx, hxc, hxe⟩ := knapsack_attained argsort n r w k cap hw hcap
  refine ⟨_, he, ?_, x, hx, hxc, ?_⟩
  · intro y hy hyc
    have := knap_dual_bound n r w y cap lam hl hy hyc
    linarith
  · rw [he] at hxe
    injection hxe with h
    exact h.symm

example : solveContinuousKnapsack .default 3 (fun j => [3, 4, 1].getD j 0) 2
      (fun j => [2, 1, 0].getD j 0) (5 / 2) = .ok (21 / 4) := by
  decide +kernel

/-- Full statement of **C41**: whatever the signs of the data, a returned value is an upper
bound of `r.x - k` over the box points with `w.x <= cap`. -/
def NeverUnderestimates : Prop :=
  ∀ (argsort : Argsort) (n : ℕ) (r w : Vec) (k cap v : ℚ),
    solveContinuousKnapsack argsort n r k w cap = .ok v →
    ∀ x, InBox n x → dot n w x ≤ cap → dot n r x - k ≤ v

/-- **C41 is false**: a zero-weight item with negative revenue is packed.  (A negative weight
behind a full knapsack breaks it too, see the example below.) -/
theorem C41_underestimates_counterexample : ¬ NeverUnderestimates := by
  intro h
  have := h .default 1 (fun _ => -1) (fun _ => 0) 0 1 (-1) (by decide +kernel) (fun _ => 0)
    (fun j _ => by norm_num) (by norm_num [dot])
  norm_num [dot] at this

example : solveContinuousKnapsack .default 2 (fun _ => 1) 0 (fun j => [1, -1].getD j 0) 1 = .ok 1
    ∧ dot 2 (fun j => [1, -1].getD j 0) (fun _ => 1) ≤ 1 ∧ dot 2 (fun _ => 1) (fun _ => 1) = 2 := by
  decide +kernel

/-- **C41 (partial).** The returned value is an upper bound, for every capacity, constant and
revenues of any sign, when weights are non-negative and zero-weight items have non-negative
revenue; in that case the routine does not raise.  Missing: negative weights and negative
revenues of zero-weight items, for which the claim is false. -/
theorem C41_never_underestimates_partial (argsort : Argsort) (n : ℕ) (r w : Vec) (k cap : ℚ)
    (hw : ∀ j < n, 0 ≤ w j) (hz : ∀ j < n, w j = 0 → 0 ≤ r j) :
    ∃ v, solveContinuousKnapsack argsort n r k w cap = .ok v
      ∧ ∀ x, InBox n x → dot n w x ≤ cap → dot n r x - k ≤ v := by
  by_cases hcap : 0 ≤ cap
  · obtain ⟨lam, hl, he⟩ := knapsack_dual argsort n r w k cap hw hz hcap
    refine ⟨_, he, fun x hx hxc => ?_⟩
    have := knap_dual_bound n r w x cap lam hl hx hxc
    linarith
  · obtain ⟨_, _, _, _, he⟩ := knapsack_form argsort n r w k cap hw
    refine ⟨_, he, fun x hx hxc => ?_⟩
    exfalso
    have : 0 ≤ dot n w x := Finset.sum_nonneg fun j hj =>
      mul_nonneg (hw j (Finset.mem_range.1 hj)) (hx j (Finset.mem_range.1 hj)).1
    linarith

/-- A case of C41 with a negative revenue. -/
example : solveContinuousKnapsack .default 3 (fun j => [3, -4, 1].getD j 0) 2
      (fun j => [2, 1, 0].getD j 0) (5 / 2) = .ok 2 := by
  decide +kernel

end Verif.Props
