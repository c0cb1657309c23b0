import Verif.Lemmas.Initializer

/-!
# C06–C08: the initial partition
-/

namespace Verif.Props
open Spec Model

/-- Sizes of the parts differ by at most one. -/
def Balanced (P : List (List ℕ)) : Prop := ∀ p ∈ P, ∀ q ∈ P, p.length ≤ q.length + 1

/-- **C06.** `create_first_partition(k, 'random')` returns `k` non-empty subsets that contain
every scenario exactly once, with sizes differing by at most one, for every shuffle. -/
theorem C06_random_initial_partition (sample : Shuffle) (argsort : Argsort) (costs : List ℚ)
    (N k : ℕ) (hk : 1 ≤ k) (hkN : k ≤ N) :
    ∃ P, createFirstPartition sample argsort costs N k "random" = .ok P
      ∧ P.length = k ∧ IsPartition N P ∧ Balanced P := by
  have hf := randomPartition_flatten sample N k hk
  have hlen : (randomPartition sample (List.range N) k).length = k := by
    simp [randomPartition]
  have hsz : ∀ p ∈ randomPartition sample (List.range N) k,
      N / k ≤ p.length ∧ p.length ≤ N / k + 1 ∧ 1 ≤ p.length := by
    intro p hp
    simp only [randomPartition, List.mem_map, List.mem_range] at hp
    obtain ⟨i, hi, rfl⟩ := hp
    rw [sliceStep_length _ _ _ hk, (sample.perm _).length_eq, List.length_range]
    exact pyRange_size_bounds hk hkN hi
  refine ⟨randomPartition sample (List.range N) k, ?_, hlen, ⟨hf, ?_⟩, ?_⟩
  · unfold createFirstPartition
    rw [pyAssert_true hkN]
    simp only [bind, Except.bind, if_true, pure, Except.pure]
    rw [checkPartitions_ok hf hlen]
  · intro p hp h0
    have := (hsz p hp).2.2
    simp [h0] at this
  · intro p hp q hq
    have h1 := hsz p hp
    have h2 := hsz q hq
    omega

/-- **C07.** `create_first_partition(k, 'cost')` returns `k` non-empty subsets that contain
every scenario exactly once, with sizes differing by at most one.  The first scenarios of
the `k` subsets are the `k` most expensive ones and the last scenarios are the `k`
cheapest ones. -/
theorem C07_cost_initial_partition (sample : Shuffle) (argsort : Argsort) (costs : List ℚ)
    (N k : ℕ) (hc : costs.length = N) (hk : 1 ≤ k) (hkN : k ≤ N) :
    ∃ P, createFirstPartition sample argsort costs N k "cost" = .ok P
      ∧ P.length = k ∧ IsPartition N P ∧ Balanced P
      ∧ (∀ p ∈ P, ∀ q ∈ P, ∀ t, p.head? = some t → ∀ s ∈ q.tail,
          costs.getD s 0 ≤ costs.getD t 0)
      ∧ (∀ p ∈ P, ∀ q ∈ P, ∀ t, p.getLast? = some t → ∀ s ∈ q.dropLast,
          costs.getD t 0 ≤ costs.getD s 0) := by
  have hf := costPartition_flatten argsort N k costs hc hk
  have heq := costPartition_eq argsort N k costs hc hk
  have hsort := argsort.spec (costs.map fun v => -v)
  have hvl : (costs.map fun v => -v).length = N := by simpa using hc
  set σ := argsort.run (costs.map fun v => -v) with hσ
  -- costs along the sorted order decrease
  have hdec : ∀ i j, i ≤ j → j < N → costs.getD (σ.getD j 0) 0 ≤ costs.getD (σ.getD i 0) 0 := by
    intro i j hij hj
    have h := hsort.le hij (by omega)
    rw [getD_map_neg, getD_map_neg] at h
    linarith
  have hlen : (costPartition argsort N (List.range N) k costs).length = k := by
    simp [costPartition]
  have hmem : ∀ p ∈ costPartition argsort N (List.range N) k costs,
      ∃ i < k, p = (pyRange i N k).map fun j => σ.getD j 0 := by
    intro p hp
    rw [heq, List.mem_map] at hp
    obtain ⟨i, hi, rfl⟩ := hp
    exact ⟨i, List.mem_range.1 hi, rfl⟩
  have hsz : ∀ p ∈ costPartition argsort N (List.range N) k costs,
      N / k ≤ p.length ∧ p.length ≤ N / k + 1 ∧ 1 ≤ p.length := by
    intro p hp
    obtain ⟨i, hi, rfl⟩ := hmem p hp
    rw [List.length_map, pyRange_length]
    exact pyRange_size_bounds hk hkN hi
  refine ⟨costPartition argsort N (List.range N) k costs, ?_, hlen, ⟨hf, ?_⟩, ?_, ?_, ?_⟩
  · unfold createFirstPartition
    rw [pyAssert_true hkN]
    simp only [bind, Except.bind, if_true, pure, Except.pure]
    rw [if_neg (by decide)]
    rw [checkPartitions_ok hf hlen]
  · intro p hp h0
    have := (hsz p hp).2.2
    simp [h0] at this
  · intro p hp q hq
    have h1 := hsz p hp
    have h2 := hsz q hq
    omega
  · intro p hp q hq t ht s hs
    obtain ⟨i, hi, rfl⟩ := hmem p hp
    obtain ⟨i', hi', rfl⟩ := hmem q hq
    rw [List.head?_map] at ht
    cases hh : (pyRange i N k).head? with
    | none => rw [hh] at ht; simp at ht
    | some a =>
      rw [hh] at ht
      have ha := head_pyRange hh
      simp only [Option.map_some, Option.some.injEq] at ht
      subst ht
      rw [← List.map_tail, List.mem_map] at hs
      obtain ⟨j, hj, rfl⟩ := hs
      have := mem_tail_pyRange hj
      exact hdec a j (by omega) (by omega)
  · intro p hp q hq t ht s hs
    obtain ⟨i, hi, rfl⟩ := hmem p hp
    obtain ⟨i', hi', rfl⟩ := hmem q hq
    rw [List.getLast?_map] at ht
    cases hh : (pyRange i N k).getLast? with
    | none => rw [hh] at ht; simp at ht
    | some a =>
      rw [hh] at ht
      have ha := getLast_pyRange hk hh
      simp only [Option.map_some, Option.some.injEq] at ht
      subst ht
      rw [← List.map_dropLast, List.mem_map] at hs
      obtain ⟨j, hj, rfl⟩ := hs
      have := mem_dropLast_pyRange hk hj
      exact hdec j a (by omega) (by omega)

/-- The parts for five scenarios and two clusters: a concrete run of the model. -/
example : costPartition Argsort.default 5 (List.range 5) 2 [3, 1, 4, 1, 5]
    = [[4, 0, 3], [2, 1]] := by decide +kernel

/-- **C08.** `create_first_partition` rejects `nb_clusters > N` (AssertionError of line 60) and
unknown types (NotImplementedError), and otherwise returns without failing a check. -/
theorem C08_create_first_partition_total (sample : Shuffle) (argsort : Argsort)
    (costs : List ℚ) (N k : ℕ) (ty : String) (hc : costs.length = N) :
    (N < k → createFirstPartition sample argsort costs N k ty
        = .error (.assertion "Initializer.py:60"))
    ∧ (k ≤ N → ty ≠ "random" → ty ≠ "cost" →
        createFirstPartition sample argsort costs N k ty = .error .notImplementedError)
    ∧ (1 ≤ k → k ≤ N → ty = "random" ∨ ty = "cost" →
        ∃ P, createFirstPartition sample argsort costs N k ty = .ok P) := by
  refine ⟨fun h => ?_, fun h h1 h2 => ?_, fun h1 h2 h3 => ?_⟩
  · unfold createFirstPartition
    rw [pyAssert_false (by omega)]
    rfl
  · unfold createFirstPartition
    rw [pyAssert_true h]
    simp [bind, Except.bind, h1, h2, throw, throwThe, MonadExceptOf.throw]
  · rcases h3 with rfl | rfl
    · obtain ⟨P, h, _⟩ := C06_random_initial_partition sample argsort costs N k h1 h2
      exact ⟨P, h⟩
    · obtain ⟨P, h, _⟩ := C07_cost_initial_partition sample argsort costs N k hc h1 h2
      exact ⟨P, h⟩

end Verif.Props
