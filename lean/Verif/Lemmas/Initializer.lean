import Verif.Lemmas.Py
import Verif.Model.Initializer

namespace Verif.Model
open Spec

theorem randomPartition_flatten (sample : Shuffle) (N k : ℕ) (hk : 0 < k) :
    (randomPartition sample (List.range N) k).flatten.Perm (List.range N) := by
  unfold randomPartition
  exact (flatten_sliceStep_perm _ k hk).trans (sample.perm _)

theorem map_getD_perm_range {l : List ℕ} {N : ℕ} (hl : l.Perm (List.range N)) :
    ((List.range N).map fun j => l.getD j 0) = l := by
  have hlen : l.length = N := by rw [hl.length_eq, List.length_range]
  apply List.ext_getElem
  · simp [hlen]
  · intro i h1 h2
    simp [h2]

/-- One part of the cost partition, in terms of the sorted indices. -/
theorem costPart_eq {σ : List ℕ} {N : ℕ} (hσ : σ.Perm (List.range N)) {r : List ℕ}
    (hr : ∀ j ∈ r, j < N) :
    (r.map fun j => (List.range N).getD (σ.getD j 0) 0) = r.map fun j => σ.getD j 0 := by
  refine List.map_congr_left fun j hj => ?_
  have hlen : σ.length = N := by rw [hσ.length_eq, List.length_range]
  have hjN := hr j hj
  have hmem : σ.getD j 0 ∈ σ := by
    rw [List.getD_eq_getElem σ 0 (by omega : j < σ.length)]; exact List.getElem_mem _
  have : σ.getD j 0 < N := List.mem_range.1 (hσ.mem_iff.1 hmem)
  rw [List.getD_eq_getElem _ _ (by simpa using this)]
  simp

theorem costPartition_eq (argsort : Argsort) (N k : ℕ) (costs : List ℚ) (hc : costs.length = N)
    (hk : 0 < k) :
    costPartition argsort N (List.range N) k costs
      = (List.range k).map fun i => (pyRange i N k).map fun j =>
          (argsort.run (costs.map fun v => -v)).getD j 0 := by
  unfold costPartition
  dsimp only
  refine List.map_congr_left fun i _ => ?_
  have hσ := (argsort.spec (costs.map fun v => -v)).1
  rw [List.length_map, hc] at hσ
  exact costPart_eq hσ fun j hj => ((mem_pyRange hk).1 hj).2.1

theorem costPartition_flatten (argsort : Argsort) (N k : ℕ) (costs : List ℚ)
    (hc : costs.length = N) (hk : 0 < k) :
    (costPartition argsort N (List.range N) k costs).flatten.Perm (List.range N) := by
  rw [costPartition_eq argsort N k costs hc hk]
  have hσ := (argsort.spec (costs.map fun v => -v)).1
  rw [List.length_map, hc] at hσ
  have h := (flatten_pyRange_perm N k hk).map fun j =>
    (argsort.run (costs.map fun v => -v)).getD j 0
  rw [List.map_flatten, List.map_map, map_getD_perm_range hσ] at h
  exact h.trans hσ

theorem checkPartitions_ok {N k : ℕ} {P : List (List ℕ)} (h : P.flatten.Perm (List.range N))
    (hk : P.length = k) : checkPartitions N P k = .ok () := by
  unfold checkPartitions
  have h1 : P.flatten.length = N := by rw [h.length_eq, List.length_range]
  have h2 : P.flatten.dedup.length = N := by
    rw [List.Nodup.dedup (h.nodup_iff.2 List.nodup_range)]; exact h1
  rw [pyAssert_true h1, pyAssert_true h2, pyAssert_true hk]
  rfl

end Verif.Model
