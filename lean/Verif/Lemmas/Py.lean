import Verif.Py
import Mathlib.Algebra.Order.Group.Nat
import Mathlib.Data.Nat.Basic

namespace Verif

theorem mem_pyRange {start stop step k : ℕ} (hs : 0 < step) :
    k ∈ pyRange start stop step ↔ start ≤ k ∧ k < stop ∧ (k - start) % step = 0 := by
  unfold pyRange
  simp only [List.mem_map, List.mem_range]
  rw [← Nat.dvd_iff_mod_eq_zero]
  constructor
  · rintro ⟨a, ha, rfl⟩
    rw [Nat.lt_div_iff_mul_lt hs] at ha
    have h2 : a * step < stop - start := by omega
    refine ⟨by omega, by omega, ?_⟩
    rw [show start + a * step - start = a * step by omega]
    exact Dvd.intro_left a rfl
  · rintro ⟨h1, h2, d, hd⟩
    refine ⟨d, ?_, by rw [mul_comm] at hd; omega⟩
    rw [Nat.lt_div_iff_mul_lt hs, mul_comm]
    omega

theorem pyRange_pairwise (start stop step : ℕ) (hs : 0 < step) :
    (pyRange start stop step).Pairwise (· < ·) := by
  unfold pyRange
  rw [List.pairwise_map]
  exact List.pairwise_lt_range.imp fun h => by
    have := Nat.mul_lt_mul_of_pos_right h hs
    omega

theorem pyRange_nodup (start stop step : ℕ) (hs : 0 < step) :
    (pyRange start stop step).Nodup :=
  (pyRange_pairwise start stop step hs).imp fun h => Nat.ne_of_lt h

theorem pyRange_length (start stop step : ℕ) :
    (pyRange start stop step).length = (stop - start + (step - 1)) / step := by
  simp [pyRange]

/-- The strided ranges `range(i, N, k)`, `i < k`, partition `0..N-1`. -/
theorem flatten_pyRange_perm (N k : ℕ) (hk : 0 < k) :
    (((List.range k).map fun i => pyRange i N k).flatten).Perm (List.range N) := by
  rw [List.perm_ext_iff_of_nodup]
  · intro a
    simp only [List.mem_flatten, List.mem_map, List.mem_range]
    constructor
    · rintro ⟨l, ⟨i, _, rfl⟩, ha⟩
      exact ((mem_pyRange hk).1 ha).2.1
    · intro ha
      refine ⟨_, ⟨a % k, Nat.mod_lt _ hk, rfl⟩, (mem_pyRange hk).2 ⟨Nat.mod_le _ _, ha, ?_⟩⟩
      exact (Nat.dvd_iff_mod_eq_zero).1 (Nat.dvd_sub_mod a)
  · rw [List.nodup_flatten]
    refine ⟨?_, ?_⟩
    · intro l hl
      obtain ⟨i, _, rfl⟩ := List.mem_map.1 hl
      exact pyRange_nodup _ _ _ hk
    · rw [List.pairwise_map]
      have : (List.range k).Pairwise fun a b => a < b ∧ b < k := by
        rw [List.pairwise_iff_getElem]
        intro i j hi hj hij
        simp at hi hj ⊢
        omega
      refine this.imp fun {a b} hab => ?_
      intro x hx hy
      have h1 := (mem_pyRange hk).1 hx
      have h2 := (mem_pyRange hk).1 hy
      have e1 : x % k = a := by
        have hd := (Nat.dvd_iff_mod_eq_zero).2 h1.2.2
        obtain ⟨d, hd⟩ := hd
        have : x = a + k * d := by omega
        rw [this, Nat.add_mul_mod_self_left, Nat.mod_eq_of_lt (by omega)]
      have e2 : x % k = b := by
        have hd := (Nat.dvd_iff_mod_eq_zero).2 h2.2.2
        obtain ⟨d, hd⟩ := hd
        have : x = b + k * d := by omega
        rw [this, Nat.add_mul_mod_self_left, Nat.mod_eq_of_lt (by omega)]
      omega
  · exact List.nodup_range

theorem filterMap_range_getElem {α : Type} (l : List α) :
    ((List.range l.length).filterMap fun k => l[k]?) = l := by
  induction l using List.reverseRecOn with
  | nil => rfl
  | append_singleton l a ih =>
    rw [List.length_append, List.length_singleton, List.range_succ, List.filterMap_append]
    congr 1
    · conv_rhs => rw [← ih]
      refine List.filterMap_congr fun k hk => ?_
      rw [List.getElem?_append_left (List.mem_range.1 hk)]
    · simp

theorem filterMap_getElem_eq_map {α : Type} (l : List α) (d : α) (r : List ℕ)
    (h : ∀ k ∈ r, k < l.length) : (r.filterMap fun k => l[k]?) = r.map fun k => l.getD k d := by
  induction r with
  | nil => rfl
  | cons a r ih =>
    have ha := h a (by simp)
    rw [List.filterMap_cons, List.map_cons, ih (fun k hk => h k (by simp [hk]))]
    simp [ha]

theorem sliceStep_length {α : Type} (l : List α) (i k : ℕ) (hk : 0 < k) :
    (sliceStep l i k).length = (l.length - i + (k - 1)) / k := by
  unfold sliceStep
  rw [← pyRange_length]
  induction h : pyRange i l.length k with
  | nil => rfl
  | cons a r _ =>
    rw [← h]
    have hmem : ∀ x ∈ pyRange i l.length k, x < l.length := fun x hx =>
      ((mem_pyRange hk).1 hx).2.1
    generalize pyRange i l.length k = r' at hmem
    clear h
    induction r' with
    | nil => rfl
    | cons b r' ih =>
      have hb := hmem b (by simp)
      rw [List.filterMap_cons]
      rw [List.getElem?_eq_getElem hb]
      simp only [List.length_cons]
      rw [ih fun x hx => hmem x (by simp [hx])]

/-- The strided slices `l[i::k]`, `i < k`, contain every element of `l` exactly once. -/
theorem flatten_sliceStep_perm {α : Type} (l : List α) (k : ℕ) (hk : 0 < k) :
    (((List.range k).map fun i => sliceStep l i k).flatten).Perm l := by
  have h := (flatten_pyRange_perm l.length k hk).filterMap fun j => l[j]?
  rw [filterMap_range_getElem, List.filterMap_flatten, List.map_map] at h
  exact h

end Verif

namespace Verif

theorem pyRange_size_bounds {N k i : ℕ} (hk : 0 < k) (hkN : k ≤ N) (hi : i < k) :
    N / k ≤ (N - i + (k - 1)) / k ∧ (N - i + (k - 1)) / k ≤ N / k + 1
      ∧ 1 ≤ (N - i + (k - 1)) / k := by
  refine ⟨?_, ?_, ?_⟩
  · exact Nat.div_le_div_right (by omega)
  · calc (N - i + (k - 1)) / k ≤ (N + k) / k := Nat.div_le_div_right (by omega)
      _ = N / k + 1 := Nat.add_div_right _ hk
  · rw [Nat.le_div_iff_mul_le hk]; omega

theorem mem_tail_pyRange {N k i j : ℕ} (hj : j ∈ (pyRange i N k).tail) :
    i + k ≤ j ∧ j < N := by
  unfold pyRange at hj
  rcases Nat.eq_zero_or_pos k with rfl | hk
  · simp at hj
  rw [List.range_eq_range', ← List.map_tail, List.tail_range', List.mem_map] at hj
  obtain ⟨a, ha, rfl⟩ := hj
  rw [List.mem_range'] at ha
  obtain ⟨t, ht, rfl⟩ := ha
  have hlt : 0 + 1 + 1 * t < (N - i + (k - 1)) / k := by omega
  rw [Nat.lt_div_iff_mul_lt hk] at hlt
  constructor
  · nlinarith
  · omega

theorem mem_dropLast_pyRange {N k i j : ℕ} (hk : 0 < k) (hj : j ∈ (pyRange i N k).dropLast) :
    j + k < N := by
  unfold pyRange at hj
  rw [← List.map_dropLast, List.mem_map] at hj
  obtain ⟨a, ha, rfl⟩ := hj
  have ha' : a + 1 < (N - i + (k - 1)) / k := by
    generalize (N - i + (k - 1)) / k = L at ha ⊢
    cases L with
    | zero => simp at ha
    | succ L => rw [List.range_succ, List.dropLast_concat, List.mem_range] at ha; omega
  rw [Nat.lt_div_iff_mul_lt hk, Nat.add_mul] at ha'
  omega

theorem getLast_pyRange {N k i t : ℕ} (hk : 0 < k)
    (ht : (pyRange i N k).getLast? = some t) : N ≤ t + k ∧ t < N := by
  have hmem := List.mem_of_getLast? ht
  refine ⟨?_, ((mem_pyRange hk).1 hmem).2.1⟩
  unfold pyRange at ht
  rw [List.getLast?_map] at ht
  generalize hL : (N - i + (k - 1)) / k = L at ht
  cases L with
  | zero => simp at ht
  | succ L =>
    rw [List.range_succ, List.getLast?_concat] at ht
    simp only [Option.map_some, Option.some.injEq] at ht
    have h : (N - i + (k - 1)) / k < L + 2 := by omega
    rw [Nat.div_lt_iff_lt_mul hk] at h
    have : (L + 2) * k = L * k + k + k := by ring
    omega

theorem head_pyRange {N k i t : ℕ} (ht : (pyRange i N k).head? = some t) : t = i := by
  unfold pyRange at ht
  generalize hL : (N - i + (k - 1)) / k = L at ht
  cases L with
  | zero => simp at ht
  | succ L => rw [List.range_succ_eq_map] at ht; simpa using ht.symm

theorem getD_map_neg (l : List ℚ) (a : ℕ) : (l.map fun v => -v).getD a 0 = -l.getD a 0 := by
  rw [List.getD_eq_getElem?_getD, List.getD_eq_getElem?_getD, List.getElem?_map]
  cases l[a]? <;> simp

theorem IsArgsort.length {v : List ℚ} {l : List ℕ} (h : IsArgsort v l) : l.length = v.length := by
  rw [h.1.length_eq, List.length_range]

theorem IsArgsort.lt {v : List ℚ} {l : List ℕ} (h : IsArgsort v l) {a : ℕ} (ha : a ∈ l) :
    a < v.length := List.mem_range.1 (h.1.mem_iff.1 ha)

theorem IsArgsort.le {v : List ℚ} {l : List ℕ} (h : IsArgsort v l) {i j : ℕ} (hij : i ≤ j)
    (hj : j < v.length) : v.getD (l.getD i 0) 0 ≤ v.getD (l.getD j 0) 0 := by
  have hl := h.length
  rcases Nat.lt_or_eq_of_le hij with hlt | rfl
  · have h2 := (List.pairwise_iff_getElem.1 h.2) i j (by omega) (by omega) hlt
    rw [List.getD_eq_getElem l 0 (by omega : i < l.length),
      List.getD_eq_getElem l 0 (by omega : j < l.length)]
    exact h2
  · exact le_refl _

theorem IsArgsort.mem_getD {v : List ℚ} {l : List ℕ} (h : IsArgsort v l) {i : ℕ}
    (hi : i < v.length) : l.getD i 0 ∈ l := by
  have hl := h.length
  rw [List.getD_eq_getElem l 0 (by omega : i < l.length)]
  exact List.getElem_mem _

theorem IsArgsort.getD_lt {v : List ℚ} {l : List ℕ} (h : IsArgsort v l) {i : ℕ}
    (hi : i < v.length) : l.getD i 0 < v.length := h.lt (h.mem_getD hi)

end Verif
