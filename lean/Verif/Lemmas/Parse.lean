import Verif.Lemmas.Instance

open Finset

namespace Verif.Model
open Spec

/-! ### Rounding -/

theorem rint_spec (x : ℚ) : |(rint x : ℚ) - x| ≤ 1 / 2 := by
  unfold rint
  have h1 := Int.floor_le x
  have h2 := Int.lt_floor_add_one x
  dsimp only
  split_ifs with h h' h'' <;> rw [abs_le] <;> push_cast <;> constructor <;> linarith

theorem rint_intCast (k : ℤ) : rint (k : ℚ) = k := by
  simp [rint]

theorem rint_mono {x y : ℚ} (h : x ≤ y) : rint x ≤ rint y := by
  have hf := Int.floor_le_floor h
  have hx1 := Int.floor_le x
  have hx2 := Int.lt_floor_add_one x
  have hy1 := Int.floor_le y
  have hy2 := Int.lt_floor_add_one y
  rcases lt_or_eq_of_le hf with hlt | heq
  · have hub : rint x ≤ ⌊x⌋ + 1 := by
      unfold rint; dsimp only; split_ifs <;> omega
    have hlb : ⌊y⌋ ≤ rint y := by
      unfold rint; dsimp only; split_ifs <;> omega
    omega
  · unfold rint
    dsimp only
    rw [← heq]
    have : (⌊x⌋ : ℚ) = ⌊y⌋ := by rw [heq]
    split_ifs <;> first | omega | (exfalso; linarith)

theorem round1_grid (x : ℚ) : ∃ k : ℤ, round1 x = (k : ℚ) / 10 := ⟨_, rfl⟩

/-! ### Parser output -/

theorem dot_grid {n : ℕ} {a x : Vec} {b : ℚ} (ha : ∀ j < n, ∃ k : ℤ, a j = (k : ℚ) / 10)
    (hb : ∃ k : ℤ, b = (k : ℚ) / 10) (hx : ∀ j < n, x j = 0 ∨ x j = 1) :
    ∃ k : ℤ, dot n a x - b = (k : ℚ) / 10 := by
  have key : ∃ k : ℤ, dot n a x = (k : ℚ) / 10 := by
    unfold dot
    induction n with
    | zero => exact ⟨0, by simp⟩
    | succ n ih =>
      obtain ⟨k, hk⟩ := ih (fun j hj => ha j (by omega)) (fun j hj => hx j (by omega))
      obtain ⟨l, hl⟩ := ha n (by omega)
      rw [Finset.sum_range_succ, hk]
      rcases hx n (by omega) with h | h
      · exact ⟨k, by rw [h]; ring⟩
      · exact ⟨k + l, by rw [h, hl]; push_cast; ring⟩
  obtain ⟨k, hk⟩ := key
  obtain ⟨l, hl⟩ := hb
  exact ⟨k - l, by rw [hk, hl]; push_cast; ring⟩

theorem grid_gt_tol {v : ℚ} (h : ∃ k : ℤ, v = (k : ℚ) / 10) : 1 / 1000000 < v ↔ 0 < v := by
  obtain ⟨k, rfl⟩ := h
  constructor
  · intro h; linarith
  · intro h
    have : (0 : ℚ) < k := by linarith
    have h1 : (1 : ℤ) ≤ k := by exact_mod_cast this
    have h2 : (1 : ℚ) ≤ k := by exact_mod_cast h1
    linarith

/-- What a successful parse guarantees about the data. -/
theorem parse_ok {file : List (List ℚ)} {cv : Bool} {eps : ℚ} {I : Inst}
    (h : parse file cv eps = .ok I) :
    I.cont = cv ∧ I.eps = eps ∧ Equi I
    ∧ (∀ s i j, ∃ k : ℤ, I.A s i j = (k : ℚ) / 10)
    ∧ (∀ s i, ∃ k : ℤ, I.b s i = (k : ℚ) / 10)
    ∧ (∀ j, ∃ k : ℤ, I.c j = (k : ℚ) / 10) := by
  unfold parse at h
  simp only [bind, Except.bind, pure, Except.pure, throw, throwThe, MonadExceptOf.throw] at h
  repeat' split at h
  all_goals first
    | (cases h; done)
    | (simp only [Except.ok.injEq] at h
       subst h
       refine ⟨rfl, rfl, ⟨Nat.pos_of_ne_zero (by assumption), fun s _ => rfl⟩,
         fun s i j => round1_grid _, fun s i => round1_grid _, fun j => round1_grid _⟩)

theorem dotEq_congr {n : ℕ} {a a' x x' : Vec} (h : ∀ j < n, a j = a' j) (hx : ∀ j < n, x j = x' j) :
    dot n a x = dot n a' x' := by
  unfold dot
  exact Finset.sum_congr rfl fun j hj => by
    rw [h j (Finset.mem_range.1 hj), hx j (Finset.mem_range.1 hj)]

/-! ### Round trip -/

theorem flatten_const_getElem {α : Type} (f : ℕ → List α) (m : ℕ) (N : ℕ)
    (hf : ∀ s < N, (f s).length = m) {s i : ℕ} (hs : s < N) (hi : i < m) :
    (((List.range N).map f).flatten)[s * m + i]? = (f s)[i]? := by
  induction N with
  | zero => omega
  | succ N ih =>
    have hlen : (((List.range N).map f).flatten).length = N * m := by
      rw [List.length_flatten, List.map_map]
      have : (List.range N).map (List.length ∘ f) = (List.range N).map fun _ => m := by
        refine List.map_congr_left fun s hs => ?_
        exact hf s (by have := List.mem_range.1 hs; omega)
      rw [this]; simp
    rw [List.range_succ, List.map_append, List.flatten_append]
    by_cases h : s < N
    · rw [List.getElem?_append_left, ih (fun s hs => hf s (by omega)) h]
      rw [hlen]
      calc s * m + i < s * m + m := by omega
        _ = (s + 1) * m := by ring
        _ ≤ N * m := Nat.mul_le_mul_right _ h
    · have : s = N := by omega
      subst this
      rw [List.getElem?_append_right (by rw [hlen]; omega), hlen]
      simp

theorem mapM_ok {α β : Type} (l : List α) (f : α → PyM β) (g : α → β)
    (h : ∀ a ∈ l, f a = .ok (g a)) : l.mapM f = .ok (l.map g) := by
  induction l with
  | nil => rfl
  | cons a l ih =>
    rw [List.mapM_cons, h a (by simp), ih (fun b hb => h b (by simp [hb]))]
    rfl

theorem parse_generated (n m N : ℕ) (hN : 0 < N) (c : Vec) (A : ℕ → ℕ → ℕ → ℚ) (b : Vec)
    (cv : Bool) (eps : ℚ) :
    ∃ I, parse (generatedRows n m N c A b) cv eps = .ok I
      ∧ I.n = n ∧ I.m = m ∧ I.N = N
      ∧ (∀ j < n, I.c j = round1 (c j))
      ∧ (∀ s < N, ∀ i < m, ∀ j < n, I.A s i j = round1 (A s i j))
      ∧ (∀ s < N, ∀ i < m, I.b s i = round1 (b i)) := by
  set rowsOf : ℕ → List (List ℚ) := fun s =>
    (List.range m).map fun i => (List.range n).map (A s i) with hrows
  set file := generatedRows n m N c A b with hfile
  have h0 : getRow file 0 = .ok [(n : ℚ), (m : ℚ), (N : ℚ)] := rfl
  have h1 : getRow file 1 = .ok ((List.range n).map c) := rfl
  have hget : ∀ s ∈ List.range N, ∀ i ∈ List.range m,
      getRow file (2 + s * m + i) = .ok ((List.range n).map (A s i)) := by
    intro s hs i hi
    rw [List.mem_range] at hs hi
    have hl : (((List.range N).map rowsOf).flatten)[s * m + i]? = (rowsOf s)[i]? :=
      flatten_const_getElem rowsOf m N (fun s _ => by simp [hrows]) hs hi
    have hlt : s * m + i < (((List.range N).map rowsOf).flatten).length := by
      by_contra hcon
      rw [List.getElem?_eq_none (not_lt.1 hcon)] at hl
      simp [hrows, hi] at hl
    have : file[2 + s * m + i]? = some ((List.range n).map (A s i)) := by
      rw [hfile]
      unfold generatedRows
      rw [List.append_assoc, List.getElem?_append_right (by simp; omega)]
      have : 2 + s * m + i - [[(n : ℚ), (m : ℚ), (N : ℚ)], (List.range n).map c].length
          = s * m + i := by simp; omega
      rw [this, List.getElem?_append_left hlt, hl]
      simp [hrows, hi]
    unfold getRow
    rw [this]
  have hin : ∀ s ∈ List.range N, ((List.range m).mapM fun i => getRow file (2 + s * m + i))
      = .ok (rowsOf s) := by
    intro s hs
    exact mapM_ok _ _ (fun i => (List.range n).map (A s i)) (hget s hs)
  have hall : ((List.range N).mapM fun s => (List.range m).mapM fun i =>
      getRow file (2 + s * m + i)) = .ok ((List.range N).map rowsOf) :=
    mapM_ok _ _ rowsOf hin
  have hlen : ∀ r ∈ ((List.range N).map rowsOf).flatten, r.length = n := by
    intro r hr
    simp only [List.mem_flatten, List.mem_map] at hr
    obtain ⟨l, ⟨s, _, rfl⟩, hr⟩ := hr
    simp only [hrows, List.mem_map] at hr
    obtain ⟨i, _, rfl⟩ := hr
    simp
  have hlen' : ∀ r ∈ ((List.range N).map rowsOf).flatten,
      r.length = (((List.range N).map rowsOf).flatten.headD []).length := by
    intro r hr
    rw [hlen r hr]
    cases hc : ((List.range N).map rowsOf).flatten with
    | nil => rw [hc] at hr; simp at hr
    | cons a l => rw [hc] at hlen; simp [hlen a (by simp)]
  have hlast : file.getLast? = some ((List.range m).map b) := by
    rw [hfile]; unfold generatedRows
    rw [List.getLast?_append]; rfl
  have hi0 : infoAt [(n : ℚ), (m : ℚ), (N : ℚ)] 0 = .ok n := by simp [infoAt]
  have hi1 : infoAt [(n : ℚ), (m : ℚ), (N : ℚ)] 1 = .ok m := by simp [infoAt]
  have hi2 : infoAt [(n : ℚ), (m : ℚ), (N : ℚ)] 2 = .ok N := by simp [infoAt]
  have hp : parse file cv eps = .ok
    { n, N, m
      A := fun s i j => round1 (rowVec ((((List.range N).map rowsOf).getD s []).getD i []) j)
      b := fun _ i => round1 (rowVec ((List.range m).map b)
        (if ((List.range m).map b).length = 1 then 0 else i))
      c := fun j => round1 (rowVec ((List.range n).map c) j)
      proba := fun _ => 1 / (N : ℚ)
      eps := eps
      cont := cv } := by
    unfold parse
    rw [h0]
    simp only [bind, Except.bind, pure, Except.pure, throw, throwThe, MonadExceptOf.throw]
    rw [hi0, hi1, hi2, h1]
    dsimp only
    rw [hall]
    dsimp only
    rw [if_neg (not_not.2 hlen'), hlast]
    dsimp only
    rw [if_neg (by simp), if_neg (by omega)]
  refine ⟨_, hp, ?_⟩
  · refine ⟨rfl, rfl, rfl, ?_, ?_, ?_⟩
    · intro j hj
      simp [rowVec, hj]
    · intro s hs i hi j hj
      simp [rowVec, hj, hs, hi, hrows]
    · intro s hs i hi
      by_cases h : m = 1
      · subst h
        have : i = 0 := by omega
        subst this
        simp [rowVec]
      · simp [rowVec, hi, h]

end Verif.Model
