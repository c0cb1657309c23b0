import Verif.Model.PartInst
import Verif.Lemmas.Parse

open Finset

namespace Verif.Model
open Spec

theorem pyGet_of_lt {α : Type} {l : List α} {k : ℕ} (d : α) (h : k < l.length) :
    pyGet l k = .ok (l.getD k d) := by
  simp [pyGet, h]

theorem foldl_min_le (l : List ℚ) (a : ℚ) : l.foldl min a ≤ a ∧ ∀ b ∈ l, l.foldl min a ≤ b := by
  induction l generalizing a with
  | nil => exact ⟨le_refl _, by simp⟩
  | cons b l ih =>
    obtain ⟨h1, h2⟩ := ih (min a b)
    refine ⟨h1.trans (min_le_left _ _), fun x hx => ?_⟩
    rcases List.mem_cons.1 hx with rfl | hx
    · exact h1.trans (min_le_right _ _)
    · exact h2 x hx

theorem foldl_min_mem (l : List ℚ) (a : ℚ) : l.foldl min a ∈ a :: l := by
  induction l generalizing a with
  | nil => simp
  | cons b l ih =>
    have h := ih (min a b)
    rcases List.mem_cons.1 h with h | h
    · rw [List.foldl_cons, h]
      rcases min_choice a b with h' | h' <;> rw [h'] <;> simp
    · rw [List.foldl_cons]; simp [h]

/-- The smallest element of a list (0 for the empty list). -/
def minOf : List ℚ → ℚ
  | [] => 0
  | a :: l => l.foldl min a

theorem npMin_ok {l : List ℚ} (h : l ≠ []) : npMin l = .ok (minOf l) := by
  cases l with
  | nil => exact absurd rfl h
  | cons a l => rfl

theorem minOf_mem {l : List ℚ} (h : l ≠ []) : minOf l ∈ l := by
  cases l with
  | nil => exact absurd rfl h
  | cons a l => exact foldl_min_mem l a

theorem minOf_le {l : List ℚ} {b : ℚ} (hb : b ∈ l) : minOf l ≤ b := by
  cases l with
  | nil => simp at hb
  | cons a l =>
    rcases List.mem_cons.1 hb with rfl | hb
    · exact (foldl_min_le l b).1
    · exact (foldl_min_le l a).2 b hb

/-- Probability of part `p` before normalisation. -/
def minP (I : Inst) (p : List ℕ) : ℚ := minOf (p.map I.proba)

/-- `load_partition` succeeds when all parts are non-empty, and computes these values. -/
theorem loadPartition_ok (I : Inst) (P : List (List ℕ)) (hne : ∀ p ∈ P, p ≠ []) :
    loadPartition I P.length P = .ok
      { nbSubsets := P.length, partition := P
        nbConPart := P.map fun p => p.length * I.m
        probaPart := P.map fun p => minP I p / (P.map (minP I)).sum
        epsPart := I.eps / (P.map (minP I)).sum } := by
  have hget : ∀ c ∈ List.range P.length, pyGet P c = .ok (P.getD c []) := fun c hc =>
    pyGet_of_lt [] (List.mem_range.1 hc)
  have hmap : ∀ {β : Type} (f : List ℕ → β),
      ((List.range P.length).map fun c => f (P.getD c [])) = P.map f := by
    intro β f
    apply List.ext_getElem
    · simp
    · intro i h1 h2; simp at h1; simp [h1]
  have h1 : ((List.range P.length).mapM fun c => do
      let p ← pyGet P c
      pure ((p.map fun _ => I.m).sum) : PyM (List ℕ)) = .ok (P.map fun p => p.length * I.m) := by
    rw [← hmap fun p => p.length * I.m]
    refine mapM_ok _ _ _ fun c hc => ?_
    rw [hget c hc]
    simp [bind, Except.bind, pure, Except.pure]
  have h2 : ((List.range P.length).mapM fun c => do
      let p ← pyGet P c
      npMin (p.map I.proba) : PyM (List ℚ)) = .ok (P.map (minP I)) := by
    rw [← hmap (minP I)]
    refine mapM_ok _ _ _ fun c hc => ?_
    rw [hget c hc]
    have hc' := List.mem_range.1 hc
    have hmem : P.getD c [] ∈ P := by
      rw [List.getD_eq_getElem _ _ hc']; exact List.getElem_mem _
    show npMin ((P.getD c []).map I.proba) = _
    rw [npMin_ok (by simpa using hne _ hmem)]
    rfl
  unfold loadPartition
  rw [h1, h2]
  simp [bind, Except.bind, pure, Except.pure, Function.comp]

theorem minP_pos (I : Inst) {p : List ℕ} (hp : p ≠ []) (h : ∀ s ∈ p, 0 < I.proba s) :
    0 < minP I p := by
  have := minOf_mem (l := p.map I.proba) (by simpa using hp)
  obtain ⟨s, hs, he⟩ := List.mem_map.1 this
  unfold minP
  rw [← he]
  exact h s hs

theorem minP_equi (I : Inst) {p : List ℕ} {q : ℚ} (hp : p ≠ []) (h : ∀ s ∈ p, I.proba s = q) :
    minP I p = q := by
  have := minOf_mem (l := p.map I.proba) (by simpa using hp)
  obtain ⟨s, hs, he⟩ := List.mem_map.1 this
  unfold minP
  rw [← he]
  exact h s hs

theorem mem_part_lt {N : ℕ} {P : List (List ℕ)} (h : IsPartition N P) {p : List ℕ} (hp : p ∈ P)
    {s : ℕ} (hs : s ∈ p) : s < N :=
  List.mem_range.1 (h.1.mem_iff.1 (List.mem_flatten.2 ⟨p, hp, hs⟩))

theorem sum_map_pos {α : Type} {l : List α} {f : α → ℚ} (hl : l ≠ []) (h : ∀ a ∈ l, 0 < f a) :
    0 < (l.map f).sum := by
  cases l with
  | nil => exact absurd rfl hl
  | cons a l =>
    rw [List.map_cons, List.sum_cons]
    have h1 : 0 ≤ (l.map f).sum := List.sum_nonneg fun x hx => by
      obtain ⟨b, hb, rfl⟩ := List.mem_map.1 hx
      exact (h b (by simp [hb])).le
    linarith [h a (by simp)]

theorem isPartition_ne_nil {N : ℕ} {P : List (List ℕ)} (h : IsPartition N P) (hN : 0 < N) :
    P ≠ [] := by
  rintro rfl
  have := h.1.length_eq
  simp at this
  omega

/-! ### Stacked rows -/

theorem stackedA_eq (I : Inst) (p : List ℕ) {k j : ℕ} (hj : j < I.n) :
    stackedA I p (k * I.n + j) = I.A (p.getD (k / I.m) 0) (k % I.m) j := by
  unfold stackedA
  have hn : 0 < I.n := by omega
  have h1 : (k * I.n + j) / I.n = k := by
    rw [mul_comm, Nat.mul_add_div hn, Nat.div_eq_of_lt hj, Nat.add_zero]
  have h2 : (k * I.n + j) % I.n = j := by
    rw [mul_comm, Nat.mul_add_mod, Nat.mod_eq_of_lt hj]
  have h3 : (k * I.n + j) / (I.m * I.n) = k / I.m := by
    rw [mul_comm I.m, ← Nat.div_div_eq_div_mul, h1]
  rw [h1, h2, h3]

theorem stacked_rows_iff (I : Inst) (p : List ℕ) (x : Vec) :
    (∀ k < p.length * I.m,
      dot I.n (fun j => stackedA I p (k * I.n + j)) x ≤ stackedB I p k) ↔ SatAll I p x := by
  have hrow : ∀ k, dot I.n (fun j => stackedA I p (k * I.n + j)) x
      = dot I.n (I.A (p.getD (k / I.m) 0) (k % I.m)) x := fun k =>
    dotEq_congr (fun j hj => stackedA_eq I p hj) fun _ _ => rfl
  simp only [hrow, stackedB]
  constructor
  · intro h s hs i hi
    obtain ⟨t, ht, rfl⟩ := List.getElem_of_mem hs
    have hlt : t * I.m + i < p.length * I.m := by
      calc t * I.m + i < t * I.m + I.m := by omega
        _ = (t + 1) * I.m := by ring
        _ ≤ p.length * I.m := Nat.mul_le_mul_right _ ht
    have := h (t * I.m + i) hlt
    have hm : 0 < I.m := by omega
    have e1 : (t * I.m + i) / I.m = t := by
      rw [mul_comm, Nat.mul_add_div hm, Nat.div_eq_of_lt hi, Nat.add_zero]
    have e2 : (t * I.m + i) % I.m = i := by
      rw [mul_comm, Nat.mul_add_mod, Nat.mod_eq_of_lt hi]
    rw [e1, e2, List.getD_eq_getElem _ _ ht] at this
    exact this
  · intro h k hk
    have hm : 0 < I.m := by
      rcases Nat.eq_zero_or_pos I.m with h0 | h0
      · rw [h0] at hk; omega
      · exact h0
    have hkd : k / I.m < p.length := by rw [Nat.div_lt_iff_lt_mul hm]; exact hk
    rw [List.getD_eq_getElem _ _ hkd]
    exact h _ (List.getElem_mem _) _ (Nat.mod_lt _ hm)

end Verif.Model

namespace Verif.Model
open Spec Finset

theorem sum_range_getD {α β : Type} [AddCommMonoid β] (l : List α) (d : α) (g : α → β) :
    ∑ c ∈ range l.length, g (l.getD c d) = (l.map g).sum := by
  induction l with
  | nil => simp
  | cons a l ih =>
    rw [List.length_cons, Finset.sum_range_succ']
    simp only [List.getD_cons_succ, List.getD_cons_zero, List.map_cons, List.sum_cons]
    rw [ih, add_comm]

theorem list_sum_range {β : Type} [AddCommMonoid β] (N : ℕ) (g : ℕ → β) :
    ∑ c ∈ range N, g c = ((List.range N).map g).sum := by
  induction N with
  | zero => simp
  | succ N ih => rw [Finset.sum_range_succ, List.range_succ, ih]; simp

theorem sum_map_le_sum_map {α : Type} {l : List α} {f g : α → ℚ} (h : ∀ a ∈ l, f a ≤ g a) :
    (l.map f).sum ≤ (l.map g).sum := by
  induction l with
  | nil => simp
  | cons a l ih =>
    simp only [List.map_cons, List.sum_cons]
    exact add_le_add (h a (by simp)) (ih fun b hb => h b (by simp [hb]))

theorem le_sum_map_of_mem {α : Type} {l : List α} {f : α → ℚ} (hf : ∀ a ∈ l, 0 ≤ f a) {a : α}
    (ha : a ∈ l) : f a ≤ (l.map f).sum := by
  induction l with
  | nil => simp at ha
  | cons b l ih =>
    simp only [List.map_cons, List.sum_cons]
    have hb := hf b (by simp)
    have hl : 0 ≤ (l.map f).sum := List.sum_nonneg fun x hx => by
      obtain ⟨c, hc, rfl⟩ := List.mem_map.1 hx
      exact hf c (by simp [hc])
    rcases List.mem_cons.1 ha with rfl | ha
    · linarith
    · linarith [ih (fun c hc => hf c (by simp [hc])) ha]

theorem sum_map_div {α : Type} (l : List α) (f : α → ℚ) (t : ℚ) :
    (l.map fun a => f a / t).sum = (l.map f).sum / t := by
  induction l with
  | nil => simp
  | cons a l ih => simp [ih, add_div]

theorem sum_map_flatten {α : Type} (P : List (List α)) (f : α → ℚ) :
    (P.flatten.map f).sum = (P.map fun p => (p.map f).sum).sum := by
  induction P with
  | nil => simp
  | cons p P ih =>
    rw [List.flatten_cons, List.map_append, List.sum_append, ih, List.map_cons, List.sum_cons]

/-- Violated parts weigh at most as much as violated scenarios. -/
theorem viol_parts_le (I : Inst) (P : List (List ℕ)) (hP : IsPartition I.N P)
    (hp : ∀ s < I.N, 0 ≤ I.proba s) (x : Vec) :
    (P.map fun p => if SatAll I p x then 0 else minP I p).sum ≤ ∑ s ∈ viol I x, I.proba s := by
  have hsum : ∑ s ∈ viol I x, I.proba s
      = (P.flatten.map fun s => if Sat I s x then 0 else I.proba s).sum := by
    rw [(hP.1.map _).sum_eq, ← list_sum_range, viol, Finset.sum_filter]
    refine Finset.sum_congr rfl fun s _ => ?_
    by_cases h : Sat I s x <;> simp [h]
  rw [hsum, sum_map_flatten]
  refine sum_map_le_sum_map fun p hpm => ?_
  have hnn : ∀ s ∈ p, 0 ≤ (if Sat I s x then 0 else I.proba s) := by
    intro s hs
    split
    · exact le_refl _
    · exact hp s (mem_part_lt hP hpm hs)
  split
  · exact List.sum_nonneg fun y hy => by
      obtain ⟨s, hs, rfl⟩ := List.mem_map.1 hy
      exact hnn s hs
  · next h =>
    unfold SatAll at h
    push Not at h
    obtain ⟨s, hs, hv⟩ := h
    have h1 : minP I p ≤ I.proba s := minOf_le (List.mem_map.2 ⟨s, hs, rfl⟩)
    have h2 := le_sum_map_of_mem hnn hs
    rw [if_neg hv] at h2
    exact h1.trans h2

end Verif.Model
