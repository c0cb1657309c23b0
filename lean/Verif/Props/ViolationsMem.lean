import Verif.Model.ViolationsMem
import Verif.Props.Violations

/-!
# C92: the compiled violation routine is defined
-/

open Finset

namespace Verif.Props
open Spec Model

/-! ## Integers, arrays and loops -/

theorem cInt_ok {z : ℤ} (h0 : -2147483648 ≤ z) (h1 : z < 2147483648) : cInt z = .ok z :=
  if_pos (by omega)

theorem cInt_bound {z z' : ℤ} (h : cInt z = .ok z') : z' = z ∧ -2147483648 ≤ z ∧ z < 2147483648 := by
  unfold cInt at h
  split at h
  · rename_i h'
    cases h
    exact ⟨rfl, by omega, by omega⟩
  · cases h

theorem read_ok {α : Type} {b : Buf α} {a : ℕ} (h : a < b.size) : b.read (a : ℤ) = .ok (b.val a) := by
  unfold Buf.read
  rw [if_pos ⟨by omega, by exact_mod_cast h⟩, Int.toNat_natCast]

theorem ptr_ok {α : Type} {b : Buf α} {a : ℕ} (h : a ≤ b.size) : b.ptr (a : ℤ) = .ok (a : ℤ) :=
  if_pos ⟨by omega, by exact_mod_cast h⟩

theorem cFor_stop {σ : Type} {cond : ℤ → Bool} {step : ℤ} {body : ℤ → σ → CM (σ × Bool)} {k : ℕ}
    {j : ℤ} {s : σ} (hc : cond j = false) : cFor cond step body (k + 1) j s = .ok s := by
  unfold cFor
  rw [if_neg (by simp [hc])]

theorem cFor_step {σ : Type} {cond : ℤ → Bool} {step : ℤ} {body : ℤ → σ → CM (σ × Bool)} {k : ℕ}
    {j j' : ℤ} {s s' : σ} (hc : cond j = true) (hb : body j s = .ok (s', false))
    (hi : cInt (j + step) = .ok j') :
    cFor cond step body (k + 1) j s = cFor cond step body k j' s' := by
  conv_lhs => unfold cFor
  rw [if_pos hc, hb]
  simp only [Bool.false_eq_true, if_false]
  rw [hi]

theorem cFor_break {σ : Type} {cond : ℤ → Bool} {step : ℤ} {body : ℤ → σ → CM (σ × Bool)} {k : ℕ}
    {j : ℤ} {s s' : σ} (hc : cond j = true) (hb : body j s = .ok (s', true)) :
    cFor cond step body (k + 1) j s = .ok s' := by
  unfold cFor
  rw [if_pos hc, hb]
  rfl

theorem cFor_run {σ : Type} {cond : ℤ → Bool} {step : ℤ} {body : ℤ → σ → CM (σ × Bool)} {k : ℕ}
    {j : ℤ} {s s' : σ} (hc : cond j = true) (h : cFor cond step body (k + 1) j s = .ok s') :
    ∃ r, body j s = .ok r ∧ (r.2 = false → ∃ j', cInt (j + step) = .ok j'
      ∧ cFor cond step body k j' r.1 = .ok s') := by
  unfold cFor at h
  rw [if_pos hc] at h
  cases hb : body j s with
  | error e => rw [hb] at h; cases h
  | ok r =>
    refine ⟨r, rfl, fun hr => ?_⟩
    rw [hb] at h
    simp only [hr, Bool.false_eq_true, if_false] at h
    cases hi : cInt (j + step) with
    | error e => rw [hi] at h; cases h
    | ok j' => rw [hi] at h; exact ⟨j', rfl, h⟩

/-- A loop without `break` that counts up keeps an invariant. -/
theorem cForUp_inv {σ : Type} {body : ℤ → σ → CM (σ × Bool)} (P : ℕ → σ → Prop) {a b : ℕ}
    (hab : a ≤ b) (hb : b < 2147483648)
    (hstep : ∀ (j : ℕ) (s : σ), a ≤ j → j < b → P j s →
      ∃ s', body j s = .ok (s', false) ∧ P (j + 1) s') (s : σ) (h : P a s) :
    ∃ s', cForUp (a : ℤ) b body s = .ok s' ∧ P b s' := by
  have key : ∀ (fuel j : ℕ) (s : σ), a ≤ j → j ≤ b → b - j < fuel → P j s →
      ∃ s', cFor (fun j => decide (j < (b : ℤ))) 1 body fuel j s = .ok s' ∧ P b s' := by
    intro fuel
    induction fuel with
    | zero => intro j s _ _ h; omega
    | succ k ih =>
      intro j s h1 h2 h3 hP
      rcases h2.lt_or_eq with h2 | rfl
      · obtain ⟨s', e, hP'⟩ := hstep j s h1 h2 hP
        obtain ⟨s'', e', hP''⟩ := ih (j + 1) s' (by omega) (by omega) (by omega) hP'
        have hi : cInt ((j : ℤ) + 1) = .ok ((j + 1 : ℕ) : ℤ) := by
          rw [Nat.cast_succ]
          exact cInt_ok (by omega) (by omega)
        exact ⟨s'', (cFor_step (by simpa using h2) e hi).trans e', hP''⟩
      · exact ⟨s, cFor_stop (by simp), hP⟩
  unfold cForUp
  exact key _ a s le_rfl hab (by simp) h

/-- A loop without `break` that counts up and comes to its end has run every iteration. -/
theorem cForUp_visits {σ : Type} {body : ℤ → σ → CM (σ × Bool)} {a b : ℕ} {s s' : σ}
    (hbody : ∀ j s r, body j s = .ok r → r.2 = false)
    (h : cForUp (a : ℤ) b body s = .ok s') {j : ℕ} (h1 : a ≤ j) (h2 : j < b) :
    ∃ s₁ r, body j s₁ = .ok r := by
  have key : ∀ (fuel i : ℕ) (s s' : σ), i ≤ j →
      cFor (fun j => decide (j < (b : ℤ))) 1 body fuel i s = .ok s' → ∃ s₁ r, body j s₁ = .ok r := by
    intro fuel
    induction fuel with
    | zero => intro i s s' _ h; cases h
    | succ k ih =>
      intro i s s' hi h
      obtain ⟨r, hr, hgo⟩ := cFor_run (by simp; omega) h
      rcases hi.lt_or_eq with hi | rfl
      · obtain ⟨j', hj', h'⟩ := hgo (hbody _ _ _ hr)
        obtain ⟨e, -⟩ := cInt_bound hj'
        rw [← Nat.cast_succ] at e
        rw [e] at h'
        exact ih (i + 1) _ _ hi h'
      · exact ⟨s, r, hr⟩
  exact key _ a s s' h1 h

/-! ## One update -/

/-- The second loop of `update` on indices visited at the positions `pos 0`, `pos 1`, ... -/
theorem memLoop_eq {lhs rhs : Buf ℚ} {pp wp capp : ℤ} {viols : Buf (WithTop ℚ)} {mnp : ℤ}
    {indices : Buf ℕ} {n : ℕ} {p w : Vec} {cap : ℚ} {mn : WithTop ℚ} {step jend : ℤ} (pos : ℕ → ℤ)
    (L : List ℕ) (hL : L.length = n) (hpos : ∀ t, pos (t + 1) = pos t + step) (hend : pos n = jend)
    (hne : ∀ t < n, pos t ≠ jend) (hint : ∀ t ≤ n, -2147483648 ≤ pos t ∧ pos t < 2147483648)
    (hidx : ∀ t (h : t < L.length), indices.read (pos t) = .ok L[t])
    (hw : ∀ j ∈ L, lhs.read (wp + j) = .ok (w j)) (hp : ∀ j ∈ L, lhs.read (pp + j) = .ok (p j))
    (hcap : rhs.read capp = .ok cap) (hmn : viols.read mnp = .ok mn) :
    ∀ (d t fuel : ℕ) (v wt : ℚ), t + d = n → d < fuel →
      ∃ wt', cFor (fun jj => decide (jj ≠ jend)) step
        (memLoopBody lhs rhs pp wp capp viols mnp indices) fuel (pos t) (v, wt)
        = .ok (cppLoop p w cap mn (L.drop t) v wt, wt') := by
  intro d
  induction d with
  | zero =>
    intro t fuel v wt ht hf
    obtain ⟨k, rfl⟩ : ∃ k, fuel = k + 1 := ⟨fuel - 1, by omega⟩
    have : t = n := by omega
    subst this
    unfold cFor
    rw [if_neg (by simp [hend]), List.drop_of_length_le (by omega)]
    exact ⟨wt, rfl⟩
  | succ d ih =>
    intro t fuel v wt ht hf
    obtain ⟨k, rfl⟩ : ∃ k, fuel = k + 1 := ⟨fuel - 1, by omega⟩
    have htn : t < L.length := by omega
    have hmem : L[t] ∈ L := List.getElem_mem htn
    have hd : L.drop t = L[t] :: L.drop (t + 1) := List.drop_eq_getElem_cons htn
    have hi := hint (t + 1) (by omega)
    unfold cFor
    rw [if_pos (by simpa using hne t (by omega)), hd]
    unfold cppLoop
    by_cases h1 : w L[t] ≤ 1 / 10 ^ 6
    · have hb : memLoopBody lhs rhs pp wp capp viols mnp indices (pos t) (v, wt)
          = .ok ((v, wt), false) := by
        unfold memLoopBody
        rw [hidx t htn]
        simp only [bind, Except.bind, hw _ hmem, if_pos h1, pure, Except.pure]
      rw [hb, if_pos h1]
      simp only [Bool.false_eq_true, if_false, ← hpos, cInt_ok hi.1 hi.2]
      exact ih (t + 1) k v wt (by omega) (by omega)
    · rw [if_neg h1]
      by_cases h2 : wt + w L[t] ≥ cap - 1 / 10 ^ 6
      · have hb : memLoopBody lhs rhs pp wp capp viols mnp indices (pos t) (v, wt)
            = .ok ((v + p L[t] * (cap - (wt + w L[t] - w L[t])) / w L[t], wt + w L[t]), true) := by
          unfold memLoopBody
          rw [hidx t htn]
          simp only [bind, Except.bind, hw _ hmem, if_neg h1, hcap, hp _ hmem, if_pos h2, pure,
            Except.pure]
        rw [hb, if_pos h2]
        exact ⟨_, rfl⟩
      · have hb : memLoopBody lhs rhs pp wp capp viols mnp indices (pos t) (v, wt)
            = .ok ((v + p L[t], wt + w L[t]), decide (mn + ((1 / 10 ^ 6 : ℚ) : WithTop ℚ)
                ≤ ((v + p L[t] : ℚ) : WithTop ℚ))) := by
          unfold memLoopBody
          rw [hidx t htn]
          simp only [bind, Except.bind, hw _ hmem, if_neg h1, hcap, hp _ hmem, if_neg h2, hmn, pure,
            Except.pure]
        rw [hb, if_neg h2]
        by_cases h3 : mn + ((1 / 10 ^ 6 : ℚ) : WithTop ℚ) ≤ ((v + p L[t] : ℚ) : WithTop ℚ)
        · rw [if_pos h3]
          simp only [decide_eq_true h3, if_true]
          exact ⟨_, rfl⟩
        · rw [if_neg h3]
          simp only [decide_eq_false h3, Bool.false_eq_true, if_false, ← hpos, cInt_ok hi.1 hi.2]
          exact ih (t + 1) k _ _ (by omega) (by omega)

/-- `update` in memory is the update of the model with unbounded integers. -/
theorem memUpdate_eq {lhs rhs : Buf ℚ} {pp lossp wp capp n mnp : ℕ} {viols : Buf (WithTop ℚ)}
    {indices : Buf ℕ} {reverse : Bool} (hn : n < 2147483648) (hsize : indices.size = n)
    (hlt : ∀ i < n, indices.val i < n) (hpp : pp + n ≤ lhs.size) (hwp : wp + n ≤ lhs.size)
    (hloss : lossp < rhs.size) (hcap : capp < rhs.size) (hmn : mnp < viols.size) :
    memUpdate lhs rhs pp lossp wp capp n viols mnp indices reverse
      = .ok ⟨viols.size, Function.update viols.val mnp
          (cppUpdate (fun j => lhs.val (pp + j)) (rhs.val lossp) (fun j => lhs.val (wp + j))
            (rhs.val capp) (viols.val mnp) ((List.range n).map indices.val) reverse)⟩ := by
  have hp : ∀ j < n, lhs.read ((pp : ℤ) + (j : ℕ)) = .ok (lhs.val (pp + j)) := fun j hj => by
    rw [← Nat.cast_add]; exact read_ok (by omega)
  have hw : ∀ j < n, lhs.read ((wp : ℤ) + (j : ℕ)) = .ok (lhs.val (wp + j)) := fun j hj => by
    rw [← Nat.cast_add]; exact read_ok (by omega)
  have hidx : ∀ i < n, indices.read ((i : ℕ) : ℤ) = .ok (indices.val i) := fun i hi =>
    read_ok (by omega)
  -- first loop
  have hzero : cFor (fun ii => decide (ii < (n : ℤ))) 1 (memZeroBody lhs pp wp indices)
      ((n : ℤ).toNat + 1) 0 (-rhs.val lossp)
      = .ok (cppZero (fun j => lhs.val (pp + j)) (fun j => lhs.val (wp + j))
          ((List.range n).map indices.val) (rhs.val lossp)) := by
    have hinv : ∀ (j : ℕ) (v : ℚ), 0 ≤ j → j < n →
        v = cppZero (fun j => lhs.val (pp + j)) (fun j => lhs.val (wp + j))
          ((List.range j).map indices.val) (rhs.val lossp) →
        ∃ v', memZeroBody lhs pp wp indices j v = .ok (v', false)
          ∧ v' = cppZero (fun j => lhs.val (pp + j)) (fun j => lhs.val (wp + j))
            ((List.range (j + 1)).map indices.val) (rhs.val lossp) := by
      rintro j v - hj rfl
      refine ⟨_, ?_, rfl⟩
      unfold memZeroBody
      rw [hidx j hj]
      simp only [bind, Except.bind, hw _ (hlt j hj), hp _ (hlt j hj), pure, Except.pure]
      unfold cppZero
      rw [List.range_succ, List.map_append, List.foldl_append]
      simp only [List.map_cons, List.map_nil, List.foldl_cons, List.foldl_nil]
      split <;> rfl
    obtain ⟨v, h1, h2⟩ := cForUp_inv (body := memZeroBody lhs pp wp indices) _ (Nat.zero_le n) hn
      hinv (-rhs.val lossp) rfl
    rw [← h2]
    exact h1
  -- second loop
  have hloop : ∀ (jstart jend : ℤ), jstart = (if reverse then (n : ℤ) - 1 else 0) →
      jend = (if reverse then -1 else (n : ℤ)) → ∀ v : ℚ, ∃ wt',
      cFor (fun jj => decide (jj ≠ jend)) (if reverse then -1 else 1)
        (memLoopBody lhs rhs pp wp capp viols mnp indices) ((n : ℤ).toNat + 1) jstart (v, 0)
      = .ok (cppLoop (fun j => lhs.val (pp + j)) (fun j => lhs.val (wp + j)) (rhs.val capp)
          (viols.val mnp) (if reverse then ((List.range n).map indices.val).reverse
            else (List.range n).map indices.val) v 0, wt') := by
    rintro jstart jend rfl rfl v
    have hmem : ∀ j ∈ (if reverse then ((List.range n).map indices.val).reverse
            else (List.range n).map indices.val), j < n := by
      intro j hj
      have : j ∈ (List.range n).map indices.val := by
        cases reverse
        · exact hj
        · exact List.mem_reverse.1 hj
      obtain ⟨i, hi, rfl⟩ := List.mem_map.1 this
      exact hlt i (List.mem_range.1 hi)
    have := memLoop_eq (indices := indices) (n := n)
      (p := fun j => lhs.val (pp + j)) (w := fun j => lhs.val (wp + j))
      (step := if reverse then -1 else 1) (jend := if reverse then -1 else (n : ℤ))
      (fun t => if reverse then (n : ℤ) - 1 - t else t)
      (if reverse then ((List.range n).map indices.val).reverse
        else (List.range n).map indices.val)
      (by cases reverse <;> simp)
      (fun t => by cases reverse <;> simp; omega)
      (by cases reverse <;> simp)
      (fun t ht => by cases reverse <;> simp <;> omega)
      (fun t ht => by cases reverse <;> simp <;> omega)
      (fun t ht => by
        cases reverse
        · have ht' : t < n := by simpa using ht
          simpa using hidx t ht'
        · have ht' : t < n := by simpa using ht
          simp only [if_true, List.getElem_reverse, List.getElem_map, List.getElem_range,
            List.length_map, List.length_range]
          rw [show (n : ℤ) - 1 - t = ((n - 1 - t : ℕ) : ℤ) by omega]
          exact hidx _ (by omega))
      (fun j hj => hw j (hmem j hj)) (fun j hj => hp j (hmem j hj))
      (read_ok hcap) (read_ok hmn) n 0 ((n : ℤ).toNat + 1) v 0 (by omega) (by simp)
    simpa using this
  obtain ⟨wt', hl⟩ := hloop _ _ rfl rfl (cppZero (fun j => lhs.val (pp + j))
    (fun j => lhs.val (wp + j)) ((List.range n).map indices.val) (rhs.val lossp))
  have hstart : cInt (if reverse then (n : ℤ) - 1 else 0)
      = .ok (if reverse then (n : ℤ) - 1 else 0) := by
    apply cInt_ok <;> split <;> omega
  have hend : cInt (if reverse then -1 else (n : ℤ)) = .ok (if reverse then -1 else (n : ℤ)) := by
    apply cInt_ok <;> split <;> omega
  unfold memUpdate
  rw [read_ok hloss]
  simp only [bind, Except.bind]
  rw [hzero]
  simp only
  rw [hstart]
  simp only
  rw [hend]
  simp only
  rw [hl]
  simp only
  rw [read_ok hmn]
  simp only
  have hw' : ∀ q : WithTop ℚ, viols.write (mnp : ℤ) q
      = .ok ⟨viols.size, Function.update viols.val mnp q⟩ := fun q => by
    unfold Buf.write
    rw [if_pos ⟨by omega, by exact_mod_cast hmn⟩, Int.toNat_natCast]
  unfold cppUpdate
  simp only
  generalize cppLoop (fun j => lhs.val (pp + j)) (fun j => lhs.val (wp + j)) (rhs.val capp)
    (viols.val mnp) _ _ 0 = v
  by_cases h : ((v : ℚ) : WithTop ℚ) < viols.val mnp
  · rw [if_pos h, if_pos h]
    exact hw' _
  · rw [if_neg h, if_neg h, Function.update_eq_self]
    rfl

/-! ## One call -/

theorem memSort_eq {srt : CppSort} {lhs : Buf ℚ} {pp wp n : ℕ} {indices : Buf ℕ}
    (hsize : indices.size = n) (hlt : ∀ i < n, indices.val i < n) (hpp : pp + n ≤ lhs.size)
    (hwp : wp + n ≤ lhs.size) (hp : ∀ j < n, 0 ≤ lhs.val (pp + j))
    (hw : ∀ j < n, 0 ≤ lhs.val (wp + j)) :
    memSort srt lhs pp wp n indices = .ok ⟨indices.size, fun i =>
      (srt.run (cppComp (fun j => lhs.val (pp + j)) (fun j => lhs.val (wp + j)))
        ((List.range n).map indices.val)).getD i 0⟩ := by
  have hmem : ∀ a ∈ (List.range n).map indices.val, a < n := by
    intro j hj
    obtain ⟨i, hi, rfl⟩ := List.mem_map.1 hj
    exact hlt i (List.mem_range.1 hi)
  have e : ∀ a j : ℕ, ((a : ℤ) + (j : ℕ)).toNat = a + j := fun a j => by omega
  unfold memSort
  simp only [Int.toNat_natCast, e]
  rw [if_pos, if_pos]
  · exact cppComp_strictWeak _ _ _ (fun a ha => hp a (hmem a ha)) fun a ha => hw a (hmem a ha)
  · refine ⟨by omega, fun a ha => ?_⟩
    have := hmem a ha
    omega

/-- What the arrays hold in the course of the program. -/
structure Holds (I : Inst) (st : MemState) (st' : CppState) : Prop where
  size : st.viols.size = I.N * I.N * I.m
  val : st.viols.val = st'.viols
  isize : st.indices.size = I.n
  idx : (List.range I.n).map st.indices.val = st'.indices
  perm : st'.indices.Perm (List.range I.n)

theorem Holds.lt {I : Inst} {st : MemState} {st' : CppState} (h : Holds I st st') :
    ∀ i < I.n, st.indices.val i < I.n := by
  intro i hi
  have : st.indices.val i ∈ st'.indices := by
    rw [← h.idx]
    exact List.mem_map.2 ⟨i, List.mem_range.2 hi, rfl⟩
  exact List.mem_range.1 (h.perm.mem_iff.1 this)

theorem memCompute_eq {srt : CppSort} {I : Inst} {st : MemState} {st' : CppState}
    (hst : Holds I st st') (hA : ∀ s < I.N, ∀ i < I.m, ∀ j < I.n, 0 ≤ I.A s i j)
    (hn : I.n < 2147483648) {s t i l : ℕ} (hs : s < I.N) (ht : t < I.N) (hi : i < I.m) (hl : l < I.m)
    (hlhs : ∀ s < I.N, ∀ i < I.m, s * I.m * I.n + i * I.n + I.n ≤ I.N * I.m * I.n)
    (hrhs : ∀ s < I.N, ∀ i < I.m, s * I.m + i < I.N * I.m)
    (hv : ∀ s < I.N, ∀ t < I.N, ∀ i < I.m, addr I.N I.m s t i < I.N * I.N * I.m) :
    ∃ st₁, memCompute srt ⟨I.N * I.m * I.n, memA I⟩ ⟨I.N * I.m, memB I⟩
        ((s * I.m * I.n + i * I.n : ℕ) : ℤ) ((s * I.m + i : ℕ) : ℤ)
        ((t * I.m * I.n + l * I.n : ℕ) : ℤ) ((t * I.m + l : ℕ) : ℤ) I.n
        ((addr I.N I.m s t i : ℕ) : ℤ) ((addr I.N I.m t s l : ℕ) : ℤ) st = .ok st₁
      ∧ Holds I st₁ (cppCompute srt (memA I) (memB I) st' (mkOp I.N I.n I.m s i t l)) := by
  have hp : ∀ j < I.n, 0 ≤ memA I (s * I.m * I.n + i * I.n + j) := fun j hj => by
    rw [memA_eq I hi hj]; exact hA s hs i hi j hj
  have hw : ∀ j < I.n, 0 ≤ memA I (t * I.m * I.n + l * I.n + j) := fun j hj => by
    rw [memA_eq I hl hj]; exact hA t ht l hl j hj
  have hsort := memSort_eq (srt := srt) (lhs := ⟨I.N * I.m * I.n, memA I⟩) hst.isize hst.lt
    (hlhs s hs i hi) (hlhs t ht l hl) hp hw
  rw [hst.idx] at hsort
  have ho := ordered_of_sort srt I.n _ _ st'.indices hst.perm hp hw
  set L := srt.run (cppComp (fun j => memA I (s * I.m * I.n + i * I.n + j))
    (fun j => memA I (t * I.m * I.n + l * I.n + j))) st'.indices with hLdef
  have hlen : L.length = I.n := by rw [ho.perm.length_eq, List.length_range]
  have hmap : (List.range I.n).map (fun i => L.getD i 0) = L := by
    apply List.ext_getElem
    · simp [hlen]
    · intro j h1 h2
      simp [h2]
  have hlt : ∀ i < I.n, L.getD i 0 < I.n := by
    intro i hi
    have : L.getD i 0 ∈ L := by
      rw [List.getD_eq_getElem _ _ (by omega)]
      exact List.getElem_mem _
    exact List.mem_range.1 (ho.perm.mem_iff.1 this)
  have hu1 := memUpdate_eq (lhs := ⟨I.N * I.m * I.n, memA I⟩) (rhs := ⟨I.N * I.m, memB I⟩)
    (viols := st.viols) (indices := ⟨st.indices.size, fun i => L.getD i 0⟩) (reverse := false) hn
    hst.isize hlt (hlhs s hs i hi) (hlhs t ht l hl) (hrhs s hs i hi) (hrhs t ht l hl)
    (mnp := addr I.N I.m s t i) (by rw [hst.size]; exact hv s hs t ht i hi)
  have hu2 := fun v : ℕ → WithTop ℚ =>
    memUpdate_eq (lhs := ⟨I.N * I.m * I.n, memA I⟩) (rhs := ⟨I.N * I.m, memB I⟩)
    (viols := ⟨st.viols.size, v⟩) (indices := ⟨st.indices.size, fun i => L.getD i 0⟩)
    (reverse := true) hn hst.isize hlt (hlhs t ht l hl) (hlhs s hs i hi) (hrhs t ht l hl)
    (hrhs s hs i hi) (mnp := addr I.N I.m t s l) (by
      show _ < st.viols.size
      rw [hst.size]; exact hv t ht s hs l hl)
  simp only [hmap] at hu1 hu2
  rw [hst.val] at hu1
  refine ⟨⟨⟨st.viols.size, (cppCompute srt (memA I) (memB I) st' (mkOp I.N I.n I.m s i t l)).viols⟩,
    ⟨st.indices.size, fun i => L.getD i 0⟩⟩, ?_, ⟨hst.size, rfl, hst.isize, hmap, ho.perm⟩⟩
  unfold memCompute
  rw [hsort]
  simp only [bind, Except.bind]
  rw [hu1]
  simp only
  rw [hu2]
  rfl

theorem cInt_nat {a : ℕ} (h : a < 2147483648) : cInt (a : ℤ) = .ok (a : ℤ) :=
  cInt_ok (by omega) (by exact_mod_cast h)

theorem lhs_bound {k m n s i : ℕ} (hs : s < k) (hi : i < m) :
    s * m * n + i * n + n ≤ k * m * n := by
  have h : s * m + i + 1 ≤ k * m := by
    have : (s + 1) * m ≤ k * m := Nat.mul_le_mul_right m hs
    rw [Nat.succ_mul] at this
    omega
  have := Nat.mul_le_mul_right n h
  linarith [Nat.add_mul (s * m + i) 1 n, Nat.add_mul (s * m) i n]

theorem rhs_bound {k m s i : ℕ} (hs : s < k) (hi : i < m) : s * m + i < k * m := by
  have := lhs_bound (n := 1) hs hi
  omega

theorem addr_bound {k m s t i : ℕ} (hs : s < k) (ht : t < k) (hi : i < m) :
    addr k m s t i < k * k * m := by
  have h1 := rhs_bound ht hi
  have h2 := rhs_bound hs h1
  unfold addr
  rw [mul_assoc]
  omega

theorem memBody_eq {srt : CppSort} {I : Inst} {st : MemState} {st' : CppState}
    (hst : Holds I st st') (hA : ∀ s < I.N, ∀ i < I.m, ∀ j < I.n, 0 ≤ I.A s i j)
    (hn0 : 0 < I.n) (h1 : I.N * I.N * I.m ≤ 2147483648)
    (h2 : I.N * I.m * I.n < 2147483648 + I.n) (hn : I.n < 2147483648)
    {s t i l : ℕ} (hs : s < I.N) (ht : t < I.N) (hi : i < I.m) (hl : l < I.m) :
    ∃ st₁, memBody srt ⟨I.N * I.m * I.n, memA I⟩ ⟨I.N * I.m, memB I⟩ I.N I.n I.m s t i l st
        = .ok (st₁, false)
      ∧ Holds I st₁ (cppCompute srt (memA I) (memB I) st' (mkOp I.N I.n I.m s i t l)) := by
  have hm0 : 0 < I.m := by omega
  have hv : ∀ s < I.N, ∀ t < I.N, ∀ i < I.m, violPtr st.viols I.N I.m s t i
      = .ok ((addr I.N I.m s t i : ℕ) : ℤ) := by
    intro s hs t ht i hi
    have hb := addr_bound hs ht hi
    have e : addr I.N I.m s t i = s * I.N * I.m + t * I.m + i := by unfold addr; ring
    have hle : s * I.N ≤ s * I.N * I.m := Nat.le_mul_of_pos_right _ hm0
    unfold violPtr
    simp only [← Nat.cast_mul, ← Nat.cast_add, bind, Except.bind]
    rw [cInt_nat (by omega)]
    simp only [← Nat.cast_mul, ← Nat.cast_add]
    rw [cInt_nat (by omega)]
    simp only [← Nat.cast_mul, ← Nat.cast_add]
    rw [cInt_nat (by omega)]
    simp only [← Nat.cast_mul, ← Nat.cast_add]
    rw [cInt_nat (by omega)]
    simp only [← Nat.cast_mul, ← Nat.cast_add]
    rw [cInt_nat (by omega)]
    simp only
    rw [e]
    exact ptr_ok (by rw [hst.size]; omega)
  have hlp : ∀ s < I.N, ∀ i < I.m, lhsPtr ⟨I.N * I.m * I.n, memA I⟩ I.m I.n s i
      = .ok ((s * I.m * I.n + i * I.n : ℕ) : ℤ) := by
    intro s hs i hi
    have hb := lhs_bound (n := I.n) hs hi
    have hle : s * I.m ≤ s * I.m * I.n := Nat.le_mul_of_pos_right _ hn0
    unfold lhsPtr
    simp only [← Nat.cast_mul, ← Nat.cast_add, bind, Except.bind]
    rw [cInt_nat (by omega)]
    simp only [← Nat.cast_mul, ← Nat.cast_add]
    rw [cInt_nat (by omega)]
    simp only [← Nat.cast_mul, ← Nat.cast_add]
    rw [cInt_nat (by omega)]
    simp only [← Nat.cast_mul, ← Nat.cast_add]
    rw [cInt_nat (by omega)]
    exact ptr_ok (by show _ ≤ I.N * I.m * I.n; omega)
  have hrp : ∀ s < I.N, ∀ i < I.m, rhsPtr ⟨I.N * I.m, memB I⟩ I.m s i
      = .ok ((s * I.m + i : ℕ) : ℤ) := by
    intro s hs i hi
    have hb := lhs_bound (n := I.n) hs hi
    have hb' := rhs_bound hs hi
    have hle : s * I.m ≤ s * I.m * I.n := Nat.le_mul_of_pos_right _ hn0
    have hle' : i ≤ i * I.n := Nat.le_mul_of_pos_right _ hn0
    unfold rhsPtr
    simp only [← Nat.cast_mul, ← Nat.cast_add, bind, Except.bind]
    rw [cInt_nat (by omega)]
    simp only [← Nat.cast_mul, ← Nat.cast_add]
    rw [cInt_nat (by omega)]
    exact ptr_ok (by show _ ≤ I.N * I.m; omega)
  obtain ⟨st₁, he, hh⟩ := memCompute_eq (srt := srt) hst hA hn hs ht hi hl
    (fun s hs i hi => lhs_bound hs hi) (fun s hs i hi => rhs_bound hs hi)
    (fun s hs t ht i hi => addr_bound hs ht hi)
  refine ⟨st₁, ?_, hh⟩
  unfold memBody
  rw [hv s hs t ht i hi, hv t ht s hs l hl, hlp s hs i hi, hrp s hs i hi, hlp t ht l hl,
    hrp t ht l hl]
  simp only [bind, Except.bind]
  rw [he]
  rfl

/-! ## The loops -/

theorem pyRange_one_nil (a : ℕ) : pyRange a a 1 = [] := by
  unfold pyRange; simp

theorem pyRange_one_succ {a b : ℕ} (h : a ≤ b) : pyRange a (b + 1) 1 = pyRange a b 1 ++ [b] := by
  unfold pyRange
  rw [show (b + 1 - a + (1 - 1)) / 1 = (b - a + (1 - 1)) / 1 + 1 by omega, List.range_succ,
    List.map_append]
  simp
  omega

/-- A loop whose iterations make the calls `g j` makes the calls `L b`. -/
theorem loop_holds {I : Inst} {C : CppState → CppOp → CppState} {a b : ℕ} (hab : a ≤ b)
    (hb : b < 2147483648) (g L : ℕ → List CppOp) (hL0 : L a = [])
    (hL : ∀ j, a ≤ j → L (j + 1) = L j ++ g j) {body : ℤ → MemState → CM (MemState × Bool)}
    (hbody : ∀ (j : ℕ) st st', a ≤ j → j < b → Holds I st st' →
      ∃ st₁, body j st = .ok (st₁, false) ∧ Holds I st₁ ((g j).foldl C st'))
    (st : MemState) (st' : CppState) (h : Holds I st st') :
    ∃ st₁, cForUp (a : ℤ) b body st = .ok st₁ ∧ Holds I st₁ ((L b).foldl C st') := by
  refine cForUp_inv (fun j st => Holds I st ((L j).foldl C st')) hab hb ?_ st (by rwa [hL0])
  intro j st h1 h2 h3
  obtain ⟨st₁, h4, h5⟩ := hbody j st _ h1 h2 h3
  refine ⟨st₁, h4, ?_⟩
  rw [hL j h1, List.foldl_append]
  exact h5

theorem andGoOn_ok {σ : Type} {r : CM σ} {s : σ} (h : r = .ok s) : andGoOn r = .ok (s, false) := by
  rw [h]; rfl

theorem cppOps1_eq (k n m : ℕ) : cppOps1 k n m = (List.range k).flatMap fun s =>
    (List.range m).flatMap fun i => (pyRange (i + 1) m 1).map fun l => mkOp k n m s i s l := by
  have e1 : ∀ s t i : ℕ, s * k * m + t * m + i = addr k m s t i := fun s t i => by
    unfold addr; ring
  unfold cppOps1
  simp only [e1]
  rfl

theorem cppOps2_eq (k n m : ℕ) : cppOps2 k n m = (List.range k).flatMap fun s =>
    (pyRange (s + 1) k 1).flatMap fun t => (List.range m).flatMap fun i =>
      (List.range m).map fun l => mkOp k n m s i t l := by
  have e1 : ∀ s t i : ℕ, s * k * m + t * m + i = addr k m s t i := fun s t i => by
    unfold addr; ring
  unfold cppOps2
  simp only [e1]
  rfl

theorem memComputeAll_eq (srt : CppSort) (I : Inst)
    (hA : ∀ s < I.N, ∀ i < I.m, ∀ j < I.n, 0 ≤ I.A s i j) (hn0 : 0 < I.n)
    (h1 : I.N * I.N * I.m ≤ 2147483648) (h2 : I.N * I.m * I.n < 2147483648 + I.n)
    (hN : I.N < 2147483648) (hm : I.m < 2147483648) (hn : I.n < 2147483648) :
    memComputeAll srt ⟨I.N * I.m * I.n, memA I⟩ ⟨I.N * I.m, memB I⟩ I.N I.n I.m
      ⟨I.N * I.N * I.m, cppInit I.N I.m⟩
      = .ok ⟨I.N * I.N * I.m, cppComputeAll srt (memA I) (memB I) I.N I.n I.m (cppInit I.N I.m)⟩ := by
  -- `indices`
  have hind : ∃ b : Buf ℕ, cForUp ((0 : ℕ) : ℤ) I.n (fun j b => andGoOn (b.write j j.toNat))
      (⟨(I.n : ℤ).toNat, fun _ => 0⟩ : Buf ℕ) = .ok b ∧ (b.size = I.n ∧ ∀ i < I.n, b.val i = i) := by
    refine cForUp_inv (fun j (b : Buf ℕ) => b.size = I.n ∧ ∀ i < j, b.val i = i) (Nat.zero_le _) hn ?_ _
      ⟨by simp, fun i hi => by omega⟩
    rintro j b - hj ⟨e1, e2⟩
    refine ⟨⟨b.size, Function.update b.val j j⟩, ?_, e1, fun i hi => ?_⟩
    · apply andGoOn_ok
      unfold Buf.write
      rw [if_pos ⟨by omega, by rw [e1]; exact_mod_cast hj⟩, Int.toNat_natCast]
    · show Function.update b.val j j i = i
      rw [Function.update_apply]
      split_ifs with h
      · exact h.symm
      · exact e2 i (by omega)
  obtain ⟨b, hb1, hb2, hb3⟩ := hind
  have hstart : Holds I ⟨⟨I.N * I.N * I.m, cppInit I.N I.m⟩, b⟩
      ⟨cppInit I.N I.m, List.range I.n⟩ := by
    refine ⟨rfl, rfl, hb2, ?_, List.Perm.refl _⟩
    show (List.range I.n).map b.val = List.range I.n
    conv_rhs => rw [← List.map_id (List.range I.n)]
    exact List.map_congr_left fun i hi => hb3 i (List.mem_range.1 hi)
  have hsucc : ∀ i : ℕ, i < 2147483647 → cInt ((i : ℤ) + 1) = .ok ((i + 1 : ℕ) : ℤ) := fun i hi => by
    rw [Nat.cast_succ]
    exact cInt_ok (by omega) (by omega)
  -- rows of one scenario
  obtain ⟨st₁, e1, hst₁⟩ := loop_holds (C := cppCompute srt (memA I) (memB I)) (Nat.zero_le I.N) hN
    (fun s => (List.range I.m).flatMap fun i => (pyRange (i + 1) I.m 1).map fun l =>
      mkOp I.N I.n I.m s i s l)
    (fun b => (List.range b).flatMap fun s => (List.range I.m).flatMap fun i =>
      (pyRange (i + 1) I.m 1).map fun l => mkOp I.N I.n I.m s i s l) rfl
    (fun j _ => by rw [List.range_succ, List.flatMap_append]; simp)
    (body := fun s st => andGoOn (cForUp 0 I.m (fun i st => andGoOn (do
      let l ← cInt (i + 1)
      cForUp l I.m (fun l st => memBody srt ⟨I.N * I.m * I.n, memA I⟩ ⟨I.N * I.m, memB I⟩ I.N I.n I.m
        s s i l st) st)) st))
    (fun s st st' _ hs hst => by
      obtain ⟨st₁, e, h⟩ := loop_holds (C := cppCompute srt (memA I) (memB I)) (Nat.zero_le I.m) hm
        (fun i => (pyRange (i + 1) I.m 1).map fun l => mkOp I.N I.n I.m s i s l)
        (fun b => (List.range b).flatMap fun i =>
          (pyRange (i + 1) I.m 1).map fun l => mkOp I.N I.n I.m s i s l) rfl
        (fun j _ => by rw [List.range_succ, List.flatMap_append]; simp)
        (body := fun i st => andGoOn (do
          let l ← cInt (i + 1)
          cForUp l I.m (fun l st => memBody srt ⟨I.N * I.m * I.n, memA I⟩ ⟨I.N * I.m, memB I⟩ I.N
            I.n I.m s s i l st) st))
        (fun i st st' _ hi hst => by
          obtain ⟨st₁, e, h⟩ := loop_holds (C := cppCompute srt (memA I) (memB I))
            (show i + 1 ≤ I.m from hi) hm
            (fun l => [mkOp I.N I.n I.m s i s l])
            (fun b => (pyRange (i + 1) b 1).map fun l => mkOp I.N I.n I.m s i s l)
            (by rw [pyRange_one_nil]; rfl)
            (fun j hj => by rw [pyRange_one_succ hj, List.map_append]; rfl)
            (body := fun l st => memBody srt ⟨I.N * I.m * I.n, memA I⟩ ⟨I.N * I.m, memB I⟩ I.N
              I.n I.m s s i l st)
            (fun l st st' _ hl hst => memBody_eq hst hA hn0 h1 h2 hn hs hs hi hl)
            st st' hst
          refine ⟨st₁, andGoOn_ok ?_, h⟩
          rw [hsucc i (by omega)]
          exact e)
        st st' hst
      exact ⟨st₁, andGoOn_ok e, h⟩)
    _ _ hstart
  -- rows of two scenarios
  obtain ⟨st₂, e2, hst₂⟩ := loop_holds (C := cppCompute srt (memA I) (memB I)) (Nat.zero_le I.N) hN
    (fun s => (pyRange (s + 1) I.N 1).flatMap fun t => (List.range I.m).flatMap fun i =>
      (List.range I.m).map fun l => mkOp I.N I.n I.m s i t l)
    (fun b => (List.range b).flatMap fun s => (pyRange (s + 1) I.N 1).flatMap fun t =>
      (List.range I.m).flatMap fun i => (List.range I.m).map fun l => mkOp I.N I.n I.m s i t l) rfl
    (fun j _ => by rw [List.range_succ, List.flatMap_append]; simp)
    (body := fun s st => andGoOn (do
      let t ← cInt (s + 1)
      cForUp t I.N (fun t st => andGoOn (cForUp 0 I.m (fun i st => andGoOn
        (cForUp 0 I.m (fun l st => memBody srt ⟨I.N * I.m * I.n, memA I⟩ ⟨I.N * I.m, memB I⟩ I.N I.n
          I.m s t i l st) st)) st)) st))
    (fun s st st' _ hs hst => by
      obtain ⟨st₁, e, h⟩ := loop_holds (C := cppCompute srt (memA I) (memB I))
        (show s + 1 ≤ I.N from hs) hN
        (fun t => (List.range I.m).flatMap fun i => (List.range I.m).map fun l =>
          mkOp I.N I.n I.m s i t l)
        (fun b => (pyRange (s + 1) b 1).flatMap fun t => (List.range I.m).flatMap fun i =>
          (List.range I.m).map fun l => mkOp I.N I.n I.m s i t l)
        (by rw [pyRange_one_nil]; rfl)
        (fun j hj => by rw [pyRange_one_succ hj, List.flatMap_append]; simp)
        (body := fun t st => andGoOn (cForUp 0 I.m (fun i st => andGoOn
          (cForUp 0 I.m (fun l st => memBody srt ⟨I.N * I.m * I.n, memA I⟩ ⟨I.N * I.m, memB I⟩ I.N I.n
            I.m s t i l st) st)) st))
        (fun t st st' _ ht hst => by
          obtain ⟨st₁, e, h⟩ := loop_holds (C := cppCompute srt (memA I) (memB I)) (Nat.zero_le I.m) hm
            (fun i => (List.range I.m).map fun l => mkOp I.N I.n I.m s i t l)
            (fun b => (List.range b).flatMap fun i => (List.range I.m).map fun l =>
              mkOp I.N I.n I.m s i t l) rfl
            (fun j _ => by rw [List.range_succ, List.flatMap_append]; simp)
            (body := fun i st => andGoOn
              (cForUp 0 I.m (fun l st => memBody srt ⟨I.N * I.m * I.n, memA I⟩ ⟨I.N * I.m, memB I⟩
                I.N I.n I.m s t i l st) st))
            (fun i st st' _ hi hst => by
              obtain ⟨st₁, e, h⟩ := loop_holds (C := cppCompute srt (memA I) (memB I))
                (Nat.zero_le I.m) hm
                (fun l => [mkOp I.N I.n I.m s i t l])
                (fun b => (List.range b).map fun l => mkOp I.N I.n I.m s i t l) rfl
                (fun j _ => by rw [List.range_succ, List.map_append]; rfl)
                (body := fun l st => memBody srt ⟨I.N * I.m * I.n, memA I⟩ ⟨I.N * I.m, memB I⟩ I.N
                  I.n I.m s t i l st)
                (fun l st st' _ hl hst => memBody_eq hst hA hn0 h1 h2 hn hs ht hi hl)
                st st' hst
              exact ⟨st₁, andGoOn_ok e, h⟩)
            st st' hst
          exact ⟨st₁, andGoOn_ok e, h⟩)
        st st' hst
      refine ⟨st₁, andGoOn_ok ?_, h⟩
      rw [hsucc s (by omega)]
      exact e)
    _ _ hst₁
  have hfin : st₂.viols = ⟨I.N * I.N * I.m, cppComputeAll srt (memA I) (memB I) I.N I.n I.m
      (cppInit I.N I.m)⟩ := by
    have a1 := hst₂.size
    have a2 := hst₂.val
    rw [← List.foldl_append] at a2
    unfold cppComputeAll
    rw [cppOps1_eq, cppOps2_eq, ← a2, ← a1]
  unfold memComputeAll
  simp only [bind, Except.bind]
  rw [show ((0 : ℕ) : ℤ) = 0 from rfl] at hb1 e1 e2
  simp only [bind, Except.bind] at e1 e2
  rw [hb1]
  simp only
  rw [e1]
  simp only
  rw [e2]
  simp only [pure, Except.pure, hfin]

/-- **C92.** With non-negative data and at most `2^31` elements in each array, the compiled routine
uses no `int` outside its 32 bits, accesses no array outside its bounds, gives `std::sort` a strict
weak order and ends; its result is that of `compute_all_violations` in C45 and C46, in the order
`[s, t, i]` of an array of shape `(N, N, m)`. -/
theorem C92_memory_safe (srt : CppSort) (I : Inst) (hN : 0 < I.N) (hm : 0 < I.m) (hn : 0 < I.n)
    (hA : ∀ s < I.N, ∀ i < I.m, ∀ j < I.n, 0 ≤ I.A s i j) (h1 : I.N * I.N * I.m ≤ 2 ^ 31)
    (h2 : I.N * I.m * I.n ≤ 2 ^ 31) (h3 : I.m < 2 ^ 31) (h4 : I.n < 2 ^ 31) :
    ∃ out f, memViolations srt I = .ok out ∧ out.size = I.N * I.N * I.m
      ∧ cppViolations srt I = .ok f
      ∧ ∀ s < I.N, ∀ t < I.N, ∀ i < I.m, out.val (s * (I.N * I.m) + t * I.m + i) = f s t i := by
  norm_num at h1 h2 h3 h4
  have h5 : I.N < 2147483648 := by
    have a1 : I.N * I.N ≤ I.N * I.N * I.m := Nat.le_mul_of_pos_right _ hm
    by_contra h
    push Not at h
    have := Nat.mul_le_mul h h
    omega
  refine ⟨⟨_, cppComputeAll srt (memA I) (memB I) I.N I.n I.m (cppInit I.N I.m)⟩, _, ?_, rfl,
    if_neg (by omega), fun _ _ _ _ _ _ => rfl⟩
  unfold memViolations
  rw [if_neg (by omega), if_neg (by omega)]
  exact memComputeAll_eq srt I hA hn h1 (by omega) h5 h3 h4

/-! ## The limit -/

theorem andGoOn_inv {σ : Type} {r : CM σ} {q : σ × Bool} (h : andGoOn r = .ok q) :
    r = .ok q.1 ∧ q.2 = false := by
  unfold andGoOn at h
  cases r with
  | error e => cases h
  | ok s => cases h; exact ⟨rfl, rfl⟩

theorem memBody_false {srt : CppSort} {lhs rhs : Buf ℚ} {k n m s t i l : ℤ} {st : MemState}
    {q : MemState × Bool} (h : memBody srt lhs rhs k n m s t i l st = .ok q) : q.2 = false := by
  unfold memBody at h
  simp only [bind, Except.bind, pure, Except.pure] at h
  repeat (split at h; · cases h)
  cases h
  rfl

/-- **C92 (limit).** With at least two constraints per scenario the limit is sharp: if the routine
comes to its end, all offsets fit in 32 bits. -/
theorem C92_limit (srt : CppSort) (I : Inst) (hm : 2 ≤ I.m)
    (hA : ∀ s < I.N, ∀ i < I.m, ∀ j < I.n, 0 ≤ I.A s i j) :
    (∃ out, memViolations srt I = .ok out) ↔
      (0 < I.N ∧ 0 < I.n) ∧ (I.N < 2 ^ 31 ∧ I.m < 2 ^ 31 ∧ I.n < 2 ^ 31)
        ∧ I.N * I.N * I.m ≤ 2 ^ 31 ∧ I.N * I.m * I.n < 2 ^ 31 + I.n := by
  norm_num only
  constructor
  · rintro ⟨out, h⟩
    unfold memViolations at h
    split at h
    · cases h
    split at h
    · cases h
    rename_i h0 h0'
    refine ⟨⟨by omega, by omega⟩, ⟨by omega, by omega, by omega⟩, ?_⟩
    unfold memComputeAll at h
    simp only [bind, Except.bind] at h
    split at h
    · cases h
    split at h
    · cases h
    rename_i b _ st h1
    obtain ⟨st₁, r₁, h2⟩ := cForUp_visits (a := 0) (fun j s r hr => (andGoOn_inv hr).2) h1
      (j := I.N - 1) (by omega) (by omega)
    obtain ⟨st₂, r₂, h3⟩ := cForUp_visits (a := 0) (fun j s r hr => (andGoOn_inv hr).2)
      (andGoOn_inv h2).1 (j := I.m - 2) (by omega) (by omega)
    have h4 := (andGoOn_inv h3).1
    split at h4
    · cases h4
    rename_i z hz
    obtain ⟨rfl, -⟩ := cInt_bound hz
    rw [show ((I.m - 2 : ℕ) : ℤ) + 1 = ((I.m - 1 : ℕ) : ℤ) by omega] at h4
    obtain ⟨st₃, r₃, h5⟩ := cForUp_visits (fun j s r hr => memBody_false hr) h4
      (j := I.m - 1) (by omega) (by omega)
    have hN1 : (((I.N - 1 : ℕ) : ℤ)) = (I.N : ℤ) - 1 := by omega
    have hm1 : (((I.m - 1 : ℕ) : ℤ)) = (I.m : ℤ) - 1 := by omega
    unfold memBody at h5
    simp only [bind, Except.bind] at h5
    split at h5
    · cases h5
    split at h5
    · cases h5
    rename_i z2 hz2
    split at h5
    · cases h5
    split at h5
    · cases h5
    split at h5
    · cases h5
    rename_i z5 hz5
    clear h5
    constructor
    · unfold violPtr at hz2
      simp only [bind, Except.bind] at hz2
      split at hz2
      · cases hz2
      rename_i a1 ha1
      obtain ⟨rfl, -⟩ := cInt_bound ha1
      split at hz2
      · cases hz2
      rename_i a2 ha2
      obtain ⟨rfl, -⟩ := cInt_bound ha2
      split at hz2
      · cases hz2
      rename_i a3 ha3
      obtain ⟨rfl, -⟩ := cInt_bound ha3
      split at hz2
      · cases hz2
      rename_i a4 ha4
      obtain ⟨rfl, -⟩ := cInt_bound ha4
      split at hz2
      · cases hz2
      rename_i a5 ha5
      obtain ⟨-, -, h6⟩ := cInt_bound ha5
      rw [hN1, hm1] at h6
      have : ((I.N * I.N * I.m : ℕ) : ℤ) ≤ 2147483648 := by
        push_cast
        linarith
      exact_mod_cast this
    · unfold lhsPtr at hz5
      simp only [bind, Except.bind] at hz5
      split at hz5
      · cases hz5
      rename_i a1 ha1
      obtain ⟨rfl, -⟩ := cInt_bound ha1
      split at hz5
      · cases hz5
      rename_i a2 ha2
      obtain ⟨rfl, -⟩ := cInt_bound ha2
      split at hz5
      · cases hz5
      rename_i a3 ha3
      obtain ⟨rfl, -⟩ := cInt_bound ha3
      split at hz5
      · cases hz5
      rename_i a4 ha4
      obtain ⟨-, -, h6⟩ := cInt_bound ha4
      rw [hN1, hm1] at h6
      have : ((I.N * I.m * I.n : ℕ) : ℤ) < 2147483648 + (I.n : ℕ) := by
        push_cast
        linarith
      exact_mod_cast this
  · rintro ⟨⟨a1, a2⟩, ⟨a3, a4, a5⟩, a6, a7⟩
    unfold memViolations
    rw [if_neg (by omega), if_neg (by omega)]
    exact ⟨_, memComputeAll_eq srt I hA a2 a6 a7 a3 a4 a5⟩

/-- A case of C92: the limits hold and the routine in memory gives the value of C46. -/
example : exViol.N * exViol.N * exViol.m ≤ 2 ^ 31 ∧ exViol.N * exViol.m * exViol.n ≤ 2 ^ 31
    ∧ (memViolations .default exViol).toOption.map (fun b => (b.size, b.val 2))
      = some (8, ((1 / 50 : ℚ) : WithTop ℚ)) := by
  refine ⟨by decide, by decide, by decide +kernel⟩

/-- The largest experiments of the repository (5000 scenarios, 30 constraints, 40 variables) are
within the limits; 10000 scenarios are not. -/
example : 5000 * 5000 * 30 ≤ 2 ^ 31 ∧ 5000 * 30 * 40 ≤ 2 ^ 31 ∧ ¬ 10000 * 10000 * 30 ≤ 2 ^ 31 := by
  norm_num

/-- 10000 scenarios of 30 constraints on 40 variables, all coefficients one. -/
def exLarge : Inst :=
  { n := 40, N := 10000, m := 30, A := fun _ _ _ => 1, b := fun _ _ => 20, c := fun _ => 1
    proba := fun _ => 1 / 10000, eps := 1 / 10, cont := false }

/-- **C92 beyond the limit**: with 10000 scenarios of 30 constraints the routine has no defined
behaviour. -/
theorem C92_large_counterexample (srt : CppSort) :
    OneDecimal exLarge ∧ ¬ ∃ out, memViolations srt exLarge = .ok out := by
  refine ⟨⟨fun s _ i _ => ⟨by norm_num [exLarge], fun j _ => by norm_num [exLarge]⟩,
    fun s _ i _ => ⟨⟨200, by norm_num [exLarge]⟩, fun j _ => ⟨10, by norm_num [exLarge]⟩⟩⟩, ?_⟩
  rw [C92_limit srt exLarge (by decide) (fun s _ i _ j _ => by norm_num [exLarge])]
  rintro ⟨-, -, h, -⟩
  have h' : 10000 * 10000 * 30 ≤ 2 ^ 31 := h
  norm_num at h'

/-- Two scenarios with one constraint each and coefficients of both signs. -/
def exSigned : Inst :=
  { n := 3, N := 2, m := 1, A := fun s _ j => [1, 0, -1, 0, 1, -1].getD (3 * s + j) 0
    b := fun _ _ => 1, c := fun _ => 1, proba := fun _ => 1 / 2, eps := 1 / 2, cont := false }

/-- **C92 with negative coefficients**: the comparison is no strict weak order, so that `std::sort`
has no defined behaviour. -/
theorem C92_negative_counterexample :
    exSigned.N * exSigned.N * exSigned.m ≤ 2 ^ 31 ∧ exSigned.N * exSigned.m * exSigned.n ≤ 2 ^ 31
    ∧ (match memViolations .default exSigned with
      | .error e => decide (e = .badCompare)
      | .ok _ => false) = true := by
  refine ⟨by decide, by decide, by decide +kernel⟩

end Verif.Props
