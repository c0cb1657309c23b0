import Verif.Props.Feasibility
import Verif.Props.Generator
import Verif.Lemmas.BigM

/-!
# C04, C72: every file, not only well-formed ones

What a file that is read without an exception must contain, and where each number of the instance
comes from.
-/

namespace Verif.Props

open Spec Model

theorem getRow_inv {file : List (List ℚ)} {k : ℕ} {r : List ℚ} (h : getRow file k = .ok r) :
    file[k]? = some r := by
  unfold getRow at h
  split at h
  · cases h; assumption
  · cases h

theorem infoAt_inv {info : List ℚ} {k v : ℕ} (h : infoAt info k = .ok v) :
    ∃ q, info[k]? = some q ∧ v = ⌊q⌋₊ := by
  unfold infoAt at h
  split at h
  · cases h; exact ⟨_, by assumption, rfl⟩
  · cases h

/-- **C04.** Where the numbers of an instance come from, for every file that is read without an
exception: the first row starts with the numbers of items, constraints and scenarios, of which the
decimals are cut off; the objective is the second row; constraint `i` of scenario `s` is row
`2 + s * m + i`; the capacities are the last row, the same for all scenarios, and a last row with a
single number is used for all constraints.  All data are rounded to one decimal.  There is at least
one scenario, and all rows of the constraints have the same length. -/
theorem C04_parsed_data {file : List (List ℚ)} {cv : Bool} {eps : ℚ} {I : Inst}
    (h : parse file cv eps = .ok I) :
    (∃ info q₀ q₁ q₂, file[0]? = some info ∧ info[0]? = some q₀ ∧ info[1]? = some q₁
      ∧ info[2]? = some q₂ ∧ I.n = ⌊q₀⌋₊ ∧ I.m = ⌊q₁⌋₊ ∧ I.N = ⌊q₂⌋₊)
    ∧ 0 < I.N ∧ I.cont = cv ∧ I.eps = eps ∧ (∀ s, I.proba s = 1 / (I.N : ℚ))
    ∧ (∃ r, file[1]? = some r ∧ ∀ j q, r[j]? = some q → I.c j = round1 q)
    ∧ (∃ len, ∀ s < I.N, ∀ i < I.m, ∃ r, file[2 + s * I.m + i]? = some r ∧ r.length = len
        ∧ ∀ j q, r[j]? = some q → I.A s i j = round1 q)
    ∧ (∃ r, file.getLast? = some r
        ∧ ((r.length = I.m ∧ ∀ s, ∀ i q, r[i]? = some q → I.b s i = round1 q)
          ∨ (∃ q, r = [q] ∧ ∀ s i, I.b s i = round1 q))) := by
  unfold parse at h
  simp only [bind, Except.bind, pure, Except.pure, throw, throwThe, MonadExceptOf.throw] at h
  repeat' split at h
  all_goals first
    | (cases h; done)
    | skip
  all_goals
    rename_i info hinfo _ n hn _ N hN _ m hm _ c hc _ rows hrows hlen _ last hl hlast hN0 hone
    simp only [Except.ok.injEq] at h
    subst h
    obtain ⟨q₀, a₀, rfl⟩ := infoAt_inv hn
    obtain ⟨q₁, a₁, rfl⟩ := infoAt_inv hm
    obtain ⟨q₂, a₂, rfl⟩ := infoAt_inv hN
    have hvec : ∀ (r : List ℚ) (j : ℕ) (q : ℚ), r[j]? = some q → rowVec r j = q := by
      intro r j q hq
      simp [rowVec, List.getD_eq_getElem?_getD, hq]
    refine ⟨⟨info, q₀, q₁, q₂, getRow_inv hinfo, a₀, a₁, a₂, rfl, rfl, rfl⟩, Nat.pos_of_ne_zero hN0,
      rfl, rfl, fun _ => rfl, ⟨c, getRow_inv hc, fun j q hq => ?_⟩,
      ⟨(rows.flatten.headD []).length, fun s hs i hi => ?_⟩, ⟨last, hl, ?_⟩⟩
    · show round1 (rowVec c j) = _
      rw [hvec _ _ _ hq]
    · have hs' : s < ⌊q₂⌋₊ := hs
      have hi' : i < ⌊q₁⌋₊ := hi
      obtain ⟨b1, b2⟩ := mapM_range_inv _ _ rows [] hrows
      obtain ⟨b3, b4⟩ := mapM_range_inv _ _ (rows.getD s []) [] (b2 s hs)
      refine ⟨_, getRow_inv (b4 i hi), ?_, fun j q hq => ?_⟩
      · refine not_not.1 hlen _ (List.mem_flatten.2 ⟨rows.getD s [], ?_, ?_⟩)
        · rw [List.getD_eq_getElem _ _ (by omega)]; exact List.getElem_mem _
        · rw [List.getD_eq_getElem (rows.getD s []) _ (by omega)]; exact List.getElem_mem _
      · show round1 (rowVec _ j) = _
        rw [hvec _ _ _ hq]
  · obtain ⟨q, rfl⟩ := List.length_eq_one_iff.1 hone
    exact Or.inr ⟨q, rfl, fun s i => rfl⟩
  · refine Or.inl ⟨(not_not.1 hlast).resolve_right hone, fun s i q hq => ?_⟩
    show round1 (rowVec last i) = _
    rw [hvec _ _ _ hq]

/-- A file with sizes that are no whole numbers and one capacity for two constraints is read. -/
example : (parse [[27 / 10, 2, 19 / 10], [1, 1 / 4], [1, 2], [3, 4], [5]] true (1 / 10)).map
      (fun I => (I.n, I.N, I.c 1, I.A 0 1 0, I.b 0 0, I.b 0 1))
    = .ok (2, 1, 1 / 5, 3, 5, 5) := by
  decide +kernel

theorem sizeAt_inv {row : List ℚ} {k v : ℕ} (h : sizeAt row k = .ok v) :
    row[k]? = some (v : ℚ) := by
  unfold sizeAt at h
  split at h
  · rename_i q hq
    split at h
    · rename_i hc
      cases h
      rw [hq]
      congr 1
      have h0 : 0 ≤ q.num := Rat.num_nonneg.2 hc.2
      conv_lhs => rw [← Rat.num_div_den q, hc.1]
      rw [Nat.cast_one, div_one]
      exact_mod_cast (Int.toNat_of_nonneg h0).symm
    · cases h
  · cases h

/-- **C72.** Every file of the generator, whatever it was given: if it does not raise an exception,
the first row of its input starts with two whole numbers, these are the numbers of items and
constraints in the names and first rows of all files it writes, and each of them has the input's
second row as objective and the row after the constraints as capacities. -/
theorem C72_sizes_whole {file : List (List ℚ)} {N K : ℕ} {d : Draws}
    {files : List (Txt × List (List ℚ))} (h : generate file N K d = .ok files) :
    ∃ (n m : ℕ) (info c b : List ℚ), file[0]? = some info ∧ info[0]? = some (n : ℚ)
      ∧ info[1]? = some (m : ℚ) ∧ file[1]? = some c ∧ file[2 + m]? = some b
      ∧ files.length = K
      ∧ ∀ k < K, ∃ rows, files[k]? = some (instancePath [] (knapName n m) N (k + 1), rows)
        ∧ rows[0]? = some [(n : ℚ), (m : ℚ), (N : ℚ)] ∧ rows[1]? = some c
        ∧ rows.getLast? = some b ∧ rows.length = 3 + N * m
        ∧ ∀ s < N, ∀ i < m, ∃ r, rows[2 + s * m + i]? = some r ∧ r.length = n := by
  unfold generate at h
  simp only [bind, Except.bind, pure, Except.pure, throw, throwThe, MonadExceptOf.throw] at h
  repeat' split at h
  all_goals first
    | (cases h; done)
    | skip
  rename_i info hinfo _ n hn _ m hm _ c hc hlen _ b hb hshort
  simp only [Except.ok.injEq] at h
  subst h
  refine ⟨n, m, info, c, b, getRow_inv hinfo, sizeAt_inv hn, sizeAt_inv hm, getRow_inv hc,
    getRow_inv hb, by simp, fun k hk => ⟨genRows n m N c b d (k + 1), ?_, rfl, rfl, ?_, ?_, ?_⟩⟩
  · rw [List.getElem?_map, List.getElem?_range' hk]
    have hk1 : 1 + 1 * k = k + 1 := by omega
    rw [hk1]
    simp [genName, instancePath, knapName]
  · unfold genRows
    rw [List.getLast?_append]
    rfl
  · have hf : ∀ f : ℕ → ℕ → List ℚ,
        (((List.range N).map fun s => (List.range m).map (f s)).flatten).length = N * m := by
      intro f
      rw [List.length_flatten, List.map_map]
      have : (List.range N).map (List.length ∘ fun s => (List.range m).map (f s))
          = (List.range N).map fun _ => m := List.map_congr_left fun s _ => by simp
      rw [this]; simp
    unfold genRows
    rw [List.length_append, List.length_append, hf]
    simp only [List.length_cons, List.length_nil]
    omega
  · intro s hs i hi
    refine ⟨(List.range n).map fun j => genEntry (d.normal (k + 1) i j s) (d.fails (k + 1) j s), ?_,
      by simp⟩
    have hfl := flatten_const_getElem (fun s => (List.range m).map fun i => (List.range n).map fun j =>
      genEntry (d.normal (k + 1) i j s) (d.fails (k + 1) j s)) m N (fun s _ => by simp) hs hi
    have hl : s * m + i < (((List.range N).map fun s => (List.range m).map fun i =>
        (List.range n).map fun j => genEntry (d.normal (k + 1) i j s)
          (d.fails (k + 1) j s)).flatten).length := by
      by_contra hc
      rw [List.getElem?_eq_none (by omega)] at hfl
      simp [hi] at hfl
    unfold genRows
    rw [List.append_assoc, List.getElem?_append_right (by simp; omega), List.getElem?_append_left
      (by simpa [Nat.add_assoc] using hl)]
    have : 2 + s * m + i - [[(n : ℚ), (m : ℚ), (N : ℚ)], c].length = s * m + i := by
      simp; omega
    rw [this, hfl]
    simp [hi]

/-- Sizes that are no whole numbers are refused. -/
example : generate [[5 / 2, 1], [2, 2, 3], [4, 5, 6], [10]] 2 2 ⟨fun _ _ _ _ => 1, fun _ _ _ => false⟩
    = .error .valueError := by
  decide +kernel

example : (generate exOrLib 2 2 ⟨fun _ _ _ _ => 1, fun _ _ _ => false⟩).isOk = true := by
  decide +kernel

end Verif.Props
