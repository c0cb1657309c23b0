import Verif.Props.Certificates
import Verif.Props.Execution

/-!
# C38: warm start of the partitioned problem
-/

namespace Verif.Props
open Spec Model

variable {env : Env} {cfg : Cfg} {I : Inst} {rounds fuel : ℕ}

/-- The indices below `K` that are not deleted, in increasing order: the `k`-th one is the old
index of the subset at the new position `k`. -/
def survivors (deleted : List ℕ) (K : ℕ) : List ℕ := (List.range K).filter fun i => i ∉ deleted

theorem zStartLoop_spec (deleted : List ℕ) : ∀ (z pre : List ℚ),
    (zStartLoop deleted z pre.length (survivors deleted pre.length).length).Pairwise (· < ·)
    ∧ (∀ k ∈ zStartLoop deleted z pre.length (survivors deleted pre.length).length,
        (survivors deleted pre.length).length ≤ k)
    ∧ ∀ k, k ∈ zStartLoop deleted z pre.length (survivors deleted pre.length).length ↔
        (survivors deleted pre.length).length ≤ k
        ∧ ∃ i, (survivors deleted (pre ++ z).length)[k]? = some i ∧ (pre ++ z)[i]? = some 1
  | [], pre => by
    refine ⟨by simp [zStartLoop], by simp [zStartLoop], fun k => ?_⟩
    simp only [zStartLoop, List.not_mem_nil, List.append_nil, false_iff, not_and, not_exists]
    intro hk i hi
    rw [List.getElem?_eq_none hk] at hi
    cases hi
  | a :: z, pre => by
    have hsucc : survivors deleted (pre.length + 1)
        = survivors deleted pre.length ++ if pre.length ∉ deleted then [pre.length] else [] := by
      unfold survivors
      rw [List.range_succ, List.filter_append]
      by_cases h : pre.length ∈ deleted <;> simp [h]
    have ih := zStartLoop_spec deleted z (pre ++ [a])
    have hpre : (pre ++ [a]).length = pre.length + 1 := by simp
    have happ : pre ++ [a] ++ z = pre ++ a :: z := by simp
    rw [hpre, happ] at ih
    unfold zStartLoop
    by_cases hd : pre.length ∈ deleted
    · rw [if_neg (not_not.2 hd)]
      rw [hsucc, if_neg (not_not.2 hd), List.append_nil] at ih
      exact ih
    · rw [if_pos hd]
      rw [hsucc, if_pos hd, List.length_append, List.length_singleton] at ih
      obtain ⟨i1, i2, i3⟩ := ih
      -- the survivor at the current position
      have hpos : (survivors deleted (pre ++ a :: z).length)[(survivors deleted pre.length).length]?
          = some pre.length := by
        have hsplit : survivors deleted (pre ++ a :: z).length
            = survivors deleted (pre.length + 1)
              ++ ((List.range' (pre.length + 1) z.length).filter fun i => i ∉ deleted) := by
          unfold survivors
          rw [← List.filter_append]
          congr 1
          have hl : (pre ++ a :: z).length = pre.length + 1 + z.length := by
            simp only [List.length_append, List.length_cons]
            omega
          rw [List.range_eq_range', List.range_eq_range', hl, ← List.range'_append_1, Nat.zero_add]
        rw [hsplit, hsucc, if_pos hd, List.append_assoc, List.getElem?_append_right le_rfl]
        simp
      refine ⟨?_, ?_, fun k => ?_⟩
      · refine List.pairwise_append.2 ⟨?_, i1, fun x hx y hy => ?_⟩
        · split <;> simp
        · have hy' := i2 y hy
          split at hx
          · rw [List.mem_singleton.1 hx]; omega
          · cases hx
      · intro k hk
        rcases List.mem_append.1 hk with hk | hk
        · split at hk
          · rw [List.mem_singleton.1 hk]
          · cases hk
        · exact (Nat.le_succ _).trans (i2 k hk)
      · rw [List.mem_append, i3 k]
        constructor
        · rintro (hk | ⟨hk, h⟩)
          · split at hk
            · next ha =>
              rw [List.mem_singleton.1 hk]
              exact ⟨le_rfl, pre.length, hpos, by simp [ha]⟩
            · cases hk
          · exact ⟨by omega, h⟩
        · rintro ⟨hk, i, h1, h2⟩
          rcases hk.lt_or_eq with hlt | heq
          · exact .inr ⟨hlt, i, h1, h2⟩
          · left
            subst heq
            rw [hpos] at h1
            cases h1
            have : a = 1 := by simpa using h2
            rw [if_pos this]
            exact List.mem_singleton.2 rfl

/-- **C38 (the function).** For every indicator vector and list of deleted subsets, `get_z_start`
sets to 1 exactly the positions, after deletion, of the subsets that are not deleted and had
indicator 1, each once. -/
theorem C38_z_start (z : List ℚ) (deleted : List ℕ) :
    ∃ keys, getZStart (some z) deleted = .ok keys ∧ keys.Pairwise (· < ·)
      ∧ ∀ k, k ∈ keys ↔ ∃ i, ((List.range z.length).filter fun i => i ∉ deleted)[k]? = some i
          ∧ z[i]? = some 1 := by
  obtain ⟨h1, -, h3⟩ := zStartLoop_spec deleted z []
  have h0 : survivors deleted 0 = [] := rfl
  simp only [List.length_nil, h0, List.nil_append, Nat.zero_le, true_and] at h1 h3
  exact ⟨_, rfl, h1, h3⟩

/-- Five subsets of which the second and third are deleted: the indicators of the others move to
the positions 0, 1, 2. -/
example : getZStart (some [1, 1, 0, 0, 1]) [1, 2] = .ok [0, 2] := by decide +kernel

/-- **C38 (runs).** At the start of every iteration of every run, the warm start only refers to
indicators of the current partition.  Missing from the full claim: that the deleted subsets are
those of the last iteration, which is false (`C38_stale_counterexample`). -/
theorem C38_keys_valid_partial (hC : Contract env I) (hS : Strong env cfg I rounds)
    (r : Except PyErr (Bool × Gap)) (s : St) (h : run env cfg I rounds fuel = .ok (r, s))
    (hr : BetweenIterations r) (keys : List ℕ) (hk : getZStart s.zUB s.deleted = .ok keys) :
    ∀ k ∈ keys, k < s.partition.length := by
  have key : ∃ s', s'.zUB = s.zUB ∧ s'.partition = s.partition ∧ LInv env cfg I rounds s' := by
    obtain ⟨h1, h2⟩ := run_bounds hC h
    cases r with
    | error e =>
      have he := hr e rfl
      subst he
      rcases (h2 _ rfl).2 hS with (⟨h3, -⟩ | ⟨h3, -⟩ | ⟨h3, -⟩) | h3
      · cases h3
      · cases h3
      · cases h3
      · exact ⟨s, rfl, rfl, h3.2⟩
    | ok q =>
      obtain ⟨s', -, a2, -, -, -, -, a7, -, a9⟩ := (h1 q rfl).before
      exact ⟨s', a9.symm, a7.symm, a2⟩
  obtain ⟨s', k1, k2, hl⟩ := key
  cases hz : s.zUB with
  | none => rw [hz] at hk; cases hk
  | some z =>
    rw [hz] at hk
    cases hk
    intro k hk
    have h1 := zStartLoop_lt s.deleted z 0 0 k hk
    have h2 := hl.zlen z (k1.trans hz)
    rw [k2] at h2
    omega

/-- What the warm start of the next iteration depends on. -/
structure Warm where
  partition : List (List ℕ)
  didMerge : Bool
  deleted : List ℕ
  zUB : Option (List ℚ)
  keys : Option (List ℕ)
  deriving DecidableEq

def warmAt : PyM (Except PyErr (Bool × Gap) × St) → Option Warm
  | .error _ => none
  | .ok (_, s) => some ⟨s.partition, s.didMerge, s.deleted, s.zUB,
      (getZStart s.zUB s.deleted).toOption⟩

/-- A run that is stopped after two iterations: the hypotheses hold, the last merge deleted the
subset at position 2 and the warm start sets the indicator at position 1 of two. -/
example : Contract (exactEnv exNorm 1) exPairs ∧ Strong (exactEnv exNorm 1) exCfg exPairs 10
    ∧ warmAt (run (exactEnv exNorm 1) exCfg exPairs 10 2)
      = some ⟨[[0, 3], [1, 2]], true, [2], some [0, 1], some [1]⟩ :=
  ⟨exPairs_contract, exPairs_strong, by decide +kernel⟩

/-- Five scenarios, at most one item that fits (weight 1). -/
def exStale : Inst :=
  { n := 4, N := 5, m := 1
    A := fun s _ j => (([[1, 1, 1, 2], [2, 2, 2, 1], [2, 2, 1, 1], [1, 1, 1, 1],
      [1, 1, 2, 2]] : List (List ℚ)).getD s []).getD j 0
    b := fun _ _ => 1, c := fun j => if j < 2 then 1 else 3
    proba := fun _ => 1 / 5, eps := 1 / 5, cont := false }

/-- **C38 fails: the list of deleted subsets is stale.**  The first iteration merges and deletes
the subset at position 1.  The second one does not merge; the subset at position 1, `{4}`, which
was satisfied, is kept at its position.  The warm start still drops it, because the list of the
first iteration is used. -/
theorem C38_stale_counterexample :
    warmAt (run (exactEnv exNorm 1) exCfg exStale 10 1)
      = some ⟨[[0, 2, 1, 3], [4]], true, [1], some [0, 1], some []⟩
    ∧ warmAt (run (exactEnv exNorm 1) exCfg exStale 10 2)
      = some ⟨[[2, 0], [4], [1, 3]], false, [1], some [0, 1], some []⟩
    ∧ getZStart (some [0, 1]) [] = .ok [1] := by
  refine ⟨?_, ?_, ?_⟩ <;> decide +kernel

end Verif.Props
