import Verif.Lemmas.Exec
import Verif.Props.Merge
import Verif.Props.Refine
import Verif.Props.Trajectory

/-!
# C34, C35, C37: a refinement followed by a merge
-/

namespace Verif.Props
open Spec Model

/-! ## Counting -/

theorem countP_getD {α : Type} (P : List α) (d : α) (f : α → Bool) :
    P.countP f = (List.range P.length).countP fun c => f (P.getD c d) := by
  have h : P = (List.range P.length).map fun c => P.getD c d := by
    refine List.ext_getElem (by simp) fun i h1 h2 => ?_
    rw [List.getElem_map, List.getElem_range, List.getD_eq_getElem _ _ h1]
  conv_lhs => rw [h]
  rw [List.countP_map]
  rfl

/-- The number of violated subsets before and after merging the subsets `cs` into one. -/
theorem countP_mergeAll {P : List (List ℕ)} {cs : List ℕ} {m : MState} (hne : cs ≠ [])
    (hnd : cs.Nodup) (hlt : ∀ c ∈ cs, c < P.length) (hm : mergeAll P cs = .ok m)
    (r : ℕ → Bool) :
    m.partition.countP (fun p => p.any r) + cs.countP (fun c => (P.getD c []).any r)
      = P.countP (fun p => p.any r) + if cs.any fun c => (P.getD c []).any r then 1 else 0 := by
  obtain ⟨st, merged, h1, h2, h3, h4⟩ := mergeAll_perm hne hnd hlt
  rw [hm] at h1
  cases h1
  rw [h2.countP_eq, h4.countP_eq, List.countP_append, List.countP_cons, List.countP_map]
  have h5 : merged.any r = cs.any fun c => (P.getD c []).any r := by
    rw [Bool.eq_iff_iff, List.any_eq_true, List.any_eq_true]
    constructor
    · rintro ⟨s, hs, hr⟩
      have := h3.mem_iff.1 hs
      rw [List.mem_flatten] at this
      obtain ⟨p, hp, hsp⟩ := this
      obtain ⟨c, hc, rfl⟩ := List.mem_map.1 hp
      exact ⟨c, hc, List.any_eq_true.2 ⟨s, hsp, hr⟩⟩
    · rintro ⟨c, hc, hr⟩
      obtain ⟨s, hs, hr⟩ := List.any_eq_true.1 hr
      exact ⟨s, h3.mem_iff.2 (List.mem_flatten.2 ⟨_, List.mem_map.2 ⟨c, hc, rfl⟩, hs⟩), hr⟩
  rw [h5]
  simp only [Function.comp_def]
  omega

/-- A point that violates all new subsets violates at least `mu` subsets more than before. -/
theorem countP_new {N : ℕ} {q r : ℕ → Bool} {P : List (List ℕ)} {st : RState}
    (h : RInv N q P st) (hr : ∀ c ∈ st.newSubsets, (st.partition.getD c []).any r = true) :
    P.countP (fun p => p.any r) + st.muCounter ≤ st.partition.countP fun p => p.any r := by
  rw [countP_getD P [], countP_getD st.partition [], h.len]
  have h1 : List.range (P.length + st.muCounter)
      = List.range P.length ++ List.range' P.length st.muCounter := by
    rw [List.range_eq_range', List.range_eq_range', List.range'_eq_append_iff]
    exact ⟨P.length, by omega, rfl, by simp⟩
  rw [h1, List.countP_append]
  have h2 : (List.range' P.length st.muCounter).countP (fun c => (st.partition.getD c []).any r)
      = st.muCounter := by
    have : (List.range' P.length st.muCounter).countP (fun c => (st.partition.getD c []).any r)
        = (List.range' P.length st.muCounter).length := by
      rw [List.countP_eq_length]
      intro c hc
      rw [← h.newIdx] at hc
      exact hr c (List.mem_filter.1 hc).1
    rw [this, List.length_range']
  rw [h2]
  refine Nat.add_le_add_right (List.countP_mono_left fun c hc hcr => ?_) _
  by_cases hn : c ∈ st.newSubsets
  · exact hr c hn
  · rw [h.same c (List.mem_range.1 hc) hn]; exact hcr

/-! ## What happens in an iteration -/

/-- One of the refiners returned `out` for the partition `P` and the point `x`: the random
refiner with any random outcome, or the cost refiner with any answers of the solver that give valid
splits (for non-negative capacities all do: `splitter_any`) and any memory built by earlier calls. -/
inductive RefineCall (norm : Norm) (I : Inst) (P : List (List ℕ)) (x : Vec) (out : RefineOut) : Prop
  | random (sh : ℕ → Shuffle) (fuel : ℕ)
      (call : refineRandom I (checkFeasibility norm I x) sh false fuel P = .ok out)
  | cost (solve : ℕ → GModel → GResult) (argsort : Argsort) (costs : List ℚ) (vUB : WithTop ℚ)
      (mem mem' : Memory) (fuel : ℕ) (splits : Splitter I (fun _ _ => True) solve)
      (hcosts : costs.length = P.length) (hmem : SplitHistory norm I mem)
      (call : refineCost I (checkFeasibility norm I x) solve argsort costs vUB mem fuel P
        = .ok (out, mem'))

/-- `_merge` merged the refined partition into `m.partition`: all feasible subsets and one other
subset `t` if there are `mu` feasible ones, or the `mu + 1` selected by `merge_feasible`
(src/solver/AdaptivePartitioner.py:178-202, 230-239). -/
inductive MergeCall (norm : Norm) (I : Inst) (x : Vec) (out : RefineOut) (m : MState) : Prop
  | all (t : ℕ) (hlen : out.feasibleSubsets.length = out.mu) (ht : t < out.partition.length)
      (hn : t ∉ out.feasibleSubsets)
      (call : mergeAll out.partition (out.feasibleSubsets ++ [t]) = .ok m)
  | best (D : PartData) (hlen : out.mu + 1 ≤ out.feasibleSubsets.length)
      (hD : loadPartition I out.partition.length out.partition = .ok D)
      (call : mergeFeasible norm (partCI I D) out.partition x out.feasibleSubsets out.mu = .ok m)

theorem RefineCall.ok {norm : Norm} {I : Inst} {P : List (List ℕ)} {x : Vec} {out : RefineOut}
    (h : RefineCall norm I P x out) (hP : ToRefine I P x) :
    RefineOk I (fun s => decide (ViolBy I feasTol s x)) P out := by
  cases h with
  | random sh fuel call =>
    obtain ⟨out', h1, h2⟩ := refineRandom_ok (sh := sh) (fuel := fuel + (kmax I + 1)) hP.eps
      (marks_check norm I x) hP.part (by rw [countP_any_violBy]; exact hP.feas)
      (by rw [countP_violBy]; exact hP.infeas) (by omega)
    have h3 := refineRandom_mono call (f' := fuel + (kmax I + 1)) (by omega)
    rw [h3] at h1
    cases h1
    exact h2
  | cost solve argsort costs vUB mem mem' fuel hsolve hcosts hmem call =>
    obtain ⟨out', mem'', h1, h2, -⟩ := refineCost_split (norm := norm) (argsort := argsort)
      (vUB := vUB) (fuel := fuel + (kmax I + 1)) hP hsolve hcosts (memHist_ok hmem) (by omega)
    have h3 := refineCost_mono call (f' := fuel + (kmax I + 1)) (by omega)
    rw [h3] at h1
    cases h1
    exact h2

/-- The merged group: `mu + 1` distinct subsets, all of them feasible or all feasible ones and
another. -/
structure Group (q : ℕ → Bool) (out : RefineOut) (m : MState) (cs : List ℕ) : Prop where
  nodup : cs.Nodup
  len : cs.length = out.mu + 1
  lt : ∀ c ∈ cs, c < out.partition.length
  kind : (∀ c ∈ cs, (out.partition.getD c []).any q = false)
    ∨ ∃ t, (out.partition.getD t []).any q = true ∧ cs = out.feasibleSubsets ++ [t]
  call : mergeAll out.partition cs = .ok m

theorem MergeCall.group {norm : Norm} {I : Inst} {P : List (List ℕ)} {x : Vec} {q : ℕ → Bool}
    {out : RefineOut} {m : MState} (h : MergeCall norm I x out m) (hr : RefineOk I q P out) :
    ∃ cs, Group q out m cs := by
  have hnd : out.feasibleSubsets.Nodup := hr.feasSorted.imp fun h => h.ne
  have hlt : ∀ c ∈ out.feasibleSubsets, c < out.partition.length :=
    fun c hc => ((hr.feasible c).1 hc).1
  cases h with
  | all t hlen ht hn call =>
    refine ⟨_, ?_, by simp [hlen], ?_, .inr ⟨t, ?_, rfl⟩, call⟩
    · rw [List.nodup_append]
      exact ⟨hnd, by simp, fun a ha b hb => by
        rw [List.mem_singleton.1 hb]; rintro rfl; exact hn ha⟩
    · intro c hc
      rcases List.mem_append.1 hc with hc | hc
      · exact hlt c hc
      · rw [List.mem_singleton.1 hc]; exact ht
    · by_contra hf
      exact hn ((hr.feasible t).2 ⟨ht, by simpa using hf⟩)
  | best D hlen hD call =>
    obtain ⟨st, hst, -, hp, -⟩ := hr.inv
    obtain ⟨st', top, e1, e2, e3, e4, e5, -⟩ := C31_merge_feasible norm I out.partition
      (by rw [hp]; exact hst.part.2) D hD x out.feasibleSubsets hlt out.mu
      (by rw [hnd.dedup]; exact hlen)
    rw [call] at e1
    cases e1
    exact ⟨top, e2, e3, fun c hc => hlt c (e4 c hc),
      .inl fun c hc => ((hr.feasible c).1 (e4 c hc)).2, e5⟩

theorem length_filter_range (n : ℕ) (f : ℕ → Bool) :
    ((List.range n).filter f).length = (List.range n).countP f :=
  List.countP_eq_length_filter.symm

/-- The number of feasible subsets after a refinement. -/
theorem length_feasible {I : Inst} {q : ℕ → Bool} {P : List (List ℕ)} {out : RefineOut}
    (hr : RefineOk I q P out) :
    out.feasibleSubsets.length + (kmax I + 1) = P.length + out.mu
      ∧ out.partition.countP (fun p => p.any q) = kmax I + 1
      ∧ out.partition.length = P.length + out.mu := by
  obtain ⟨st, hst, hmu, hp, -⟩ := hr.inv
  have h1 : out.feasibleSubsets.Perm ((List.range out.partition.length).filter
      fun c => !(out.partition.getD c []).any q) := by
    rw [List.perm_ext_iff_of_nodup (hr.feasSorted.imp fun h => h.ne) (List.nodup_range.filter _)]
    intro c
    rw [hr.feasible c]
    simp
  have h2 := h1.length_eq
  rw [length_filter_range] at h2
  have h3 := List.length_eq_countP_add_countP (fun c => (out.partition.getD c []).any q)
    (l := List.range out.partition.length)
  rw [← countP_getD out.partition [] (fun p => p.any q), List.length_range] at h3
  have h4 : (List.range out.partition.length).countP (fun c => !(out.partition.getD c []).any q)
      = (List.range out.partition.length).countP
          (fun a => decide ¬ ((out.partition.getD a []).any q) = true) := by
    refine List.countP_congr fun c _ => ?_
    simp
  have h5 := hst.len
  have h6 := hst.cnt
  have h7 := hr.mu
  rw [← hp] at h5 h6
  omega

theorem group_count {I : Inst} {q : ℕ → Bool} {P : List (List ℕ)} {out : RefineOut} {m : MState}
    {cs : List ℕ} (hr : RefineOk I q P out) (hg : Group q out m cs) :
    m.partition.countP (fun p => p.any q) = kmax I + 1 := by
  have h1 := countP_mergeAll (by rintro rfl; have := hg.len; simp at this) hg.nodup hg.lt hg.call q
  have h2 := (length_feasible hr).2.1
  rcases hg.kind with hk | ⟨t, ht, rfl⟩
  · have h3 : cs.countP (fun c => (out.partition.getD c []).any q) = 0 := by
      rw [List.countP_eq_zero]; intro c hc; rw [hk c hc]; simp
    have h4 : (cs.any fun c => (out.partition.getD c []).any q) = false := by
      rw [List.any_eq_false]; intro c hc; rw [hk c hc]; simp
    rw [h3, h4, h2] at h1
    simpa using h1
  · have h3 : (out.feasibleSubsets ++ [t]).countP (fun c => (out.partition.getD c []).any q)
        = 1 := by
      rw [List.countP_append]
      have : out.feasibleSubsets.countP (fun c => (out.partition.getD c []).any q) = 0 := by
        rw [List.countP_eq_zero]; intro c hc; rw [((hr.feasible c).1 hc).2]; simp
      rw [this]
      rw [List.countP_cons, ht]; simp
    have h4 : ((out.feasibleSubsets ++ [t]).any fun c => (out.partition.getD c []).any q)
        = true := by
      rw [List.any_eq_true]; exact ⟨t, by simp, ht⟩
    rw [h3, h4, h2] at h1
    simp at h1
    omega

/-- **C34.** After a refinement at `x` with either refiner, followed by either kind of merge (whatever
the point `x'` its margins are computed for), exactly `floor(epsilon * N) + 1` subsets are still violated by `x` beyond the tolerance, so `x` is
not feasible for the partitioned problem of the merged partition. -/
theorem C34_merge_keeps_cut (norm : Norm) (I : Inst) (P : List (List ℕ)) (x : Vec)
    (hP : ToRefine I P x) (out : RefineOut) (hr : RefineCall norm I P x out) (m : MState) (x' : Vec)
    (hm : MergeCall norm I x' out m) :
    nbViolPartsBy I tol m.partition x = kmax I + 1 ∧ ¬ PartFeas I m.partition x := by
  have hok := hr.ok hP
  obtain ⟨cs, hg⟩ := hm.group hok
  have h1 := group_count hok hg
  rw [countP_any_violBy] at h1
  refine ⟨h1, fun hf => ?_⟩
  have h2 := nbViolPartsBy_le (I := I) m.partition x
  have := hf.2
  omega

theorem nbViolParts_eq (I : Inst) (P : List (List ℕ)) (y : Vec) :
    nbViolParts I P y = P.countP fun p => p.any fun s => decide (¬ Sat I s y) := by
  unfold nbViolParts
  refine List.countP_congr fun p _ => ?_
  simp only [decide_eq_true_iff, List.any_eq_true, SatAll]
  push Not
  simp

/-- Merging a group of `mu + 1` subsets after a refinement: a point violating all new subsets
does not lose violated subsets compared to the partition before the refinement. -/
theorem group_mono {I : Inst} {q r : ℕ → Bool} {P : List (List ℕ)} {out : RefineOut} {m : MState}
    {cs : List ℕ} (hr : RefineOk I q P out) (hg : Group q out m cs)
    (hnew : ∀ c ∈ out.newSubsets, (out.partition.getD c []).any r = true) :
    P.countP (fun p => p.any r) ≤ m.partition.countP fun p => p.any r := by
  have h1 := countP_mergeAll (by rintro rfl; have := hg.len; simp at this) hg.nodup hg.lt hg.call r
  obtain ⟨st, hst, hmu, hp, hn⟩ := hr.inv
  have h2 := countP_new hst (r := r) (by rw [← hn, ← hp]; exact hnew)
  rw [← hp, hmu] at h2
  have h3 : cs.countP (fun c => (out.partition.getD c []).any r) ≤ cs.length :=
    List.countP_le_length
  have h4 := hg.len
  split at h1
  · omega
  · next hany =>
    have h5 : cs.countP (fun c => (out.partition.getD c []).any r) = 0 := by
      rw [List.countP_eq_zero]
      intro c hc hcr
      exact hany (List.any_eq_true.2 ⟨c, hc, hcr⟩)
    omega

/-- **C35.** Let `u` bound the objective of every point feasible for the partitioned problem of
`P`.  After a refinement, it still does for the refined partition; if moreover every new subset
costs at most `u`, it still does after either kind of merge. -/
theorem C35_bound_kept (norm : Norm) (I : Inst) (P : List (List ℕ)) (x : Vec)
    (hP : ToRefine I P x) (out : RefineOut) (hr : RefineCall norm I P x out) (u : ℚ)
    (hu : ∀ y, PartFeas I P y → obj I y ≤ u) :
    (∀ y, PartFeas I out.partition y → obj I y ≤ u)
    ∧ ((∀ c ∈ out.newSubsets, ∃ v xc, DetOpt I (out.partition.getD c []) v xc ∧ v ≤ u) →
      ∀ m x', MergeCall norm I x' out m → ∀ y, PartFeas I m.partition y → obj I y ≤ u) := by
  have hok := hr.ok hP
  constructor
  · intro y hy
    refine hu y ⟨hy.1, le_trans ?_ hy.2⟩
    obtain ⟨st, hst, -, hp, -⟩ := hok.inv
    rw [nbViolParts_eq, nbViolParts_eq, hp]
    exact hst.mono _
  · intro hc m x' hm y hy
    obtain ⟨cs, hg⟩ := hm.group hok
    by_cases hsat : ∃ c ∈ out.newSubsets, SatAll I (out.partition.getD c []) y
    · obtain ⟨c, hcn, hs⟩ := hsat
      obtain ⟨v, xc, hd, hv⟩ := hc c hcn
      exact (hd.2 y hy.1 hs).trans hv
    · push Not at hsat
      refine hu y ⟨hy.1, le_trans ?_ hy.2⟩
      rw [nbViolParts_eq, nbViolParts_eq]
      refine group_mono hok hg fun c hcn => ?_
      have := hsat c hcn
      simp only [SatAll, not_forall] at this
      obtain ⟨s, hs, hv⟩ := this
      exact List.any_eq_true.2 ⟨s, hs, by simpa using hv⟩

/-- **C37 (one iteration).** After a refinement of a partition with at least
`floor(epsilon * N) + 1` subsets: there are at least `mu` feasible subsets, with equality exactly
if the partition had the minimum size; a subset that is not feasible exists; and both merges
return a partition of the size it had before the refinement. -/
theorem C37_merge_dispatch (norm : Norm) (I : Inst) (P : List (List ℕ)) (x : Vec)
    (hP : ToRefine I P x) (hmin : kmax I + 1 ≤ P.length) (out : RefineOut)
    (hr : RefineCall norm I P x out) :
    out.mu ≤ out.feasibleSubsets.length
    ∧ (out.feasibleSubsets.length = out.mu ↔ P.length = kmax I + 1)
    ∧ (∃ t < out.partition.length, t ∉ out.feasibleSubsets)
    ∧ ∀ m x', MergeCall norm I x' out m → m.partition.length = P.length := by
  have hok := hr.ok hP
  obtain ⟨h1, h2, h3⟩ := length_feasible hok
  refine ⟨by omega, by omega, ?_, fun m x' hm => ?_⟩
  · by_contra hno
    push Not at hno
    have h4 : out.partition.countP (fun p => p.any fun s => decide (ViolBy I feasTol s x)) = 0 := by
      rw [countP_getD out.partition [], List.countP_eq_zero]
      intro c hc
      have := ((hok.feasible c).1 (hno c (List.mem_range.1 hc))).2
      simp only [this]
      simp
    omega
  · obtain ⟨cs, hg⟩ := hm.group hok
    have h4 := hok.muPos
    have h5 := hg.len
    obtain ⟨mn, hmg⟩ := merging_of (by omega) hg.nodup hg.lt hg.call
    have := hmg.length
    omega

theorem foldl_max_le {l : List ℚ} {a b : ℚ} : l.foldl max a ≤ b ↔ a ≤ b ∧ ∀ v ∈ l, v ≤ b := by
  induction l generalizing a with
  | nil => simp
  | cons v l ih => rw [List.foldl_cons, ih, max_le_iff]; simp [and_assoc]

/-- **C37 (`can_merge_feasible`).** The answer is that at least two subsets are feasible and no new
subset costs more than the tolerance allows; a tolerance below 1 or an empty list of costs is
refused. -/
theorem C37_can_merge_feasible (costs : List ℚ) (vUB : ℚ) (nb : ℕ) (mergeTol : ℚ) :
    (1 ≤ mergeTol → costs ≠ [] → ∃ b, canMergeFeasible costs vUB nb mergeTol = .ok b
      ∧ (b = true ↔ (∀ v ∈ costs, v ≤ mergeTol * vUB) ∧ 2 ≤ nb))
    ∧ ((mergeTol < 1 ∨ costs = []) → ∃ e, canMergeFeasible costs vUB nb mergeTol = .error e) := by
  constructor
  · intro ht hne
    obtain ⟨a, l, rfl⟩ := List.exists_cons_of_ne_nil hne
    refine ⟨decide (l.foldl max a ≤ mergeTol * vUB) && decide (2 ≤ nb), ?_, ?_⟩
    · simp [canMergeFeasible, pyAssert, ht, bind, Except.bind, pure, Except.pure]
    · rw [Bool.and_eq_true, decide_eq_true_iff, decide_eq_true_iff, foldl_max_le,
        List.forall_mem_cons]
  · rintro h
    by_cases ht : 1 ≤ mergeTol
    · have hc : costs = [] := h.resolve_left (not_lt.2 ht)
      subst hc
      exact ⟨.valueError, by
        simp [canMergeFeasible, pyAssert, ht, bind, Except.bind]⟩
    · exact ⟨_, by simp [canMergeFeasible, pyAssert, ht, bind, Except.bind]; rfl⟩

/-- The tolerance matters. -/
example : canMergeFeasible [1, 11 / 10] 1 2 (6 / 5) = .ok true
    ∧ canMergeFeasible [1, 11 / 10] 1 2 1 = .ok false
    ∧ canMergeFeasible [1] 1 1 1 = .ok false := by
  decide +kernel

/-! ## Both merges happen -/

/-- Item 0 of `exPairs`, which fits in the scenarios 0 and 2. -/
def exItem : Vec := fun j => if j = 0 then 1 else 0

theorem exItem_toRefine : ToRefine exPairs [[0, 2], [1, 3]] exItem :=
  ⟨by decide +kernel, ⟨by decide, by decide⟩, by decide +kernel, by decide +kernel⟩

theorem exItem_refine : refineRandom exPairs (checkFeasibility exNorm exPairs exItem)
    (fun _ => .id) false 2 [[0, 2], [1, 3]] = .ok
      { partition := [[0, 2], [1], [3]], mu := 1, newSubsets := [1, 2], splitted := [1]
        feasibleSubsets := [0], infeasibleSubsets := [1, 2] } := by
  decide +kernel

/-- The hypotheses of C34, C35 and C37 hold, with a merge of all feasible subsets. -/
example : ∃ out m, RefineCall exNorm exPairs [[0, 2], [1, 3]] exItem out
    ∧ MergeCall exNorm exPairs exItem out m ∧ m.partition = [[0, 2, 3], [1]] :=
  ⟨_, _, .random _ _ exItem_refine, .all 2 rfl (by decide) (by decide) rfl, rfl⟩

/-- The hypotheses of C34, C35 and C37 hold, with a merge of `mu + 1` feasible subsets. -/
example : ToRefine exPairs [[0], [2], [1, 3]] exItem
    ∧ ∃ out m, RefineCall exNorm exPairs [[0], [2], [1, 3]] exItem out
      ∧ MergeCall exNorm exPairs exItem out m ∧ m.partition = [[0, 2], [1], [3]] := by
  refine ⟨⟨by decide +kernel, ⟨by decide, by decide⟩, by decide +kernel, by decide +kernel⟩,
    { partition := [[0], [2], [1], [3]], mu := 1, newSubsets := [2, 3], splitted := [2]
      feasibleSubsets := [0, 1], infeasibleSubsets := [2, 3] },
    { partition := [[0, 2], [1], [3]], targets := [0], deleted := [1] },
    .random (fun _ => .id) 2 (by decide +kernel), ?_, rfl⟩
  exact .best _ (by decide) (loadPartition_ok exPairs [[0], [2], [1], [3]] (by decide))
    (by decide +kernel)

theorem exPairs_le {y : Vec} (hy : InX exPairs y) {s : ℕ} (hs : Sat exPairs s y) :
    obj exPairs y ≤ 2 := by
  have h := hs 0 (by decide)
  have h0 : y 0 = 0 ∨ y 0 = 1 := hy 0 (by decide)
  have h1 : y 1 = 0 ∨ y 1 = 1 := hy 1 (by decide)
  have h2 : y 2 = 0 ∨ y 2 = 1 := hy 2 (by decide)
  simp only [exPairs, dot, obj, Finset.sum_range_succ, Finset.sum_range_zero] at h ⊢
  rcases Nat.mod_two_eq_zero_or_one s with hs | hs <;> simp [hs] at h ⊢ <;>
    rcases h0 with h0 | h0 <;> rcases h1 with h1 | h1 <;> rcases h2 with h2 | h2 <;>
    rw [h0, h1, h2] at h ⊢ <;> first | (norm_num at h; done) | norm_num

/-- The hypotheses of C35 on costs hold: both bounds are 2, the value of items 0 and 1. -/
example : (∀ y, PartFeas exPairs [[0, 2], [1, 3]] y → obj exPairs y ≤ 2)
    ∧ ∀ c ∈ [1, 2], ∃ v xc, DetOpt exPairs ([[0, 2], [1], [3]].getD c []) v xc ∧ v ≤ 2 := by
  constructor
  · intro y hy
    have h2 := hy.2
    have hk : kmax exPairs = 1 := by decide +kernel
    by_contra hno
    have h3 : ∀ s, ¬ Sat exPairs s y := fun s hs => hno (exPairs_le hy.1 hs)
    have h4 : nbViolParts exPairs [[0, 2], [1, 3]] y = 2 := by
      rw [nbViolParts_eq]
      simp [h3]
    omega
  · intro c hc
    have hc' : ∃ s, [[0, 2], [1], [3]].getD c [] = [s] ∧ s % 2 = 1 := by
      simp only [List.mem_cons, List.not_mem_nil, or_false] at hc
      rcases hc with rfl | rfl
      · exact ⟨1, rfl, rfl⟩
      · exact ⟨3, rfl, rfl⟩
    obtain ⟨s, hs, hs1⟩ := hc'
    refine ⟨2, fun j => if j = 1 then 1 else 0, ⟨⟨fun j hj => ?_, ?_, ?_⟩, ?_⟩, le_rfl⟩
    · show (if j = 1 then (1 : ℚ) else 0) = 0 ∨ (if j = 1 then (1 : ℚ) else 0) = 1
      split
      · right; rfl
      · left; rfl
    · rw [hs]
      intro s' hs'
      rw [List.mem_singleton.1 hs']
      intro i hi
      simp [exPairs, dot, hs1]
    · decide +kernel
    · intro y hy hsat
      exact exPairs_le hy (hsat s (by rw [hs]; simp))

end Verif.Props
