import Verif.Lemmas.CostRefiner
import Mathlib.Tactic.IntervalCases

/-!
# C22–C29: refinement of the partition

The point `x` that is refined is handed over through the attributes written by
`check_feasibility`, whose tolerance is `1/1000000` (C02).
-/

namespace Verif.Props
open Spec Model

/-- The tolerance of `check_feasibility`. -/
abbrev tol : ℚ := 1 / 1000000

theorem countP_any_violBy (I : Inst) (P : List (List ℕ)) (x : Vec) :
    P.countP (fun p => p.any fun s => decide (ViolBy I feasTol s x))
      = nbViolPartsBy I tol P x := by
  unfold nbViolPartsBy
  refine List.countP_congr fun p _ => ?_
  simp only [List.any_eq_true, decide_eq_true_iff]
  exact Iff.rfl

theorem countP_violBy (I : Inst) (x : Vec) :
    (List.range I.N).countP (fun s => decide (ViolBy I feasTol s x))
      = (violBy I tol x).card := by
  rw [List.countP_eq_length_filter]
  rfl

/-- A violation by more than the tolerance is a violation. -/
theorem violBy_not_sat {I : Inst} {t : ℚ} (ht : 0 ≤ t) {s : ℕ} {x : Vec} (h : ViolBy I t s x) :
    ¬ Sat I s x := by
  obtain ⟨i, hi, h⟩ := h
  intro hs
  have := hs i hi
  linarith

theorem nbViolPartsBy_le {I : Inst} (P : List (List ℕ)) (x : Vec) :
    nbViolPartsBy I tol P x ≤ nbViolParts I P x := by
  unfold nbViolPartsBy nbViolParts
  refine List.countP_mono_left fun p _ h => ?_
  simp only [decide_eq_true_iff] at h ⊢
  obtain ⟨s, hs, hv⟩ := h
  intro hall
  exact violBy_not_sat (by norm_num) hv (hall s hs)

/-- The situation in which `refine` is called: `P` is a partition, at most `⌊eps N⌋` of its
subsets are violated by `x`, more than `⌊eps N⌋` scenarios are. -/
structure ToRefine (I : Inst) (P : List (List ℕ)) (x : Vec) : Prop where
  eps : 0 ≤ I.eps
  part : IsPartition I.N P
  feas : nbViolPartsBy I tol P x ≤ kmax I
  infeas : kmax I < (violBy I tol x).card

/-- What C22–C24 say about the result: again a partition without empty subsets, with
`mu = ⌊eps N⌋ + 1 - (number of violated subsets)` more subsets; each subset of the new
partition lies inside one subset of the old; exactly `⌊eps N⌋ + 1` subsets are violated by the
refined point. -/
structure Refined (I : Inst) (P : List (List ℕ)) (x : Vec) (out : RefineOut) : Prop where
  part : IsPartition I.N out.partition
  length : out.partition.length + nbViolPartsBy I tol P x = P.length + (kmax I + 1)
  mu : out.mu + nbViolPartsBy I tol P x = kmax I + 1
  violated : nbViolPartsBy I tol out.partition x = kmax I + 1

theorem refined_of {I : Inst} {P : List (List ℕ)} {x : Vec} {out : RefineOut}
    (h : RefineOk I (fun s => decide (ViolBy I feasTol s x)) P out) : Refined I P x out := by
  obtain ⟨st, hst, hmu, hp, -⟩ := h.inv
  have h1 := h.mu
  have h2 := hst.len
  have h3 := hst.cnt
  rw [countP_any_violBy] at h1
  rw [countP_any_violBy, countP_any_violBy] at h3
  constructor
  · rw [hp]; exact hst.part
  · rw [hp]; omega
  · exact h1
  · rw [hp]; omega

/-- **C22.** Random refinement keeps a partition: `refine` of the random refiner, for every
random outcome, returns without error a partition of `0..N-1` with `mu` more subsets.
(Fuel bounds the rounds of the `while` loop, see C25.) -/
theorem C22_random_refine_partition (norm : Norm) (I : Inst) (P : List (List ℕ)) (x : Vec)
    (h : ToRefine I P x) (sh : ℕ → Shuffle) (fuel : ℕ) (hfuel : kmax I + 1 ≤ fuel) :
    ∃ out, refineRandom I (checkFeasibility norm I x) sh false fuel P = .ok out
      ∧ IsPartition I.N out.partition
      ∧ out.mu = kmax I + 1 - nbViolPartsBy I tol P x
      ∧ out.partition.length = P.length + (kmax I + 1 - nbViolPartsBy I tol P x) := by
  obtain ⟨out, h1, h2⟩ := refineRandom_ok (sh := sh) (fuel := fuel) h.eps (marks_check norm I x)
    h.part (by rw [countP_any_violBy]; exact h.feas) (by rw [countP_violBy]; exact h.infeas)
    (by omega)
  have := refined_of h2
  have hf := h.feas
  exact ⟨out, h1, this.part, by have := this.mu; omega, by have := this.length; omega⟩

/-- The memories a cost refiner can have: empty at construction, then after any sequence of
successful calls of `refine` with any points, partitions, subset costs, upper bounds and
answers of the solver of which `S` is known. -/
inductive MemHist (S : (ℕ → GModel → GResult) → Prop) (norm : Norm) (I : Inst) : Memory → Prop
  | start : MemHist S norm I []
  | call {mem mem' : Memory} {P : List (List ℕ)} {x : Vec} {solve : ℕ → GModel → GResult}
      {argsort : Argsort} {costs : List ℚ} {vUB : WithTop ℚ} {fuel : ℕ} {out : RefineOut}
      (hist : MemHist S norm I mem) (h : ToRefine I P x)
      (hsolve : S solve) (hcosts : costs.length = P.length)
      (hcall : refineCost I (checkFeasibility norm I x) solve argsort costs vUB mem fuel P
        = .ok (out, mem')) : MemHist S norm I mem'

/-- The memories with a solver that answers all split problems. -/
abbrev MemHistory : Norm → Inst → Memory → Prop :=
  MemHist fun solve => ∀ k g, GResult.Answers g (solve k g)

/-- The memories with a solver whose answers are valid splits, whatever their costs. -/
abbrev SplitHistory (norm : Norm) (I : Inst) : Memory → Prop :=
  MemHist (Splitter I fun _ _ => True) norm I

theorem MemHist.mono {S S' : (ℕ → GModel → GResult) → Prop} (h : ∀ solve, S solve → S' solve)
    {norm : Norm} {I : Inst} {mem : Memory} (hm : MemHist S norm I mem) : MemHist S' norm I mem := by
  induction hm with
  | start => exact .start
  | call _ h1 h2 h3 h4 ih => exact .call ih h1 (h _ h2) h3 h4

theorem splitter_any {I : Inst} (hb : ∀ s < I.N, ∀ i < I.m, 0 ≤ I.b s i)
    {solve : ℕ → GModel → GResult} (h : ∀ k g, GResult.Answers g (solve k g)) :
    Splitter I (fun _ _ => True) solve :=
  (splitter_of_answers hb h).mono fun _ _ _ => trivial

theorem refineCost_split {Q : List ℕ → ℚ → Prop} {norm : Norm} {I : Inst} {P : List (List ℕ)} {x : Vec}
    {solve : ℕ → GModel → GResult} {argsort : Argsort} {costs : List ℚ} {vUB : WithTop ℚ}
    {mem : Memory} {fuel : ℕ} (h : ToRefine I P x)
    (hsolve : Splitter I Q solve) (hcosts : costs.length = P.length)
    (hmem : MemOk Q mem) (hfuel : kmax I + 1 ≤ fuel + nbViolPartsBy I tol P x) :
    ∃ out mem', refineCost I (checkFeasibility norm I x) solve argsort costs vUB mem fuel P
        = .ok (out, mem')
      ∧ RefineOk I (fun s => decide (ViolBy I feasTol s x)) P out ∧ MemOk Q mem' :=
  refineCost_ok h.eps (marks_check norm I x) hsolve hmem hcosts h.part
    (by rw [countP_any_violBy]; exact h.feas) (by rw [countP_violBy]; exact h.infeas)
    (by rw [countP_any_violBy]; exact hfuel)

theorem refineCost_props {norm : Norm} {I : Inst} {P : List (List ℕ)} {x : Vec}
    {solve : ℕ → GModel → GResult} {argsort : Argsort} {costs : List ℚ} {vUB : WithTop ℚ}
    {mem : Memory} {fuel : ℕ} (hb : ∀ s < I.N, ∀ i < I.m, 0 ≤ I.b s i) (h : ToRefine I P x)
    (hsolve : ∀ k g, GResult.Answers g (solve k g)) (hcosts : costs.length = P.length)
    (hmem : MemOk (CostBound I) mem) (hfuel : kmax I + 1 ≤ fuel + nbViolPartsBy I tol P x) :
    ∃ out mem', refineCost I (checkFeasibility norm I x) solve argsort costs vUB mem fuel P
        = .ok (out, mem')
      ∧ RefineOk I (fun s => decide (ViolBy I feasTol s x)) P out ∧ MemOk (CostBound I) mem' :=
  refineCost_split h (splitter_of_answers hb hsolve) hcosts hmem hfuel

theorem memHist_ok {Q : List ℕ → ℚ → Prop} {norm : Norm} {I : Inst} {mem : Memory}
    (h : MemHist (Splitter I Q) norm I mem) : MemOk Q mem := by
  induction h with
  | start => intro e he; simp at he
  | @call mem mem' P x solve argsort costs vUB fuel out hist h hsolve hcosts hcall ih =>
    obtain ⟨out', mem'', h1, -, h2⟩ := refineCost_split (norm := norm) (argsort := argsort)
      (vUB := vUB) (fuel := fuel + (kmax I + 1)) h hsolve hcosts ih (by omega)
    have h3 := refineCost_mono hcall (f' := fuel + (kmax I + 1)) (by omega)
    rw [h3] at h1
    cases h1
    exact h2

theorem memHistory_ok {norm : Norm} {I : Inst} (hb : ∀ s < I.N, ∀ i < I.m, 0 ≤ I.b s i)
    {mem : Memory} (h : MemHistory norm I mem) : MemOk (CostBound I) mem :=
  memHist_ok (h.mono fun _ => splitter_of_answers hb)

/-- **C23.** Cost refinement keeps a partition: `refine` of the cost refiner returns without
error a partition of `0..N-1` with `mu` more subsets, for non-negative capacities, every answer
of the solver on the split-selection models and every memory built by earlier calls. -/
theorem C23_cost_refine_partition (norm : Norm) (I : Inst)
    (hb : ∀ s < I.N, ∀ i < I.m, 0 ≤ I.b s i) (P : List (List ℕ)) (x : Vec) (h : ToRefine I P x)
    (solve : ℕ → GModel → GResult) (hsolve : ∀ k g, GResult.Answers g (solve k g))
    (argsort : Argsort) (costs : List ℚ) (hcosts : costs.length = P.length) (vUB : WithTop ℚ)
    (mem : Memory) (hmem : MemHistory norm I mem) (fuel : ℕ) (hfuel : kmax I + 1 ≤ fuel) :
    ∃ out mem', refineCost I (checkFeasibility norm I x) solve argsort costs vUB mem fuel P
        = .ok (out, mem')
      ∧ IsPartition I.N out.partition
      ∧ out.mu = kmax I + 1 - nbViolPartsBy I tol P x
      ∧ out.partition.length = P.length + (kmax I + 1 - nbViolPartsBy I tol P x) := by
  obtain ⟨out, mem', h1, h2, -⟩ := refineCost_props (norm := norm) (argsort := argsort)
    (vUB := vUB) (fuel := fuel) hb h hsolve hcosts (memHistory_ok hb hmem) (by omega)
  have := refined_of h2
  have hf := h.feas
  exact ⟨out, mem', h1, this.part, by have := this.mu; omega, by have := this.length; omega⟩

/-- **C24 (random).** Whenever the random refiner returns, exactly `⌊eps N⌋ + 1` subsets are
violated by the refined point, which is infeasible for the new partitioned problem. -/
theorem C24_random_cuts_off (norm : Norm) (I : Inst) (P : List (List ℕ)) (x : Vec)
    (h : ToRefine I P x) (sh : ℕ → Shuffle) (fuel : ℕ) (out : RefineOut)
    (hcall : refineRandom I (checkFeasibility norm I x) sh false fuel P = .ok out) :
    nbViolPartsBy I tol out.partition x = kmax I + 1 ∧ ¬ PartFeas I out.partition x := by
  obtain ⟨out', h1, h2⟩ := refineRandom_ok (sh := sh) (fuel := fuel + (kmax I + 1)) h.eps
    (marks_check norm I x) h.part (by rw [countP_any_violBy]; exact h.feas)
    (by rw [countP_violBy]; exact h.infeas) (by omega)
  have h3 := refineRandom_mono hcall (f' := fuel + (kmax I + 1)) (by omega)
  rw [h3] at h1
  cases h1
  have := (refined_of h2).violated
  refine ⟨this, fun hf => ?_⟩
  have h4 := nbViolPartsBy_le (I := I) out.partition x
  have := hf.2
  omega

/-- **C24 (cost).** The same for the cost refiner. -/
theorem C24_cost_cuts_off (norm : Norm) (I : Inst)
    (hb : ∀ s < I.N, ∀ i < I.m, 0 ≤ I.b s i) (P : List (List ℕ)) (x : Vec) (h : ToRefine I P x)
    (solve : ℕ → GModel → GResult) (hsolve : ∀ k g, GResult.Answers g (solve k g))
    (argsort : Argsort) (costs : List ℚ) (hcosts : costs.length = P.length) (vUB : WithTop ℚ)
    (mem mem' : Memory) (hmem : MemHistory norm I mem) (fuel : ℕ) (out : RefineOut)
    (hcall : refineCost I (checkFeasibility norm I x) solve argsort costs vUB mem fuel P
      = .ok (out, mem')) :
    nbViolPartsBy I tol out.partition x = kmax I + 1 ∧ ¬ PartFeas I out.partition x := by
  obtain ⟨out', mem'', h1, h2, -⟩ := refineCost_props (norm := norm) (argsort := argsort)
    (vUB := vUB) (fuel := fuel + (kmax I + 1)) hb h hsolve hcosts (memHistory_ok hb hmem)
    (by omega)
  have h3 := refineCost_mono hcall (f' := fuel + (kmax I + 1)) (by omega)
  rw [h3] at h1
  cases h1
  have := (refined_of h2).violated
  refine ⟨this, fun hf => ?_⟩
  have h4 := nbViolPartsBy_le (I := I) out.partition x
  have := hf.2
  omega

/-- **C25 (random).** At most `mu` rounds of the `while` loop: with any number of rounds allowed
from `mu` on, the call returns, always with the same result. -/
theorem C25_random_terminates (norm : Norm) (I : Inst) (P : List (List ℕ)) (x : Vec)
    (h : ToRefine I P x) (sh : ℕ → Shuffle) :
    ∃ out, ∀ rounds ≥ kmax I + 1 - nbViolPartsBy I tol P x,
      refineRandom I (checkFeasibility norm I x) sh false rounds P = .ok out := by
  have hf := h.feas
  obtain ⟨out, h1, -⟩ := refineRandom_ok (sh := sh)
    (fuel := kmax I + 1 - nbViolPartsBy I tol P x) h.eps
    (marks_check norm I x) h.part (by rw [countP_any_violBy]; exact h.feas)
    (by rw [countP_violBy]; exact h.infeas) (by rw [countP_any_violBy]; omega)
  exact ⟨out, fun f hf => refineRandom_mono h1 hf⟩

/-- **C25 (cost).** The same for the cost refiner. -/
theorem C25_cost_terminates (norm : Norm) (I : Inst)
    (hb : ∀ s < I.N, ∀ i < I.m, 0 ≤ I.b s i) (P : List (List ℕ)) (x : Vec) (h : ToRefine I P x)
    (solve : ℕ → GModel → GResult) (hsolve : ∀ k g, GResult.Answers g (solve k g))
    (argsort : Argsort) (costs : List ℚ) (hcosts : costs.length = P.length) (vUB : WithTop ℚ)
    (mem : Memory) (hmem : MemHistory norm I mem) :
    ∃ out, ∀ rounds ≥ kmax I + 1 - nbViolPartsBy I tol P x,
      refineCost I (checkFeasibility norm I x) solve argsort costs vUB mem rounds P = .ok out := by
  have hf := h.feas
  obtain ⟨out, mem', h1, -, -⟩ := refineCost_props (norm := norm) (argsort := argsort)
    (vUB := vUB) (fuel := kmax I + 1 - nbViolPartsBy I tol P x) hb h hsolve hcosts
    (memHistory_ok hb hmem) (by omega)
  exact ⟨(out, mem'), fun f hf => refineCost_mono h1 hf⟩

/-- **C25 (sharpness).** The guard cannot be dropped: for a point that violates at most
`⌊eps N⌋` scenarios the loop of the random refiner never ends, whatever the shuffles. -/
theorem C25_random_diverges (norm : Norm) (I : Inst) (P : List (List ℕ)) (x : Vec)
    (heps : 0 ≤ I.eps) (hP : IsPartition I.N P) (hfeas : (violBy I tol x).card ≤ kmax I)
    (sh : ℕ → Shuffle) (rounds : ℕ) :
    refineRandom I (checkFeasibility norm I x) sh false rounds P = .error .fuel := by
  have hF := marks_check norm I x
  have hle := countP_any_le P fun s => decide (ViolBy I feasTol s x)
  rw [hP.1.countP_eq, countP_violBy] at hle
  have hlen := length_infeasible hF hP
  have := randomLoop_diverges (sh := sh) (P0 := P)
    (mu := kmax I + 1 - P.countP fun p => p.any fun s => decide (ViolBy I feasTol s x)) hF
    (by rw [countP_violBy]; omega) rounds (RState.init P) (RInv.init hP) (by simp [RState.init])
  unfold refineRandom
  simp only
  rw [hlen, numberOfSplits_ok heps (by omega)]
  simp only [bind, Except.bind, Bool.false_eq_true, if_false]
  rw [this]

/-- **C26.** The number of splits computed by both refiners is at least one for every point
that is feasible for the partitioned problem; for every point violating more than `⌊eps N⌋`
subsets both raise the assertion error of line 92. -/
theorem C26_number_of_splits (norm : Norm) (I : Inst) (P : List (List ℕ)) (x : Vec)
    (heps : 0 ≤ I.eps) (hP : IsPartition I.N P) :
    (PartFeas I P x → ∃ mu ≥ 1, numberOfSplits I
        (findInfeasibleSubsets P (checkFeasibility norm I x).infeasibleScenarios).2.length
        = .ok mu ∧ mu + nbViolPartsBy I tol P x = kmax I + 1)
    ∧ (kmax I < nbViolPartsBy I tol P x →
        (∀ sh fuel, refineRandom I (checkFeasibility norm I x) sh false fuel P
          = .error (.assertion "Refiner.py:92"))
        ∧ ∀ solve argsort costs vUB mem fuel,
          refineCost I (checkFeasibility norm I x) solve argsort costs vUB mem fuel P
          = .error (.assertion "Refiner.py:92")) := by
  have hlen := length_infeasible (marks_check norm I x) hP
  rw [countP_any_violBy] at hlen
  constructor
  · intro hf
    have h1 := nbViolPartsBy_le (I := I) P x
    have h2 := hf.2
    refine ⟨kmax I + 1 - nbViolPartsBy I tol P x, by omega, ?_, by omega⟩
    rw [hlen]
    exact numberOfSplits_ok heps (by omega)
  · intro hk
    constructor
    · intro sh fuel
      unfold refineRandom
      simp only
      rw [hlen, numberOfSplits_err heps hk]
      rfl
    · intro solve argsort costs vUB mem fuel
      unfold refineCost
      simp only
      rw [hlen, numberOfSplits_err heps hk]
      rfl

/-- **C27.** Whatever sequence of refinements filled the memory, the split found under the key of
a subset `p` (no repeated scenarios) and its infeasible scenarios `inf` is a split of exactly
the scenarios of `p` into two parts, each with a scenario of `inf`; and its stored cost bounds
the objective of every point of the unit box satisfying one of the two parts. -/
theorem C27_memory_valid (norm : Norm) (I : Inst) (hb : ∀ s < I.N, ∀ i < I.m, 0 ≤ I.b s i)
    (mem : Memory) (hmem : MemHistory norm I mem) (p inf : List ℕ) (hp : p.Nodup) (sp : Split)
    (hfind : ((p.toFinset, inf.toFinset), sp) ∈ mem) :
    (sp.left ++ sp.right).Perm p ∧ (∃ s ∈ sp.left, s ∈ inf) ∧ (∃ s ∈ sp.right, s ∈ inf)
    ∧ (∀ y, InBox I.n y → SatAll I sp.left y ∨ SatAll I sp.right y → obj I y ≤ sp.cost) := by
  have h := memHistory_ok hb hmem _ hfind
  refine ⟨?_, ?_, ?_, ?_⟩
  · rw [List.perm_ext_iff_of_nodup h.nodup hp]
    intro a
    rw [← List.mem_toFinset, h.all, List.mem_toFinset]
  · obtain ⟨s, h1, h2⟩ := h.left
    exact ⟨s, h1, List.mem_toFinset.1 h2⟩
  · obtain ⟨s, h1, h2⟩ := h.right
    exact ⟨s, h1, List.mem_toFinset.1 h2⟩
  · rintro y hy (hs | hs)
    · exact h.leftBound y hy hs
    · exact h.rightBound y hy hs

/-- **C28.** For every feasible assignment of the split-selection model, its objective is at
least the objective of every point of the unit box satisfying all scenarios of the left half
read from it, and likewise for the right half. -/
theorem C28_split_cost_bounds_halves (I : Inst) (scenarios inf : List ℕ) (ρ : V → ℚ)
    (h : (buildAccObj (instCI I) scenarios inf).Feas ρ) (y : Vec) (hy : InBox I.n y)
    (hs : SatAll I (accSubsets scenarios ρ).1 y ∨ SatAll I (accSubsets scenarios ρ).2 y) :
    obj I y ≤ (buildAccObj (instCI I) scenarios inf).obj.eval ρ := by
  rw [accObj_obj]
  rcases hs with hs | hs
  · exact accObj_weak_duality h false hy fun s hs' hpi i hi =>
      hs _ (mem_accSubsets h false s hs' hpi) i hi
  · exact accObj_weak_duality h true hy fun s hs' hpi i hi =>
      hs _ (mem_accSubsets h true s hs' hpi) i hi

/-- **C29.** `get_subsets` returns two lists that together contain every scenario of the subset
exactly once, whatever the values of the variables; for a feasible assignment each half has an
infeasible scenario. -/
theorem C29_get_subsets (I : Inst) (scenarios inf : List ℕ) (ρ : V → ℚ) :
    ((accSubsets scenarios ρ).1 ++ (accSubsets scenarios ρ).2).Perm scenarios
    ∧ ((buildAccObj (instCI I) scenarios inf).Feas ρ →
        (∃ s ∈ (accSubsets scenarios ρ).1, s ∈ inf)
        ∧ ∃ s ∈ (accSubsets scenarios ρ).2, s ∈ inf) :=
  ⟨accSubsets_perm scenarios ρ, fun h => ⟨accSubsets_inf h false, accSubsets_inf h true⟩⟩

/-! ## Concrete cases -/

/-- Three scenarios, one variable, two scenarios forbid it. -/
def exRefine : Inst :=
  { n := 1, N := 3, m := 1, A := fun _ _ _ => 1, b := fun s _ => if s < 2 then 0 else 1
    c := fun _ => 1, proba := fun _ => 1 / 3, eps := 1 / 3, cont := false }

theorem exRefine_toRefine : ToRefine exRefine [[2, 0, 1]] fun _ => 1 :=
  ⟨by decide +kernel, ⟨by decide, by decide⟩, by decide +kernel, by decide +kernel⟩

/-- The hypotheses of C22, C24, C25 hold. -/
example : ToRefine exRefine [[2, 0, 1]] (fun _ => 1) ∧ kmax exRefine = 1
    ∧ nbViolPartsBy exRefine tol [[2, 0, 1]] (fun _ => 1) = 1 :=
  ⟨exRefine_toRefine, by decide +kernel, by decide +kernel⟩

/-- The hypotheses of C23 hold, with a memory that is not empty (C27). -/
example (norm : Norm) : ∃ solve : ℕ → GModel → GResult, (∀ k g, GResult.Answers g (solve k g))
    ∧ (∀ s < exRefine.N, ∀ i < exRefine.m, 0 ≤ exRefine.b s i)
    ∧ ∃ mem sp, MemHistory norm exRefine mem
        ∧ (([2, 0, 1].toFinset, [0, 1].toFinset), sp) ∈ mem := by
  obtain ⟨solve, hsolve⟩ := GResult.exists_exact
  have hb : ∀ s < exRefine.N, ∀ i < exRefine.m, 0 ≤ exRefine.b s i := by decide +kernel
  have hs : ∀ (k : ℕ) g, GResult.Answers g ((fun _ => solve) k g) := fun _ g => (hsolve g).answers
  refine ⟨fun _ => solve, hs, hb, ?_⟩
  obtain ⟨out, mem', h1, -⟩ := C23_cost_refine_partition norm exRefine hb [[2, 0, 1]] _
    exRefine_toRefine (fun _ => solve) hs Argsort.default [1] rfl ⊤ [] .start _ le_rfl
  have hist : MemHistory norm exRefine mem' := MemHist.call .start exRefine_toRefine hs rfl h1
  have hinf : (checkFeasibility norm exRefine fun _ => 1).infeasibleScenarios.toFinset
      = {0, 1} := by
    have := (marks_check norm exRefine fun _ => 1).inf
    ext s
    rw [List.mem_toFinset, this]
    constructor
    · rintro ⟨h, h'⟩
      have : s < 3 := h
      interval_cases s
      · simp
      · simp
      · exact absurd h' (by decide +kernel)
    · intro h
      have : s = 0 ∨ s = 1 := by simpa using h
      rcases this with rfl | rfl <;> exact ⟨by decide, by decide +kernel⟩
  have hmem : ∀ s, s ∈ (checkFeasibility norm exRefine fun _ => 1).infeasibleScenarios
      ↔ s = 0 ∨ s = 1 := fun s => by rw [← List.mem_toFinset, hinf]; simp
  have hkey : (([2, 0, 1].toFinset : Finset ℕ), ([0, 1].toFinset : Finset ℕ))
      ∈ mem'.map Prod.fst := by
    have := refineCost_keys (marks_check norm exRefine fun _ => 1) exRefine_toRefine.part rfl h1 0
      (by decide +kernel)
    have h3 : ([2, 0, 1].filter fun s => decide
        (s ∈ (checkFeasibility norm exRefine fun _ => 1).infeasibleScenarios)) = [0, 1] := by
      simp [hmem]
    have h4 : [[2, 0, 1]].getD 0 [] = [2, 0, 1] := rfl
    rw [h4, h3] at this
    exact this
  obtain ⟨e, he, he1⟩ := List.mem_map.1 hkey
  exact ⟨mem', e.2, hist, by rw [← he1]; exact he⟩

/-- The hypotheses of the divergence statement of C25 hold. -/
example : (0 : ℚ) ≤ exRefine.eps ∧ IsPartition exRefine.N [[2, 0, 1]]
    ∧ (violBy exRefine tol fun _ => 0).card ≤ kmax exRefine :=
  ⟨by decide +kernel, ⟨by decide, by decide⟩, by decide +kernel⟩

/-- The hypotheses of C26 hold in both cases. -/
example : PartFeas exRefine [[2, 0, 1]] (fun _ => 1)
    ∧ kmax exRefine < nbViolPartsBy exRefine tol [[2], [0], [1]] (fun _ => 1) := by
  refine ⟨⟨fun j _ => ?_, by decide +kernel⟩, by decide +kernel⟩
  right; rfl

/-- The split-selection model of C28 and C29 has a feasible assignment. -/
example : ∃ ρ, (buildAccObj (instCI exRefine) [2, 0, 1] [0, 1]).Feas ρ :=
  accObj_feasible _ _ _ (a := 1) (b := 2) (by decide) (by decide) (by decide) (by decide)
    (by decide)

/-- **C68 (counterexample).** With negative capacities the cost refiner crashes: two scenarios that
force the only variable, of value `-2000000`, to one.  At the point `0` and the partition with
one subset, `refine` raises `KeyError` (`left_subsets[-1]`) for every exact solver. -/
def exNegative : Inst :=
  { n := 1, N := 2, m := 1, A := fun _ _ _ => -1, b := fun _ _ => -1
    c := fun _ => -2000000, proba := fun _ => 1 / 2, eps := 1 / 2, cont := false }

def exNegativeSol : V → ℚ
  | .alpha => -2000000
  | .pi r s => if (s = 1) = (r = true) then 1 else 0
  | .eta r s _ => if (s = 1) = (r = true) then 2000000 else 0
  | _ => 0

theorem C68_cost_refine_keyError_counterexample (norm : Norm)
    (solve : ℕ → GModel → GResult) (hsolve : ∀ k g, GResult.Exact g (solve k g))
    (argsort : Argsort) (cost : ℚ) (vUB : WithTop ℚ) (hUB : ((-2000000 : ℚ) : WithTop ℚ) ≤ vUB)
    (fuel : ℕ) :
    ToRefine exNegative [[0, 1]] (fun _ => 0) ∧
    refineCost exNegative (checkFeasibility norm exNegative fun _ => 0) solve argsort [cost] vUB []
      (fuel + 1) [[0, 1]] = .error .keyError := by
  have hP : IsPartition exNegative.N [[0, 1]] := ⟨by decide, by decide⟩
  refine ⟨⟨by decide +kernel, hP, by decide +kernel, by decide +kernel⟩, ?_⟩
  have hinf : (checkFeasibility norm exNegative fun _ => 0).infeasibleScenarios = [0, 1] := by
    show (((isFeasible norm exNegative fun _ => 0).flags.zipIdx.filter fun p => p.1).map
      fun p => p.2) = _
    rw [flags_eq]
    decide +kernel
  have hfi : (findInfeasibleSubsets [[0, 1]] [0, 1]).2.length = 1 := by decide
  have hmu : numberOfSplits exNegative 1 = .ok 1 := by decide +kernel
  have hsort : argsort.run [cost] = [0] := by
    have := (argsort.spec [cost]).1
    simpa using this
  -- the answer of the solver
  set g := buildAccObj (instCI exNegative) [0, 1] [0, 1] with hg
  have hfeas : g.Feas exNegativeSol := by decide +kernel
  have hle : ∀ ρ, g.Feas ρ → -2000000 ≤ ρ .alpha := fun ρ hρ => by
    have := C28_split_cost_bounds_halves exNegative [0, 1] [0, 1] ρ hρ (fun _ => 1)
      (fun j _ => by norm_num) (Or.inl fun s _ i _ => by simp [dot, exNegative])
    rw [accObj_obj] at this
    have h1 : obj exNegative (fun _ => 1) = -2000000 := by simp [obj, dot, exNegative]
    rw [h1] at this
    exact this
  have hobj : ∀ ρ, g.obj.eval ρ = ρ .alpha := accObj_obj _ _ _
  have hmin : g.maximize = false := accObj_min _ _ _
  have hopt : g.Optimal exNegativeSol := by
    refine ⟨hfeas, fun ρ hρ => ?_⟩
    simp only [hmin, hobj, Bool.false_eq_true, if_false]
    exact hle ρ hρ
  have hbd : g.Bounded := ⟨-2000000, fun ρ hρ => by
    simp only [hmin, hobj, Bool.false_eq_true, if_false]; exact hle ρ hρ⟩
  obtain ⟨hans, hex, -⟩ := hsolve 0 g
  obtain ⟨hst, hval⟩ := hex ⟨_, hopt⟩
  obtain ⟨ρ, hρ⟩ := Option.isSome_iff_exists.1 (hans.valid.optimal hst)
  obtain ⟨hρf, hρv⟩ := hans.valid.feas ρ hρ
  have hcost : (solve 0 g).objVal = -2000000 := by
    have h1 := hans.valid.bound hbd _ hfeas
    simp only [hmin, hobj, Bool.false_eq_true, if_false] at h1
    have h2 := hle ρ hρf
    rw [hobj] at hρv
    have h3 : exNegativeSol .alpha = -2000000 := rfl
    rw [h3] at h1
    linarith
  have hacc : accurateObjSplit exNegative (solve 0) [0, 1] [0, 1]
      = .ok ⟨-2000000, (accSubsets [0, 1] ρ).1, (accSubsets [0, 1] ρ).2⟩ := by
    unfold accurateObjSplit optimize
    rw [← hg, if_neg (by rw [hst]; decide)]
    simp only [bind, Except.bind, getObjVal, getSol, hρ, hcost]
    rfl
  have hf2 : ([0, 1] : List ℕ).filter (fun s => decide (s ∈ [0, 1])) = [0, 1] := by decide
  have hev : ∀ st : CState, st.base = RState.init [[0, 1]] → st.memory = [] → st.post = [] →
      ∃ st', evaluateSplit exNegative (checkFeasibility norm exNegative fun _ => 0) solve st 0
        = .ok st' ∧ st'.post = [(0, -2000000)] ∧ st'.base.muCounter = 0 := by
    intro st h1 h2 h3
    unfold evaluateSplit
    rw [h1, h2, h3, hinf]
    simp only [RState.init, pyGet, List.getElem?_cons_zero, bind, Except.bind, List.find?_nil, hf2]
    rw [hacc]
    exact ⟨_, rfl, rfl, rfl⟩
  obtain ⟨st1, e1, e2, e3⟩ := hev
    { base := RState.init [[0, 1]], memory := [], post := [], left := [], right := [] } rfl rfl rfl
  have hch : chooseSplit vUB st1.post = .error .keyError := by
    rw [e2]
    unfold chooseSplit
    simp only [List.filter_cons, hUB, decide_true, if_true, List.filter_nil, List.length_singleton]
    norm_num [bestFree]
  have hfilt : pyFilter (fun c => do
      let k ← pyGet (countInfeasible [[0, 1]] [0, 1]) c; pure (decide (2 ≤ k))) [0]
      = .ok [0] := by decide
  unfold refineCost evaluateSplits
  simp only [hinf, hfi, hmu, bind, Except.bind, hsort] at hfilt ⊢
  rw [pyAssert_true (by rfl)]
  simp only [RState.init] at e1 ⊢
  rw [hfilt]
  simp only [List.foldlM_cons, List.foldlM_nil, bind, Except.bind]
  rw [e1]
  simp only [pure, Except.pure, costLoop, e3, performSplit, hch, bind, Except.bind]
  rfl

/-- The hypotheses of C68 hold. -/
example : ∃ solve : ℕ → GModel → GResult, ∀ k g, GResult.Exact g (solve k g) := by
  obtain ⟨solve, h⟩ := GResult.exists_exact
  exact ⟨fun _ => solve, fun _ => h⟩

end Verif.Props
