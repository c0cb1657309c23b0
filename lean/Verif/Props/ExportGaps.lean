import Verif.Props.Export

/-!
# C64 for rows whose gap is `nan` or negative infinity
-/

namespace Verif.Props
open Model

/-- The gap is a number of at most `required`, or `-inf`. -/
def SolvedGap (required : ℚ) (g : Gap) : Prop := g = .negInf ∨ ∃ q : ℚ, g = .fin q ∧ q ≤ required

/-- `g` is the mean of the entries of a non-empty list, as IEEE arithmetic has it: `nan` if one of them is
`nan` or both infinities occur, infinite if one infinity occurs, and otherwise the mean. -/
def IsMean (l : List Gap) (g : Gap) : Prop :=
  (g = .nan ↔ .nan ∈ l ∨ .posInf ∈ l ∧ .negInf ∈ l)
  ∧ (g = .posInf ↔ .nan ∉ l ∧ .posInf ∈ l ∧ .negInf ∉ l)
  ∧ (g = .negInf ↔ .nan ∉ l ∧ .posInf ∉ l ∧ .negInf ∈ l)
  ∧ ∀ qs : List ℚ, l = qs.map .fin → g = .fin (qs.sum / qs.length)

/-- The sum of the entries. -/
theorem sum_gaps (l : List Gap) (a : ℚ) :
    let g := l.foldl Gap.add (.fin a)
    (g = .nan ↔ .nan ∈ l ∨ .posInf ∈ l ∧ .negInf ∈ l)
    ∧ (g = .posInf ↔ .nan ∉ l ∧ .posInf ∈ l ∧ .negInf ∉ l)
    ∧ (g = .negInf ↔ .nan ∉ l ∧ .posInf ∉ l ∧ .negInf ∈ l)
    ∧ ∀ qs : List ℚ, l = qs.map .fin → g = .fin (a + qs.sum) := by
  have hnan : ∀ l : List Gap, l.foldl Gap.add .nan = .nan := fun l => by
    induction l with
    | nil => rfl
    | cons g l ih => simpa [Gap.add] using ih
  have hpos : ∀ l : List Gap, l.foldl Gap.add .posInf = if .nan ∈ l ∨ .negInf ∈ l then .nan else .posInf := by
    intro l
    induction l with
    | nil => rfl
    | cons g l ih => cases g <;> simp [Gap.add, ih, hnan]
  have hneg : ∀ l : List Gap, l.foldl Gap.add .negInf = if .nan ∈ l ∨ .posInf ∈ l then .nan else .negInf := by
    intro l
    induction l with
    | nil => rfl
    | cons g l ih => cases g <;> simp [Gap.add, ih, hnan]
  induction l generalizing a with
  | nil =>
    refine ⟨by simp, by simp, by simp, fun qs h => ?_⟩
    cases qs with
    | nil => simp
    | cons q qs => simp at h
  | cons g l ih =>
    cases g with
    | fin q =>
      have ih := ih (a + q)
      simp only [List.foldl_cons, Gap.add]
      refine ⟨by simpa using ih.1, by simpa using ih.2.1, by simpa using ih.2.2.1, fun qs h => ?_⟩
      cases qs with
      | nil => simp at h
      | cons q' qs =>
        simp only [List.map_cons, List.cons.injEq, Gap.fin.injEq] at h
        rw [ih.2.2.2 qs h.2, List.sum_cons, h.1]
        congr 1
        ring
    | posInf =>
      simp only [List.foldl_cons, Gap.add, hpos]
      refine ⟨?_, ?_, ?_, fun qs h => ?_⟩
      · by_cases h : .nan ∈ l ∨ .negInf ∈ l
        · simp only [h, if_true, List.mem_cons, reduceCtorEq, false_or, true_or, true_and, and_true, not_true,
            not_false_eq_true, true_iff, false_iff]
          try tauto
        · simp only [h, if_false, List.mem_cons, reduceCtorEq, false_or, true_or, true_and, and_true, not_true,
            not_false_eq_true, true_iff, false_iff]
          try tauto
      · by_cases h : .nan ∈ l ∨ .negInf ∈ l
        · simp only [h, if_true, List.mem_cons, reduceCtorEq, false_or, true_or, true_and, and_true, not_true,
            not_false_eq_true, true_iff, false_iff]
          try tauto
        · simp only [h, if_false, List.mem_cons, reduceCtorEq, false_or, true_or, true_and, and_true, not_true,
            not_false_eq_true, true_iff, false_iff]
          try tauto
      · by_cases h : .nan ∈ l ∨ .negInf ∈ l
        · simp only [h, if_true, List.mem_cons, reduceCtorEq, false_or, true_or, true_and, and_true, not_true,
            not_false_eq_true, true_iff, false_iff]
          try tauto
        · simp only [h, if_false, List.mem_cons, reduceCtorEq, false_or, true_or, true_and, and_true, not_true,
            not_false_eq_true, true_iff, false_iff]
          try tauto
      · cases qs <;> simp at h
    | negInf =>
      simp only [List.foldl_cons, Gap.add, hneg]
      refine ⟨?_, ?_, ?_, fun qs h => ?_⟩
      · by_cases h : .nan ∈ l ∨ .posInf ∈ l
        · simp only [h, if_true, List.mem_cons, reduceCtorEq, false_or, true_or, true_and, and_true, not_true,
            not_false_eq_true, true_iff, false_iff]
          try tauto
        · simp only [h, if_false, List.mem_cons, reduceCtorEq, false_or, true_or, true_and, and_true, not_true,
            not_false_eq_true, true_iff, false_iff]
          try tauto
      · by_cases h : .nan ∈ l ∨ .posInf ∈ l
        · simp only [h, if_true, List.mem_cons, reduceCtorEq, false_or, true_or, true_and, and_true, not_true,
            not_false_eq_true, true_iff, false_iff]
          try tauto
        · simp only [h, if_false, List.mem_cons, reduceCtorEq, false_or, true_or, true_and, and_true, not_true,
            not_false_eq_true, true_iff, false_iff]
          try tauto
      · by_cases h : .nan ∈ l ∨ .posInf ∈ l
        · simp only [h, if_true, List.mem_cons, reduceCtorEq, false_or, true_or, true_and, and_true, not_true,
            not_false_eq_true, true_iff, false_iff]
          try tauto
        · simp only [h, if_false, List.mem_cons, reduceCtorEq, false_or, true_or, true_and, and_true, not_true,
            not_false_eq_true, true_iff, false_iff]
          try tauto
      · cases qs <;> simp at h
    | nan =>
      simp only [List.foldl_cons, Gap.add, hnan]
      exact ⟨by simp, by simp, by simp, fun qs h => by cases qs <;> simp at h⟩

theorem scale_isMean (l : List Gap) :
    IsMean l ((l.foldl Gap.add (.fin 0)).scale (1 / (l.length : ℚ))) := by
  obtain ⟨h1, h2, h3, h4⟩ := sum_gaps l 0
  have hs : ∀ (g : Gap) (q : ℚ), (g.scale q = .nan ↔ g = .nan) ∧ (g.scale q = .posInf ↔ g = .posInf)
      ∧ (g.scale q = .negInf ↔ g = .negInf) := by
    intro g q
    cases g <;> simp [Gap.scale]
  refine ⟨(hs _ _).1.trans h1, (hs _ _).2.1.trans h2, (hs _ _).2.2.trans h3, fun qs h => ?_⟩
  rw [h4 qs h, h]
  simp [Gap.scale, div_eq_mul_inv]

theorem countLoop_gaps {results : List (List Val)} {required : ℚ} {ids : List ℕ} {gap : ℕ → Gap}
    (h : ∀ j ∈ ids, ∃ row, results[j - 1]? = some row ∧ Back row 1 (gap j)) (nb : ℕ) (all : Bool) :
    countLoop results required ids nb all
      = .ok (nb + ids.countP (fun j => (gap j).le (required + 1 / 10000000)),
             all && ids.all fun j => (gap j).le (required + 1 / 10000000)) := by
  induction ids generalizing nb all with
  | nil => simp [countLoop]
  | cons j ids ih =>
    obtain ⟨row, hr, hb⟩ := h j (by simp)
    have ih' := fun n a => ih (fun i hi => h i (by simp [hi])) n a
    simp only [countLoop, pyGet, hr, backNum_of hb, bind, Except.bind]
    by_cases hc : (gap j).le (required + 1 / 10000000) = true
    · rw [if_pos hc, ih']
      simp only [List.countP_cons, List.all_cons, hc, if_true, Bool.true_and]
      congr 2
      omega
    · rw [if_neg hc, ih']
      simp only [List.countP_cons, List.all_cons, Bool.not_eq_true _ ▸ hc, Bool.false_and,
        Bool.and_false]
      simp

theorem sumLoop_gaps {results : List (List Val)} {all isPart : Bool} {ids : List ℕ} {f : ℕ → Gap}
    {iter : ℕ → Gap}
    (h : ∀ j ∈ ids, ∃ row, results[j - 1]? = some row ∧ Back row (if all then 4 else 1) (f j)
      ∧ (isPart = true → Back row 6 (iter j)))
    (a : Gap) (b : Option Gap) (hb : isPart = true → b.isSome = true) :
    sumLoop results all isPart ids a b
      = .ok ((ids.map f).foldl Gap.add a,
             if isPart then b.map fun x => (ids.map iter).foldl Gap.add x else b) := by
  induction ids generalizing a b with
  | nil => cases isPart <;> simp [sumLoop]
  | cons j ids ih =>
    obtain ⟨row, hr, hf, hi⟩ := h j (by simp)
    have ih' := fun a b => ih (fun i hi => h i (by simp [hi])) a b
    simp only [sumLoop, pyGet, hr, backNum_of hf, bind, Except.bind]
    cases isPart with
    | false =>
      simp only [addIterations, Bool.false_eq_true, if_false]
      rw [ih' _ _ (by simp)]
      simp
    | true =>
      cases b with
      | none => simp at hb
      | some x =>
        simp only [addIterations, if_true, backNum_of (hi rfl), bind, Except.bind, pure, Except.pure]
        rw [ih' _ _ (by simp)]
        simp

/-- **C64 (any numbers).**  Whatever the gaps, times and numbers of iterations in the rows, infinities and
`nan` included: `format_method` counts the gaps of at most the required one (`nan` is not one of them,
`-inf` is), and reports and prints the mean of the times if all are solved and the mean of the gaps
otherwise, and the mean of the iterations, each as IEEE arithmetic has it. -/
theorem C64_any_gap {results : List (List Val)} {ids : List ℕ} {gap time iter : ℕ → Gap} {m : ℕ}
    {milp part : List ℕ} (r : ℤ) {req : ℚ} (hreq : Near req r) (hne : ids ≠ [])
    (hrow : ∀ j ∈ ids, ∃ row, results[j - 1]? = some row ∧ Back row 1 (gap j) ∧ Back row 4 (time j)
      ∧ (m ∈ part → Back row 6 (iter j)))
    (hm : ∀ j ∈ ids, ∀ q, gap j = .fin q → ∃ k : ℤ, q = (k : ℚ) / 1000) (hkind : m ∈ milp ↔ m ∉ part) :
    ∃ (S : Summary) (solved : ℕ → Bool), formatMethod results m ids req milp part = .ok S
      ∧ (∀ j ∈ ids, solved j = true ↔ SolvedGap ((r : ℚ) / 1000) (gap j)) ∧ S.nbSolved = ids.countP solved
      ∧ ((∀ j ∈ ids, SolvedGap ((r : ℚ) / 1000) (gap j)) →
          IsMean (ids.map time) S.time ∧ S.gap = .posInf
          ∧ ∃ t, S.cells[0]? = some (.str t) ∧ Shows t S.time ['s'])
      ∧ ((∃ j ∈ ids, ¬ SolvedGap ((r : ℚ) / 1000) (gap j)) →
          S.time = .posInf ∧ IsMean (ids.map gap) S.gap
          ∧ ∃ t, S.cells[0]? = some (.str t) ∧ Shows t S.gap
              ("\\%(".toList ++ (toString (ids.countP solved)).toList ++ [')']))
      ∧ (m ∈ part → S.cells.length = 2
          ∧ ∃ g, S.cells[1]? = some (.num g) ∧ IsMean (ids.map iter) g)
      ∧ (m ∉ part → S.cells.length = 1) := by
  have hb : ∀ j ∈ ids, ((gap j).le (req + 1 / 10000000) = true ↔ SolvedGap ((r : ℚ) / 1000) (gap j)) := by
    intro j hj
    have hmj := hm j hj
    unfold SolvedGap
    cases hg : gap j with
    | fin q =>
      have e := milli_le (g := (q : WithTop ℚ)) (fun q' h => hmj q' (by
        rw [hg]; congr 1; exact WithTop.coe_injective h)) hreq
      rw [WithTop.coe_le_coe, WithTop.coe_le_coe] at e
      simp only [Gap.le, decide_eq_true_eq, reduceCtorEq, Gap.fin.injEq, exists_eq_left', false_or]
      exact e
    | posInf => simp [Gap.le]
    | negInf => simp [Gap.le]
    | nan => simp [Gap.le]
  have hc := countLoop_gaps (required := req) (fun j hj => (hrow j hj).imp fun row h => ⟨h.1, h.2.1⟩) 0 true
  rw [Nat.zero_add, Bool.true_and] at hc
  have hlen : ids.length ≠ 0 := by simpa using hne
  have hstart : (if m ∈ milp then none else some (Gap.fin 0)) = if m ∈ part then some (Gap.fin 0) else none := by
    by_cases h : m ∈ part
    · rw [if_pos h, if_neg (fun h' => hkind.1 h' h)]
    · rw [if_neg h, if_pos (hkind.2 h)]
  have hsome : decide (m ∈ part) = true → (if m ∈ part then some (Gap.fin 0) else none).isSome = true := by
    intro h; rw [if_pos (of_decide_eq_true h)]; rfl
  have htoS : ∀ n : ℕ, (toString n).toList = Nat.toDigits 10 n := fun n => by simp
  have hs := fun all : Bool => sumLoop_gaps (results := results) (ids := ids) (iter := iter) (all := all)
      (isPart := decide (m ∈ part)) (f := if all then time else gap)
      (fun j hj => (hrow j hj).imp fun row h => ⟨h.1, by
        cases all
        · exact h.2.1
        · exact h.2.2.1, fun hp => h.2.2.2 (of_decide_eq_true hp)⟩) (.fin 0) _ hsome
  have hcells : ∀ entry : Txt, (m ∈ part → ((Val.str entry :: ((if decide (m ∈ part) then
        (if m ∈ part then some (Gap.fin 0) else none).map fun x => (ids.map iter).foldl Gap.add x
        else (if m ∈ part then some (Gap.fin 0) else none)).map
          fun x => Val.num (x.scale (1 / (ids.length : ℚ)))).toList).length = 2)
      ∧ ∃ g, (Val.str entry :: ((if decide (m ∈ part) then
        (if m ∈ part then some (Gap.fin 0) else none).map fun x => (ids.map iter).foldl Gap.add x
        else (if m ∈ part then some (Gap.fin 0) else none)).map
          fun x => Val.num (x.scale (1 / (ids.length : ℚ)))).toList)[1]? = some (.num g)
        ∧ IsMean (ids.map iter) g)
      ∧ (m ∉ part → (Val.str entry :: ((if decide (m ∈ part) then
        (if m ∈ part then some (Gap.fin 0) else none).map fun x => (ids.map iter).foldl Gap.add x
        else (if m ∈ part then some (Gap.fin 0) else none)).map
          fun x => Val.num (x.scale (1 / (ids.length : ℚ)))).toList).length = 1) := by
    intro entry
    refine ⟨fun hp => ?_, fun hp => by simp [hp]⟩
    simp only [hp, if_true, Option.map_some, Option.toList_some, decide_true]
    refine ⟨rfl, _, rfl, ?_⟩
    have := scale_isMean (ids.map iter)
    rwa [List.length_map] at this
  have hmean : ∀ f : ℕ → Gap, IsMean (ids.map f)
      (((ids.map f).foldl Gap.add (.fin 0)).scale (1 / (ids.length : ℚ))) := fun f => by
    have := scale_isMean (ids.map f)
    rwa [List.length_map] at this
  by_cases hA : ∀ j ∈ ids, SolvedGap ((r : ℚ) / 1000) (gap j)
  · rw [List.all_eq_true.2 fun j hj => (hb j hj).2 (hA j hj)] at hc
    refine ⟨_, _, formatMethod_of hlen hc (by rw [hstart]; exact hs true), hb, rfl,
      fun _ => ⟨hmean time, rfl, _, rfl, shows_fmt _ _⟩, fun ⟨j, hj, h⟩ => absurd (hA j hj) h, ?_, ?_⟩
    · exact (hcells _).1
    · exact (hcells _).2
  · have hall : (ids.all fun j => (gap j).le (req + 1 / 10000000)) = false :=
      Bool.eq_false_iff.2 fun h => hA fun j hj => (hb j hj).1 (List.all_eq_true.1 h j hj)
    rw [hall] at hc
    refine ⟨_, _, formatMethod_of hlen hc (by rw [hstart]; exact hs false), hb, rfl,
      fun h => absurd h hA, fun _ => ⟨rfl, hmean gap, _, rfl, ?_⟩, ?_, ?_⟩
    · rw [htoS]
      exact shows_fmt _ _
    · exact (hcells _).1
    · exact (hcells _).2

/-- The hypotheses of C64_any_gap, met by a table of a MILP method with the gaps `inf` and `-inf`: the mean is `nan`, one instance counts as
solved. -/
example : ∃ S, formatMethod [[.num (.fin 3), .num (.fin 0), .num (.fin 0), .num .posInf],
      [.num (.fin 3), .num (.fin 0), .num (.fin 0), .num .negInf]] 1 [1, 2] (1 / 100) [1, 2] [3, 4] = .ok S
    ∧ S.gap = .nan ∧ S.nbSolved = 1 ∧ S.cells = [.str "nan\\%(1)".toList] :=
  ⟨_, rfl, by decide +kernel, by decide +kernel, by decide +kernel⟩

/-- Results of one instance: the gap of the first method is `nan`, that of the second one percent; the files of
the other two are missing. -/
def exNanTable : ℕ → List (List Val)
  | 1 => [[.num (.fin 9), .num (.fin 0), .num (.fin 0), .num .nan]]
  | 2 => [[.num (.fin 9), .num (.fin 0), .num (.fin 0), .num (.fin 1)]]
  | _ => [[]]

/-- **C65 (`nan`).**  The restriction of C65 to gaps that are numbers or `inf` is needed: a method whose mean gap
is `nan` is set in bold although another method has a gap of one percent. -/
theorem C65_nan_counterexample :
    tableRow [.str [], .str [], .str []] [1] (1 / 100) exNanTable
      = .ok ([.str [], .str [], .str []] ++ [.str "\\textbf{nan\\%(0)}".toList, .str "1.00\\%(0)".toList]
        ++ [.num .nan, .num .nan, .num .nan, .num .nan]) := by
  decide +kernel

end Verif.Props
