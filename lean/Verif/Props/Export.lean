import Verif.Props.Rows
import Mathlib.Algebra.Order.Monoid.Unbundled.WithTop

/-!
# Summary tables (C64, C65)
-/

namespace Verif.Props

open Model

/-! ## Specification -/

/-- What the exporter needs from the row of one instance. -/
structure RowOk (row : List Val) (gap : WithTop ℚ) (time iter : ℚ) (adaptive : Prop) : Prop where
  gap : Back row 1 (ofTop gap)
  time : Back row 4 (.fin time)
  iter : adaptive → Back row 6 (.fin iter)

/-- The mean of the numbers `f j`. -/
def mean (ids : List ℕ) (f : ℕ → ℚ) : ℚ := (ids.map f).sum / ids.length

/-- The mean of numbers that may be infinite. -/
def meanTop (ids : List ℕ) (f : ℕ → WithTop ℚ) : WithTop ℚ :=
  ((ids.map f).sum).map fun x => x / ids.length

/-- Every instance has a gap of at most the required one. -/
def AllSolved (ids : List ℕ) (required : ℚ) (gap : ℕ → WithTop ℚ) : Prop :=
  ∀ j ∈ ids, gap j ≤ (required : WithTop ℚ)

/-- A multiple of one thousandth, as printed with three decimals. -/
def Milli (g : WithTop ℚ) : Prop := ∀ q : ℚ, g = q → ∃ k : ℤ, q = (k : ℚ) / 1000

/-- The number of instances with a gap of at most the required one. -/
noncomputable def nbSolved (ids : List ℕ) (required : ℚ) (gap : ℕ → WithTop ℚ) : ℕ := by
  classical exact ids.countP fun j => decide (gap j ≤ (required : WithTop ℚ))

/-- The text `t` is a number printed with two decimals followed by `tail`. -/
def Shows (t : Txt) (g : Gap) (tail : Txt) : Prop :=
  ∃ a x, t = a ++ tail ∧ readFloat a = some x ∧ Prints 2 x g

/-! ## C64 -/

theorem backNum_of {row : List Val} {k : ℕ} {g : Gap} (h : Back row k g) :
    backNum row k = .ok g := by
  unfold Back at h
  simp [backNum, pyBack, h, asNum, bind, Except.bind]

theorem ofTop_le (g : WithTop ℚ) (q : ℚ) : (ofTop g).le q = true ↔ g ≤ (q : WithTop ℚ) := by
  cases g with
  | top => simp [ofTop, Gap.le]
  | coe a => simp [ofTop, Gap.le]

/-- The number `q` stands for `r` thousandths up to a rounding error. -/
def Near (q : ℚ) (r : ℤ) : Prop := |q - r / 1000| ≤ 1 / 10 ^ 8

theorem near_self (r : ℤ) : Near ((r : ℚ) / 1000) r := by
  unfold Near
  rw [sub_self, abs_zero]
  norm_num

/-- With three decimals the tolerance `1e-7` makes no difference. -/
theorem milli_le {g : WithTop ℚ} (hg : Milli g) {r : ℤ} {req : ℚ} (hreq : Near req r) :
    g ≤ ((req + 1 / 10000000 : ℚ) : WithTop ℚ) ↔ g ≤ (((r : ℚ) / 1000 : ℚ) : WithTop ℚ)
    := by
  obtain ⟨n1, n2⟩ := abs_le.1 hreq
  norm_num at n1 n2
  cases g with
  | top => simp
  | coe a =>
    obtain ⟨k, rfl⟩ := hg a rfl
    rw [WithTop.coe_le_coe, WithTop.coe_le_coe]
    constructor
    · intro h
      have h1 : (k : ℚ) < r + 1 := by linarith
      have h2 : k < r + 1 := by exact_mod_cast h1
      have h3 : (k : ℚ) ≤ r := by exact_mod_cast (by omega : k ≤ r)
      linarith
    · intro h; linarith

section
variable {results : List (List Val)} {ids : List ℕ} {gap : ℕ → WithTop ℚ} {time iter : ℕ → ℚ}

theorem countLoop_eq {required : ℚ}
    (h : ∀ j ∈ ids, ∃ row, results[j - 1]? = some row ∧ Back row 1 (ofTop (gap j)))
    (nb : ℕ) (all : Bool) :
    countLoop results required ids nb all
      = .ok (nb + ids.countP (fun j => (ofTop (gap j)).le (required + 1 / 10000000)),
             all && ids.all fun j => (ofTop (gap j)).le (required + 1 / 10000000)) := by
  induction ids generalizing nb all with
  | nil => simp [countLoop]
  | cons j ids ih =>
    obtain ⟨row, hr, hb⟩ := h j (by simp)
    have ih' := fun n a => ih (fun i hi => h i (by simp [hi])) n a
    simp only [countLoop, pyGet, hr, backNum_of hb, bind, Except.bind]
    by_cases hc : (ofTop (gap j)).le (required + 1 / 10000000) = true
    · rw [if_pos hc, ih']
      simp only [List.countP_cons, List.all_cons, hc, if_true, Bool.true_and]
      congr 2
      omega
    · rw [if_neg hc, ih']
      simp only [List.countP_cons, List.all_cons, Bool.not_eq_true _ ▸ hc, Bool.false_and,
        Bool.and_false]
      simp

theorem ofTop_add (a b : WithTop ℚ) : (ofTop a).add (ofTop b) = ofTop (a + b) := by
  cases a with
  | top => cases b <;> rfl
  | coe a => cases b <;> rfl

theorem sumLoop_eq {all isPart : Bool} {f : ℕ → WithTop ℚ}
    (h : ∀ j ∈ ids, ∃ row, results[j - 1]? = some row
      ∧ Back row (if all then 4 else 1) (ofTop (f j))
      ∧ (isPart = true → Back row 6 (.fin (iter j))))
    (a : WithTop ℚ) (b : Option ℚ) (hb : isPart = true → b.isSome = true) :
    sumLoop results all isPart ids (ofTop a) (b.map .fin)
      = .ok (ofTop (a + (ids.map f).sum),
             (b.map fun x => x + if isPart then (ids.map iter).sum else 0).map .fin) := by
  induction ids generalizing a b with
  | nil => cases isPart <;> cases b <;> simp [sumLoop]
  | cons j ids ih =>
    obtain ⟨row, hr, hf, hi⟩ := h j (by simp)
    have ih' := fun a b => ih (fun i hi => h i (by simp [hi])) a b
    simp only [sumLoop, pyGet, hr, backNum_of hf, bind, Except.bind]
    cases isPart with
    | false =>
      simp only [addIterations, Bool.false_eq_true, if_false]
      rw [ofTop_add, ih' _ _ (by simp)]
      simp [add_assoc]
    | true =>
      cases b with
      | none => simp at hb
      | some x =>
        simp only [addIterations, if_true, backNum_of (hi rfl), bind, Except.bind, Option.map_some,
          pure, Except.pure]
        have e : some ((Gap.fin x).add (.fin (iter j))) = (some (x + iter j)).map Gap.fin := rfl
        rw [e, ofTop_add, ih' _ _ (by simp)]
        simp [add_assoc]

theorem sum_coe (l : List ℕ) (f : ℕ → ℚ) :
    (l.map fun j => ((f j : ℚ) : WithTop ℚ)).sum = (((l.map f).sum : ℚ) : WithTop ℚ) := by
  induction l with
  | nil => rfl
  | cons a l ih => simp [ih]

theorem shows_fmt (g : Gap) (tail : Txt) : Shows (fmtFloat 2 g ++ tail) g tail :=
  ⟨_, _, rfl, readFloat_fmt 2 g, prints_round 2 g⟩

theorem ofTop_scale (a : WithTop ℚ) (n : ℕ) :
    (ofTop a).scale (1 / (n : ℚ)) = ofTop (a.map fun x => x / n) := by
  cases a with
  | top => rfl
  | coe a =>
    show Gap.fin (a * (1 / (n : ℚ))) = Gap.fin (a / n)
    rw [mul_one_div]

theorem formatMethod_of {m nb : ℕ} {milp part : List ℕ} {required : ℚ} {all : Bool} {a : Gap}
    {b : Option Gap} (hlen : ids.length ≠ 0)
    (hc : countLoop results required ids 0 true = .ok (nb, all))
    (hs : sumLoop results all (decide (m ∈ part)) ids (.fin 0)
      (if m ∈ milp then none else some (.fin 0)) = .ok (a, b)) :
    formatMethod results m ids required milp part = .ok
      { time := if all then a.scale (1 / (ids.length : ℚ)) else .posInf
        nbSolved := nb
        gap := if all then .posInf else a.scale (1 / (ids.length : ℚ))
        cells := .str (fmtFloat 2 (a.scale (1 / (ids.length : ℚ))) ++
            (if all then ['s'] else ['\\', '%', '('] ++ Nat.toDigits 10 nb ++ [')']))
          :: (b.map fun x => Val.num (x.scale (1 / (ids.length : ℚ)))).toList } := by
  unfold formatMethod
  simp only [hc, hs, bind, Except.bind, hlen, if_false, pure, Except.pure]

/-- **C64.**  `format_method` returns the number of instances with a gap of at most the required
one; the mean time if that is all of them and the mean gap otherwise; and it prints this mean, the
number of solved instances if some are not, and the mean number of iterations for an adaptive
method.  Gaps are given with three decimals, as in the result files, and so is the required gap, up
to a rounding error. -/
theorem C64_format {m : ℕ} {milp part : List ℕ} (r : ℤ) {req : ℚ} (hreq : Near req r)
    (hne : ids ≠ [])
    (hrow : ∀ j ∈ ids, ∃ row, results[j - 1]? = some row
      ∧ RowOk row (gap j) (time j) (iter j) (m ∈ part))
    (hm : ∀ j ∈ ids, Milli (gap j)) (hkind : m ∈ milp ↔ m ∉ part) :
    ∃ S, formatMethod results m ids req milp part = .ok S
      ∧ S.nbSolved = nbSolved ids ((r : ℚ) / 1000) gap
      ∧ (AllSolved ids ((r : ℚ) / 1000) gap →
          S.time = .fin (mean ids time) ∧ S.gap = .posInf
          ∧ ∃ t, S.cells[0]? = some (.str t) ∧ Shows t (.fin (mean ids time)) ['s'])
      ∧ (¬ AllSolved ids ((r : ℚ) / 1000) gap →
          S.time = .posInf ∧ S.gap = ofTop (meanTop ids gap)
          ∧ ∃ t, S.cells[0]? = some (.str t) ∧ Shows t (ofTop (meanTop ids gap))
              ("\\%(".toList ++ (toString (nbSolved ids ((r : ℚ) / 1000) gap)).toList ++ [')']))
      ∧ (m ∈ part → S.cells.length = 2 ∧ S.cells[1]? = some (.num (.fin (mean ids iter))))
      ∧ (m ∉ part → S.cells.length = 1) := by
  classical
  have hb : ∀ j ∈ ids, ((ofTop (gap j)).le (req + 1 / 10000000) = true
      ↔ gap j ≤ (((r : ℚ) / 1000 : ℚ) : WithTop ℚ)) := fun j hj => by
    rw [ofTop_le, milli_le (hm j hj) hreq]
  have hcount : ids.countP (fun j => (ofTop (gap j)).le (req + 1 / 10000000))
      = nbSolved ids ((r : ℚ) / 1000) gap := by
    unfold nbSolved
    apply List.countP_congr
    intro j hj
    rw [hb j hj]
    simp
  have hall : (ids.all fun j => (ofTop (gap j)).le (req + 1 / 10000000)) = true
      ↔ AllSolved ids ((r : ℚ) / 1000) gap := by
    rw [List.all_eq_true]
    exact forall₂_congr fun j hj => hb j hj
  have hc := countLoop_eq (required := req)
    (fun j hj => (hrow j hj).imp fun row h => ⟨h.1, h.2.gap⟩) 0 true
  rw [hcount, Nat.zero_add, Bool.true_and] at hc
  have hlen : ids.length ≠ 0 := by simpa using hne
  have hpart : decide (m ∈ part) = true ↔ m ∈ part := by simp
  have hstart : (if m ∈ milp then none else some (Gap.fin 0))
      = (if m ∈ part then some (0 : ℚ) else none).map Gap.fin := by
    by_cases h : m ∈ part
    · rw [if_pos h, if_neg (fun h' => hkind.1 h' h)]; rfl
    · rw [if_neg h, if_pos (hkind.2 h)]; rfl
  have hsome : decide (m ∈ part) = true
      → (if m ∈ part then some (0 : ℚ) else none).isSome = true := by
    intro h; rw [if_pos (hpart.1 h)]; rfl
  have htoS : ∀ n : ℕ, (toString n).toList = Nat.toDigits 10 n := fun n => by
    simp
  by_cases hA : AllSolved ids ((r : ℚ) / 1000) gap
  · rw [hall.2 hA] at hc
    have hs := sumLoop_eq (results := results) (ids := ids) (iter := iter) (all := true)
      (isPart := decide (m ∈ part)) (f := fun j => ((time j : ℚ) : WithTop ℚ))
      (fun j hj => (hrow j hj).imp fun row h =>
        ⟨h.1, h.2.time, fun hp => h.2.iter (hpart.1 hp)⟩) 0 _ hsome
    have h0 : ofTop 0 = Gap.fin 0 := rfl
    rw [h0] at hs
    have hmean : (ofTop (0 + (ids.map fun j => ((time j : ℚ) : WithTop ℚ)).sum)).scale
        (1 / (ids.length : ℚ)) = .fin (mean ids time) := by
      rw [zero_add, sum_coe, ofTop_scale]; rfl
    refine ⟨_, formatMethod_of hlen hc (by rw [hstart]; exact hs), rfl, ?_, ?_, ?_, ?_⟩
    · intro _
      refine ⟨hmean, rfl, _, rfl, ?_⟩
      rw [hmean]
      exact shows_fmt _ _
    · exact fun h => absurd hA h
    · intro hp
      simp only [hp, if_true, Option.map_some, Option.toList_some, decide_true]
      refine ⟨rfl, ?_⟩
      simp [Gap.scale, mean, div_eq_mul_inv]
    · intro hp
      simp [hp]
  · have hA' := Bool.eq_false_iff.2 (fun h => hA (hall.1 h))
    rw [hA'] at hc
    have hs := sumLoop_eq (results := results) (ids := ids) (iter := iter) (all := false)
      (isPart := decide (m ∈ part)) (f := gap)
      (fun j hj => (hrow j hj).imp fun row h =>
        ⟨h.1, h.2.gap, fun hp => h.2.iter (hpart.1 hp)⟩) 0 _ hsome
    have h0 : ofTop 0 = Gap.fin 0 := rfl
    rw [h0] at hs
    have hmean : (ofTop (0 + (ids.map gap).sum)).scale (1 / (ids.length : ℚ))
        = ofTop (meanTop ids gap) := by
      rw [zero_add, ofTop_scale]; rfl
    refine ⟨_, formatMethod_of hlen hc (by rw [hstart]; exact hs), rfl, ?_, ?_, ?_, ?_⟩
    · exact fun h => absurd h hA
    · intro _
      refine ⟨rfl, hmean, _, rfl, ?_⟩
      rw [hmean, htoS]
      exact shows_fmt _ _
    · intro hp
      simp only [hp, if_true, Option.map_some, Option.toList_some, decide_true]
      refine ⟨rfl, ?_⟩
      simp [Gap.scale, mean, div_eq_mul_inv]
    · intro hp
      simp [hp]

end

/-! ## C65 -/

/-- The results of one method: whether a file is missing, and the data of the instances. -/
structure MethodData where
  missing : Prop
  gap : ℕ → WithTop ℚ
  time : ℕ → ℚ
  iter : ℕ → ℚ

/-- The method has all its files and solved every instance. -/
def MethodData.Solved (d : MethodData) (ids : List ℕ) (required : ℚ) : Prop :=
  ¬ d.missing ∧ AllSolved ids required d.gap

open Classical in
/-- Number of solved instances, 0 if a file is missing. -/
noncomputable def MethodData.nb (d : MethodData) (ids : List ℕ) (required : ℚ) : ℕ :=
  if d.missing then 0 else nbSolved ids required d.gap

open Classical in
/-- Mean gap, infinite if a file is missing. -/
noncomputable def MethodData.meanGap (d : MethodData) (ids : List ℕ) : WithTop ℚ :=
  if d.missing then ⊤ else meanTop ids d.gap

/-- Method `k` is a best one: least mean time among those that solved everything or, if there are
none, least mean gap among those that solved the most instances. -/
def BestMethod (data : ℕ → MethodData) (ids : List ℕ) (required : ℚ) (k : ℕ) : Prop :=
  ((∃ m ∈ [1, 2, 3, 4], (data m).Solved ids required) →
    (data k).Solved ids required
    ∧ ∀ m ∈ [1, 2, 3, 4], (data m).Solved ids required →
        mean ids (data k).time ≤ mean ids (data m).time)
  ∧ ((∀ m ∈ [1, 2, 3, 4], ¬ (data m).Solved ids required) →
    ∀ m ∈ [1, 2, 3, 4], (data m).nb ids required ≤ (data k).nb ids required
      ∧ ((data m).nb ids required = (data k).nb ids required →
          (data k).meanGap ids ≤ (data m).meanGap ids))

theorem ofTop_lt (a b : WithTop ℚ) : (ofTop a).lt (ofTop b) = true ↔ a < b := by
  cases a with
  | top => simp [ofTop, Gap.lt]
  | coe a => cases b <;> simp [ofTop, Gap.lt]

theorem ofTop_ne_nan (a : WithTop ℚ) : ofTop a ≠ .nan := by
  cases a <;> simp [ofTop]

theorem argminLoop_spec (l : List (WithTop ℚ)) (pre : List (WithTop ℚ)) (best : ℕ)
    (cur : WithTop ℚ) (hb : pre[best]? = some cur) (hmin : ∀ x ∈ pre, cur ≤ x) :
    ∃ x, (pre ++ l)[argminLoop (l.map ofTop) pre.length (ofTop cur) best]? = some x
      ∧ ∀ y ∈ pre ++ l, x ≤ y := by
  induction l generalizing pre best cur with
  | nil =>
    simp only [List.map_nil, argminLoop, List.append_nil]
    exact ⟨cur, hb, hmin⟩
  | cons a l ih =>
    simp only [List.map_cons, argminLoop, if_neg (ofTop_ne_nan _)]
    have happ : pre ++ a :: l = (pre ++ [a]) ++ l := by simp
    have hlen : (pre ++ [a]).length = pre.length + 1 := by simp
    by_cases h : a < cur
    · rw [if_pos (Or.inr ((ofTop_lt _ _).2 h)), happ, ← hlen]
      apply ih
      · simp
      · intro x hx
        rcases List.mem_append.1 hx with hx | hx
        · exact h.le.trans (hmin x hx)
        · rw [List.mem_singleton.1 hx]
    · rw [if_neg, happ, ← hlen]
      · apply ih
        · rw [List.getElem?_append_left (List.getElem?_eq_some_iff.1 hb).1, hb]
        · intro x hx
          rcases List.mem_append.1 hx with hx | hx
          · exact hmin x hx
          · rw [List.mem_singleton.1 hx]; exact not_lt.1 h
      · rintro (h' | h')
        · exact ofTop_ne_nan _ h'
        · exact h ((ofTop_lt _ _).1 h')

theorem npArgmin_spec {l : List (WithTop ℚ)} (hne : l ≠ []) :
    ∃ k x, npArgmin (l.map ofTop) = .ok k ∧ l[k]? = some x ∧ ∀ y ∈ l, x ≤ y := by
  cases l with
  | nil => exact absurd rfl hne
  | cons a l =>
    obtain ⟨x, h1, h2⟩ := argminLoop_spec l [a] 0 a rfl (by simp)
    exact ⟨_, x, rfl, h1, h2⟩

theorem foldl_max_spec (l : List ℕ) (a : ℕ) :
    a ≤ l.foldl max a ∧ (∀ x ∈ l, x ≤ l.foldl max a) ∧ (l.foldl max a = a ∨ l.foldl max a ∈ l) := by
  induction l generalizing a with
  | nil => simp
  | cons b l ih =>
    obtain ⟨h1, h2, h3⟩ := ih (max a b)
    simp only [List.foldl_cons, List.mem_cons, forall_eq_or_imp]
    refine ⟨le_trans (le_max_left _ _) h1, ⟨le_trans (le_max_right _ _) h1, h2⟩, ?_⟩
    rcases h3 with h3 | h3
    · rw [h3]
      rcases max_choice a b with h | h <;> rw [h]
      · exact Or.inl rfl
      · exact Or.inr (Or.inl rfl)
    · exact Or.inr (Or.inr h3)

/-- The highlighted index: least time if some time is finite, otherwise least gap among those that
solved the most. -/
theorem bestIndex_spec {sums : List Summary} (hne : sums ≠ []) {t g : List (WithTop ℚ)}
    (ht : sums.map Summary.time = t.map ofTop) (hg : sums.map Summary.gap = g.map ofTop) :
    ∃ k, bestIndex sums = .ok k ∧ k < sums.length
      ∧ ((∃ x ∈ t, x ≠ ⊤) → ∃ x, t[k]? = some x ∧ x ≠ ⊤ ∧ ∀ y ∈ t, x ≤ y)
      ∧ ((∀ x ∈ t, x = ⊤) → ∃ x n, g[k]? = some x ∧ (sums.map Summary.nbSolved)[k]? = some n
          ∧ ∀ (i : ℕ) y p, g[i]? = some y → (sums.map Summary.nbSolved)[i]? = some p →
              p ≤ n ∧ (p = n → x ≤ y)) := by
  have htl : t.length = sums.length := by simpa using (congrArg List.length ht).symm
  have hgl : g.length = sums.length := by simpa using (congrArg List.length hg).symm
  have hlen : 0 < sums.length := List.length_pos_iff.2 hne
  obtain ⟨k, x, hk, hx, hmin⟩ := npArgmin_spec (l := t) (by intro h; simp [h] at htl; omega)
  have hkl : k < sums.length := by rw [← htl]; exact (List.getElem?_eq_some_iff.1 hx).1
  have hxm : x ∈ t := List.mem_of_getElem? hx
  unfold bestIndex
  rw [ht, hk]
  have hget : pyGet (t.map ofTop) k = .ok (ofTop x) := by
    simp [pyGet, List.getElem?_map, hx]
  simp only [bind, Except.bind, hget]
  by_cases hfin : x = ⊤
  · have hall : ∀ y ∈ t, y = ⊤ := fun y hy => top_le_iff.1 (hfin ▸ hmin y hy)
    have : (ofTop x).isFinite = false := by rw [hfin]; rfl
    rw [this]
    simp only [Bool.false_eq_true, if_false]
    generalize hN : sums.map Summary.nbSolved = nb
    have hnl : nb.length = sums.length := by rw [← hN]; simp
    obtain ⟨-, hmax, hmem⟩ := foldl_max_spec nb 0
    generalize hM : nb.foldl max 0 = most at hmax hmem ⊢
    generalize hV : (List.range sums.length).filter (fun i => decide (nb.getD i 0 = most)) = valid
    have hvmem : ∀ i, i ∈ valid ↔ nb[i]? = some most := by
      intro i
      rw [← hV]
      simp only [List.mem_filter, List.mem_range, decide_eq_true_eq]
      constructor
      · rintro ⟨h1, h2⟩
        rw [List.getElem?_eq_getElem (by omega)]
        rw [List.getD_eq_getElem _ _ (by omega)] at h2
        rw [h2]
      · intro h
        have := (List.getElem?_eq_some_iff.1 h).1
        exact ⟨by omega, by simp [List.getD, h]⟩
    have hvne : valid ≠ [] := by
      intro h
      have : ∃ i : ℕ, nb[i]? = some most := by
        rcases hmem with h0 | h0
        · refine ⟨0, ?_⟩
          rw [List.getElem?_eq_getElem (by omega)]
          have := hmax _ (List.getElem_mem (l := nb) (n := 0) (by omega))
          rw [h0] at this
          simp only [Nat.le_zero] at this
          rw [this, h0]
        · exact List.getElem?_of_mem h0
      obtain ⟨i, hi⟩ := this
      have := (hvmem i).2 hi
      rw [h] at this; cases this
    have hmap : (valid.map fun i => (sums.map Summary.gap).getD i .nan)
        = (valid.map fun i => g.getD i ⊤).map ofTop := by
      rw [List.map_map]
      apply List.map_congr_left
      intro i hi
      have hil : i < g.length := by
        have := (List.getElem?_eq_some_iff.1 ((hvmem i).1 hi)).1
        omega
      rw [hg]
      simp [List.getD, hil]
    obtain ⟨i, y, hi, hy, hmin'⟩ := npArgmin_spec (l := valid.map fun i => g.getD i ⊤)
      (by simpa using hvne)
    rw [hmap, hi]
    simp only
    rw [List.getElem?_map] at hy
    cases hvi : valid[i]? with
    | none => rw [hvi] at hy; cases hy
    | some b =>
      rw [hvi] at hy
      simp only [Option.map_some, Option.some.injEq] at hy
      have hbm : b ∈ valid := List.mem_of_getElem? hvi
      have hbn := (hvmem b).1 hbm
      have hbl : b < sums.length := by
        have := (List.getElem?_eq_some_iff.1 hbn).1
        omega
      refine ⟨b, by simp [pyGet, hvi], hbl, ?_, ?_⟩
      · rintro ⟨z, hz, hz'⟩
        exact absurd (hall z hz) hz'
      · intro _
        refine ⟨y, most, ?_, hbn, ?_⟩
        · rw [← hy, List.getElem?_eq_getElem (by omega), List.getD_eq_getElem _ _ (by omega)]
        · intro i' y' p hy' hp
          refine ⟨hmax p (List.mem_of_getElem? hp), ?_⟩
          rintro rfl
          have hv := (hvmem i').2 hp
          have := hmin' (g.getD i' ⊤) (List.mem_map.2 ⟨i', hv, rfl⟩)
          have e : g.getD i' ⊤ = y' := by simp [List.getD, hy']
          rwa [e] at this
  · have : (ofTop x).isFinite = true := by
      cases x with
      | top => exact absurd rfl hfin
      | coe q => rfl
    rw [this]
    simp only [if_true, pure, Except.pure]
    refine ⟨k, rfl, hkl, fun _ => ⟨x, hx, hfin, hmin⟩, fun h => absurd (h x hxm) hfin⟩

/-- A text in bold. -/
def Bold (v w : Val) : Prop :=
  ∀ t, v = .str t → w = .str ("\\textbf{".toList ++ t ++ "}".toList)

/-- The summary of one method, with its mean time and mean gap. -/
theorem methodSummary_spec {ids : List ℕ} {results : ℕ → List (List Val)} {d : MethodData} (r : ℤ)
    {req : ℚ} (hreq : Near req r) (hne : ids ≠ []) {m : ℕ} (hm4 : m ∈ [1, 2, 3, 4]) (hmiss : d.missing ↔ [] ∈ results m)
    (hrow : [] ∉ results m → ∀ j ∈ ids, ∃ row, (results m)[j - 1]? = some row
      ∧ RowOk row (d.gap j) (d.time j) (d.iter j) (m ∈ [3, 4]))
    (hm : ∀ j ∈ ids, Milli (d.gap j)) :
    ∃ S T G, methodSummary ids req results m = .ok S
      ∧ S.time = ofTop T ∧ S.gap = ofTop G ∧ S.nbSolved = d.nb ids ((r : ℚ) / 1000)
      ∧ (d.Solved ids ((r : ℚ) / 1000) → T = (mean ids d.time : ℚ))
      ∧ (¬ d.Solved ids ((r : ℚ) / 1000) → T = ⊤ ∧ G = d.meanGap ids)
      ∧ S.cells.length = if m ≤ 2 then 1 else 2 := by
  by_cases hmis : [] ∈ results m
  · have hd : d.missing := hmiss.2 hmis
    refine ⟨_, ⊤, ⊤, by unfold methodSummary; rw [if_neg (not_not_intro hmis)], rfl, rfl, ?_, ?_,
      ?_, ?_⟩
    · unfold MethodData.nb; rw [if_pos hd]
    · exact fun h => absurd hd h.1
    · intro _
      refine ⟨rfl, ?_⟩
      unfold MethodData.meanGap; rw [if_pos hd]
    · simp only [List.mem_cons, List.not_mem_nil, or_false] at hm4
      rcases hm4 with rfl | rfl | rfl | rfl <;> rfl
  · have hd : ¬ d.missing := fun h => hmis (hmiss.1 h)
    have hkind : m ∈ exportMilp ↔ m ∉ exportPart := by
      simp only [List.mem_cons, List.not_mem_nil, or_false] at hm4
      rcases hm4 with rfl | rfl | rfl | rfl <;> decide
    obtain ⟨S, hS, hnb, hall, hnot, hp, hq⟩ := C64_format (m := m) (milp := exportMilp)
      (part := exportPart) r hreq hne (hrow hmis) hm hkind
    have hms : methodSummary ids req results m = .ok S := by
      unfold methodSummary; rw [if_pos hmis, hS]
    have hlen : S.cells.length = if m ≤ 2 then 1 else 2 := by
      simp only [List.mem_cons, List.not_mem_nil, or_false] at hm4
      rcases hm4 with rfl | rfl | rfl | rfl
      · exact hq (by decide)
      · exact hq (by decide)
      · exact (hp (by decide)).1
      · exact (hp (by decide)).1
    have hnb' : S.nbSolved = d.nb ids ((r : ℚ) / 1000) := by
      rw [hnb]; unfold MethodData.nb; rw [if_neg hd]
    by_cases hA : AllSolved ids ((r : ℚ) / 1000) d.gap
    · obtain ⟨h1, h2, -⟩ := hall hA
      exact ⟨S, ((mean ids d.time : ℚ) : WithTop ℚ), ⊤, hms, h1, h2, hnb', fun _ => rfl, fun h => absurd ⟨hd, hA⟩ h, hlen⟩
    · obtain ⟨h1, h2, -⟩ := hnot hA
      refine ⟨S, ⊤, _, hms, h1, h2, hnb', fun h => absurd h.2 hA, fun _ => ⟨rfl, ?_⟩, hlen⟩
      unfold MethodData.meanGap; rw [if_neg hd]

/-- **C65.**  In every row of the summary table exactly one cell is set in bold: the first cell of a
best method. -/
theorem C65_bold {head : List Val} {ids : List ℕ} {results : ℕ → List (List Val)}
    {data : ℕ → MethodData} (r : ℤ) {req : ℚ} (hreq : Near req r) (hh : head.length = 3) (hne : ids ≠ [])
    (hmiss : ∀ m ∈ [1, 2, 3, 4], (data m).missing ↔ [] ∈ results m)
    (hrow : ∀ m ∈ [1, 2, 3, 4], [] ∉ results m → ∀ j ∈ ids, ∃ row, (results m)[j - 1]? = some row
      ∧ RowOk row ((data m).gap j) ((data m).time j) ((data m).iter j) (m ∈ [3, 4]))
    (hm : ∀ m ∈ [1, 2, 3, 4], ∀ j ∈ ids, Milli ((data m).gap j)) :
    ∃ (cells cells' : ℕ → List Val) (k : ℕ),
      (∀ m ∈ [1, 2, 3, 4],
        (methodSummary ids req results m).map Summary.cells = .ok (cells m))
      ∧ tableRow head ids req results
          = .ok (head ++ (cells' 1 ++ cells' 2 ++ cells' 3 ++ cells' 4))
      ∧ k ∈ [1, 2, 3, 4] ∧ BestMethod data ids ((r : ℚ) / 1000) k
      ∧ (∀ m ∈ [1, 2, 3, 4], m ≠ k → cells' m = cells m)
      ∧ ∃ v w l, cells k = v :: l ∧ cells' k = w :: l ∧ Bold v w := by
  have hspec := fun m (h : m ∈ [1, 2, 3, 4]) =>
    methodSummary_spec r hreq hne h (hmiss m h) (hrow m h) (hm m h)
  obtain ⟨S1, T1, G1, e1, t1, g1, n1, a1, b1, l1⟩ := hspec 1 (by simp)
  obtain ⟨S2, T2, G2, e2, t2, g2, n2, a2, b2, l2⟩ := hspec 2 (by simp)
  obtain ⟨S3, T3, G3, e3, t3, g3, n3, a3, b3, l3⟩ := hspec 3 (by simp)
  obtain ⟨S4, T4, G4, e4, t4, g4, n4, a4, b4, l4⟩ := hspec 4 (by simp)
  obtain ⟨k, hk, hkl, hfin, hinf⟩ := bestIndex_spec (sums := [S1, S2, S3, S4]) (by simp)
    (t := [T1, T2, T3, T4]) (g := [G1, G2, G3, G4]) (by simp [t1, t2, t3, t4])
    (by simp [g1, g2, g3, g4])
  have hsums : exportMethods.mapM (methodSummary ids req results)
      = .ok [S1, S2, S3, S4] := by
    simp only [exportMethods, List.mapM_cons, List.mapM_nil, e1, e2, e3, e4, bind, Except.bind,
      pure, Except.pure]
  -- the four pairs as functions of the method
  let T : ℕ → WithTop ℚ := fun m => [⊤, T1, T2, T3, T4].getD m ⊤
  let G : ℕ → WithTop ℚ := fun m => [⊤, G1, G2, G3, G4].getD m ⊤
  have hT : ∀ m ∈ [1, 2, 3, 4], ((data m).Solved ids ((r : ℚ) / 1000) →
        T m = (mean ids (data m).time : ℚ))
      ∧ (¬ (data m).Solved ids ((r : ℚ) / 1000) → T m = ⊤ ∧ G m = (data m).meanGap ids) := by
    intro m h
    simp only [List.mem_cons, List.not_mem_nil, or_false] at h
    rcases h with rfl | rfl | rfl | rfl
    · exact ⟨a1, b1⟩
    · exact ⟨a2, b2⟩
    · exact ⟨a3, b3⟩
    · exact ⟨a4, b4⟩
  have hTk : ∀ i < 4, [T1, T2, T3, T4][i]? = some (T (i + 1)) := by
    intro i hi; interval_cases i <;> rfl
  have hGk : ∀ i < 4, [G1, G2, G3, G4][i]? = some (G (i + 1)) := by
    intro i hi; interval_cases i <;> rfl
  have hNk : ∀ i < 4, ([S1, S2, S3, S4].map Summary.nbSolved)[i]?
      = some ((data (i + 1)).nb ids ((r : ℚ) / 1000)) := by
    intro i hi
    interval_cases i
    · simp [n1]
    · simp [n2]
    · simp [n3]
    · simp [n4]
  have hmem : ∀ m ∈ [1, 2, 3, 4], ∃ i < 4, m = i + 1 := by
    intro m h
    simp only [List.mem_cons, List.not_mem_nil, or_false] at h
    rcases h with rfl | rfl | rfl | rfl
    · exact ⟨0, by norm_num, rfl⟩
    · exact ⟨1, by norm_num, rfl⟩
    · exact ⟨2, by norm_num, rfl⟩
    · exact ⟨3, by norm_num, rfl⟩
  have hk4 : k < 4 := by simpa using hkl
  have hkm : k + 1 ∈ [1, 2, 3, 4] := by interval_cases k <;> simp
  have hbest : BestMethod data ids ((r : ℚ) / 1000) (k + 1) := by
    constructor
    · rintro ⟨m, hm, hs⟩
      obtain ⟨i, hi, rfl⟩ := hmem m hm
      have hTi : T (i + 1) ≠ ⊤ := by rw [(hT _ hm).1 hs]; exact WithTop.coe_ne_top
      obtain ⟨x, hx, hx', hmin⟩ := hfin ⟨_, List.mem_of_getElem? (hTk i hi), hTi⟩
      rw [hTk k hk4] at hx
      cases hx
      have hks : (data (k + 1)).Solved ids ((r : ℚ) / 1000) := by
        by_contra h
        exact hx' ((hT _ hkm).2 h).1
      refine ⟨hks, ?_⟩
      intro m' hm' hs'
      obtain ⟨i', hi', rfl⟩ := hmem m' hm'
      have := hmin _ (List.mem_of_getElem? (hTk i' hi'))
      rw [(hT _ hkm).1 hks, (hT _ hm').1 hs', WithTop.coe_le_coe] at this
      exact this
    · intro hno m hm
      obtain ⟨x, n, hx, hn, hle⟩ := hinf (by
        intro x hx
        obtain ⟨i, hi⟩ := List.getElem?_of_mem hx
        have hi4 : i < 4 := by
          have := (List.getElem?_eq_some_iff.1 hi).1
          simpa using this
        rw [hTk i hi4] at hi
        cases hi
        have him : i + 1 ∈ [1, 2, 3, 4] := by interval_cases i <;> simp
        exact ((hT _ him).2 (hno _ him)).1)
      obtain ⟨i, hi, rfl⟩ := hmem m hm
      rw [hGk k hk4] at hx
      rw [hNk k hk4] at hn
      cases hx
      cases hn
      have := hle i _ _ (hGk i hi) (hNk i hi)
      rw [((hT _ hkm).2 (hno _ hkm)).2, ((hT _ hm).2 (hno _ hm)).2] at this
      exact this
  -- shapes of the cells
  rw [if_pos (by norm_num)] at l1 l2
  rw [if_neg (by norm_num)] at l3 l4
  obtain ⟨c1, hc1⟩ := List.length_eq_one_iff.1 l1
  obtain ⟨c2, hc2⟩ := List.length_eq_one_iff.1 l2
  obtain ⟨c3, d3, hc3⟩ := List.length_eq_two.1 l3
  obtain ⟨c4, d4, hc4⟩ := List.length_eq_two.1 l4
  obtain ⟨h0, h1, h2, rfl⟩ := List.length_eq_three.1 hh
  have hcells : ∀ m ∈ [1, 2, 3, 4],
      (methodSummary ids req results m).map Summary.cells
        = .ok ([[], [c1], [c2], [c3, d3], [c4, d4]].getD m []) := by
    intro m h
    simp only [List.mem_cons, List.not_mem_nil, or_false] at h
    rcases h with rfl | rfl | rfl | rfl
    · rw [e1]; simp [Except.map, hc1]
    · rw [e2]; simp [Except.map, hc2]
    · rw [e3]; simp [Except.map, hc3]
    · rw [e4]; simp [Except.map, hc4]
  have hbold : ∀ v, Bold v (bold v) := by
    rintro v t rfl; rfl
  refine ⟨fun m => [[], [c1], [c2], [c3, d3], [c4, d4]].getD m [],
    fun m => if m = k + 1 then (match [[], [c1], [c2], [c3, d3], [c4, d4]].getD m [] with
      | [] => []
      | v :: l => bold v :: l) else [[], [c1], [c2], [c3, d3], [c4, d4]].getD m [],
    k + 1, hcells, ?_, hkm, hbest, fun m _ h => by simp [h], ?_⟩
  · unfold tableRow
    simp only [hsums, hk, bind, Except.bind, List.map_cons, List.map_nil, hc1, hc2, hc3, hc4]
    interval_cases k <;> rfl
  · interval_cases k <;> exact ⟨_, _, _, rfl, rfl, hbold _⟩

/-! ## Cases in point -/

/-- A row with the entries that the exporter reads. -/
def exRow (iter time : ℚ) (gap : Gap) : List Val :=
  [.str ['m', 'k'], .num (.fin iter), .num (.fin 7), .num (.fin time), .num (.fin 1),
   .num (.fin 1), .num gap]

/-- Two instances: the first method solves both, the second one of them, the third none (one
without any bound), and a file of the fourth is missing. -/
def exResults : ℕ → List (List Val)
  | 1 => [exRow 0 3 (.fin 0), exRow 0 4 (.fin (1 / 100))]
  | 2 => [exRow 0 1 (.fin 0), exRow 0 2 (.fin (11 / 1000))]
  | 3 => [exRow 5 3600 .posInf, exRow 8 3600 (.fin 2)]
  | _ => [exRow 5 10 (.fin 0), []]

/-- Hypotheses and conclusion of C64 and C65 on these results. -/
example : (∀ j ∈ [1, 2], ∃ row, (exResults 3)[j - 1]? = some row
      ∧ RowOk row (if j = 1 then ⊤ else 2) 3600 (if j = 1 then 5 else 8) (3 ∈ [3, 4]))
    ∧ (∀ j ∈ [1, 2], Milli (if j = 1 then ⊤ else 2))
    ∧ formatMethod (exResults 1) 1 [1, 2] (1 / 100) [1, 2] [3, 4]
      = .ok ⟨.fin (7 / 2), 2, .posInf, [.str "3.50s".toList]⟩
    ∧ formatMethod (exResults 3) 3 [1, 2] (1 / 100) [1, 2] [3, 4]
      = .ok ⟨.posInf, 0, .posInf, [.str "inf\\%(0)".toList, .num (.fin (13 / 2))]⟩
    ∧ tableRow [.str [], .str [], .str []] [1, 2] (1 / 100) exResults
      = .ok [.str [], .str [], .str [], .str "\\textbf{3.50s}".toList, .str "0.01\\%(1)".toList,
          .str "inf\\%(0)".toList, .num (.fin (13 / 2)), .num .nan, .num .nan] := by
  refine ⟨?_, ?_, ?_, ?_, ?_⟩
  · intro j hj
    simp only [List.mem_cons, List.not_mem_nil, or_false] at hj
    rcases hj with rfl | rfl
    · exact ⟨_, rfl, rfl, rfl, fun _ => rfl⟩
    · exact ⟨_, rfl, rfl, rfl, fun _ => rfl⟩
  · intro j hj q hq
    simp only [List.mem_cons, List.not_mem_nil, or_false] at hj
    rcases hj with rfl | rfl
    · simp at hq
    · refine ⟨2000, ?_⟩
      have : (2 : WithTop ℚ) = ((2 : ℚ) : WithTop ℚ) := rfl
      simp only [OfNat.ofNat_ne_one, if_false, this, WithTop.coe_inj] at hq
      rw [← hq]; norm_num
  all_goals decide +kernel

/-- If nobody solves everything, the mean gap decides among those that solved the most. -/
example : tableRow [.str [], .str [], .str []] [1, 2] (1 / 100)
      (fun m => if m = 1 then exResults 2 else if m = 2 then
        [exRow 0 1 (.fin (5 / 1000)), exRow 0 1 (.fin (11 / 1000))] else exResults m)
    = .ok [.str [], .str [], .str [], .str "\\textbf{0.01\\%(1)}".toList, .str "0.01\\%(1)".toList,
          .str "inf\\%(0)".toList, .num (.fin (13 / 2)), .num .nan, .num .nan] := by
  decide +kernel

/-! ## C70: the column of the big-M method -/

/-- **C70**, full statement: the column `big_m_method` of a result row tells which big-M method the
run used.  What holds: it tells the naive big-Ms from the others.  Missing: Belotti's and Song's
methods have the same code. -/
theorem C70_partial {env : Env} {I : Inst} {limit gap : ℚ} {method : String} {st : MilpSt}
    {name : Txt} {total : Option ℚ} {row : List Cell}
    (hs : milpSolve env I limit gap true method = .ok st)
    (hr : milpRow name I limit gap st total = .ok row) :
    ∃ vals, readExperiment (some row) = .ok vals
      ∧ vals[9]? = some (.num (.fin (if method = "naive" then 1 else 0))) := by
  obtain ⟨t, g, b, -, -, -, hv⟩ := milpRow_vals hr
  obtain ⟨-, h2, bigM, h3⟩ := milpSolve_saved hs
  refine ⟨_, hv, ?_⟩
  show some (Val.num (.fin (st.bigMMethod : ℚ))) = _
  rw [h2]
  simp only [milpBigMOpt, if_true, milpBigM] at h3
  by_cases hb : method = "belotti"
  · subst hb; rfl
  by_cases hs' : method = "song"
  · subst hs'; rfl
  by_cases hn : method = "naive"
  · subst hn; rfl
  simp [hb, hs', hn, Except.map] at h3

/-- **C70** fails: on a small instance the runs with Belotti's and with Song's big-Ms write the same
code. -/
theorem C70_counterexample : ∀ p ∈ ["belotti", "song"],
    ((milpSolve (exactEnv exNorm 1) exMilp 1800 (1 / 10 ^ 4) true p).bind fun st =>
      (milpRow [] exMilp 1800 (1 / 10 ^ 4) st (some 1)).bind fun row =>
        (readExperiment (some row)).map fun l => l[9]?) = .ok (some (.num (.fin 0))) := by
  decide +kernel

/-! ## C71: counting solved instances by printed gaps -/

/-- A gap counts as solved by the exporter: printed with three decimals, it is at most the required
gap `1e-4 * 100` plus `1e-7` (export_results.py:17, src/export/format_results.py:49). -/
def CountsSolved (results : List (List Val)) (j : ℕ) : Prop :=
  countLoop results (1 / 100) [j] 0 true = .ok (1, true)

theorem rint_le_ten (y : ℚ) : rint y ≤ 10 ↔ y ≤ 21 / 2 := by
  constructor
  · intro h
    by_contra hy
    push Not at hy
    have h1 := (abs_le.1 (rint_spec y)).1
    have h2 : (rint y : ℚ) ≤ 10 := by exact_mod_cast h
    linarith
  · intro h
    have : rint y ≤ rint (21 / 2) := rint_mono h
    have e : rint (21 / 2) = 10 := by decide +kernel
    omega

theorem counts_iff {row : List Val} {q : ℚ} (h : Back row 1 (.fin (roundDec 3 (q * 100)))) :
    CountsSolved [row] 1 ↔ q ≤ 105 / 10 ^ 6 := by
  have hq : (roundDec 3 (q * 100) ≤ 1 / 100 + 1 / 10000000) ↔ q ≤ 105 / 10 ^ 6 := by
    rw [roundDec_eq]
    constructor
    · intro h
      have h1 : (rint (q * 100 * 10 ^ 3) : ℚ) < 11 := by
        rw [div_le_iff₀ (by norm_num)] at h
        norm_num at h ⊢
        linarith
      have h2 : rint (q * 100 * 10 ^ 3) ≤ 10 := by
        have : rint (q * 100 * 10 ^ 3) < 11 := by exact_mod_cast h1
        omega
      have := (rint_le_ten _).1 h2
      linarith
    · intro h
      have h2 := (rint_le_ten (q * 100 * 10 ^ 3)).2 (by linarith)
      have h1 : (rint (q * 100 * 10 ^ 3) : ℚ) ≤ 10 := by exact_mod_cast h2
      rw [div_le_iff₀ (by norm_num)]
      norm_num at h1 ⊢
      linarith
  unfold CountsSolved
  simp only [countLoop, pyGet, List.getElem?_cons_zero, Nat.sub_self, backNum_of h, bind,
    Except.bind, Gap.le]
  rw [← hq]
  simp

/-- **C71**, full statement: a run counts as solved in the summary tables exactly if its relative
gap is at most `1e-4`.  What holds: exactly if it is at most `1.05e-4`, since the gap is printed
with three decimals of a percentage.  Missing: gaps between `1e-4` and `1.05e-4` count as
solved. -/
theorem C71_partial {I : Inst} {limit gap : ℚ} {st : MilpSt} {name : Txt} {total : Option ℚ}
    {row : List Cell} {vals : List Val} (hr : milpRow name I limit gap st total = .ok row)
    (hv : readExperiment (some row) = .ok vals) :
    CountsSolved [vals] 1 ↔ (st.vUB - st.vLB) / st.vLB ≤ 105 / 10 ^ 6 := by
  obtain ⟨t, g, b, -, hg, -, hv'⟩ := milpRow_vals hr
  rw [hv] at hv'
  cases hv'
  have hl : st.vLB ≠ 0 := by
    intro e
    simp only [computeGap, e] at hg
    simp at hg
  simp only [computeGap, if_neg hl, Except.ok.injEq] at hg
  subst hg
  exact counts_iff rfl

/-- The same for the adaptive solver with bounds that are finite and a lower bound other than
zero. -/
theorem C71_adaptive_partial {dict : List (String × ℕ)} {I : Inst} {cfg : Cfg} {s : St} {name : Txt}
    {total : Option ℚ} {row : List Cell} {vals : List Val} {l u : ℚ}
    (hr : adaptiveRowWith dict name I cfg s total = .ok row)
    (hv : readExperiment (some row) = .ok vals) (hl : s.vLB = l) (hu : s.vUB = u) (h0 : l ≠ 0) :
    CountsSolved [vals] 1 ↔ (u - l) / l ≤ 105 / 10 ^ 6 := by
  obtain ⟨a, b, c, t, g, -, hg, hv'⟩ := adaptiveRow_vals hr
  rw [hv] at hv'
  cases hv'
  simp only [computeGap, hl, hu, if_neg h0, Except.ok.injEq] at hg
  subst hg
  exact counts_iff rfl

/-- Exact solutions with a bound that is off by the factor `1.000104`, as after a time limit. -/
noncomputable def lateSolver (g : GModel) : GResult :=
  { exactSolver g with
    objBnd := (exactSolver g).objBnd + 104 / 10 ^ 6 * |(exactSolver g).objVal| }

/-- **C71** fails: a run with valid answers that ends with the gap `1.04e-4` counts as solved. -/
theorem C71_counterexample :
    ((milpSolve { exactEnv exNorm 1 with cc := fun _ => lateSolver } exMilp 1800 (1 / 10 ^ 4) true
        "song").map fun st => (st.vUB - st.vLB) / st.vLB) = .ok (104 / 10 ^ 6)
    ∧ ((milpSolve { exactEnv exNorm 1 with cc := fun _ => lateSolver } exMilp 1800 (1 / 10 ^ 4) true
        "song").bind fun st => (milpRow [] exMilp 1800 (1 / 10 ^ 4) st (some 1)).bind fun row =>
          (readExperiment (some row)).bind fun l => countLoop [l] (1 / 100) [1] 0 true)
      = .ok (1, true)
    ∧ ∀ g, g.maximize = true → GResult.Valid g (lateSolver g) := by
  refine ⟨by decide +kernel, by decide +kernel, fun g hg => ?_⟩
  have h := (exactSolver_exact g).answers.valid
  refine ⟨h.feas, fun hb ρ hρ => ?_, h.infeasible, h.optimal⟩
  have := h.bound hb ρ hρ
  rw [hg] at this ⊢
  simp only [if_true] at this ⊢
  have h0 : 0 ≤ 104 / 10 ^ 6 * |(exactSolver g).objVal| := by positivity
  show _ ≤ (exactSolver g).objBnd + 104 / 10 ^ 6 * |(exactSolver g).objVal|
  linarith

end Verif.Props
