import Mathlib.Data.List.Destutter
import Mathlib.Tactic.Linarith
import Verif.Model.SaveBounds
import Verif.Props.Agree

/-!
# C88: the history of bounds
-/

namespace Verif.Props

open Spec Model Finset

theorem saveCb_some (clock : ℕ → ℚ) (start : ℕ) (elapsed : ℚ) (s : BoundsSt) (o b : ℚ) :
    saveBoundsCallback clock start elapsed s (some (o, b))
      = if s.obj ≠ some o ∨ s.bd ≠ some b then
          ⟨some o, some b, s.data ++ [(clock (start + 1 + s.data.length) - clock start + elapsed,
            -o, -b)]⟩
        else s := rfl

theorem filterMap_id_some {α : Type} (a : α) (l : List (Option α)) :
    (some a :: l).filterMap id = a :: l.filterMap id := rfl

theorem foldl_saveBounds {clock : ℕ → ℚ} {start : ℕ} {elapsed : ℚ} (calls : List CbCall) (o b : ℚ)
    (data : List (ℚ × ℚ × ℚ)) :
    ∃ rows, (calls.foldl (saveBoundsCallback clock start elapsed) ⟨some o, some b, data⟩).data
        = data ++ rows
      ∧ (o, b) :: rows.map (fun r => (-r.2.1, -r.2.2))
        = (calls.filterMap id).destutter' (· ≠ ·) (o, b)
      ∧ ∀ (k : ℕ) (r : ℚ × ℚ × ℚ), rows[k]? = some r →
        r.1 = clock (start + 1 + (data.length + k)) - clock start + elapsed := by
  induction calls generalizing o b data with
  | nil => exact ⟨[], by simp, rfl, by simp⟩
  | cons c calls ih =>
    match c with
    | none => exact ih o b data
    | some (o', b') =>
      by_cases h : (o, b) ≠ (o', b')
      · have hc : saveBoundsCallback clock start elapsed ⟨some o, some b, data⟩ (some (o', b'))
            = ⟨some o', some b', data
              ++ [(clock (start + 1 + data.length) - clock start + elapsed, -o', -b')]⟩ := by
          rw [saveCb_some, if_pos]
          by_contra hn
          push Not at hn
          exact h (by rw [Option.some.inj hn.1, Option.some.inj hn.2])
        obtain ⟨rows, h1, h2, h3⟩ := ih o' b' (data
          ++ [(clock (start + 1 + data.length) - clock start + elapsed, -o', -b')])
        refine ⟨(clock (start + 1 + data.length) - clock start + elapsed, -o', -b') :: rows, ?_, ?_,
          ?_⟩
        · rw [List.foldl_cons, hc, h1, List.append_assoc, List.singleton_append]
        · rw [filterMap_id_some, List.destutter'_cons_pos _ h, ← h2]
          simp
        · intro k r hr
          cases k with
          | zero =>
            rw [List.getElem?_cons_zero] at hr
            cases hr
            rfl
          | succ k =>
            rw [List.getElem?_cons_succ] at hr
            rw [h3 k r hr, List.length_append, List.length_singleton]
            congr 3
            omega
      · have hc : saveBoundsCallback clock start elapsed ⟨some o, some b, data⟩ (some (o', b'))
            = ⟨some o, some b, data⟩ := by
          rw [not_not] at h
          cases h
          rw [saveCb_some, if_neg (by simp)]
        obtain ⟨rows, h1, h2, h3⟩ := ih o b data
        refine ⟨rows, by rw [List.foldl_cons, hc, h1], ?_, h3⟩
        rw [filterMap_id_some, List.destutter'_cons_neg _ h, ← h2]

/-- The rows show the reports of Gurobi, negated, in their order and without the repetitions; the
`k`-th row has the `k`-th reading of the clock. -/
theorem boundsRows_spec (clock : ℕ → ℚ) (start : ℕ) (elapsed : ℚ) (calls : List CbCall) :
    (boundsRows clock start elapsed calls).map (fun r => (-r.2.1, -r.2.2))
        = (calls.filterMap id).destutter (· ≠ ·)
    ∧ ∀ (k : ℕ) (r : ℚ × ℚ × ℚ), (boundsRows clock start elapsed calls)[k]? = some r →
      r.1 = clock (start + 1 + k) - clock start + elapsed := by
  unfold boundsRows
  induction calls with
  | nil => exact ⟨rfl, by simp⟩
  | cons c calls ih =>
    match c with
    | none => exact ih
    | some (o, b) =>
      have hc : saveBoundsCallback clock start elapsed ⟨none, none, []⟩ (some (o, b))
          = ⟨some o, some b, [(clock (start + 1) - clock start + elapsed, -o, -b)]⟩ := by
        rw [saveCb_some, if_pos (by simp)]
        rfl
      obtain ⟨rows, h1, h2, h3⟩ := foldl_saveBounds (clock := clock) (start := start)
        (elapsed := elapsed) calls o b [(clock (start + 1) - clock start + elapsed, -o, -b)]
      rw [List.foldl_cons, hc, h1]
      refine ⟨?_, fun k r hr => ?_⟩
      · rw [filterMap_id_some, List.destutter_cons', ← h2]
        simp
      · rw [List.singleton_append] at hr
        cases k with
        | zero =>
          rw [List.getElem?_cons_zero] at hr
          cases hr
          rfl
        | succ k =>
          rw [List.getElem?_cons_succ] at hr
          rw [h3 k r hr, List.length_singleton]
          congr 3
          omega

/-- Reports up to some call give the first rows: the file at that moment is a prefix of the file at
the end, and its last row shows the last report. -/
theorem boundsRows_prefix (clock : ℕ → ℚ) (start : ℕ) (elapsed : ℚ) (calls later : List CbCall) :
    boundsRows clock start elapsed calls <+: boundsRows clock start elapsed (calls ++ later) := by
  unfold boundsRows
  rw [List.foldl_append]
  generalize calls.foldl (saveBoundsCallback clock start elapsed) ⟨none, none, []⟩ = s
  induction later generalizing s with
  | nil => exact List.prefix_rfl
  | cons c later ih =>
    rw [List.foldl_cons]
    refine List.IsPrefix.trans ?_ (ih _)
    match c with
    | none => exact List.prefix_rfl
    | some (o, b) =>
      rw [saveCb_some]
      split
      · exact List.prefix_append _ _
      · exact List.prefix_rfl

theorem destutter'_getLast {α : Type} [DecidableEq α] (l : List α) (a : α) :
    (l.destutter' (· ≠ ·) a).getLast? = some ((a :: l).getLast (by simp)) := by
  induction l generalizing a with
  | nil => rfl
  | cons b l ih =>
    by_cases h : a = b
    · subst h
      rw [List.destutter'_cons_neg _ (by simp), ih]
      cases l <;> simp
    · rw [List.destutter'_cons_pos _ h, List.getLast?_cons, ih]
      simp

theorem boundsRows_last (clock : ℕ → ℚ) (start : ℕ) (elapsed : ℚ) (calls : List CbCall) (o b : ℚ) :
    ∃ t, (boundsRows clock start elapsed (calls ++ [some (o, b)])).getLast? = some (t, -o, -b) := by
  have h := (boundsRows_spec clock start elapsed (calls ++ [some (o, b)])).1
  generalize boundsRows clock start elapsed (calls ++ [some (o, b)]) = rows at h ⊢
  have h1 := congrArg List.getLast? h
  rw [List.getLast?_map, List.filterMap_append] at h1
  have h2 : ((calls.filterMap id ++ [some (o, b)].filterMap id).destutter (· ≠ ·)).getLast?
      = some (o, b) := by
    show ((calls.filterMap id ++ [(o, b)]).destutter (· ≠ ·)).getLast? = _
    cases calls.filterMap id with
    | nil => rfl
    | cons c l =>
      rw [List.cons_append, List.destutter_cons', destutter'_getLast]
      simp
  rw [h2] at h1
  cases hl : rows.getLast? with
  | none => rw [hl] at h1; cases h1
  | some r =>
    rw [hl, Option.map_some, Option.some.injEq, Prod.mk.injEq] at h1
    exact ⟨r.1, by rw [← h1.1, ← h1.2, neg_neg, neg_neg]⟩

/-! ## `MilpSolver.solve` -/

/-- Saving the bounds does not change what `MilpSolver.solve` leaves or raises. -/
theorem C88_same_result (env : Env) (I : Inst) (limit gap : ℚ) (useBigM : Bool) (method : String)
    (path : Txt) (calls : GModel → List CbCall) :
    (milpSolveSaving env I limit gap useBigM method true (some path) calls).1
      = milpSolve env I limit gap useBigM method
    ∧ (milpSolveSaving env I limit gap useBigM method false none calls).1
      = milpSolve env I limit gap useBigM method
    ∧ (milpSolveSaving env I limit gap useBigM method false none calls).2 = none := by
  unfold milpSolveSaving milpSolve milpCall solveCclp optiSolve
  cases milpBigMOpt env I useBigM method with
  | error e => exact ⟨rfl, rfl, rfl⟩
  | ok bigM =>
    simp only [bind, Except.bind, pure, Except.pure]
    cases buildCCLP (instCI I) bigM [] [] gap with
    | error e => exact ⟨rfl, rfl, rfl⟩
    | ok g =>
      simp only
      generalize setTimeLimit _ = t
      cases t with
      | error e => exact ⟨rfl, rfl, rfl⟩
      | ok u =>
        simp only [if_true, Bool.false_eq_true, if_false, and_true]
        cases optimize (env.cc 0 g) with
        | error e => exact ⟨rfl, rfl⟩
        | ok r =>
          simp only
          cases getSol r with
          | error e => exact ⟨rfl, rfl⟩
          | ok ρ =>
            simp only
            cases getObjVal r with
            | error e => exact ⟨rfl, rfl⟩
            | ok v => exact ⟨rfl, rfl⟩

/-- The model that Gurobi gets. -/
def MilpModel (env : Env) (I : Inst) (gap : ℚ) (useBigM : Bool) (method : String) (g : GModel) :
    Prop :=
  ∃ bigM, milpBigMOpt env I useBigM method = .ok bigM ∧ buildCCLP (instCI I) bigM [] [] gap = .ok g

theorem milpSaving_inv {env : Env} {I : Inst} {limit gap : ℚ} {useBigM : Bool} {method : String}
    {path : Txt} {calls : GModel → List CbCall} {file : Txt × List (ℚ × ℚ × ℚ)}
    (h : (milpSolveSaving env I limit gap useBigM method true (some path) calls).2 = some file) :
    ∃ g, MilpModel env I gap useBigM method g
      ∧ file = (path, milpRows env limit useBigM (calls g)) := by
  unfold milpSolveSaving optiSolve at h
  cases hb : milpBigMOpt env I useBigM method with
  | error e => rw [hb] at h; cases h
  | ok bigM =>
    rw [hb] at h
    simp only [bind, Except.bind, pure, Except.pure] at h
    cases hg : buildCCLP (instCI I) bigM [] [] gap with
    | error e => rw [hg] at h; cases h
    | ok g =>
      rw [hg] at h
      simp only at h
      generalize setTimeLimit _ = t at h
      cases t with
      | error e => cases h
      | ok u =>
        simp only [if_true, Option.some.injEq] at h
        exact ⟨g, ⟨bigM, hb, hg⟩, h.symm⟩

/-- **C88.** The history of bounds has one row for every change of Gurobi's incumbent value or
bound, in the order of the reports and with opposite signs, and consecutive rows differ; the times
do not decrease and their differences are those of the clock.  Missing from the full claim: the
times count from the start of the method, but without the time between the reading for
`elapsed_time` and the start of the optimization, in which the model is built, so that they are too
small (`C88_time_counterexample`). -/
theorem C88_history_partial {env : Env} {I : Inst} {limit gap : ℚ} {useBigM : Bool}
    {method : String} {path : Txt} {calls : GModel → List CbCall} {file : Txt × List (ℚ × ℚ × ℚ)}
    (hclock : Monotone env.clock)
    (h : (milpSolveSaving env I limit gap useBigM method true (some path) calls).2 = some file) :
    ∃ g, MilpModel env I gap useBigM method g ∧ file.1 = path
      ∧ file.2.map (fun r => (-r.2.1, -r.2.2)) = ((calls g).filterMap id).destutter (· ≠ ·)
      ∧ (file.2.map Prod.snd).IsChain (· ≠ ·)
      ∧ (∀ (k : ℕ) (r : ℚ × ℚ × ℚ), file.2[k]? = some r →
        r.1 ≤ env.clock (milpReads useBigM + 6 + k) - env.clock 0
        ∧ (env.clock (milpReads useBigM + 2) - env.clock 0 ≤ limit →
          r.1 = env.clock (milpReads useBigM + 6 + k) - env.clock 0
            - (env.clock (milpReads useBigM + 5) - env.clock (milpReads useBigM + 2))))
      ∧ ∀ (k l : ℕ) (r r' : ℚ × ℚ × ℚ), file.2[k]? = some r → file.2[l]? = some r' →
        r'.1 - r.1 = env.clock (milpReads useBigM + 6 + l) - env.clock (milpReads useBigM + 6 + k)
        ∧ (k ≤ l → r.1 ≤ r'.1) := by
  obtain ⟨g, hg, rfl⟩ := milpSaving_inv h
  obtain ⟨h1, h2⟩ := boundsRows_spec env.clock (milpReads useBigM + 5)
    (milpElapsed env.clock limit useBigM) (calls g)
  refine ⟨g, hg, rfl, h1, ?_, fun k r hr => ?_, fun k l r r' hr hr' => ?_⟩
  · have h3 := List.isChain_destutter (· ≠ ·) ((calls g).filterMap id)
    rw [← h1] at h3
    rw [List.isChain_map] at h3 ⊢
    refine h3.imp fun a b hab he => hab ?_
    rw [he]
  · have h3 := h2 k r hr
    have h4 : milpReads useBigM + 5 + 1 + k = milpReads useBigM + 6 + k := by omega
    rw [h4] at h3
    have h5 := hclock (show milpReads useBigM + 2 ≤ milpReads useBigM + 5 by omega)
    unfold milpElapsed remaining at h3
    constructor
    · have := le_max_left (limit - (env.clock (milpReads useBigM + 2) - env.clock 0)) 0
      linarith
    · intro hl
      rw [max_eq_left (by linarith)] at h3
      linarith
  · have h3 := h2 k r hr
    have h4 := h2 l r' hr'
    have e : ∀ j, milpReads useBigM + 5 + 1 + j = milpReads useBigM + 6 + j := fun j => by omega
    rw [e] at h3 h4
    refine ⟨by linarith, fun hkl => ?_⟩
    have h5 := hclock (show milpReads useBigM + 6 + k ≤ milpReads useBigM + 6 + l by omega)
    linarith

/-- **C88 (at every moment).** The last row that was saved up to some report shows this report, and
the rows saved up to then stay in the file. -/
theorem C88_last_report {env : Env} {I : Inst} {limit gap : ℚ} {useBigM : Bool}
    {method : String} {path : Txt} {calls : GModel → List CbCall} {file : Txt × List (ℚ × ℚ × ℚ)}
    (h : (milpSolveSaving env I limit gap useBigM method true (some path) calls).2 = some file) :
    ∃ g, MilpModel env I gap useBigM method g
      ∧ ∀ (before after : List CbCall) (o b : ℚ), calls g = before ++ some (o, b) :: after →
        ∃ t, (t, -o, -b) ∈ file.2
          ∧ (milpRows env limit useBigM (before ++ [some (o, b)])).getLast? = some (t, -o, -b)
          ∧ milpRows env limit useBigM (before ++ [some (o, b)]) <+: file.2 := by
  obtain ⟨g, hg, rfl⟩ := milpSaving_inv h
  refine ⟨g, hg, fun before after o b hc => ?_⟩
  obtain ⟨t, ht⟩ := boundsRows_last env.clock (milpReads useBigM + 5)
    (milpElapsed env.clock limit useBigM) before o b
  have hp : milpRows env limit useBigM (before ++ [some (o, b)])
      <+: milpRows env limit useBigM (calls g) := by
    have : calls g = (before ++ [some (o, b)]) ++ after := by rw [hc]; simp
    rw [this]
    exact boundsRows_prefix _ _ _ _ _
  exact ⟨t, hp.subset (List.mem_of_getLast? ht), ht, hp⟩

/-- **C88 (interrupt).** If the user interrupts the optimization, the history is written before the
`KeyboardInterrupt` goes on. -/
theorem C88_interrupt {env : Env} {I : Inst} {limit gap : ℚ} {useBigM : Bool} {method : String}
    {g : GModel} (path : Txt) (calls : GModel → List CbCall)
    (hg : MilpModel env I gap useBigM method g)
    (ht : env.clock (milpReads useBigM + 4) - env.clock (milpReads useBigM + 3)
      ≤ remaining env.clock limit (milpReads useBigM + 1))
    (hs : (env.cc 0 g).status = 11) :
    milpSolveSaving env I limit gap useBigM method true (some path) calls
      = (.error .keyboardInterrupt, some (path, milpRows env limit useBigM (calls g))) := by
  obtain ⟨bigM, h1, h2⟩ := hg
  unfold milpSolveSaving optiSolve
  have h3 : setTimeLimit (remaining env.clock limit (milpReads useBigM + 1)
      - (env.clock (milpReads useBigM + 4) - env.clock (milpReads useBigM + 3))) = .ok () := by
    unfold setTimeLimit
    rw [if_pos (by linarith)]
  rw [h1]
  simp only [bind, Except.bind, pure, Except.pure]
  rw [h2]
  simp only [h3]
  unfold optimize
  rw [if_pos hs]
  rfl

/-- What Gurobi reports during the optimization of `g`: a valid bound, and the value of a feasible
point or `-1e100` as long as there is none. -/
def Reports (g : GModel) (calls : List CbCall) : Prop :=
  ∀ o b, some (o, b) ∈ calls → (∀ ρ, g.Feas ρ → g.obj.eval ρ ≤ b)
    ∧ (o = -10 ^ 100 ∨ ∃ ρ, g.Feas ρ ∧ g.obj.eval ρ = o)

theorem milpMs_same {env : Env} {I : Inst} {useBigM : Bool} {method : String}
    (hE : Equi I) (heps : 0 ≤ I.eps) (hm : 0 < I.m) (hn : 0 < I.n) (hI : NonnegAb I)
    (hc : NonnegC I) (hmeth : useBigM = true → method = "naive" ∨ method = "song")
    {bigM : Option (List (List ℚ))} (hb : milpBigMOpt env I useBigM method = .ok bigM) :
    ∀ Ms, bigM = some Ms → SameSolutions (instCI I) Ms := by
  rintro Ms rfl
  cases useBigM with
  | false => cases hb
  | true =>
    rw [milpBigMOpt, if_pos rfl] at hb
    cases h1 : milpBigM env.argsort env.srt (env.sub 0) (env.big 0) I method with
    | error e => rw [h1] at hb; cases hb
    | ok Ms' =>
      rw [h1] at hb
      cases hb
      rcases hmeth rfl with rfl | rfl
      · have h2 : milpBigM env.argsort env.srt (env.sub 0) (env.big 0) I "naive"
          = .ok (naiveAll (instCI I) I.N) := rfl
        rw [h2] at h1
        cases h1
        exact C48_naive_equivalent (instCI I) (nonnegCI_inst hI hc)
      · have h2 : milpBigM env.argsort env.srt (env.sub 0) (env.big 0) I "song"
          = updateBigM env.argsort env.srt (env.big 0) (instCI I) false I.N none "song" (some I)
              none := rfl
        rw [h2] at h1
        by_cases hq : ⌊I.eps * I.N⌋₊ + 1 < I.N
        · obtain ⟨Ms'', h3, h4⟩ := (C48_song_equivalent env.argsort env.srt (env.big 0) I none hE
            heps hm hn hI hc).1 hq
          rw [h3] at h1
          cases h1
          exact h4
        · rw [(C43_song_valid env.argsort env.srt (env.big 0) I none hE heps hm hn
            fun s hs i hi => (hI s hs i hi).2).2 (by omega)] at h1
          cases h1

/-- **C88 (meaning).** With indicator constraints, naive or Song big-Ms every row of the history
brackets the optimum of the problem with opposite sign: the third entry is at most, and the second
is the negative of, the objective of a point that satisfies the chance constraint (`1e100` before
the first). -/
theorem C88_rows_bracket {env : Env} {I : Inst} {limit gap : ℚ} {useBigM : Bool}
    {method : String} {path : Txt} {calls : GModel → List CbCall} {file : Txt × List (ℚ × ℚ × ℚ)}
    (hE : Equi I) (heps : 0 ≤ I.eps) (hm : 0 < I.m) (hn : 0 < I.n) (hI : NonnegAb I)
    (hc : NonnegC I) (hmeth : useBigM = true → method = "naive" ∨ method = "song")
    (hrep : ∀ g, MilpModel env I gap useBigM method g → Reports g (calls g))
    (h : (milpSolveSaving env I limit gap useBigM method true (some path) calls).2 = some file) :
    ∀ r ∈ file.2, (∀ y, Feas I y → r.2.2 ≤ -obj I y)
      ∧ (r.2.1 = 10 ^ 100 ∨ ∃ y, Feas I y ∧ r.2.1 = -obj I y) := by
  obtain ⟨g, ⟨bigM, hb, hg⟩, rfl⟩ := milpSaving_inv h
  have hM := milpMs_same hE heps hm hn hI hc hmeth hb
  obtain ⟨g', e1, e2, -, -, p1, p2⟩ := inst_points hE hM gap
  rw [hg] at e1
  cases e1
  intro r hr
  have h1 := (boundsRows_spec env.clock (milpReads useBigM + 5)
    (milpElapsed env.clock limit useBigM) (calls g)).1
  have h2 : (-r.2.1, -r.2.2) ∈ (calls g).filterMap id := by
    refine (List.destutter_sublist (· ≠ ·) _).subset ?_
    rw [← h1]
    exact List.mem_map_of_mem hr
  rw [List.mem_filterMap] at h2
  obtain ⟨c, hc1, hc2⟩ := h2
  simp only [id] at hc2
  subst hc2
  obtain ⟨k1, k2⟩ := hrep g ⟨bigM, hb, hg⟩ _ _ hc1
  refine ⟨fun y hy => ?_, ?_⟩
  · have h3 := k1 _ (p2 y hy)
    rw [e2, eval_objExpr] at h3
    have h4 : obj I y ≤ -r.2.2 := h3
    linarith
  · rcases k2 with k2 | ⟨ρ, hρ, k2⟩
    · left
      linarith
    · right
      rw [e2, eval_objExpr] at k2
      have h4 : obj I (fun j => ρ (.x j)) = -r.2.1 := k2
      exact ⟨_, p1 ρ hρ, by rw [h4, neg_neg]⟩

/-! ## A case in point -/

/-- A clock that shows one more second at each reading. -/
noncomputable def exTick : Env := { exTight with clock := fun k => k }

/-- Gurobi finds the values 1 and 2 and lowers its bound from 5 to 2. -/
def exCalls : List CbCall := [none, some (1, 5), some (1, 5), none, some (2, 5), some (2, 2)]

/-- The file of this run.  The first row is saved 7 seconds after the start and shows 4 seconds. -/
theorem C88_time_counterexample :
    (milpSolveSaving exTick exPairs 100 0 true "naive" true (some ['f']) fun _ => exCalls).2
      = some (['f'], [(4, -1, -5), (5, -2, -5), (6, -2, -2)])
    ∧ exTick.clock (milpReads true + 6 + 0) - exTick.clock 0 = 7 := by
  refine ⟨by decide +kernel, by decide +kernel⟩

/-- Gurobi starts without a point and finds the value 1; its bound is 5. -/
def exReports : List CbCall := [some (-10 ^ 100, 5), none, some (1, 5)]

theorem exReports_ok {g : GModel} (h : MilpModel exTick exPairs 0 true "naive" g) :
    Reports g exReports := by
  have hC := exPairs_contract
  obtain ⟨bigM, hb, hg⟩ := h
  have hM := milpMs_same hC.equi hC.eps hC.m hC.n hC.ab hC.c (fun _ => Or.inl rfl) hb
  obtain ⟨g', e1, e2, -, -, p1, p2⟩ := inst_points hC.equi hM 0
  rw [hg] at e1
  cases e1
  have hbd : ∀ ρ, g.Feas ρ → g.obj.eval ρ ≤ 5 := by
    intro ρ hρ
    rw [e2, eval_objExpr]
    have h1 := (p1 ρ hρ).1
    have h2 : ∀ j < 3, ρ (.x j) ≤ 1 := fun j hj => by
      have h3 := h1 j hj
      simp only [exPairs, Bool.false_eq_true, if_false] at h3
      rcases h3 with h3 | h3 <;> rw [h3] <;> norm_num
    have a0 := h2 0 (by norm_num)
    have a1 := h2 1 (by norm_num)
    have a2 := h2 2 (by norm_num)
    show obj exPairs (fun j => ρ (.x j)) ≤ 5
    simp only [obj, dot, exPairs, Finset.sum_range_succ, Finset.sum_range_zero]
    norm_num
    linarith
  have hy : Feas exPairs fun j => if j = 2 then 1 else 0 :=
    ⟨by unfold InX; decide +kernel, by unfold Chance; decide +kernel⟩
  intro o b hob
  simp only [exReports, List.mem_cons, Option.some.injEq, Prod.mk.injEq, reduceCtorEq, false_or,
    List.not_mem_nil, or_false] at hob
  rcases hob with ⟨rfl, rfl⟩ | ⟨rfl, rfl⟩
  · exact ⟨hbd, Or.inl rfl⟩
  · refine ⟨hbd, Or.inr ⟨_, p2 _ hy, ?_⟩⟩
    rw [e2, eval_objExpr]
    show obj exPairs (fun j => if j = 2 then 1 else 0) = 1
    decide +kernel

/-- The hypotheses of the theorems hold for this run. -/
example : ∃ file, (milpSolveSaving exTick exPairs 100 0 true "naive" true (some ['f'])
      fun _ => exReports).2 = some file
    ∧ file.2 = [(4, 10 ^ 100, -5), (5, -1, -5)]
    ∧ (∀ r ∈ file.2, ∀ y, Feas exPairs y → r.2.2 ≤ -obj exPairs y)
    ∧ Monotone exTick.clock := by
  have hC := exPairs_contract
  have h : (milpSolveSaving exTick exPairs 100 0 true "naive" true (some ['f'])
      fun _ => exReports).2 = some (['f'], [(4, 10 ^ 100, -5), (5, -1, -5)]) := by decide +kernel
  exact ⟨_, h, rfl, fun r hr => (C88_rows_bracket hC.equi hC.eps hC.m hC.n hC.ab hC.c
    (fun _ => Or.inl rfl) (fun g hg => exReports_ok hg) h r hr).1, fun a b hab => by
      show (a : ℚ) ≤ b
      exact_mod_cast hab⟩

/-- A run that is interrupted. -/
noncomputable def exStop : Env := { exTick with cc := fun _ _ => ⟨11, none, 0, 0⟩ }

example : milpSolveSaving exStop exPairs 100 0 false "naive" true (some ['f']) (fun _ => exReports)
    = (.error .keyboardInterrupt, some (['f'], [(3, 10 ^ 100, -5), (4, -1, -5)])) := by
  obtain ⟨g, hg, -⟩ := inst_points exPairs_contract.equi (bigM := none) (by rintro _ ⟨⟩) 0
  rw [C88_interrupt ['f'] (fun _ => exReports) (g := g) ⟨none, rfl, hg⟩ (by decide +kernel) rfl]
  have h : milpRows exStop 100 false exReports = [(3, 10 ^ 100, -5), (4, -1, -5)] := by
    decide +kernel
  rw [h]

end Verif.Props
