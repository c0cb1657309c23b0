import Verif.Lemmas.Report
import Verif.Props.Milp
import Verif.Props.Certificates

/-!
# Result rows and result files (C60–C63)
-/

namespace Verif.Props

open Model

/-! ## Specification -/

/-- `a` is `b` up to printing with `d` decimals. -/
def Prints (d : ℕ) (a b : Gap) : Prop :=
  a = b ∨ ∃ x y : ℚ, a = .fin x ∧ b = .fin y ∧ |x - y| ≤ 1 / (2 * 10 ^ d)

/-- The relative gap in percent between the bounds `l ≤ u`, infinite as long as one of them is. -/
def PercentGap (l : WithBot ℚ) (u : WithTop ℚ) (g : Gap) : Prop :=
  (l = ⊥ → g = .posInf) ∧ (u = ⊤ → g = .posInf)
  ∧ ∀ a b : ℚ, l = a → u = b → a ≠ 0 → g = .fin (100 * ((b - a) / a))

/-- The entry of a row counted from its end, as the exporter reads it. -/
def Back (row : List Val) (k : ℕ) (g : Gap) : Prop := row.reverse[k - 1]? = some (.num g)

theorem prints_round (d : ℕ) (g : Gap) : Prints d (roundGap d g) g := by
  cases g with
  | fin q => exact Or.inr ⟨_, _, rfl, rfl, roundDec_near d q⟩
  | posInf => exact Or.inl rfl
  | negInf => exact Or.inl rfl
  | nan => exact Or.inl rfl

theorem computeGap_percent {l : WithBot ℚ} {u : WithTop ℚ} {np : Bool} {g : Gap}
    (h : computeGap u l np = .ok g) : PercentGap l u (g.scale 100) := by
  unfold computeGap at h
  refine ⟨?_, ?_, ?_⟩
  · rintro rfl
    simp only [Except.ok.injEq] at h
    rw [← h]; rfl
  · rintro rfl
    cases l with
    | bot =>
      simp only [Except.ok.injEq] at h
      rw [← h]; rfl
    | coe a =>
      simp only [Except.ok.injEq] at h
      rw [← h]; rfl
  · rintro a b rfl rfl ha
    simp only at h
    rw [if_neg ha] at h
    cases h
    simp only [Gap.scale, Gap.fin.injEq]
    ring

theorem computationDetails_ok {name : Txt} {I : Inst} {l : WithBot ℚ} {u : WithTop ℚ}
    {un np : Bool} {total : Option ℚ} {d : ℕ} {p : List Cell × List Cell}
    (h : computationDetails name I l u un np total d = .ok p) :
    ∃ t g, total = some t ∧ un = false ∧ computeGap u l np = .ok g
      ∧ p = ([.text name, natCell I.n, natCell I.m, natCell I.N,
              natCell (if I.cont then 1 else 0), fmtCell d (.fin I.eps)],
             [fmtCell d (.fin t), fmtCell d (ofBot l), fmtCell d (ofTop u),
              fmtCell d (g.scale 100)]) := by
  unfold computationDetails at h
  by_cases hn : I.n = 0
  · simp [hn, bind, Except.bind, throw, throwThe, MonadExceptOf.throw] at h
  by_cases hN : I.N = 0
  · simp [hn, hN, bind, Except.bind, throw, throwThe, MonadExceptOf.throw, pure, Except.pure] at h
  cases total with
  | none =>
    simp [hn, hN, bind, Except.bind, throw, throwThe, MonadExceptOf.throw, pure, Except.pure] at h
  | some t =>
    cases un with
    | true =>
      simp [hn, hN, bind, Except.bind, throw, throwThe, MonadExceptOf.throw, pure,
        Except.pure] at h
    | false =>
      cases hg : computeGap u l np with
      | error e =>
        simp [hn, hN, hg, bind, Except.bind, pure, Except.pure] at h
      | ok g =>
        refine ⟨t, g, rfl, rfl, rfl, ?_⟩
        simp only [hn, hN, hg, if_false, bind, Except.bind, pure, Except.pure, Bool.false_eq_true,
          Except.ok.injEq] at h
        exact h.symm

/-! ## C60 -/

/-- The row of the extended formulation as the exporter reads it. -/
theorem milpRow_vals {I : Inst} {limit gap : ℚ} {st : MilpSt} {name : Txt} {total : Option ℚ}
    {row : List Cell} (hr : milpRow name I limit gap st total = .ok row) :
    ∃ t g b, total = some t ∧ computeGap st.vUB st.vLB false = .ok g ∧ st.bigMTime = some b
      ∧ readExperiment (some row) = .ok [.str name, .num (.fin I.n), .num (.fin I.m),
          .num (.fin I.N), .num (.fin (if I.cont then 1 else 0 : ℕ)),
          .num (roundGap 3 (.fin I.eps)), .num (roundGap 3 (.fin limit)),
          .num (roundGap 3 (.fin (gap * 100))), .num (.fin st.useBigM),
          .num (.fin st.bigMMethod), .num (.fin b), .num (roundGap 3 (.fin t)),
          .num (roundGap 3 (ofBot st.vLB)), .num (roundGap 3 (ofTop st.vUB)),
          .num (roundGap 3 (g.scale 100))] := by
  unfold milpRow at hr
  cases hp : computationDetails name I (st.vLB : WithBot ℚ) (st.vUB : WithTop ℚ) false false
      total 3 with
  | error e => rw [hp] at hr; cases hr
  | ok p =>
    obtain ⟨t, g, ht, -, hg, rfl⟩ := computationDetails_ok hp
    rw [hp] at hr
    simp only [bind, Except.bind] at hr
    cases hb : st.bigMTime with
    | none => rw [hb] at hr; cases hr
    | some b =>
      rw [hb] at hr
      simp only [pure, Except.pure, Except.ok.injEq] at hr
      refine ⟨t, g, b, ht, hg, rfl, ?_⟩
      rw [← hr]
      simp only [List.cons_append, List.nil_append, readExperiment, List.mapM_cons,
        List.mapM_nil, cellFloat_nat, cellFloat_fmt, cellFloat_flt, bind, Except.bind, pure,
        Except.pure, Except.map, cellText]

/-- What `solve` records about the big-Ms. -/
theorem milpSolve_saved {env : Env} {I : Inst} {limit gap : ℚ} {useBigM : Bool}
    {method : String} {st : MilpSt} (hs : milpSolve env I limit gap useBigM method = .ok st) :
    st.bigMTime = (if useBigM then some (limit - remaining env.clock limit 1) else none)
    ∧ st.bigMMethod = milpMethodCode method
    ∧ ∃ bigM, milpBigMOpt env I useBigM method = .ok bigM := by
  unfold milpSolve at hs
  cases h1 : milpBigMOpt env I useBigM method with
  | error e => rw [h1] at hs; cases hs
  | ok bigM =>
    cases h2 : milpCall env I limit gap useBigM bigM with
    | error e => simp only [h1, h2, bind, Except.bind] at hs; cases hs
    | ok out =>
      simp only [h1, h2, bind, Except.bind, pure, Except.pure, Except.ok.injEq] at hs
      rw [← hs]
      exact ⟨rfl, rfl, _, rfl⟩

/-- **C60** (extended formulation).  A row written after `solve` can be read by the exporter; the
entries it uses are the gap, the computation time and the time of the big-Ms. -/
theorem C60_milp {env : Env} {I : Inst} {limit gap : ℚ} {useBigM : Bool} {method : String}
    {st : MilpSt} {name : Txt} {total : Option ℚ} {row : List Cell}
    (hs : milpSolve env I limit gap useBigM method = .ok st)
    (hr : milpRow name I limit gap st total = .ok row) :
    ∃ vals, readExperiment (some row) = .ok vals ∧ vals[0]? = some (.str name)
      ∧ (∃ g g', Back vals 1 g ∧ Prints 3 g g' ∧ PercentGap st.vLB st.vUB g' ∧ st.vLB ≠ 0)
      ∧ (∃ t g, total = some t ∧ Back vals 4 g ∧ Prints 3 g (.fin t))
      ∧ vals[10]? = some (.num (.fin (min limit (env.clock 1 - env.clock 0)))) := by
  obtain ⟨t, g, b, ht, hg, hb, hv⟩ := milpRow_vals hr
  have hl : st.vLB ≠ 0 := by
    intro e
    simp only [computeGap, e] at hg
    simp at hg
  have hbt : b = min limit (env.clock 1 - env.clock 0) := by
    rw [(milpSolve_saved hs).1] at hb
    split at hb
    · simp only [Option.some.injEq] at hb
      rw [← hb]
      unfold remaining
      rcases le_total (limit - (env.clock 1 - env.clock 0)) 0 with h | h
      · rw [max_eq_right h, min_eq_left (by linarith)]; ring
      · rw [max_eq_left h, min_eq_right (by linarith)]; ring
    · cases hb
  refine ⟨_, hv, rfl, ⟨_, _, rfl, prints_round 3 _, computeGap_percent hg, hl⟩,
    ⟨t, _, ht, rfl, prints_round 3 _⟩, ?_⟩
  rw [← hbt]; rfl

/-- The row of the adaptive solver as the exporter reads it. -/
theorem adaptiveRow_vals {dict : List (String × ℕ)} {I : Inst} {cfg : Cfg} {s : St} {name : Txt}
    {total : Option ℚ} {row : List Cell}
    (hr : adaptiveRowWith dict name I cfg s total = .ok row) :
    ∃ a b c t g, total = some t
      ∧ computeGap s.vUB s.vLB (s.vUBNumpy || s.vLBNumpy) = .ok g
      ∧ readExperiment (some row) = .ok [.str name, .num (.fin I.n), .num (.fin I.m),
              .num (.fin I.N), .num (.fin (if I.cont then 1 else 0 : ℕ)),
              .num (roundGap 3 (.fin I.eps)), .num (roundGap 3 (.fin cfg.timeLimit)),
              .num (roundGap 3 (.fin (cfg.gap * 100))),
              .num (.fin (if cfg.useBigM then 1 else 0 : ℕ)), .num (.fin a), .num (.fin b),
              .num (.fin c), .num (.fin s.iteration), .num (.fin s.part.nbSubsets),
              .num (roundGap 3 (.fin t)), .num (roundGap 3 (ofBot s.vLB)),
              .num (roundGap 3 (ofTop s.vUB)), .num (roundGap 3 (g.scale 100))] := by
  unfold adaptiveRowWith adaptiveDetails at hr
  cases h1 : assocGet dict cfg.splitMethod with
  | error e => rw [h1] at hr; cases hr
  | ok a =>
    cases h2 : assocGet dict cfg.initType with
    | error e => simp only [h1, h2, bind, Except.bind] at hr; cases hr
    | ok b =>
      cases h3 : assocGet dict cfg.projection with
      | error e => simp only [h1, h2, h3, bind, Except.bind] at hr; cases hr
      | ok c =>
        cases hp : computationDetails name I s.vLB s.vUB s.vUBNone (s.vUBNumpy || s.vLBNumpy)
            total 3 with
        | error e => simp only [h1, h2, h3, hp, bind, Except.bind, pure, Except.pure] at hr; cases hr
        | ok p =>
          obtain ⟨t, g, ht, -, hg, rfl⟩ := computationDetails_ok hp
          simp only [h1, h2, h3, hp, bind, Except.bind, pure, Except.pure, Except.ok.injEq] at hr
          refine ⟨a, b, c, t, g, ht, hg, ?_⟩
          rw [← hr]
          simp only [List.cons_append, List.nil_append, readExperiment, List.mapM_cons,
            List.mapM_nil, cellFloat_nat, cellFloat_fmt, cellFloat_flt, bind, Except.bind, pure,
            Except.pure, Except.map, cellText]

/-- **C60** (adaptive solver).  A row written from any state of the solver, with any dictionary of
codes for the names of the methods, can be read by the exporter; the entries it uses are the gap,
the computation time and the number of iterations. -/
theorem C60_adaptive {dict : List (String × ℕ)} {I : Inst} {cfg : Cfg} {s : St} {name : Txt}
    {total : Option ℚ} {row : List Cell}
    (hr : adaptiveRowWith dict name I cfg s total = .ok row) :
    ∃ vals, readExperiment (some row) = .ok vals ∧ vals[0]? = some (.str name)
      ∧ (∃ g g', Back vals 1 g ∧ Prints 3 g g' ∧ PercentGap s.vLB s.vUB g')
      ∧ (∃ t g, total = some t ∧ Back vals 4 g ∧ Prints 3 g (.fin t))
      ∧ Back vals 6 (.fin s.iteration) := by
  obtain ⟨a, b, c, t, g, ht, hg, hv⟩ := adaptiveRow_vals hr
  exact ⟨_, hv, rfl, ⟨_, _, rfl, prints_round 3 _, computeGap_percent hg⟩,
    ⟨t, _, ht, rfl, prints_round 3 _⟩, rfl⟩

/-! ## C61 -/

theorem milpSolve_bigMTime {env : Env} {I : Inst} {limit gap : ℚ} {useBigM : Bool}
    {method : String} {st : MilpSt} (hs : milpSolve env I limit gap useBigM method = .ok st) :
    st.bigMTime.isSome = useBigM := by
  rw [(milpSolve_saved hs).1]
  cases useBigM <;> rfl

/-- **C61** (extended formulation), full statement: after every `solve` a row can be written.
What holds: exactly if the run used big-Ms and its lower bound is not zero.  Missing: runs with
indicator constraints and runs that end with the lower bound zero, where writing raises. -/
theorem C61_milp_partial {env : Env} {I : Inst} {limit gap : ℚ} {useBigM : Bool}
    {method : String} {st : MilpSt} (hn : 0 < I.n) (hN : 0 < I.N)
    (hs : milpSolve env I limit gap useBigM method = .ok st) (name : Txt) (t : ℚ) :
    ((∃ row, milpRow name I limit gap st (some t) = .ok row) ↔ useBigM = true ∧ st.vLB ≠ 0)
    ∧ (st.vLB = 0 → milpRow name I limit gap st (some t) = .error .zeroDivisionError)
    ∧ (useBigM = false → st.vLB ≠ 0 →
        milpRow name I limit gap st (some t) = .error .attributeError) := by
  have hb := milpSolve_bigMTime hs
  have hn' : I.n ≠ 0 := by omega
  have hN' : I.N ≠ 0 := by omega
  by_cases hl : st.vLB = 0
  · have he : milpRow name I limit gap st (some t) = .error .zeroDivisionError := by
      simp [milpRow, computationDetails, computeGap, hn', hN', hl, bind, Except.bind, pure,
        Except.pure]
    refine ⟨⟨?_, fun h => absurd hl h.2⟩, fun _ => he, fun _ h => absurd hl h⟩
    rintro ⟨row, h⟩
    rw [he] at h; cases h
  · cases hbt : st.bigMTime with
    | none =>
      have he : milpRow name I limit gap st (some t) = .error .attributeError := by
        simp [milpRow, computationDetails, computeGap, hn', hN', hl, hbt, bind, Except.bind, pure,
          Except.pure, throw, throwThe, MonadExceptOf.throw]
      rw [hbt] at hb
      simp only [Option.isSome_none] at hb
      refine ⟨⟨?_, fun h => by rw [← hb] at h; simp at h⟩, fun h => absurd h hl, fun _ _ => he⟩
      rintro ⟨row, h⟩
      rw [he] at h; cases h
    | some b =>
      rw [hbt] at hb
      simp only [Option.isSome_some] at hb
      refine ⟨⟨fun _ => ⟨hb.symm, hl⟩, fun _ => ?_⟩, fun h => absurd h hl,
        fun h => by rw [← hb] at h; cases h⟩
      simp [milpRow, computationDetails, computeGap, hn', hN', hl, hbt, bind, Except.bind, pure,
        Except.pure]

theorem construct_split {env : Env} {cfg : Cfg} {I : Inst} {s : St}
    (h : construct env cfg I = .ok s) : cfg.splitMethod = "random" ∨ cfg.splitMethod = "cost" := by
  by_contra hc
  push Not at hc
  unfold construct initRefiner at h
  rw [if_neg hc.1, if_neg hc.2] at h
  cases h

/-- **C61** fails for the adaptive solver: for no configuration that its constructor accepts can a
row be written, since the names of the splitting methods are not in the dictionary of codes. -/
theorem C61_adaptive_counterexample {env : Env} {cfg : Cfg} {I : Inst} {s₀ : St}
    (h : construct env cfg I = .ok s₀) (name : Txt) (s : St) (total : Option ℚ) :
    adaptiveRow name I cfg s total = .error .keyError := by
  have hk : assocGet counterDict cfg.splitMethod = .error .keyError := by
    rcases construct_split h with h | h <;> rw [h] <;> rfl
  simp only [adaptiveRow, adaptiveRowWith, adaptiveDetails, hk, bind, Except.bind]

/-- **C61** fails for the extended formulation: after a run with indicator constraints on a small
instance, and after a run on an instance on which nothing fits. -/
theorem C61_milp_counterexample :
    ((milpSolve (exactEnv exNorm 1) exMilp 1800 (1 / 10 ^ 4) false "naive").bind fun st =>
      (milpRow [] exMilp 1800 (1 / 10 ^ 4) st (some 1)).map List.length)
      = .error .attributeError
    ∧ ((milpSolve (exactEnv exNorm 1) { exMilp with b := fun _ _ => 0 } 1800 (1 / 10 ^ 4) true
        "song").bind fun st =>
      (milpRow [] { exMilp with b := fun _ _ => 0 } 1800 (1 / 10 ^ 4) st (some 1)).map
        List.length) = .error .zeroDivisionError := by
  refine ⟨?_, ?_⟩ <;> decide +kernel

/-- Hypotheses of C60 and C61: a run that writes a row of fifteen cells, and one of the adaptive
solver whose row, with a dictionary that knows its methods, has eighteen. -/
example : ((milpSolve (exactEnv exNorm 1) exMilp 1800 (1 / 10 ^ 4) true "song").bind fun st =>
      (milpRow ['m', 'k'] exMilp 1800 (1 / 10 ^ 4) st (some 1)).map List.length) = .ok 15
    ∧ ((run (exactEnv exNorm 1) exCfg exPairs 10 10).bind fun r =>
      (adaptiveRowWith [("random", 2), ("cost", 3), ("counter", 1)] ['m', 'k']
        exPairs exCfg r.2 (some 1)).map List.length) = .ok 18
    ∧ (construct (exactEnv exNorm 1) exCfg exPairs).map (fun s => s.nbSubsets) = .ok 2 := by
  refine ⟨?_, ?_, ?_⟩ <;> decide +kernel

/-! ## C62 -/

/-- **C62**, full statement: for every method main.py calls `solve` with arguments that its
signature accepts.  What holds: it does so for methods 1 and 2, whose result is the row written
after the corresponding `solve`.  Missing: methods 3 and 4, where the call raises. -/
theorem C62_partial (env : Env) (location : Txt) (I : Inst) (method rounds fuel : ℕ) (total : ℚ)
    (hm : method = 1 ∨ method = 2) :
    pyBind milpSolveSig 0 (mainKeywords method) = .ok ()
    ∧ mainRow env location I method rounds fuel total
      = (milpSolve env I 3600 (1 / 10000) true (if method = 1 then "song" else "belotti")).bind
          fun st => milpRow (fileName location) I 3600 (1 / 10000) st (some total) := by
  have hb : pyBind milpSolveSig 0 (mainKeywords method) = .ok () := by
    rcases hm with rfl | rfl <;> decide
  refine ⟨hb, ?_⟩
  unfold mainRow mainRowWith
  rw [if_pos hm, hb]
  rfl

/-- **C62** fails for methods 3 and 4: the keyword `use_balancing` is not a parameter of `solve`, so
main.py raises `TypeError` on every instance on which the solver can be constructed, and never
writes a result. -/
theorem C62_counterexample (env : Env) (location : Txt) (I : Inst) (method rounds fuel : ℕ)
    (total : ℚ) (hm : method = 3 ∨ method = 4) :
    pyBind adaptiveSolveSig 1 (mainKeywords method) = .error .typeError
    ∧ (∀ s, construct env (mainCfg method) I = .ok s →
        mainRow env location I method rounds fuel total = .error .typeError)
    ∧ ∀ row, mainRow env location I method rounds fuel total ≠ .ok row := by
  have hb : pyBind adaptiveSolveSig 1 (mainKeywords method) = .error .typeError := by
    rcases hm with rfl | rfl <;> decide
  have hm' : ¬ (method = 1 ∨ method = 2) := by omega
  have h1 : ∀ s, construct env (mainCfg method) I = .ok s →
      mainRow env location I method rounds fuel total = .error .typeError := by
    intro s hs
    unfold mainRow mainRowWith
    rw [if_neg hm', if_pos hm, hs, hb]
    rfl
  refine ⟨hb, h1, ?_⟩
  intro row h
  cases hc : construct env (mainCfg method) I with
  | error e =>
    unfold mainRow mainRowWith at h
    rw [if_neg hm', if_pos hm, hc] at h
    cases h
  | ok s =>
    rw [h1 s hc] at h
    cases h

/-- The solvers of methods 3 and 4 can be constructed; without the keyword the call is accepted. -/
example : (construct (exactEnv exNorm 1) (mainCfg 3) exPairs).map (fun s => s.nbSubsets) = .ok 2
    ∧ (construct (exactEnv exNorm 1) (mainCfg 4) exPairs).map (fun s => s.nbSubsets) = .ok 2
    ∧ pyBind adaptiveSolveSig 1 ["use_merger", "use_big_M", "big_m_method"] = .ok () := by
  refine ⟨?_, ?_, ?_⟩ <;> decide +kernel

/-- **C62**, exactly which calls are accepted: `MilpSolver.solve` without positional arguments takes any of its four
keywords and no other, and `AdaptivePartitioner.solve` with one positional argument, the big-M finder, takes any of
the four keywords after it and no other. -/
theorem C62_accepted (kws : List String) :
    (pyBind milpSolveSig 0 kws = .ok ()
      ↔ ∀ k ∈ kws, k = "use_big_m" ∨ k = "big_m_method" ∨ k = "save_bounds" ∨ k = "path")
    ∧ (pyBind adaptiveSolveSig 1 kws = .ok ()
      ↔ ∀ k ∈ kws, k = "use_big_M" ∨ k = "big_m_method" ∨ k = "use_merger" ∨ k = "use_lazy") := by
  constructor
  · unfold pyBind milpSolveSig
    by_cases h : ∀ k ∈ kws, k = "use_big_m" ∨ k = "big_m_method" ∨ k = "save_bounds" ∨ k = "path"
    · have h1 : ¬ ∃ k ∈ kws, k ∉ ["use_big_m", "big_m_method", "save_bounds", "path"] := by
        rintro ⟨k, hk, hn⟩
        exact hn (by simpa using h k hk)
      refine iff_of_true ?_ h
      rw [if_neg (by simp), if_neg (by simpa using h1), if_neg (by simp), if_neg (by simp)]
    · have h1 : ∃ k ∈ kws, k ∉ ["use_big_m", "big_m_method", "save_bounds", "path"] := by
        push Not at h
        obtain ⟨k, hk, hn⟩ := h
        exact ⟨k, hk, by simpa using hn⟩
      rw [if_neg (by simp), if_pos (by simpa using h1)]
      simp [h]
  · unfold pyBind adaptiveSolveSig
    by_cases h : ∀ k ∈ kws, k = "use_big_M" ∨ k = "big_m_method" ∨ k = "use_merger" ∨ k = "use_lazy"
    · have h1 : ¬ ∃ k ∈ kws, k ∉ ["bigMFinder", "use_big_M", "big_m_method", "use_merger", "use_lazy"] := by
        rintro ⟨k, hk, hn⟩
        rcases h k hk with rfl | rfl | rfl | rfl <;> simp at hn
      have h2 : ¬ ∃ k ∈ kws, k ∈ ["bigMFinder"] := by
        rintro ⟨k, hk, hn⟩
        rcases h k hk with rfl | rfl | rfl | rfl <;> simp at hn
      refine iff_of_true ?_ h
      rw [if_neg (by simp), if_neg (by simpa using h1), if_neg (by simpa using h2), if_neg (by simp)]
    · refine iff_of_false ?_ h
      push Not at h
      obtain ⟨k, hk, hn⟩ := h
      by_cases hb : k = "bigMFinder"
      · subst hb
        rw [if_neg (by simp)]
        split_ifs with a b c
        · simp
        · simp
        · exact absurd ⟨_, hk, by simp⟩ b
        · exact absurd ⟨_, hk, by simp⟩ b
      · rw [if_neg (by simp), if_pos ⟨k, hk, by simp [hb, hn]⟩]
        simp

/-- The calls of methods 1 and 2, a call without keywords, and a misspelt keyword. -/
example : pyBind milpSolveSig 0 (mainKeywords 1) = .ok () ∧ pyBind milpSolveSig 0 [] = .ok ()
    ∧ pyBind milpSolveSig 0 ["use_big_M"] = .error .typeError ∧ pyBind adaptiveSolveSig 1 [] = .ok ()
    ∧ pyBind adaptiveSolveSig 0 [] = .error .typeError := by
  refine ⟨?_, ?_, ?_, ?_, ?_⟩ <;> decide

/-! ## C63 -/

theorem fileName_instance {dir i : Txt} (hd : dir = [] ∨ dir.getLast? = some '/')
    (hi : '/' ∉ i) (s j : ℕ) :
    fileName (instancePath dir i s j)
      = i ++ ['-'] ++ Nat.toDigits 10 s ++ ['-'] ++ Nat.toDigits 10 j := by
  have hdig : ∀ k, '/' ∉ Nat.toDigits 10 k := fun k h => by
    have := toDigits_isDigit k _ h
    simp at this
  generalize hX : i ++ ['-'] ++ Nat.toDigits 10 s ++ ['-'] ++ Nat.toDigits 10 j = X
  have hpath : instancePath dir i s j = dir ++ (X ++ ['.', 'c', 's', 'v']) := by
    rw [← hX]; simp [instancePath]
  have hXs : '/' ∉ X := by
    rw [← hX]
    simp [hi, hdig]
  have hXd : '-' ∈ X := by rw [← hX]; simp
  have hbase : baseName (instancePath dir i s j) = X ++ ['.', 'c', 's', 'v'] := by
    unfold baseName
    rw [hpath, List.reverse_append]
    have h := (takeWhile_all (p := fun c : Char => c != '/')
      (l := (X ++ ['.', 'c', 's', 'v']).reverse) (r := dir.reverse) ?_ ?_).1
    · rw [h, List.reverse_reverse]
    · intro a ha
      simp only [List.mem_reverse, List.mem_append] at ha
      simp only [bne_iff_ne, ne_eq]
      rintro rfl
      rcases ha with ha | ha
      · exact hXs ha
      · simp at ha
    · intro a ha
      rcases hd with rfl | hd
      · simp at ha
      · rw [List.head?_reverse, hd] at ha
        simp only [Option.mem_def, Option.some.injEq] at ha
        rw [← ha]; rfl
  unfold fileName stem
  rw [hbase]
  have hr : (X ++ ['.', 'c', 's', 'v']).reverse = 'v' :: 's' :: 'c' :: '.' :: X.reverse := by simp
  rw [hr]
  have hdw : ('v' :: 's' :: 'c' :: '.' :: X.reverse).dropWhile (fun c => c != '.')
      = '.' :: X.reverse := by
    simp [List.dropWhile]
  rw [hdw]
  simp only
  rw [if_neg, List.reverse_reverse]
  simp only [List.all_eq_true, List.mem_reverse, beq_iff_eq, not_forall]
  exact ⟨'-', hXd, by decide⟩

/-- The percentage in the two names, for all percentages. -/
theorem percent_names : ∀ p : ℕ, p < 101 →
    (fixed 0 (fl64 (fl64 ((p : ℚ) / 100) * 100))
      = Nat.toDigits 10 ⌊fl64 (fl64 ((p : ℚ) / 100) * 100)⌋₊ ↔ p ∉ [29, 57, 58]) := by
  decide +kernel

/-- **C63**, full statement: for every instance name, number of scenarios, id, whole percentage,
flag and method the exporter opens the file that main.py writes.  What holds: it does exactly for
the percentages other than 29, 57 and 58, for which the product of the double with 100 lies below
the percentage: main.py rounds it, the exporter truncates it. -/
theorem C63_partial {out dir i : Txt} (hd : dir = [] ∨ dir.getLast? = some '/') (hi : '/' ∉ i)
    (s j method p : ℕ) (cont : Bool) (hp : p ≤ 100) :
    mainPath out (instancePath dir i s j) (fl64 ((p : ℚ) / 100)) cont method
        = exportPath out i s j (fl64 ((p : ℚ) / 100)) (if cont then 1 else 0) method
      ↔ p ≠ 29 ∧ p ≠ 57 ∧ p ≠ 58 := by
  have hn := percent_names p (by omega)
  have hf : (if cont then ['-', '1', '-'] else ['-', '0', '-'] : Txt)
      = ['-'] ++ Nat.toDigits 10 (if cont then 1 else 0) ++ ['-'] := by
    cases cont <;> rfl
  unfold mainPath exportPath
  rw [fileName_instance hd hi, hf]
  rw [show ∀ a b c d e f g h k l m n : Txt, (out ++ (i ++ a ++ b ++ c ++ d) ++ e ++ f
    ++ (g ++ h ++ k) ++ l ++ m = out ++ i ++ a ++ b ++ c ++ d ++ e ++ n ++ g ++ h ++ k ++ l ++ m)
    ↔ f = n from fun a b c d e f g h k l m n => by simp [← List.append_assoc]]
  rw [hn]
  simp

/-- **C63** fails: with risk level 0.29 main.py writes `mk-500-1-29-0-2.csv` and the exporter looks
for `mk-500-1-28-0-2.csv`. -/
theorem C63_counterexample :
    mainPath [] ("data/mk-500-1.csv".toList) (fl64 (29 / 100)) false 2
      = "mk-500-1-29-0-2.csv".toList
    ∧ exportPath [] "mk".toList 500 1 (fl64 (29 / 100)) 0 2 = "mk-500-1-28-0-2.csv".toList := by
  decide +kernel

/-- The risk levels of the experiments are not affected. -/
example : mainPath ['r', '/'] (instancePath ['d', '/'] ['m', 'k'] 500 1) (fl64 (1 / 10)) true 1
      = exportPath ['r', '/'] ['m', 'k'] 500 1 (fl64 (1 / 10)) 1 1 := by
  have := (C63_partial (out := ['r', '/']) (dir := ['d', '/']) (i := ['m', 'k'])
    (Or.inr rfl) (by decide) 500 1 1 10 true (by norm_num)).2 (by norm_num)
  norm_num at this ⊢
  exact this

end Verif.Props
