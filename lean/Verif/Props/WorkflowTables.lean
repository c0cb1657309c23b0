import Verif.Props.Workflow
import Verif.Props.Tables

/-!
# C90: the tables of the repository's scripts
-/

namespace Verif.Props
open Spec Model Finset

/-- **C90 (folders and gap).** Started in the folder of the repository, the scripts and the exporter
use the same folders: the runs read where the generator writes, the exporter reads where the runs
write.  The gap in percent that the exporter asks for is, up to rounding, the gap at which the runs
stop. -/
theorem C90_constants (root : Txt) :
    scriptIn root = genDir root ∧ (exporterPar root).input = scriptOut root
    ∧ (scriptIn root).getLast? = some '/'
    ∧ Near (exporterPar root).required 10 ∧ mainGap * 100 = 10 / 1000 := by
  refine ⟨rfl, rfl, ?_, ?_, by norm_num [mainGap]⟩
  · unfold scriptIn
    rw [List.getLast?_append]
    rfl
  · show Near (fl64 (fl64 (1 / 10000) * 100)) 10
    unfold Near
    decide +kernel

/-! ## Rows with two missing methods -/

theorem ofTop_posInf_lt (a : WithTop ℚ) : Gap.lt .posInf (ofTop a) = false := by
  cases a <;> rfl

/-- Without results for the last two methods one of the first two is highlighted. -/
theorem bestIndex_missing {S1 S2 S3 S4 : Summary} {T1 T2 G1 G2 : WithTop ℚ}
    (t1 : S1.time = ofTop T1) (t2 : S2.time = ofTop T2) (g1 : S1.gap = ofTop G1)
    (g2 : S2.gap = ofTop G2) (t3 : S3.time = .posInf) (t4 : S4.time = .posInf)
    (g3 : S3.gap = .posInf) (g4 : S4.gap = .posInf) (n3 : S3.nbSolved = 0) (n4 : S4.nbSolved = 0)
    {k : ℕ} (h : bestIndex [S1, S2, S3, S4] = .ok k) : k < 2 := by
  have harg : ∀ A B : WithTop ℚ, npArgmin [ofTop A, ofTop B, .posInf, .posInf]
      = .ok (if B < A then 1 else 0) := by
    intro A B
    by_cases hlt : B < A
    · simp [npArgmin, argminLoop, ofTop_ne_nan, (ofTop_lt B A).2 hlt, hlt, ofTop_posInf_lt]
    · have : (ofTop B).lt (ofTop A) = false := Bool.eq_false_iff.2 fun h => hlt ((ofTop_lt B A).1 h)
      simp [npArgmin, argminLoop, ofTop_ne_nan, this, hlt, ofTop_posInf_lt]
  unfold bestIndex at h
  simp only [List.map_cons, List.map_nil, t1, t2, t3, t4, g1, g2, g3, g4, n3, n4, harg, bind,
    Except.bind] at h
  split at h
  · cases h
  · split at h
    · simp only [pure, Except.pure, Except.ok.injEq] at h
      subst h
      split <;> omega
    · simp only [List.foldl_cons, List.foldl_nil, List.length_cons, List.length_nil,
        show List.range (0 + 1 + 1 + 1 + 1) = [0, 1, 2, 3] from rfl] at h
      by_cases h0 : S1.nbSolved = 0 ∧ S2.nbSolved = 0
      · obtain ⟨e1, e2⟩ := h0
        simp only [e1, e2] at h
        have hv : ([0, 1, 2, 3].filter fun i => decide (([0, 0, 0, 0] : List ℕ).getD i 0
            = max (max (max (max 0 0) 0) 0) 0)) = [0, 1, 2, 3] := by decide
        rw [hv] at h
        simp only [List.map_cons, List.map_nil, List.getD_cons_zero, List.getD_cons_succ, harg] at h
        split at h <;> simp [pyGet] at h <;> omega
      · split at h
        · cases h
        · have hk : k ∈ [0, 1, 2, 3].filter fun i => decide (([S1.nbSolved, S2.nbSolved, 0, 0] :
              List ℕ).getD i 0 = max (max (max (max 0 S1.nbSolved) S2.nbSolved) 0) 0) := by
            unfold pyGet at h
            split at h
            · rename_i hv
              cases h
              exact List.mem_of_getElem? hv
            · cases h
          rw [List.mem_filter] at hk
          obtain ⟨hk1, hk2⟩ := hk
          rw [decide_eq_true_eq] at hk2
          simp only [List.mem_cons, List.not_mem_nil, or_false] at hk1
          rcases hk1 with rfl | rfl | rfl | rfl
          · omega
          · omega
          · simp only [List.getD_cons_zero, List.getD_cons_succ] at hk2
            omega
          · simp only [List.getD_cons_zero, List.getD_cons_succ] at hk2
            omega

/-- A method without a result file. -/
theorem methodSummary_missing {ids : List ℕ} {required : ℚ} {results : ℕ → List (List Val)} {m : ℕ}
    (h : [] ∈ results m) : methodSummary ids required results m
      = .ok { time := .posInf, nbSolved := 0, gap := .posInf
              cells := if m ∈ exportMilp then [.str ['-']] else [.num .nan, .num .nan] } := by
  unfold methodSummary
  rw [if_neg (not_not_intro h)]

/-- Without results for methods 3 and 4 their four cells hold no number, and nothing in them is set
in bold. -/
theorem tableRow_missing {head : List Val} {ids : List ℕ} {required : ℚ}
    {results : ℕ → List (List Val)} (hh : head.length = 3) {S1 S2 : Summary} {T1 T2 G1 G2 : WithTop ℚ}
    (e1 : methodSummary ids required results 1 = .ok S1)
    (e2 : methodSummary ids required results 2 = .ok S2)
    (t1 : S1.time = ofTop T1) (t2 : S2.time = ofTop T2) (g1 : S1.gap = ofTop G1)
    (g2 : S2.gap = ofTop G2) (l1 : S1.cells.length = 1) (l2 : S2.cells.length = 1)
    (h3 : [] ∈ results 3) (h4 : [] ∈ results 4) {row : List Val}
    (h : tableRow head ids required results = .ok row) :
    row.drop 5 = [.num .nan, .num .nan, .num .nan, .num .nan] := by
  unfold tableRow at h
  simp only [exportMethods, List.mapM_cons, List.mapM_nil, e1, e2, methodSummary_missing h3,
    methodSummary_missing h4, show ¬ 3 ∈ exportMilp by decide, show ¬ 4 ∈ exportMilp by decide,
    if_false, bind, Except.bind, pure, Except.pure] at h
  split at h
  · cases h
  · rename_i k hk
    have hk2 := bestIndex_missing t1 t2 g1 g2 rfl rfl rfl rfl rfl rfl hk
    have hcol : boldColumn k = .ok (k + 3) := by
      have : k = 0 ∨ k = 1 := by omega
      rcases this with rfl | rfl <;> rfl
    rw [hcol] at h
    simp only at h
    split at h
    · cases h
    · unfold pySet at h
      split at h
      · cases h
        rw [List.drop_set_of_lt (by omega)]
        obtain ⟨a, ha⟩ := List.length_eq_one_iff.1 l1
        obtain ⟨b, hb⟩ := List.length_eq_one_iff.1 l2
        obtain ⟨x, y, z, rfl⟩ := List.length_eq_three.1 hh
        simp [ha, hb]
      · cases h

/-! ## The tables -/

/-- What main.py writes is a row the exporter can use, and it writes nothing for methods 3 and 4. -/
theorem mainWrites_good {dir : Txt} {inst : InstFiles} {ω : Exp → Circ} {e : Exp}
    (hm : e.method ∈ [1, 2, 3, 4]) : GoodFile e.method (mainWrites dir inst ω e)
      ∧ (e.method = 3 ∨ e.method = 4 → mainWrites dir inst ω e = none) := by
  unfold mainWrites
  split
  · exact ⟨Or.inl rfl, fun _ => rfl⟩
  · split
    · exact ⟨Or.inl rfl, fun _ => rfl⟩
    · rename_i I _
      split
      · exact ⟨Or.inl rfl, fun _ => rfl⟩
      · rename_i row h
        by_cases h34 : e.method = 3 ∨ e.method = 4
        · exact absurd h ((C62_counterexample _ _ I _ _ _ _ h34).2.2 row)
        · refine ⟨?_, fun h => absurd h h34⟩
          simp only [List.mem_cons, List.not_mem_nil, or_false] at hm
          have h12 : e.method = 1 ∨ e.method = 2 := by omega
          rw [(C62_partial _ _ I _ _ _ _ h12).2] at h
          cases hs : milpSolve (ω e).env I 3600 (1 / 10000) true
              (if e.method = 1 then "song" else "belotti") with
          | error x => rw [hs] at h; cases h
          | ok st =>
            rw [hs] at h
            exact milpRow_good h (by simpa using h12)

/-- Time and gap of a method whose files are missing or good. -/
theorem goodSummary {file : ℕ → Option (List Cell)} {results : ℕ → ℕ → List Val} {m nb : ℕ} {req : ℚ}
    {r : ℤ} (hreq : Near req r) (hm : m ∈ [1, 2, 3, 4]) (hnb : 0 < nb)
    (h : ∀ j, 1 ≤ j → j ≤ nb → GoodFile m (file j) ∧ readExperiment (file j) = .ok (results m j)) :
    ∃ S T G, methodSummary (List.range' 1 nb) req (fun m => (List.range' 1 nb).map (results m)) m
        = .ok S ∧ S.time = ofTop T ∧ S.gap = ofTop G ∧ S.cells.length = if m ≤ 2 then 1 else 2 := by
  have hids : ∀ j, j ∈ List.range' 1 nb ↔ 1 ≤ j ∧ j ≤ nb := fun j => by
    rw [List.mem_range'_1]; omega
  have hex : ∀ j, ∃ gap time iter, 1 ≤ j → j ≤ nb → (results m j ≠ [] →
      RowOk (results m j) gap time iter (m ∈ [3, 4])) ∧ Milli gap := by
    intro j
    by_cases hj : 1 ≤ j ∧ j ≤ nb
    · obtain ⟨hg, hr⟩ := h j hj.1 hj.2
      obtain ⟨row, hr', hrow⟩ := goodFile_read hg
      rw [hr] at hr'
      cases hr'
      by_cases he : results m j = []
      · exact ⟨⊤, 0, 0, fun _ _ => ⟨fun h => absurd he h, by rintro q ⟨⟩⟩⟩
      · obtain ⟨-, gap, time, iter, a1, a2, -⟩ := hrow (List.length_pos_iff.2 he)
        exact ⟨gap, time, iter, fun _ _ => ⟨fun _ => a1, a2⟩⟩
    · exact ⟨⊤, 0, 0, fun h1 h2 => absurd ⟨h1, h2⟩ hj⟩
  choose gap time iter hgti using hex
  have hne : List.range' 1 nb ≠ [] := by
    intro h0
    have := congrArg List.length h0
    simp at this
    omega
  obtain ⟨S, T, G, h1, h2, h3, -, -, -, h4⟩ := methodSummary_spec
    (results := fun m => (List.range' 1 nb).map (results m))
    (d := ⟨[] ∈ (List.range' 1 nb).map (results m), gap, time, iter⟩) r hreq hne hm Iff.rfl
    (fun hno j hj => by
      obtain ⟨j1, j2⟩ := (hids j).1 hj
      refine ⟨results m j, ?_, (hgti j j1 j2).1 fun h0 => hno (List.mem_map.2 ⟨j, hj, h0⟩)⟩
      rw [List.getElem?_map, List.getElem?_range' (by omega)]
      simp only [Option.map_some, Option.some.injEq]
      congr 1
      omega)
    (fun j hj => (hgti j ((hids j).1 hj).1 ((hids j).1 hj).2).2)
  exact ⟨S, T, G, h1, h2, h3, h4⟩

/-- **C90 (tables).** Run all experiments with the constants of the scripts, then call the exporter in
the folder of the repository: if the result files were not there before, the exporter raises no
exception and writes all its files, whatever the instances, Gurobi and the clock.  In every row of
every summary table the cells of methods 3 and 4 are empty: the tables never compare the adaptive
methods with the others. -/
theorem C90_tables_partial (root : Txt) (inst : InstFiles) (ω : Exp → Circ) {fs : Files}
    (hfs : ∀ e, IsExp scriptPar e → fs (expFile (scriptOut root) e) = none) :
    ∃ files, exportAll (runAll (scriptIn root) (scriptOut root) inst ω scriptPar fs)
        (exporterPar root) = .ok files
      ∧ files.length = 9
      ∧ ∀ k c, (exporterPar root).kinds[k]? = some c → ∀ i name,
        (exporterPar root).instances[i]? = some name → ∃ rows,
          files[(k + 1) * 3 + i]? = some (root ++ ['/', 'r', 'e', 's', 'u', 'l', 't', 's', '/'] ++ name
            ++ (['-'] ++ Nat.toDigits 10 c ++ "-result-table.csv".toList), rows)
          ∧ rows.length = 8
          ∧ ∀ row ∈ rows, row.drop 5 = [.num .nan, .num .nan, .num .nan, .num .nan] := by
  have hdir := (C90_constants root).2.2.1
  have hreq := (C90_constants root).2.2.2.1
  have hfile : ∀ c ∈ (exporterPar root).kinds, ∀ i ∈ (exporterPar root).instances,
      ∀ scen ∈ (exporterPar root).scenarios, ∀ j, 1 ≤ j → j ≤ (exporterPar root).nb →
      ∀ e ∈ (exporterPar root).epsilons, ∀ m ∈ [1, 2, 3, 4],
      GoodFile m (runAll (scriptIn root) (scriptOut root) inst ω scriptPar fs
        (exportPath (exporterPar root).input i scen j e c m))
      ∧ (m = 3 ∨ m = 4 → runAll (scriptIn root) (scriptOut root) inst ω scriptPar fs
        (exportPath (exporterPar root).input i scen j e c m) = none) := by
    intro c hc i hi scen hs j hj1 hj2 e he m hm
    have hE : IsExp scriptPar ⟨i, scen, j, c, e, m⟩ := (C90_same_experiments root
      (c, i, scen, j, e, m)).1 (mem_expKeys.2 ⟨hc, hi, hs, mem_ids.2 ⟨hj1, hj2⟩, he, hm⟩)
    have h := (C90_results (out := scriptOut root) (Or.inr hdir) inst ω scriptPar_ok fs).1 _ hE
    rw [hfs _ hE, Option.or_none] at h
    have hg := mainWrites_good (dir := scriptIn root) (inst := inst) (ω := ω)
      (e := ⟨i, scen, j, c, e, m⟩) hm
    rw [← h] at hg
    exact hg
  obtain ⟨files, hfiles⟩ := C87_total (fs := runAll (scriptIn root) (scriptOut root) inst ω scriptPar
    fs) (p := exporterPar root) (show 0 ∈ [0, 1] by decide) (show 1 ∈ [0, 1] by decide)
    (show 0 < 5 by decide) (List.cons_ne_nil _ _) 10 hreq
    fun c hc i hi scen hs j hj1 hj2 e he m hm => (hfile c hc i hi scen hs j hj1 hj2 e he m hm).1
  refine ⟨files, hfiles, ?_, ?_⟩
  · exact (C87_summary_tables hfiles (k := 0) (c := 0) rfl (i := 0) rfl).1
  · intro k c hk i name hi
    obtain ⟨-, rows, r1, r2, r3⟩ := C87_summary_tables hfiles hk hi
    refine ⟨rows, r1, r2, fun row hrow => ?_⟩
    obtain ⟨q, hq⟩ := List.mem_iff_getElem?.1 hrow
    have hq8 : q < 8 := by
      have := (List.getElem?_eq_some_iff.1 hq).1
      rw [r2] at this
      exact this
    have h4 : (exporterPar root).scenarios.length = 4 := rfl
    obtain ⟨eps, heps⟩ : ∃ eps, (exporterPar root).epsilons[q / 4]? = some eps :=
      ⟨_, List.getElem?_eq_getElem (show q / 4 < 2 by omega)⟩
    obtain ⟨scen, hscen⟩ : ∃ scen, (exporterPar root).scenarios[q % 4]? = some scen :=
      ⟨_, List.getElem?_eq_getElem (show q % 4 < 4 by omega)⟩
    obtain ⟨results, row', a1, a2, a3⟩ := r3 _ eps heps _ scen hscen
    have hqq : q / 4 * 4 + q % 4 = q := by omega
    rw [h4, hqq, hq] at a3
    cases a3
    have hf := hfile c (List.mem_of_getElem? hk) name (List.mem_of_getElem? hi) scen
      (List.mem_of_getElem? hscen)
    have hS := fun (m : ℕ) (hm : m ∈ [1, 2, 3, 4]) => goodSummary (results := results)
      (nb := (exporterPar root).nb) hreq hm (show 0 < 5 by decide) fun j j1 j2 =>
        ⟨(hf j j1 j2 eps (List.mem_of_getElem? heps) m hm).1, a1 m hm j j1 j2⟩
    obtain ⟨S1, T1, G1, b1, b2, b3, b4⟩ := hS 1 (by decide)
    obtain ⟨S2, T2, G2, c1, c2, c3, c4⟩ := hS 2 (by decide)
    have hmiss : ∀ m, m = 3 ∨ m = 4 → [] ∈ (List.range' 1 (exporterPar root).nb).map (results m) := by
      intro m hm
      have hm4 : m ∈ [1, 2, 3, 4] := by rcases hm with rfl | rfl <;> decide
      refine List.mem_map.2 ⟨1, show 1 ∈ List.range' 1 5 by decide, ?_⟩
      have h1 := a1 m hm4 1 le_rfl (show 1 ≤ 5 by decide)
      rw [(hf 1 le_rfl (show 1 ≤ 5 by decide) eps (List.mem_of_getElem? heps) m hm4).2 hm] at h1
      simp only [readExperiment, Except.ok.injEq] at h1
      exact h1.symm
    exact tableRow_missing rfl b1 c1 b2 c2 b3 c3 b4 c4 (hmiss 3 (Or.inl rfl)) (hmiss 4 (Or.inr rfl))
      a2

/-- The hypothesis holds for an empty folder of results. -/
example (root : Txt) (inst : InstFiles) (ω : Exp → Circ) :
    ∃ files, exportAll (runAll (scriptIn root) (scriptOut root) inst ω scriptPar fun _ => none)
        (exporterPar root) = .ok files ∧ files.length = 9 := by
  obtain ⟨files, h1, h2, -⟩ := C90_tables_partial root inst ω (fs := fun _ => none) fun _ _ => rfl
  exact ⟨files, h1, h2⟩

end Verif.Props
