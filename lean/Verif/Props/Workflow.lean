import Verif.Model.Workflow
import Verif.Props.Generator
import Verif.Props.RowMeaning

/-!
# C90: from the OR-library files to the exporter
-/

namespace Verif.Props
open Spec Model Finset

/-! ## Specification -/

/-- An instance made from OR-library data of `n` items and `m` rows (objective `c`, capacities `b`)
with `N` scenarios: the announced sizes, and the data up to the rounding to one decimal when the
file is read; the weights are draws for instance `k`. -/
structure MadeFrom (n m N k : ℕ) (c b : Vec) (d : Draws) (cont : Bool) (eps : ℚ) (I : Inst) :
    Prop where
  size_n : I.n = n
  size_m : I.m = m
  size_N : I.N = N
  is_cont : I.cont = cont
  is_eps : I.eps = eps
  equi : Equi I
  cost : ∀ j < n, |I.c j - c j| ≤ 1 / 20
  capacity : ∀ s < N, ∀ i < m, |I.b s i - b i| ≤ 1 / 20
  weight : ∀ s < N, ∀ i < m, ∀ j < n, ∃ a,
    Written (d.normal k i j s) (d.fails k j s) a ∧ |I.A s i j - a| ≤ 1 / 20
  data_nonneg : (∀ i < m, 0 ≤ b i) → NonnegAb I
  obj_nonneg : (∀ j < n, 0 ≤ c j) → NonnegC I

/-- The OR-library files `F`: file `a` has `n a` items, `m a` rows, objective `c a` and capacities
`b a`, and no two files have the same sizes. -/
structure Library (F : List (List (List ℚ))) (n m : ℕ → ℕ) (c b : ℕ → Vec) : Prop where
  file : ∀ a f, F[a]? = some f → OrLib f (n a) (m a) (c a) (b a)
  sizes : ∀ a < F.length, ∀ a' < F.length, n a = n a' → m a = m a' → a = a'

/-- Parameters of run_all_experiments.sh: names without slashes, kinds 0 and 1, risk levels that are
whole percentages other than 29, 57 and 58 (`C63_counterexample`). -/
structure ParOk (p : RunPar) : Prop where
  names : ∀ i ∈ p.files, '/' ∉ i
  conts : ∀ c ∈ p.conts, c = 0 ∨ c = 1
  epsilons : ∀ e ∈ p.epsilons, ∃ q : ℕ, q ≤ 100 ∧ q ∉ [29, 57, 58] ∧ e = fl64 ((q : ℚ) / 100)

/-- The experiment is one of those in the script. -/
structure IsExp (p : RunPar) (e : Exp) : Prop where
  name : e.name ∈ p.files
  scen : e.scen ∈ p.scenarios
  id : 1 ≤ e.id ∧ e.id ≤ p.indexes
  cont : e.cont ∈ p.conts
  eps : e.eps ∈ p.epsilons
  method : e.method ∈ p.methods

/-- The key under which the exporter stores the results of an experiment. -/
def expKey (e : Exp) : ExpKey := (e.cont, e.name, e.scen, e.id, e.eps, e.method)

/-- The file that the exporter opens for an experiment. -/
def expFile (out : Txt) (e : Exp) : Txt :=
  exportPath out e.name e.scen e.id e.eps e.cont e.method

/-! ## Lists and folders -/

theorem foldl_last {α β : Type} {f : β → α → β} {P : β → Prop} {l : List α} {k : ℕ} {x : α}
    (hx : l[k]? = some x) (hset : ∀ b, P (f b x))
    (hkeep : ∀ b, P b → ∀ j y, k < j → l[j]? = some y → P (f b y)) (b : β) : P (l.foldl f b) := by
  induction l generalizing k b with
  | nil => simp at hx
  | cons a l ih =>
    rw [List.foldl_cons]
    cases k with
    | zero =>
      simp only [List.getElem?_cons_zero, Option.some.injEq] at hx
      subst hx
      have h0 := hset b
      generalize f b a = b' at h0
      clear ih
      have hk : ∀ b, P b → ∀ (j : ℕ) (y : α), l[j]? = some y → P (f b y) :=
        fun b hb j y hy => hkeep b hb (j + 1) y (by omega) (by simpa using hy)
      clear hkeep hset
      induction l generalizing b' with
      | nil => exact h0
      | cons y l ih =>
        exact ih _ (hk b' h0 0 y (by simp)) fun b hb j z hz => hk b hb (j + 1) z (by simpa using hz)
    | succ k =>
      exact ih (by simpa using hx)
        (fun b hb j y hj hy => hkeep b hb (j + 1) y (by omega) (by simpa using hy)) _

theorem foldl_keep {α β : Type} {f : β → α → β} {P : β → Prop} {l : List α} {b : β} (hb : P b)
    (h : ∀ b, P b → ∀ a ∈ l, P (f b a)) : P (l.foldl f b) := by
  induction l generalizing b with
  | nil => exact hb
  | cons a l ih => exact ih (h b hb a (by simp)) fun b hb a ha => h b hb a (by simp [ha])

theorem writeFile_same {α : Type} (fs : Txt → Option α) (p : Txt) (a : α) :
    writeFile fs p a p = some a := if_pos rfl

theorem writeFile_other {α : Type} (fs : Txt → Option α) {p q : Txt} (a : α) (h : q ≠ p) :
    writeFile fs p a q = fs q := if_neg h

/-! ## Names -/

/-- A number can be split off the end of a text at the last character that is no digit. -/
theorem digits_split_end {a b : ℕ} {x y : Txt} {ch : Char} (hch : ch.isDigit = false)
    (h : x ++ ch :: Nat.toDigits 10 a = y ++ ch :: Nat.toDigits 10 b) : x = y ∧ a = b := by
  have key : ∀ (k : ℕ) (z : Txt),
      (z ++ ch :: Nat.toDigits 10 k).reverse.takeWhile Char.isDigit = (Nat.toDigits 10 k).reverse
      ∧ (z ++ ch :: Nat.toDigits 10 k).reverse.dropWhile Char.isDigit = ch :: z.reverse := by
    intro k z
    have e : (z ++ ch :: Nat.toDigits 10 k).reverse = (Nat.toDigits 10 k).reverse ++ ch :: z.reverse := by
      simp
    rw [e]
    refine takeWhile_all (fun c hc => toDigits_isDigit k c (List.mem_reverse.1 hc)) ?_
    intro c hc
    simp only [List.head?_cons, Option.mem_def, Option.some.injEq] at hc
    rw [← hc]; exact hch
  have h1 := (key a x).1
  rw [h, (key b y).1] at h1
  have h2 := (key a x).2
  rw [h, (key b y).2] at h2
  refine ⟨?_, (toDigits_inj (List.reverse_injective h1)).symm⟩
  simp only [List.cons.injEq, List.reverse_inj, true_and] at h2
  exact h2.symm

theorem exportPath_inj {out i i' : Txt} {s j c m s' j' c' m' : ℕ} {e e' : ℚ}
    (h : exportPath out i s j e c m = exportPath out i' s' j' e' c' m') :
    i = i' ∧ s = s' ∧ j = j' ∧ ⌊fl64 (e * 100)⌋₊ = ⌊fl64 (e' * 100)⌋₊ ∧ c = c' ∧ m = m' := by
  unfold exportPath at h
  have h := List.append_cancel_right h
  simp only [List.append_assoc, List.cons_append, List.nil_append] at h
  have h := List.append_cancel_left h
  have re : ∀ (i : Txt) (a b c d f : ℕ), i ++ '-' :: (Nat.toDigits 10 a ++ '-' :: (Nat.toDigits 10 b
        ++ '-' :: (Nat.toDigits 10 c ++ '-' :: (Nat.toDigits 10 d ++ '-' :: Nat.toDigits 10 f))))
      = ((((i ++ '-' :: Nat.toDigits 10 a) ++ '-' :: Nat.toDigits 10 b) ++ '-' :: Nat.toDigits 10 c)
        ++ '-' :: Nat.toDigits 10 d) ++ '-' :: Nat.toDigits 10 f := by
    intros; simp
  rw [re, re] at h
  obtain ⟨h, e6⟩ := digits_split_end (ch := '-') rfl h
  obtain ⟨h, e5⟩ := digits_split_end (ch := '-') rfl h
  obtain ⟨h, e4⟩ := digits_split_end (ch := '-') rfl h
  obtain ⟨h, e3⟩ := digits_split_end (ch := '-') rfl h
  obtain ⟨e1, e2⟩ := digits_split_end (ch := '-') rfl h
  exact ⟨e1, e2, e3, e4, e5, e6⟩

theorem instancePath_inj {dir i i' : Txt} {s j s' j' : ℕ}
    (h : instancePath dir i s j = instancePath dir i' s' j') : i = i' ∧ s = s' ∧ j = j' := by
  unfold instancePath at h
  have h := List.append_cancel_right h
  simp only [List.append_assoc, List.cons_append, List.nil_append] at h
  have h := List.append_cancel_left h
  have re : ∀ (i : Txt) (a b : ℕ), i ++ '-' :: (Nat.toDigits 10 a ++ '-' :: Nat.toDigits 10 b)
      = (i ++ '-' :: Nat.toDigits 10 a) ++ '-' :: Nat.toDigits 10 b := by
    intros; simp
  rw [re, re] at h
  obtain ⟨h, e3⟩ := digits_split_end (ch := '-') rfl h
  obtain ⟨e1, e2⟩ := digits_split_end (ch := '-') rfl h
  exact ⟨e1, e2, e3⟩

theorem genName_path (dir : Txt) (n m N k : ℕ) :
    dir ++ genName n m N k = instancePath dir (knapName n m) N k := by
  simp [genName, instancePath, knapName]

theorem knapName_inj {n m n' m' : ℕ} (h : knapName n m = knapName n' m') : n = n' ∧ m = m' := by
  have h : genName n m 0 0 = genName n' m' 0 0 := by
    have e := fun n m => genName_path [] n m 0 0
    simp only [List.nil_append] at e
    rw [e, e, h]
  obtain ⟨e1, e2, -, -⟩ := C74_instance_names h
  exact ⟨e1, e2⟩

/-- The files of main.py and of the exporter. -/
theorem mainPath_file {dir : Txt} (out : Txt) (hd : dir = [] ∨ dir.getLast? = some '/') {p : RunPar}
    (hp : ParOk p) {e : Exp} (he : IsExp p e) :
    mainPath out (instancePath dir e.name e.scen e.id) e.eps (decide (e.cont = 1)) e.method
      = expFile out e := by
  obtain ⟨q, hq, hq', heq⟩ := hp.epsilons e.eps he.eps
  have h := (C63_partial (out := out) hd (hp.names _ he.name) e.scen e.id e.method q
    (decide (e.cont = 1)) hq).2 (by simpa using hq')
  rw [← heq] at h
  rw [h]
  unfold expFile
  rcases hp.conts _ he.cont with hc | hc <;> simp [hc]

theorem file_inj {out : Txt} {p : RunPar} (hp : ParOk p) {e e' : Exp} (he : IsExp p e)
    (he' : IsExp p e') (h : expFile out e = expFile out e') : e = e' := by
  obtain ⟨e1, e2, e3, e4, e5, e6⟩ := exportPath_inj h
  obtain ⟨q, hq, hq', heq⟩ := hp.epsilons e.eps he.eps
  obtain ⟨r, hr, hr', her⟩ := hp.epsilons e'.eps he'.eps
  have hpc : ∀ q : ℕ, q ≤ 100 → q ∉ [29, 57, 58] →
      Nat.toDigits 10 ⌊fl64 (fl64 ((q : ℚ) / 100) * 100)⌋₊ = Nat.toDigits 10 q := fun q hq hq' => by
    rw [← (percent_names q (by omega)).2 hq', percent_printed q (by omega)]
  have hqr : q = r := by
    refine toDigits_inj ?_
    rw [← hpc q hq hq', ← hpc r hr hr', ← heq, ← her, e4]
  obtain ⟨a1, a2, a3, a4, a5, a6⟩ := e
  obtain ⟨b1, b2, b3, b4, b5, b6⟩ := e'
  simp only [Exp.mk.injEq] at *
  exact ⟨e1, e2, e3, e5, by rw [heq, her, hqr], e6⟩

theorem mem_allExps {p : RunPar} {e : Exp} : e ∈ allExps p ↔ IsExp p e := by
  obtain ⟨i, s, j, c, ε, m⟩ := e
  unfold allExps
  simp only [List.mem_flatMap, List.mem_map, List.mem_range'_1]
  constructor
  · rintro ⟨_, h1, _, h2, _, h3, _, h4, _, h5, _, h6, h⟩
    cases h
    exact ⟨h1, h2, ⟨h3.1, by dsimp; omega⟩, h4, h5, h6⟩
  · rintro ⟨h1, h2, h3, h4, h5, h6⟩
    exact ⟨i, h1, s, h2, j, ⟨h3.1, by dsimp at h3; omega⟩, c, h4, ε, h5, m, h6, rfl⟩

/-! ## C90: the generated files -/

theorem runGenerator_ok {file : List (List ℚ)} {n m : ℕ} {c b : Vec} (h : OrLib file n m c b)
    (dir : Txt) (N K : ℕ) (d : Draws) (fs : InstFiles) (q : Txt) :
    (∀ k < K, q = instancePath dir (knapName n m) N (k + 1) →
      runGenerator dir file N K d fs q = some (generatedRows n m N c
        (fun s i j => genEntry (d.normal (k + 1) i j s) (d.fails (k + 1) j s)) b))
    ∧ ((∀ k < K, q ≠ instancePath dir (knapName n m) N (k + 1)) →
      runGenerator dir file N K d fs q = fs q) := by
  unfold runGenerator
  rw [generate_ok h]
  simp only
  refine ⟨fun k hk hq => ?_, fun hq => ?_⟩
  · refine foldl_last (P := fun fs : InstFiles => fs q = some _) (k := k)
      (x := (genName n m N (k + 1), generatedRows n m N c
        (fun s i j => genEntry (d.normal (k + 1) i j s) (d.fails (k + 1) j s)) b)) ?_ ?_ ?_ fs
    · rw [List.getElem?_map, List.getElem?_range' hk, show 1 + 1 * k = k + 1 by omega]
      rfl
    · intro fs
      rw [hq, ← genName_path]
      exact writeFile_same _ _ _
    · intro fs hfs j y hj hy
      rw [List.getElem?_map] at hy
      by_cases hjK : j < K
      · rw [List.getElem?_range' hjK] at hy
        simp only [Option.map_some, Option.some.injEq] at hy
        subst hy
        simp only
        rw [writeFile_other, hfs]
        rw [hq, genName_path]
        intro h
        have := (instancePath_inj h).2.2
        omega
      · rw [List.getElem?_eq_none (by simp; omega)] at hy
        cases hy
  · refine foldl_keep (P := fun fs' : InstFiles => fs' q = fs q) rfl fun fs' hfs y hy => ?_
    obtain ⟨j, hj, rfl⟩ := List.mem_map.1 hy
    rw [List.mem_range'_1] at hj
    simp only
    rw [writeFile_other, hfs]
    rw [genName_path]
    have := hq (j - 1) (by omega)
    rwa [show j - 1 + 1 = j by omega] at this

theorem zipIdx_get {α : Type} {l : List α} {k : ℕ} {y : α × ℕ} (h : l.zipIdx[k]? = some y) :
    l[k]? = some y.1 ∧ y.2 = k := by
  rw [List.getElem?_zipIdx] at h
  cases hk : l[k]? with
  | none => rw [hk] at h; cases h
  | some z =>
    rw [hk] at h
    simp only [Option.map_some, Option.some.injEq, Nat.zero_add] at h
    subst h
    exact ⟨rfl, rfl⟩

/-- **C90 (instances).** After generate-all-instances.sh, for every OR-library file, number of
scenarios and index the folder has under the name that run_all_experiments.sh uses a file that
`ChanceKnapInstance` reads as an instance made from that OR-library file with that many scenarios,
whatever was in the folder before; no other file is changed.  No two of the OR-library files may
have the same sizes, as later ones would overwrite the earlier ones. -/
theorem C90_instances {F : List (List (List ℚ))} {n m : ℕ → ℕ} {c b : ℕ → Vec}
    (hL : Library F n m c b) {scenarios : List ℕ} (hS : scenarios.Nodup) (dir : Txt) (K : ℕ)
    (d : ℕ → ℕ → Draws) (fs : InstFiles) :
    (∀ a < F.length, ∀ t N, scenarios[t]? = some N → 0 < N → ∀ k, 1 ≤ k → k ≤ K →
      ∀ (cont : Bool) (eps : ℚ), ∃ rows I,
        generateAll dir F scenarios K d fs (instancePath dir (knapName (n a) (m a)) N k) = some rows
        ∧ parse rows cont eps = .ok I
        ∧ MadeFrom (n a) (m a) N k (c a) (b a) (d a t) cont eps I)
    ∧ ∀ q, (∀ a < F.length, ∀ N ∈ scenarios, ∀ k, 1 ≤ k → k ≤ K →
        q ≠ instancePath dir (knapName (n a) (m a)) N k) →
      generateAll dir F scenarios K d fs q = fs q := by
  constructor
  · intro a ha t N ht hN k hk1 hkK cont eps
    obtain ⟨k, rfl⟩ : ∃ k', k = k' + 1 := ⟨k - 1, by omega⟩
    have hfa : F[a]? = some F[a] := List.getElem?_eq_getElem ha
    set q := instancePath dir (knapName (n a) (m a)) N (k + 1) with hq
    have hrows : generateAll dir F scenarios K d fs q = some (generatedRows (n a) (m a) N (c a)
        (fun s i j => genEntry ((d a t).normal (k + 1) i j s) ((d a t).fails (k + 1) j s)) (b a)) := by
      unfold generateAll
      refine foldl_last (P := fun fs : InstFiles => fs q = some _) (k := a) (x := (F[a], a)) ?_ ?_ ?_ fs
      · rw [List.getElem?_zipIdx, hfa]; simp
      · intro fs
        simp only
        refine foldl_last (P := fun fs : InstFiles => fs q = some _) (k := t) (x := (N, t))
          ?_ ?_ ?_ fs
        · rw [List.getElem?_zipIdx, ht]; simp
        · intro fs
          exact (runGenerator_ok (hL.file a _ hfa) dir N K (d a t) fs q).1 k (by omega) hq
        · intro fs hfs j y hj hy
          obtain ⟨hy1, hy2⟩ := zipIdx_get hy
          rw [(runGenerator_ok (hL.file a _ hfa) dir y.1 K (d a y.2) fs q).2, hfs]
          intro k' hk' he
          have hNy := (instancePath_inj (hq.symm.trans he)).2.1
          rw [← hNy] at hy1
          have ht' := (List.getElem?_eq_some_iff.1 ht).1
          have := (List.getElem?_inj ht' hS).1 (ht.trans hy1.symm)
          omega
      · intro fs hfs j y hj hy
        obtain ⟨hy1, hy2⟩ := zipIdx_get hy
        have hjF := (List.getElem?_eq_some_iff.1 hy1).1
        refine foldl_keep (P := fun fs : InstFiles => fs q = some _) hfs fun fs hfs z hz => ?_
        rw [(runGenerator_ok (hL.file j _ hy1) dir z.1 K _ fs q).2, hfs]
        intro k' hk' he
        obtain ⟨e1, e2⟩ := knapName_inj (instancePath_inj (hq.symm.trans he)).1
        have := hL.sizes a ha j hjF e1 e2
        omega
    obtain ⟨I, hI, e1, e2, e3, e4, e5, e6, e7, e8, e9⟩ := C04_parse_generated (n a) (m a) N hN (c a)
      (fun s i j => genEntry ((d a t).normal (k + 1) i j s) ((d a t).fails (k + 1) j s)) (b a) cont eps
    refine ⟨_, I, hrows, hI, e1, e2, e3, e4, e5, e6, ?_, ?_, ?_, ?_, ?_⟩
    · intro j hj
      rw [e7 j hj]
      exact (C05_round1 _).2.1
    · intro s hs i hi
      rw [e9 s hs i hi]
      exact (C05_round1 _).2.1
    · intro s hs i hi j hj
      refine ⟨_, genEntry_written _ _, ?_⟩
      rw [e8 s hs i hi j hj]
      exact (C05_round1 _).2.1
    · intro hb s hs i hi
      rw [e3] at hs
      rw [e2] at hi
      refine ⟨?_, fun j hj => ?_⟩
      · rw [e9 s hs i hi]; exact (C05_round1 _).2.2.2.2.1 (hb i hi)
      · rw [e1] at hj
        rw [e8 s hs i hi j hj]; exact (C05_round1 _).2.2.2.2.1 (genEntry_written _ _).1
    · intro hc j hj
      rw [e1] at hj
      rw [e7 j hj]; exact (C05_round1 _).2.2.2.2.1 (hc j hj)
  · intro q hq
    unfold generateAll
    refine foldl_keep (P := fun fs' : InstFiles => fs' q = fs q) rfl fun fs' hfs y hy => ?_
    obtain ⟨a, hy⟩ := List.mem_iff_getElem?.1 hy
    obtain ⟨hy1, hy2⟩ := zipIdx_get hy
    have haF := (List.getElem?_eq_some_iff.1 hy1).1
    refine foldl_keep (P := fun fs' : InstFiles => fs' q = fs q) hfs fun fs' hfs z hz => ?_
    obtain ⟨t, hz⟩ := List.mem_iff_getElem?.1 hz
    obtain ⟨hz1, hz2⟩ := zipIdx_get hz
    rw [(runGenerator_ok (hL.file a _ hy1) dir z.1 K _ fs' q).2, hfs]
    exact fun k hk => hq a haF _ (List.mem_iff_getElem?.2 ⟨t, hz1⟩) (k + 1) (by omega) (by omega)

/-! ## C90: the results -/

/-- **C90 (results).** After run_all_experiments.sh the file that the exporter opens for an
experiment has the row that main.py wrote for this very experiment; if main.py raised an exception
it is what it was before the script, so a row of an earlier version may still be there.  Other
files are not changed. -/
theorem C90_results {dir out : Txt} (hd : dir = [] ∨ dir.getLast? = some '/') (inst : InstFiles)
    (ω : Exp → Circ) {p : RunPar} (hp : ParOk p) (fs : Files) :
    (∀ e, IsExp p e → runAll dir out inst ω p fs (expFile out e)
        = (mainWrites dir inst ω e).or (fs (expFile out e)))
    ∧ ∀ q, (∀ e, IsExp p e → q ≠ expFile out e) → runAll dir out inst ω p fs q = fs q := by
  have hstep : ∀ (fs : Files) (q : Txt) (e' : Exp), IsExp p e' → (q ≠ expFile out e') →
      runExp dir out inst ω fs e' q = fs q := by
    intro fs q e' he' hne
    unfold runExp
    cases mainWrites dir inst ω e' with
    | none => rfl
    | some row =>
      simp only
      rw [mainPath_file out hd hp he']
      exact writeFile_other _ _ hne
  have hset : ∀ (fs : Files) (e : Exp), IsExp p e → runExp dir out inst ω fs e (expFile out e)
      = (mainWrites dir inst ω e).or (fs (expFile out e)) := by
    intro fs e he
    unfold runExp
    cases mainWrites dir inst ω e with
    | none => rfl
    | some row =>
      simp only
      rw [mainPath_file out hd hp he, writeFile_same]
      rfl
  constructor
  · intro e he
    unfold runAll
    have hmem := mem_allExps.2 he
    have hall : ∀ e' ∈ allExps p, IsExp p e' := fun e' h => mem_allExps.1 h
    generalize allExps p = l at hmem hall
    have hkeep : ∀ (l : List Exp) (fs : Files), (∀ e' ∈ l, IsExp p e') →
        l.foldl (runExp dir out inst ω) fs (expFile out e) = fs (expFile out e)
        ∨ l.foldl (runExp dir out inst ω) fs (expFile out e)
          = (mainWrites dir inst ω e).or (fs (expFile out e)) := by
      intro l
      induction l with
      | nil => intro fs _; exact Or.inl rfl
      | cons e' l ih =>
        intro fs hall
        rw [List.foldl_cons]
        have h1 := ih (runExp dir out inst ω fs e') fun x hx => hall x (by simp [hx])
        by_cases hee : e = e'
        · subst hee
          rw [hset fs e he] at h1
          right
          rcases h1 with h1 | h1
          · exact h1
          · rw [h1]
            cases mainWrites dir inst ω e <;> rfl
        · rw [hstep fs _ e' (hall e' (by simp)) fun h => hee (file_inj hp he (hall e' (by simp)) h)]
            at h1
          exact h1
    induction l generalizing fs with
    | nil => simp at hmem
    | cons e' l ih =>
      rw [List.foldl_cons]
      by_cases hee : e = e'
      · subst hee
        have h1 := hkeep l (runExp dir out inst ω fs e) fun x hx => hall x (by simp [hx])
        rw [hset fs e he] at h1
        rcases h1 with h1 | h1
        · exact h1
        · rw [h1]
          cases mainWrites dir inst ω e <;> rfl
      · rw [ih (runExp dir out inst ω fs e') (by simpa [hee] using hmem)
          fun x hx => hall x (by simp [hx]),
          hstep fs _ e' (hall e' (by simp)) fun h => hee (file_inj hp he (hall e' (by simp)) h)]
  · intro q hq
    unfold runAll
    refine foldl_keep (P := fun fs' : Files => fs' q = fs q) rfl fun fs' hfs e he => ?_
    have he := mem_allExps.1 he
    rw [hstep fs' q e he (hq e he), hfs]

/-! ## C90: what the exporter reads -/

theorem fl64_nonneg (q : ℚ) : 0 ≤ fl64 q := by
  unfold fl64
  split
  · exact le_rfl
  · rename_i h
    have hu : (0 : ℚ) ≤ 2 ^ (Int.log 2 q - 52) := zpow_nonneg (by norm_num) _
    have := rint_nonneg (div_nonneg (not_le.1 h).le hu)
    have : (0 : ℚ) ≤ rint (q / 2 ^ (Int.log 2 q - 52)) := by exact_mod_cast this
    exact mul_nonneg this hu

/-- Gurobi is not cut off and does not stop at a solution of value zero while its bound is positive
(which a relative gap does not allow), and the time limit is not reached while the model is
built. -/
structure Unhurried (env : Env) : Prop where
  answers : ∀ g, GResult.Answers g (env.cc 0 g)
  positive : ∀ g, (env.cc 0 g).sol.isSome → 0 < (env.cc 0 g).objBnd → 0 < (env.cc 0 g).objVal
  clock : Monotone env.clock
  inTime : env.clock 5 - env.clock 0 ≤ 3600

/-- The relative gap that main.py sets implies the condition on the values. -/
theorem gap_positive {g : GModel} {r : GResult} (hg : g.mipGap = 1 / 10000) (h2 : r.status = 2)
    (hw : GResult.WithinGap g r) (hb : 0 < r.objBnd) : 0 < r.objVal := by
  have h := hw h2
  rw [hg] at h
  by_contra hn
  push Not at hn
  rw [abs_of_nonpos hn, abs_le] at h
  linarith [h.2]

theorem milpSolve_positive {env : Env} {I : Inst} {limit gap : ℚ} {useBigM : Bool} {method : String}
    (hpos : ∀ g, (env.cc 0 g).sol.isSome → 0 < (env.cc 0 g).objBnd → 0 < (env.cc 0 g).objVal)
    {r : MilpSt} (h : milpSolve env I limit gap useBigM method = .ok r) (hb : 0 < r.vUB) :
    0 < r.vLB := by
  obtain ⟨bigM, out, -, h2, -, h4, h5⟩ := milpSolve_inv h
  rw [h5] at hb
  rw [h4]
  unfold milpCall solveCclp at h2
  simp only [bind, Except.bind] at h2
  cases hg : buildCCLP (instCI I) bigM [] [] gap with
  | error e => rw [hg] at h2; cases h2
  | ok g =>
    rw [hg] at h2
    simp only at h2
    unfold setTimeLimit at h2
    split at h2
    · cases h2
    · unfold optimize getSol getObjVal at h2
      split at h2
      · cases h2
      · rename_i r' hr'
        have hr : env.cc 0 g = r' := by
          split at hr'
          · cases hr'
          · simpa using hr'
        have hp := hpos g
        rw [hr] at hp
        cases hs : r'.sol with
        | none => rw [hs] at h2; cases h2
        | some ρ =>
          rw [hs] at h2
          cases h2
          exact hp (by rw [hs]; rfl) hb

/-- main.py writes a row for methods 1 and 2. -/
theorem mainRow_written {env : Env} {I : Inst} (hE : Equi I) (heps : 0 ≤ I.eps) (hm : 0 < I.m)
    (hn : 0 < I.n) (hI : NonnegAb I) (hc : NonnegC I) (hU : Unhurried env) {y : Vec}
    (hy : Feas I y) (hy0 : 0 < obj I y) {method : ℕ}
    (hmeth : method = 1 ∧ ⌊I.eps * I.N⌋₊ + 1 < I.N
      ∨ method = 2 ∧ I.eps + 1 / 10 ^ 7 ≤ 1 ∧ (∀ k g, GResult.Exact g (env.sub 0 k g))
        ∧ ∀ g, GResult.Answers g (env.big 0 g))
    (location : Txt) (rounds fuel : ℕ) (total : ℚ) :
    ∃ row, mainRow env location I method rounds fuel total = .ok row := by
  have hm12 : method = 1 ∨ method = 2 := by tauto
  rw [(C62_partial env location I method rounds fuel total hm12).2]
  have hval : ∀ g, GResult.Valid g (env.cc 0 g) := fun g => (hU.answers g).valid
  have key : ∃ st, milpSolve env I 3600 (1 / 10000) true (if method = 1 then "song" else "belotti")
      = .ok st ∧ MilpOk I st := by
    rcases hmeth with ⟨rfl, hq⟩ | ⟨rfl, hq, hsub, hbig⟩
    · obtain ⟨h1, h2⟩ := C57_milp env I hE heps hm hn hI hc 3600 (1 / 10000) true "song"
        (fun _ => Or.inr rfl)
      obtain ⟨st, hst⟩ := h2 hU.answers hU.clock hU.inTime fun _ _ => hq
      exact ⟨st, by simpa using hst, (h1 hval st hst).1⟩
    · obtain ⟨h1, h2⟩ := C57_belotti_partial env I hE heps hI hc hsub hbig 3600 (1 / 10000)
      obtain ⟨st, hst⟩ := h2 hU.answers hU.clock hU.inTime hq
      exact ⟨st, by simpa using hst, (h1 hval st hst).1⟩
  obtain ⟨st, hst, hok⟩ := key
  rw [hst]
  have hv : st.vLB ≠ 0 :=
    (milpSolve_positive hU.positive hst (lt_of_lt_of_le hy0 (hok.bound y hy))).ne'
  exact ((C61_milp_partial hn hE.1 hst _ total).1).2 ⟨rfl, hv⟩

/-- **C90**, full statement: after generate-all-instances.sh and run_all_experiments.sh with an empty
folder of results, the exporter reads for every experiment the results of its method on the
generated instance.  What holds: for methods 1 and 2 it reads either nothing, if main.py raised an
exception, or a row that is a certificate for the very instance made from the OR-library file, and
it reads a row if the instance has a point of positive value, Gurobi is not cut off and the risk
level leaves a quantile.  Missing: methods 3 and 4, for which it reads nothing
(`C90_counterexample`); method 2 with Gurobi's default gap (`C89_belotti_counterexample`). -/
theorem C90_workflow_partial {F : List (List (List ℚ))} {n m : ℕ → ℕ} {c b : ℕ → Vec}
    (hL : Library F n m c b) {scenarios : List ℕ} (hS : scenarios.Nodup) {dir out : Txt}
    (hd : dir = [] ∨ dir.getLast? = some '/') (K : ℕ) (d : ℕ → ℕ → Draws) (before : InstFiles)
    (ω : Exp → Circ) {p : RunPar} (hp : ParOk p) {fs : Files} {e : Exp} (he : IsExp p e)
    {a t : ℕ} (ha : a < F.length) (hn : 0 < n a) (hm : 0 < m a) (hb : ∀ i < m a, 0 ≤ b a i)
    (hc : ∀ j < n a, 0 ≤ c a j) (hname : e.name = knapName (n a) (m a))
    (ht : scenarios[t]? = some e.scen) (hN : 0 < e.scen) (hK : e.id ≤ K)
    (hcc : ∀ g, GResult.Valid g ((ω e).env.cc 0 g))
    (hbel : e.method = 2 → (∀ k g, GResult.Exact g ((ω e).env.sub 0 k g))
      ∧ ∀ g, GResult.Answers g ((ω e).env.big 0 g))
    (hfs : fs (expFile out e) = none) :
    ∃ I vals, MadeFrom (n a) (m a) e.scen e.id (c a) (b a) (d a t) (decide (e.cont = 1)) e.eps I
      ∧ readKey (runAll dir out (generateAll dir F scenarios K d before) ω p fs) out (expKey e)
        = .ok vals
      ∧ (vals = [] ∨ (e.method = 1 ∨ e.method = 2) ∧ RowSays I 0 vals)
      ∧ ((e.method = 1 ∧ ⌊e.eps * e.scen⌋₊ + 1 < e.scen ∨ e.method = 2 ∧ e.eps + 1 / 10 ^ 7 ≤ 1) →
          Unhurried (ω e).env → (∃ y, Feas I y ∧ 0 < obj I y) → vals ≠ []) := by
  obtain ⟨rows, I, h1, h2, hI⟩ := (C90_instances hL hS dir K d before).1 a ha t e.scen ht hN e.id
    he.id.1 hK (decide (e.cont = 1)) e.eps
  have heps : 0 ≤ I.eps := by
    obtain ⟨q, -, -, hq⟩ := hp.epsilons _ he.eps
    rw [hI.is_eps, hq]
    exact fl64_nonneg _
  have hread : readKey (runAll dir out (generateAll dir F scenarios K d before) ω p fs) out
      (expKey e) = readExperiment (mainWrites dir (generateAll dir F scenarios K d before) ω e) := by
    show readExperiment (runAll dir out (generateAll dir F scenarios K d before) ω p fs
      (expFile out e)) = _
    rw [(C90_results hd _ ω hp fs).1 e he, hfs]
    cases mainWrites dir (generateAll dir F scenarios K d before) ω e <;> rfl
  have hmain : mainWrites dir (generateAll dir F scenarios K d before) ω e
      = match mainRow (ω e).env (instancePath dir e.name e.scen e.id) I e.method (ω e).rounds
          (ω e).fuel (ω e).total with
        | .error _ => none
        | .ok row => some row := by
    unfold mainWrites
    rw [hname, h1]
    simp only
    rw [h2]
    rfl
  have hn' : 0 < I.n := by rw [hI.size_n]; exact hn
  have hm' : 0 < I.m := by rw [hI.size_m]; exact hm
  cases hr : mainRow (ω e).env (instancePath dir e.name e.scen e.id) I e.method (ω e).rounds
      (ω e).fuel (ω e).total with
  | error x =>
    rw [hr] at hmain
    refine ⟨I, [], hI, by rw [hread, hmain]; rfl, Or.inl rfl, fun hme hU => ?_⟩
    rintro ⟨y, hy, hy0⟩
    exfalso
    obtain ⟨row, hrow⟩ := mainRow_written hI.equi heps hm' hn' (hI.data_nonneg hb)
      (hI.obj_nonneg hc) hU hy hy0 (method := e.method) (by
        rw [hI.is_eps, hI.size_N]
        rcases hme with h | h
        · exact Or.inl h
        · exact Or.inr ⟨h.1, h.2, hbel h.1⟩) (instancePath dir e.name e.scen e.id) (ω e).rounds
        (ω e).fuel (ω e).total
    rw [hr] at hrow
    cases hrow
  | ok row =>
    rw [hr] at hmain
    obtain ⟨h12, vals, hv, hsay⟩ := C89_main_row_partial (ω e).env I hI.equi heps hm' hn'
      (hI.data_nonneg hb) (hI.obj_nonneg hc) hcc hbel hr
    refine ⟨I, vals, hI, by rw [hread, hmain]; exact hv, Or.inr ⟨h12, hsay⟩, fun _ _ _ => ?_⟩
    rintro rfl
    obtain ⟨lo, _, _, h, -⟩ := hsay
    simp [Back] at h

/-- **C90** fails for methods 3 and 4: main.py writes no row, whatever the instances, Gurobi and the
clock, so the exporter reads nothing in an empty folder, and otherwise a row of an earlier version
of the program. -/
theorem C90_counterexample {dir out : Txt} (hd : dir = [] ∨ dir.getLast? = some '/')
    (inst : InstFiles) (ω : Exp → Circ) {p : RunPar} (hp : ParOk p) (fs : Files) {e : Exp}
    (he : IsExp p e) (hm : e.method = 3 ∨ e.method = 4) :
    readKey (runAll dir out inst ω p fs) out (expKey e) = readExperiment (fs (expFile out e)) := by
  show readExperiment (runAll dir out inst ω p fs (expFile out e)) = _
  rw [(C90_results hd inst ω hp fs).1 e he]
  have : mainWrites dir inst ω e = none := by
    unfold mainWrites
    split
    · rfl
    · split
      · rfl
      · rename_i I _
        split
        · rfl
        · rename_i row h
          exact absurd h ((C62_counterexample _ _ I _ _ _ _ hm).2.2 row)
  rw [this]
  rfl

/-- **C90 (histories).** The bounds histories and iteration logs never take the name of a result
file. -/
theorem C90_history_names (out out' location location' : Txt) (eps eps' : ℚ) (cont cont' : Bool)
    (method method' : ℕ) :
    iterPath out location eps cont method ≠ mainPath out' location' eps' cont' method' := by
  intro h
  have h := congrArg List.reverse h
  simp only [iterPath, mainPath, List.reverse_append, List.reverse_cons, List.reverse_nil,
    List.nil_append, List.cons_append, List.append_assoc, List.cons.injEq, true_and] at h
  cases hd : (Nat.toDigits 10 method').reverse with
  | nil =>
    rw [List.reverse_eq_nil_iff] at hd
    exact Nat.toDigits_ne_nil hd
  | cons x l =>
    rw [hd, List.cons_append, List.cons.injEq] at h
    have hx : x ∈ Nat.toDigits 10 method' := by
      rw [← List.mem_reverse, hd]; simp
    have := toDigits_isDigit method' x hx
    rw [← h.1] at this
    simp at this

/-! ## C90: the files and constants of the repository -/

/-- The sizes of the OR-library files. -/
def orSizes : List (ℕ × ℕ) :=
  [(6, 10), (10, 10), (15, 10), (20, 10), (28, 10), (39, 5), (50, 5), (40, 30)]

/-- Items of OR-library file `a`. -/
def orN (a : ℕ) : ℕ := (orSizes.getD a (0, 0)).1

/-- Rows of OR-library file `a`. -/
def orM (a : ℕ) : ℕ := (orSizes.getD a (0, 0)).2

/-- The second line of OR-library file `a`. -/
def orC (a : ℕ) : Vec := fun j => ((orlibFiles.getD a []).getD 1 []).getD j 0

/-- The last line of OR-library file `a`. -/
def orB (a : ℕ) : Vec := fun i => ((orlibFiles.getD a []).getD (2 + orM a) []).getD i 0

theorem orLib_check {file : List (List ℚ)} {n m : ℕ} (h0 : (file.getD 0 []).take 2 = [(n : ℚ), (m : ℚ)])
    (h1 : (file.getD 1 []).length = n) (h2 : ∀ i < m, (file.getD (2 + i) []).length = n)
    (h3 : (file.getD (2 + m) []).length = m) (hl : file.length = m + 3) :
    OrLib file n m (fun j => (file.getD 1 []).getD j 0) fun i => (file.getD (2 + m) []).getD i 0 := by
  have hg : ∀ k < m + 3, file[k]? = some (file.getD k []) := fun k hk => by
    rw [List.getD_eq_getElem?_getD, List.getElem?_eq_getElem (by omega)]; rfl
  have hd : ∀ (r : List ℚ) (k : ℕ), k < r.length → r[k]? = some (r.getD k 0) := fun r k hk => by
    rw [List.getD_eq_getElem?_getD, List.getElem?_eq_getElem hk]; rfl
  refine ⟨⟨(file.getD 0 []).drop 2, ?_⟩, ⟨_, hg 1 (by omega), h1, fun j hj => hd _ j (by omega)⟩,
    fun i hi => ⟨_, hg _ (by omega), h2 i hi⟩, ⟨_, hg _ (by omega), h3, fun i hi => hd _ i (by omega)⟩⟩
  rw [hg 0 (by omega), ← List.take_append_drop 2 (file.getD 0 []), h0]
  simp

theorem orlib_data : ∀ a < 8, ((orlibFiles.getD a []).getD 0 []).take 2 = [(orN a : ℚ), (orM a : ℚ)]
    ∧ ((orlibFiles.getD a []).getD 1 []).length = orN a
    ∧ (∀ i < orM a, ((orlibFiles.getD a []).getD (2 + i) []).length = orN a)
    ∧ ((orlibFiles.getD a []).getD (2 + orM a) []).length = orM a
    ∧ (orlibFiles.getD a []).length = orM a + 3 ∧ 0 < orN a ∧ 0 < orM a
    ∧ (∀ i < orM a, 0 ≤ orB a i) ∧ ∀ j < orN a, 0 ≤ orC a j := by
  decide +kernel

/-- The OR-library files of the repository have the layout that the generator expects and distinct
sizes. -/
theorem orlib_library : Library orlibFiles orN orM orC orB := by
  refine ⟨fun a f hf => ?_, by decide⟩
  have ha : a < 8 := (List.getElem?_eq_some_iff.1 hf).1
  obtain ⟨h0, h1, h2, h3, h4, -⟩ := orlib_data a ha
  have hf' : f = orlibFiles.getD a [] := by rw [List.getD_eq_getElem?_getD, hf]; rfl
  rw [hf']
  exact orLib_check h0 h1 h2 h3 h4

theorem scriptPar_ok : ParOk scriptPar := by
  refine ⟨by decide, by decide, ?_⟩
  intro e he
  simp only [scriptPar, List.mem_cons, List.not_mem_nil, or_false] at he
  rcases he with rfl | rfl
  · exact ⟨10, by norm_num, by decide, by norm_num⟩
  · exact ⟨20, by norm_num, by decide, by norm_num⟩

/-- The experiment of a key. -/
def keyExp (k : ExpKey) : Exp :=
  ⟨k.2.1, k.2.2.1, k.2.2.2.1, k.1, k.2.2.2.2.1, k.2.2.2.2.2⟩

/-- The exporter's constants are those of the script: it reads the results of exactly the experiments
that are run. -/
theorem C90_same_experiments (root : Txt) (k : ExpKey) :
    k ∈ expKeys (exporterPar root) ↔ IsExp scriptPar (keyExp k) := by
  obtain ⟨c, i, s, j, e, m⟩ := k
  rw [← mem_allExps]
  unfold expKeys allExps ExportPar.ids keyExp
  simp only [List.mem_flatMap, List.mem_map]
  constructor
  · rintro ⟨_, h1, _, h2, _, h3, _, h4, _, h5, _, h6, h⟩
    cases h
    exact ⟨_, h2, _, h3, _, h4, _, h1, _, h5, _, h6, rfl⟩
  · rintro ⟨_, h1, _, h2, _, h3, _, h4, _, h5, _, h6, h⟩
    cases h
    exact ⟨_, h4, _, h1, _, h2, _, h3, _, h5, _, h6, rfl⟩

/-- The experiments use OR-library files 2, 4 and 8. -/
theorem scriptPar_names : ∀ i ∈ scriptPar.files, ∃ a ∈ [1, 3, 7], i = knapName (orN a) (orM a) := by
  decide

/-- **C90 (this repository).** Generate all instances from the OR-library files of the repository, run
all experiments and call the exporter, with the constants of the three scripts.  For every key of
the exporter there is the OR-library file with the sizes in the name of the instance and an
instance made from it such that the exporter reads nothing or, for methods 1 and 2 only, a
certificate for that instance; for these methods it reads a certificate if the instance has a point
of positive value and Gurobi is not cut off.  Whatever is drawn, whatever else is in the folder of
instances. -/
theorem C90_repository_partial {dir out : Txt} (hd : dir = [] ∨ dir.getLast? = some '/')
    (d : ℕ → ℕ → Draws) (before : InstFiles) (ω : Exp → Circ) {fs : Files} (root : Txt) {k : ExpKey}
    (hk : k ∈ expKeys (exporterPar root))
    (hcc : ∀ g, GResult.Valid g ((ω (keyExp k)).env.cc 0 g))
    (hbel : (keyExp k).method = 2 → (∀ l g, GResult.Exact g ((ω (keyExp k)).env.sub 0 l g))
      ∧ ∀ g, GResult.Answers g ((ω (keyExp k)).env.big 0 g))
    (hfs : fs (expFile out (keyExp k)) = none) :
    ∃ a t I vals, a < 8 ∧ (keyExp k).name = knapName (orN a) (orM a)
      ∧ genScenarios[t]? = some (keyExp k).scen
      ∧ MadeFrom (orN a) (orM a) (keyExp k).scen (keyExp k).id (orC a) (orB a) (d a t)
        (decide ((keyExp k).cont = 1)) (keyExp k).eps I
      ∧ readKey (runAll dir out (generateAll dir orlibFiles genScenarios genQty d before) ω scriptPar
          fs) out k = .ok vals
      ∧ (vals = [] ∨ ((keyExp k).method = 1 ∨ (keyExp k).method = 2) ∧ RowSays I 0 vals)
      ∧ ((keyExp k).method = 1 ∨ (keyExp k).method = 2 → Unhurried (ω (keyExp k)).env →
          (∃ y, Feas I y ∧ 0 < obj I y) → vals ≠ []) := by
  have he := (C90_same_experiments root k).1 hk
  obtain ⟨a, ha, hname⟩ := scriptPar_names _ he.name
  have ha8 : a < 8 := by
    revert a
    simp
  obtain ⟨-, -, -, -, -, hn, hm, hb, hc⟩ := orlib_data a ha8
  obtain ⟨t, ht⟩ := List.mem_iff_getElem?.1 (show (keyExp k).scen ∈ genScenarios from he.scen)
  have hN : 0 < (keyExp k).scen := by
    have h : ∀ s ∈ scriptPar.scenarios, 0 < s := by decide
    exact h _ he.scen
  obtain ⟨I, vals, h1, h2, h3, h4⟩ := C90_workflow_partial orlib_library (scenarios := genScenarios)
    (by decide) hd genQty d before ω scriptPar_ok he ha8 hn hm hb hc hname ht hN he.id.2 hcc hbel hfs
  refine ⟨a, t, I, vals, ha8, hname, ht, h1, h2, h3, fun hm12 => h4 ?_⟩
  have hq : ∀ s ∈ scriptPar.scenarios, ∀ e ∈ scriptPar.epsilons,
      ⌊e * (s : ℚ)⌋₊ + 1 < s ∧ e + 1 / 10 ^ 7 ≤ 1 := by decide +kernel
  obtain ⟨q1, q2⟩ := hq _ he.scen _ he.eps
  rcases hm12 with h | h
  · exact Or.inl ⟨h, q1⟩
  · exact Or.inr ⟨h, q2⟩

/-! ## Examples -/

/-- A second OR-library file, with one item. -/
def exOrLib2 : List (List ℚ) := [[1, 1, 2], [2], [4], [10]]

theorem exLibrary : Library [exOrLib, exOrLib2] (fun a => if a = 0 then 3 else 1) (fun _ => 1)
    (fun a => if a = 0 then fun j => if j = 2 then 3 else 2 else fun _ => 2) (fun _ _ => 10) where
  file := by
    intro a f hf
    match a, hf with
    | 0, hf =>
      simp only [List.getElem?_cons_zero, Option.some.injEq] at hf
      subst hf
      exact exOrLib_ok
    | 1, hf =>
      simp only [List.getElem?_cons_succ, List.getElem?_cons_zero, Option.some.injEq] at hf
      subst hf
      refine ⟨⟨[2], by decide +kernel⟩, ⟨[2], by decide +kernel, by decide, by decide +kernel⟩, ?_,
        ⟨[10], by decide +kernel, by decide, by decide +kernel⟩⟩
      intro i hi
      have : i = 0 := by simp at hi; omega
      subst this
      exact ⟨[4], by decide +kernel, by decide⟩
    | a + 2, hf => simp at hf
  sizes := by decide

/-- Draws: every weight is the index of the item plus that of the scenario plus one. -/
def exDraws (_ _ : ℕ) : Draws := ⟨fun _ _ j s => j + s + 1, fun _ _ _ => false⟩

/-- Two instances, two numbers of scenarios, two methods. -/
def exPar : RunPar :=
  { files := [knapName 3 1, knapName 1 1], scenarios := [3, 4], indexes := 2, conts := [0, 1]
    epsilons := [fl64 (10 / 100), fl64 (20 / 100)], methods := [1, 2, 3, 4] }

theorem exPar_ok : ParOk exPar := by
  refine ⟨?_, by decide, ?_⟩
  · intro i hi
    simp only [exPar, List.mem_cons, List.not_mem_nil, or_false] at hi
    rcases hi with rfl | rfl <;> exact knapName_slash _ _
  · intro e he
    simp only [exPar, List.mem_cons, List.not_mem_nil, or_false] at he
    rcases he with rfl | rfl
    · exact ⟨10, by norm_num, by decide, by norm_num⟩
    · exact ⟨20, by norm_num, by decide, by norm_num⟩

/-- There is a solver that is never cut off and does not stop at zero. -/
theorem exists_positive : ∃ solve : GModel → GResult, ∀ g, GResult.Answers g (solve g)
    ∧ ((solve g).sol.isSome → 0 < (solve g).objBnd → 0 < (solve g).objVal) := by
  classical
  have : ∀ g : GModel, ∃ r, GResult.Answers g r ∧ (r.sol.isSome → 0 < r.objBnd → 0 < r.objVal) := by
    intro g
    by_cases hf : ∃ ρ, g.Feas ρ
    swap
    · refine ⟨⟨3, none, 0, 0⟩, ⟨⟨by rintro ρ ⟨⟩, fun _ ρ h => absurd ⟨ρ, h⟩ hf, fun _ => ⟨rfl, fun ρ h => hf ⟨ρ, h⟩⟩,
        by rintro ⟨⟩⟩, by decide, fun _ h => absurd h hf⟩, by rintro ⟨⟩⟩
    by_cases hb : g.Bounded
    swap
    · exact ⟨⟨5, none, 0, 0⟩, ⟨⟨by rintro ρ ⟨⟩, fun h => absurd h hb, by rintro ⟨⟩, by rintro ⟨⟩⟩,
        by decide, fun h => absurd h hb⟩, by rintro ⟨⟩⟩
    obtain ⟨B, hB⟩ := hb
    cases hm : g.maximize with
    | false =>
      obtain ⟨ρ, hρ⟩ := hf
      refine ⟨⟨9, some ρ, g.obj.eval ρ, B⟩, ⟨⟨by rintro _ ⟨⟩; exact ⟨hρ, rfl⟩, fun _ ρ h => hB ρ h,
        by rintro ⟨⟩, by rintro ⟨⟩⟩, by rintro ⟨⟩, fun _ _ => rfl⟩, fun _ h => ?_⟩
      have := hB ρ hρ
      rw [hm] at this
      exact lt_of_lt_of_le h (by simpa using this)
    | true =>
      by_cases hp : ∃ ρ, g.Feas ρ ∧ 0 < g.obj.eval ρ
      · obtain ⟨ρ, hρ, h0⟩ := hp
        exact ⟨⟨9, some ρ, g.obj.eval ρ, B⟩, ⟨⟨by rintro _ ⟨⟩; exact ⟨hρ, rfl⟩, fun _ ρ h => hB ρ h,
          by rintro ⟨⟩, by rintro ⟨⟩⟩, by rintro ⟨⟩, fun _ _ => rfl⟩, fun _ _ => h0⟩
      · obtain ⟨ρ, hρ⟩ := hf
        refine ⟨⟨9, some ρ, g.obj.eval ρ, 0⟩, ⟨⟨by rintro _ ⟨⟩; exact ⟨hρ, rfl⟩, fun _ ρ h => ?_,
          by rintro ⟨⟩, by rintro ⟨⟩⟩, by rintro ⟨⟩, fun _ _ => rfl⟩, fun _ h => absurd h (lt_irrefl _)⟩
        rw [hm, if_pos rfl]
        exact not_lt.1 fun h' => hp ⟨ρ, h, h'⟩
  choose f hf using this
  exact ⟨f, hf⟩

/-- Exhaustive search where it is exact, such an answer elsewhere. -/
noncomputable def posSolver (g : GModel) : GResult :=
  match g.plain with
  | true => brute g
  | false => exists_positive.choose g

theorem posSolver_ok (g : GModel) : GResult.Answers g (posSolver g)
    ∧ ((posSolver g).sol.isSome → 0 < (posSolver g).objBnd → 0 < (posSolver g).objVal) := by
  unfold posSolver
  split
  · next h =>
    refine ⟨(brute_exact h).answers, ?_⟩
    unfold brute
    split
    · rintro ⟨⟩
    · exact fun _ h => h
  · exact exists_positive.choose_spec g

noncomputable def exCirc (_ : Exp) : Circ :=
  ⟨{ exactEnv exNorm 1 with cc := fun _ => posSolver }, 10, 10, 1⟩

theorem exCirc_unhurried (e : Exp) : Unhurried (exCirc e).env :=
  ⟨fun g => (posSolver_ok g).1, fun g => (posSolver_ok g).2, exPairs_strong.clock,
    by show (exactEnv exNorm 1).clock 5 - (exactEnv exNorm 1).clock 0 ≤ 3600; decide +kernel⟩

/-- Experiment with the first file, three scenarios and the given method. -/
def exExp (method : ℕ) : Exp := ⟨knapName 3 1, 3, 2, 0, fl64 (20 / 100), method⟩

theorem exExp_is {method : ℕ} (h : method ∈ [1, 2, 3, 4]) : IsExp exPar (exExp method) :=
  ⟨by simp [exExp, exPar], by simp [exExp, exPar], by simp [exExp, exPar], by simp [exExp, exPar],
    by simp [exExp, exPar], h⟩

/-- The files that the exporter finds: a row for methods 1 and 2, nothing for method 3. -/
example : (mainWrites ['d', '/'] (generateAll ['d', '/'] [exOrLib, exOrLib2] [3, 4] 2 exDraws
        fun _ => none) exCirc (exExp 1)).map List.length = some 15
    ∧ (mainWrites ['d', '/'] (generateAll ['d', '/'] [exOrLib, exOrLib2] [3, 4] 2 exDraws
        fun _ => none) exCirc (exExp 2)).map List.length = some 15
    ∧ mainWrites ['d', '/'] (generateAll ['d', '/'] [exOrLib, exOrLib2] [3, 4] 2 exDraws
        fun _ => none) exCirc (exExp 3) = none := by
  refine ⟨?_, ?_, ?_⟩ <;> decide +kernel

/-- The hypotheses of C90. -/
example {method : ℕ} (h : method ∈ [1, 2, 3, 4]) : ∃ I vals,
    MadeFrom 3 1 3 2 (fun j => if j = 2 then 3 else 2) (fun _ => 10) (exDraws 0 0) false
      (fl64 (20 / 100)) I
    ∧ readKey (runAll ['d', '/'] ['r', '/'] (generateAll ['d', '/'] [exOrLib, exOrLib2] [3, 4] 2
      exDraws fun _ => none) exCirc exPar fun _ => none) ['r', '/'] (expKey (exExp method)) = .ok vals
    ∧ (vals = [] ∨ (method = 1 ∨ method = 2) ∧ RowSays I 0 vals) := by
  obtain ⟨I, vals, h1, h2, h3, -⟩ := C90_workflow_partial exLibrary (scenarios := [3, 4]) (by decide)
    (dir := ['d', '/']) (out := ['r', '/']) (Or.inr rfl) 2 exDraws (fun _ => none) exCirc exPar_ok
    (fs := fun _ => none) (exExp_is h) (a := 0) (t := 0) (by decide) (by decide) (by decide)
    (by decide +kernel) (by decide +kernel) rfl rfl (by simp [exExp]) (by simp [exExp])
    (fun g => (posSolver_ok g).1.valid)
    (fun _ => ⟨fun _ g => exactSolver_exact g, fun g => (exactSolver_exact g).answers⟩) rfl
  exact ⟨I, vals, h1, h2, h3⟩

/-- Two OR-library files of the same sizes: the instances of the second replace those of the
first. -/
example : (generateAll [] [exOrLib2, [[1, 1, 2], [7], [4], [10]]] [1] 1 exDraws (fun _ => none)
    (instancePath [] (knapName 1 1) 1 1)) = some [[1, 1, 1], [7], [1], [10]] := by
  decide +kernel

end Verif.Props
