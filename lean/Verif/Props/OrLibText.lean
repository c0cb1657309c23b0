import Verif.Lemmas.OrLibText
import Verif.Props.CsvText
import Verif.Props.FloatPipeline
import Verif.Props.FloatGenerated

/-!
# C108: the generator on the text of an OR-library file
-/

namespace Verif.Props
open Spec Model

/-- **C108 (reading).**  Lines of words, separated by single spaces, with `\n` or `\r\n` at the end of the
lines (the last line may be without), are read as these words.  A space at the start or the end of a line
and a second space between two words make an empty word, a line without characters a row without
words. -/
theorem C108_read {eol : Txt} (he : LineEnd eol) (rows : List (List Txt)) (last : List Txt)
    (hw : ∀ r ∈ rows ++ [last], r ≠ [[]] ∧ ∀ w ∈ r, PlainWord w) :
    orRead (orText eol rows ++ spaced last) = .ok (rows ++ if last = [] then [] else [last]) := by
  unfold orRead
  rw [rowsWith_file he rows last hw]
  simp only [Except.ok.injEq, List.map_map]
  conv_rhs => rw [← List.map_id (rows ++ if last = [] then [] else [last])]
  refine List.map_congr_left fun r _ => ?_
  rw [Function.comp_apply, List.map_map]
  conv_rhs => rw [id, ← List.map_id r]
  exact List.map_congr_left fun t _ => rfl

/-- The words of an OR-library file: sizes `n` and `m` as whole numbers (whatever follows them), objective
`c` as `n` words that are read as the doubles of its numbers, `m` rows of `n` numbers, capacities `b`.
Further rows may follow. -/
structure OrWords (ws : List (List Txt)) (n m : ℕ) (c b : Vec) : Prop where
  sizes : ∃ w v rest, ws[0]? = some (w :: v :: rest) ∧ intOf w = some (n : ℤ) ∧ intOf v = some (m : ℤ)
  obj : ∃ r, ws[1]? = some r ∧ r.length = n ∧ ∀ j < n, (r[j]?).bind floatOf = some (.fin (fl64 (c j)))
  mid : ∀ i < m, ∃ r, ws[2 + i]? = some r ∧ r.length = n ∧ ∀ w ∈ r, ∃ q : ℚ, floatOf w = some (.fin q)
  rhs : ∃ r, ws[2 + m]? = some r ∧ r.length = m ∧ ∀ i < m, (r[i]?).bind floatOf = some (.fin (fl64 (b i)))

theorem mapM_of_get {r : List Txt} {n : ℕ} {c : Vec} (hl : r.length = n)
    (h : ∀ j < n, (r[j]?).bind floatOf = some (.fin (fl64 (c j)))) :
    r.mapM floatOf = some ((List.range n).map fun j => .fin (fl64 (c j))) := by
  induction r generalizing n c with
  | nil => subst hl; rfl
  | cons w r ih =>
    subst hl
    have h0 : floatOf w = some (.fin (fl64 (c 0))) := by simpa using h 0 (by simp)
    have ih := ih (n := r.length) (c := fun j => c (j + 1)) rfl fun j hj => by
      simpa using h (j + 1) (by simpa using hj)
    rw [List.mapM_cons, h0, ih]
    simp [List.range_succ_eq_map, Function.comp_def]

theorem finiteRow_fin (l : List ℚ) : finiteRow (l.map .fin) = some l := by
  induction l with
  | nil => rfl
  | cons q l ih =>
    unfold finiteRow at ih ⊢
    rw [List.map_cons, List.mapM_cons, ih]
    rfl

theorem words_finite {r : List Txt} (h : ∀ w ∈ r, ∃ q : ℚ, floatOf w = some (.fin q)) :
    ∃ l : List ℚ, r.mapM floatOf = some (l.map .fin) := by
  induction r with
  | nil => exact ⟨[], rfl⟩
  | cons w r ih =>
    obtain ⟨q, hq⟩ := h w (by simp)
    obtain ⟨l, hl⟩ := ih fun w hw => h w (by simp [hw])
    exact ⟨q :: l, by rw [List.mapM_cons, hq, hl]; rfl⟩

theorem rows_finite {rs : List (List Txt)} (h : ∀ r ∈ rs, ∀ w ∈ r, ∃ q : ℚ, floatOf w = some (.fin q)) :
    ∃ ls : List (List ℚ), rs.mapM wordNumbers = .ok (ls.map fun l => l.map .fin)
      ∧ (ls.map fun l => l.map Gap.fin).mapM finiteRow = some ls := by
  induction rs with
  | nil => exact ⟨[], rfl, rfl⟩
  | cons r rs ih =>
    obtain ⟨l, hl⟩ := words_finite (h r (by simp))
    obtain ⟨ls, h1, h2⟩ := ih fun r hr => h r (by simp [hr])
    refine ⟨l :: ls, ?_, ?_⟩
    · rw [List.mapM_cons, h1]
      simp [wordNumbers, hl, bind, Except.bind, pure, Except.pure]
    · rw [List.map_cons, List.mapM_cons, h2, finiteRow_fin]
      rfl

theorem wordSize_ok {w v : Txt} {rest : List Txt} {n m : ℕ} (hw : intOf w = some (n : ℤ))
    (hv : intOf v = some (m : ℤ)) :
    wordSize (w :: v :: rest) 0 = .ok n ∧ wordSize (w :: v :: rest) 1 = .ok m := by
  have h : ¬ ∃ u ∈ (w :: v :: rest).take 2, intOf u = none := by
    rintro ⟨u, hu, h⟩
    simp only [List.take_succ_cons, List.take_zero, List.mem_cons, List.not_mem_nil, or_false] at hu
    rcases hu with rfl | rfl
    · rw [hw] at h; cases h
    · rw [hv] at h; cases h
  unfold wordSize
  rw [if_neg h, if_neg h]
  simp [hw, hv]

/-- The generator on words. -/
theorem textGenerate_words {t : Txt} {rows : List (List Txt)} (ht : orRead t = .ok rows) {n m : ℕ}
    {c b : Vec} (h : OrWords rows n m c b) (N K : ℕ) (d : Draws) :
    textGenerate t N K d = .ok ((List.range' 1 K).map fun k => (genName n m N k,
      flGenRows n m N ((List.range n).map fun j => fl64 (c j))
        ((List.range m).map fun i => fl64 (b i)) d k)) := by
  obtain ⟨w, v, rest, h0, hw, hv⟩ := h.sizes
  obtain ⟨rc, h1, hc, hc'⟩ := h.obj
  obtain ⟨rb, h2, hb, hb'⟩ := h.rhs
  obtain ⟨s1, s2⟩ := wordSize_ok (rest := rest) hw hv
  have e0 : wordRow rows 0 = .ok (w :: v :: rest) := by unfold wordRow; rw [h0]
  have e1 : wordRow rows 1 = .ok rc := by unfold wordRow; rw [h1]
  have e2 : wordRow rows (2 + m) = .ok rb := by unfold wordRow; rw [h2]
  have n1 : wordNumbers rc = .ok (((List.range n).map fun j => fl64 (c j)).map .fin) := by
    unfold wordNumbers
    rw [mapM_of_get hc hc', List.map_map]
    rfl
  have n2 : wordNumbers rb = .ok (((List.range m).map fun j => fl64 (b j)).map .fin) := by
    unfold wordNumbers
    rw [mapM_of_get hb hb', List.map_map]
    rfl
  have hrows : ∀ r ∈ (rows.drop 2).take m, r.length = n ∧ ∀ w ∈ r, ∃ q : ℚ, floatOf w = some (.fin q) := by
    intro r hr
    obtain ⟨i, hi⟩ := List.mem_iff_getElem?.1 hr
    have him : i < m := by
      by_contra hc
      rw [List.getElem?_take_eq_none (by omega)] at hi
      cases hi
    rw [List.getElem?_take_of_lt him, List.getElem?_drop] at hi
    obtain ⟨r', hr', hl⟩ := h.mid i him
    rw [hr'] at hi
    cases hi
    exact hl
  have hhead : 0 < m → (((rows.drop 2).take m).headD []).length = n := by
    intro hm
    obtain ⟨r', hr', hl, -⟩ := h.mid 0 hm
    have : ((rows.drop 2).take m)[0]? = some r' := by
      rw [List.getElem?_take_of_lt hm, List.getElem?_drop]; exact hr'
    rw [List.headD_eq_head?_getD, List.head?_eq_getElem?, this]
    exact hl
  have heq : ∀ r ∈ (rows.drop 2).take m, r.length = (((rows.drop 2).take m).headD []).length := by
    intro r hr
    have hm : 0 < m := by
      by_contra hm
      obtain rfl : m = 0 := by omega
      simp at hr
    rw [hhead hm, (hrows r hr).1]
  obtain ⟨ls, l1, l2⟩ := rows_finite fun r hr => (hrows r hr).2
  have hlt : ¬ (0 < K ∧ 0 < m ∧ (((rows.drop 2).take m).headD []).length < n) := by
    rintro ⟨-, hm, hlt⟩
    rw [hhead hm] at hlt
    exact lt_irrefl _ hlt
  unfold textGenerate
  simp only [ht, e0, s1, s2, e1, n1, e2, n2, l1, bind, Except.bind, pure, Except.pure, hlt,
    if_false, l2, finiteRow_fin]
  rw [if_neg (not_not.2 heq)]

/-- **C108 (generator).**  From the text of an OR-library file with single spaces between its numbers, in
any notation, the generator writes the requested number of files under the names that
run_all_experiments.sh uses, with the doubles of the file's objective and capacities and of the draws. -/
theorem C108_generate {eol : Txt} (he : LineEnd eol) {rows : List (List Txt)} {last : List Txt}
    (hw : ∀ r ∈ rows ++ [last], r ≠ [[]] ∧ ∀ w ∈ r, PlainWord w) {n m : ℕ} {c b : Vec}
    (h : OrWords (rows ++ if last = [] then [] else [last]) n m c b) (N K : ℕ) (d : Draws) :
    ∃ files, textGenerate (orText eol rows ++ spaced last) N K d = .ok files ∧ files.length = K
      ∧ ∀ k < K, files[k]? = some (instancePath [] (knapName n m) N (k + 1),
        flGenRows n m N ((List.range n).map fun j => fl64 (c j))
          ((List.range m).map fun i => fl64 (b i)) d (k + 1)) := by
  refine ⟨_, textGenerate_words (C108_read he rows last hw) h N K d, by simp, fun k hk => ?_⟩
  rw [List.getElem?_map, List.getElem?_range' hk]
  simp [genName, instancePath, knapName, Nat.add_comm]

/-- **C108 (from the text to the instance).**  Objective and capacities have at most four decimals and the
draws do not exceed `10^9`: every file that the generator writes from the text, in any notation that is
read back as the same doubles, is read as the double version of an instance with the announced sizes,
values and capacities, and with the draws as coefficients up to `0.0501`. -/
theorem C108_instances {eol : Txt} (he : LineEnd eol) {rows : List (List Txt)} {last : List Txt}
    (hw : ∀ r ∈ rows ++ [last], r ≠ [[]] ∧ ∀ w ∈ r, PlainWord w) {n m : ℕ} {c b : Vec}
    (h : OrWords (rows ++ if last = [] then [] else [last]) n m c b) {N K : ℕ} (hN : 0 < N)
    (hn' : n ≤ 10 ^ 10) (hm' : m ≤ 10 ^ 10) (hN' : N ≤ 10 ^ 10) (hc : ∀ j < n, FourDec (c j))
    (hb : ∀ i < m, FourDec (b i)) {d : Draws} (hd : ∀ k i j s, d.normal k i j s ≤ 10 ^ 9) :
    ∃ files, textGenerate (orText eol rows ++ spaced last) N K d = .ok files ∧ files.length = K
      ∧ ∀ k < K, ∃ f, files[k]? = some f ∧ f.1 = instancePath [] (knapName n m) N (k + 1)
        ∧ ∀ texts, ShowsFile texts f.2 → ∀ (cont : Bool) (eps : ℚ), ∃ I : Inst,
          readInstance (csvWrite texts) cont (fl64 eps) = .ok (dbl I)
          ∧ I.n = n ∧ I.m = m ∧ I.N = N ∧ I.cont = cont ∧ I.eps = eps ∧ Equi I ∧ OneDecimal I ∧ NonnegC I
          ∧ (∀ j < n, I.c j = round1 (c j)) ∧ (∀ s < N, ∀ i < m, I.b s i = round1 (b i))
          ∧ ∀ s < N, ∀ i < m, ∀ j < n,
            (d.fails (k + 1) j s = true → I.A s i j = 0)
            ∧ (d.fails (k + 1) j s = false →
              |I.A s i j - max (d.normal (k + 1) i j s) 0| ≤ 501 / 10000) := by
  obtain ⟨files, f1, f2, f3⟩ := C108_generate he hw h N K d
  obtain ⟨d', -, -, h3⟩ := C98_generated hN hn' hm' hN' hc hb hd
  refine ⟨files, f1, f2, fun k hk => ⟨_, f3 k hk, rfl, fun texts ht cont eps => ?_⟩⟩
  obtain ⟨I, -, e⟩ := h3 (k + 1) texts ht cont eps
  exact ⟨I, e⟩

/-- **C108 (method 1).**  From the text of an OR-library file and the draws to the result of method 1 with
binary variables: every file that is written, in any notation of its numbers, is read, and whatever
Gurobi answers within its tolerances, the result is certified for the instance that exact arithmetic
makes of the same numbers and of draws which differ from the given ones by less than the precision of
doubles. -/
theorem C108_method1 {eol : Txt} (he : LineEnd eol) {rows : List (List Txt)} {last : List Txt}
    (hw : ∀ r ∈ rows ++ [last], r ≠ [[]] ∧ ∀ w ∈ r, PlainWord w) {n m : ℕ} {c b : Vec}
    (h : OrWords (rows ++ if last = [] then [] else [last]) n m c b) {N K : ℕ} (hn : 0 < n) (hm : 0 < m)
    (hN : 0 < N) (hn' : n ≤ 100) (hm' : m ≤ 10 ^ 10) (hN' : N < 10 ^ 7) (hc : ∀ j < n, FourDec (c j))
    (hb : ∀ i < m, FourDec (b i)) {d : Draws} (hd : ∀ k i j s, d.normal k i j s ≤ 10 ^ 9) :
    ∃ files d', textGenerate (orText eol rows ++ spaced last) N K d = .ok files ∧ files.length = K
      ∧ d'.fails = d.fails
      ∧ (∀ k i j s, |d'.normal k i j s - d.normal k i j s| ≤ 1 / 2 ^ 53 * |d.normal k i j s|)
      ∧ ∀ k < K, ∃ f, files[k]? = some f ∧ ∀ texts, ShowsFile texts f.2 →
        ∀ (eps : ℚ) (q : ℕ), eps * N = q → eps ≤ 1 →
        ∃ I J,
          parse (genRows n m N ((List.range n).map c) ((List.range m).map b) d' (k + 1)) false eps = .ok I
          ∧ I.n = n ∧ I.m = m ∧ I.N = N ∧ I.eps = eps ∧ NonnegC I
          ∧ readInstance (csvWrite texts) false (fl64 eps) = .ok J
          ∧ (Model.Moderate I → SortsDefined I → ∀ (env : Env) (timeLimit gap : ℚ), 0 ≤ gap →
            (∀ g, IsMethod1Problem env.srt J gap g →
              GResult.FlValid cclpTols (9 / 10 ^ 10) g (env.cc 0 g)) →
            ∀ r, flMilpSong env J timeLimit gap = .ok r → FlCertified I gap r) := by
  obtain ⟨files, f1, f2, f3⟩ := C108_generate he hw h N K d
  obtain ⟨d', h1, h2, h3⟩ := C103_generated hn hm hN hn' hm' hN' hc hb hd
  exact ⟨files, d', f1, f2, h1, h2, fun k hk => ⟨_, f3 k hk, fun texts ht eps q hq heps1 =>
    h3 (k + 1) texts ht eps q hq heps1⟩⟩

theorem mapM_wordNumbers_error {rs : List (List Txt)} {r : List Txt} (hr : r ∈ rs) {w : Txt} (hw : w ∈ r)
    (h : floatOf w = none) : rs.mapM wordNumbers = .error (.py .valueError) := by
  induction rs with
  | nil => cases hr
  | cons r' rs ih =>
    have key : wordNumbers r' = .error (.py .valueError) ∨ ∃ l, wordNumbers r' = .ok l := by
      unfold wordNumbers
      split
      · exact .inr ⟨_, rfl⟩
      · exact .inl rfl
    rw [List.mapM_cons]
    rcases List.mem_cons.1 hr with rfl | hr
    · have : wordNumbers r = .error (.py .valueError) := by
        unfold wordNumbers
        rw [mapM_none hw h]
      rw [this]
      rfl
    · rcases key with e | ⟨l, e⟩
      · rw [e]; rfl
      · rw [e, ih hr]; rfl

/-- **C108 (other texts).**  If the first line starts with the sizes and there are enough lines, but a word
of the objective, of the rows or of the capacities is no number, in particular the empty word that a
leading, trailing or second space makes, the generator raises `ValueError`. -/
theorem C108_refused {eol : Txt} (he : LineEnd eol) {rows : List (List Txt)} {last : List Txt}
    (hw : ∀ r ∈ rows ++ [last], r ≠ [[]] ∧ ∀ w ∈ r, PlainWord w) {all : List (List Txt)}
    (hall : all = rows ++ if last = [] then [] else [last]) {n m : ℕ}
    (hs : ∃ w v rest, all[0]? = some (w :: v :: rest) ∧ intOf w = some (n : ℤ) ∧ intOf v = some (m : ℤ))
    (hl : 2 + m < all.length) {i : ℕ} (hi : 1 ≤ i) (him : i ≤ 2 + m) {r : List Txt} (hr : all[i]? = some r)
    {w : Txt} (hwr : w ∈ r) (hf : ∀ g, ¬ FloatText w g) (N K : ℕ) (d : Draws) :
    textGenerate (orText eol rows ++ spaced last) N K d = .error (.py .valueError) := by
  subst hall
  obtain ⟨a, v, rest, h0, ha, hv⟩ := hs
  set all := rows ++ if last = [] then [] else [last] with hall
  obtain ⟨s1, s2⟩ := wordSize_ok (rest := rest) ha hv
  have e0 : wordRow all 0 = .ok (a :: v :: rest) := by unfold wordRow; rw [h0]
  have hfl : floatOf w = none := floatOf_none hf
  have hbad : wordNumbers r = .error (.py .valueError) := by
    unfold wordNumbers
    rw [mapM_none hwr hfl]
  have hnum : ∀ r', wordNumbers r' = .error (.py .valueError) ∨ ∃ l, wordNumbers r' = .ok l := fun r' => by
    unfold wordNumbers
    split
    · exact .inr ⟨_, rfl⟩
    · exact .inl rfl
  obtain ⟨rc, h1⟩ : ∃ rc, all[1]? = some rc := ⟨_, List.getElem?_eq_getElem (by omega)⟩
  obtain ⟨rb, h2⟩ : ∃ rb, all[2 + m]? = some rb := ⟨_, List.getElem?_eq_getElem hl⟩
  have e1 : wordRow all 1 = .ok rc := by unfold wordRow; rw [h1]
  have e2 : wordRow all (2 + m) = .ok rb := by unfold wordRow; rw [h2]
  unfold textGenerate
  rw [C108_read he rows last hw, ← hall]
  simp only [e0, s1, s2, e1, e2, bind, Except.bind, throw, throwThe, MonadExceptOf.throw]
  rcases hnum rc with n1 | ⟨l1, n1⟩
  · simp only [n1]
  · simp only [n1]
    split
    · rfl
    · by_cases hmid : 2 ≤ i ∧ i < 2 + m
      · have hmem : r ∈ (all.drop 2).take m := by
          refine List.mem_iff_getElem?.2 ⟨i - 2, ?_⟩
          rw [List.getElem?_take_of_lt (by omega), List.getElem?_drop, ← hr]
          congr 1
          omega
        simp only [mapM_wordNumbers_error hmem hwr hfl]
      · have hA : (List.take m (List.drop 2 all)).mapM wordNumbers = .error (.py .valueError)
            ∨ ∃ l, (List.take m (List.drop 2 all)).mapM wordNumbers = .ok l := by
          generalize List.take m (List.drop 2 all) = rs
          induction rs with
          | nil => exact .inr ⟨[], rfl⟩
          | cons r' rs ih =>
            rw [List.mapM_cons]
            rcases hnum r' with e | ⟨l, e⟩
            · exact .inl (by rw [e]; rfl)
            · rcases ih with e' | ⟨l', e'⟩
              · exact .inl (by rw [e, e']; rfl)
              · exact .inr ⟨l :: l', by rw [e, e']; rfl⟩
        rcases hA with hA | ⟨l, hA⟩
        · simp only [hA]
        · simp only [hA]
          rcases (by omega : i = 1 ∨ i = 2 + m) with rfl | rfl
          · rw [h1] at hr
            cases hr
            rw [n1] at hbad
            cases hbad
          · rw [h2] at hr
            cases hr
            simp only [hbad]

/-- The numbers of a small file, with the two capacities in one line. -/
def oneLineRows : List (List Txt) := [[['1'], ['2'], ['0']], [['3']], [['4']], [['5']], [['6'], ['7']]]

/-- The same numbers with the capacities in two lines, as OR-library files break long rows. -/
def wrappedRows : List (List Txt) := [[['1'], ['2'], ['0']], [['3']], [['4']], [['5']], [['6']], [['7']]]

/-- The file written from `wrappedRows`. -/
def wrappedTexts : List (List Txt) :=
  [[['1'], ['2'], ['1']], [['3', '.', '0']], [['2', '.', '3', '4', '5', '7']], [['2', '.', '3', '4', '5', '7']],
    [['6', '.', '0']]]

/-- **C108 (a break in the line of the capacities).**  The numbers of the two texts are the same, one after
the other.  With the capacities `6` and `7` in one line they are read as such.  With a line break between
them nothing is refused: the generator writes a file with one capacity, which is read as the capacity of
both constraints. -/
theorem C108_wrapped_counterexample :
    oneLineRows.flatten = wrappedRows.flatten
    ∧ OrWords oneLineRows 1 2 (fun _ => 3) (fun i => if i = 0 then 6 else 7)
    ∧ ∃ files f, textGenerate (orText ['\n'] wrappedRows) 1 1 drawsTwo = .ok files ∧ files[0]? = some f
      ∧ f.1 = instancePath [] (knapName 1 2) 1 1 ∧ ShowsFile wrappedTexts f.2
      ∧ ∃ I, readInstance (csvWrite wrappedTexts) false 0 = .ok I ∧ I.n = 1 ∧ I.m = 2
        ∧ I.b 0 0 = 6 ∧ I.b 0 1 = 6 := by
  have hfl : fl64 3 = 3 ∧ fl64 6 = 6 ∧ fl64 7 = 7 := by decide +kernel
  refine ⟨by decide, ⟨⟨_, _, _, rfl, by decide +kernel, by decide +kernel⟩, ⟨_, rfl, rfl, ?_⟩, ?_,
    ⟨_, rfl, rfl, ?_⟩⟩, ?_⟩
  · intro j hj
    interval_cases j
    rw [hfl.1]
    decide +kernel
  · intro i hi
    interval_cases i
    · refine ⟨_, rfl, rfl, fun w hw => ?_⟩
      cases List.mem_singleton.1 hw
      exact ⟨4, by decide +kernel⟩
    · refine ⟨_, rfl, rfl, fun w hw => ?_⟩
      cases List.mem_singleton.1 hw
      exact ⟨5, by decide +kernel⟩
  · intro i hi
    interval_cases i
    · simp only [if_true]
      rw [hfl.2.1]
      decide +kernel
    · simp only [one_ne_zero, if_false]
      rw [hfl.2.2]
      decide +kernel
  · have e : (match textGenerate (orText ['\n'] wrappedRows) 1 1 drawsTwo with
        | .ok files => some files
        | .error _ => none) = some [(instancePath [] (knapName 1 2) 1 1,
          [[1, 2, 1], [3], [fl64 (23457 / 10 ^ 4)], [fl64 (23457 / 10 ^ 4)], [6]])] := by decide +kernel
    split at e
    · rename_i files hfiles
      cases e
      refine ⟨_, _, hfiles, rfl, rfl, ?_, ?_⟩
      · unfold wrappedTexts
        repeat' first
          | exact List.Forall₂.nil
          | refine List.Forall₂.cons ?_ ?_
        all_goals
          exact ⟨by decide +kernel, by decide, by decide⟩
      · have e' : (match readInstance (csvWrite wrappedTexts) false 0 with
          | .ok I => some (I.n, I.m, I.b 0 0, I.b 0 1)
          | .error _ => none) = some (1, 2, 6, 6) := by decide +kernel
        split at e'
        · rename_i I hI
          simp only [Option.some.injEq, Prod.mk.injEq] at e'
          exact ⟨I, hI, e'.1, e'.2.1, e'.2.2.1, e'.2.2.2⟩
        · cases e'
    · cases e

/-- The words of a file with a fractional value and a number in scientific notation. -/
def exWords : List (List Txt) :=
  [[['2'], ['1'], ['0']], [['6', '0', '0', '.', '1'], ['7']], [['2', '.', '5'], ['1', 'e', '1']]]

/-- The hypotheses of C108, met by a file whose last line has no line end. -/
example : (∀ r ∈ exWords ++ [[['8', '0']]], r ≠ [[]] ∧ ∀ w ∈ r, PlainWord w)
    ∧ OrWords (exWords ++ if [['8', '0']] = ([] : List Txt) then [] else [[['8', '0']]]) 2 1
      (fun j => if j = 0 then 6001 / 10 else 7) (fun _ => 80)
    ∧ orText ['\n'] exWords ++ spaced [['8', '0']] = "2 1 0\n600.1 7\n2.5 1e1\n80".toList
    ∧ (∀ j < 2, FourDec ((fun j => if j = 0 then 6001 / 10 else 7 : Vec) j))
    ∧ (∀ i < 1, FourDec ((fun _ => 80 : Vec) i)) ∧ (∀ k i j s, drawsTwo.normal k i j s ≤ 10 ^ 9) := by
  have hfl : fl64 7 = 7 ∧ fl64 80 = 80 := by decide +kernel
  refine ⟨by unfold PlainWord exWords; decide, ⟨⟨_, _, _, rfl, by decide +kernel, by decide +kernel⟩,
    ⟨_, rfl, rfl, ?_⟩, ?_, ⟨_, rfl, rfl, ?_⟩⟩, by decide, ?_, ?_, ?_⟩
  · intro j hj
    interval_cases j
    · simp only [if_true]
      decide +kernel
    · simp only [one_ne_zero, if_false]
      rw [hfl.1]
      decide +kernel
  · intro i hi
    interval_cases i
    refine ⟨_, rfl, rfl, fun w hw => ?_⟩
    simp only [List.mem_cons, List.not_mem_nil, or_false] at hw
    rcases hw with rfl | rfl
    · exact ⟨5 / 2, by decide +kernel⟩
    · exact ⟨10, by decide +kernel⟩
  · intro i hi
    interval_cases i
    rw [hfl.2]
    decide +kernel
  · intro j hj
    dsimp only
    split
    · exact ⟨⟨6001000, by norm_num⟩, by norm_num⟩
    · exact ⟨⟨70000, by norm_num⟩, by norm_num⟩
  · exact fun i _ => ⟨⟨800000, by norm_num⟩, by norm_num⟩
  · intro k i j s
    unfold drawsTwo
    dsimp only
    split
    · have : fl64 (234567 / 10 ^ 5) ≤ 10 ^ 9 := by decide +kernel
      exact this
    · norm_num

/-- The hypotheses of C108_refused, met by a space at the end of a line. -/
example : ∃ r, ([[['2'], ['1'], ['0']], [['3'], ['7'], []], [['2'], ['1']], [['8']]] : List (List Txt))[1]? = some r
    ∧ [] ∈ r ∧ (∀ g, ¬ FloatText [] g)
    ∧ orText ['\n'] [[['2'], ['1'], ['0']], [['3'], ['7'], []], [['2'], ['1']], [['8']]]
      = "2 1 0\n3 7 \n2 1\n8\n".toList :=
  ⟨_, rfl, by decide, not_floatText (by decide +kernel), by decide⟩

end Verif.Props
