import Verif.Lemmas.CsvText
import Verif.Model.FloatFiles
import Verif.Props.RowMeaning

/-!
# C99: csv files are read as they were written
-/

namespace Verif.Props
open Spec Model

theorem mapM_convert_text (r : List Txt) : r.mapM (convert false) = some (r.map Field.text) := by
  induction r with
  | nil => rfl
  | cons t r ih => simp [List.mapM_cons, ih, convert]

theorem mapM_rows_text (rows : List (List Txt)) :
    rows.mapM (fun r => r.mapM (convert false)) = some (rows.map fun r => r.map Field.text) := by
  induction rows with
  | nil => rfl
  | cons r rows ih => rw [List.mapM_cons, ih, mapM_convert_text]; rfl

/-- **C99 (round trip).**  Whatever the texts, with commas, quotes, line breaks, empty texts or empty
rows: the file written with `csv.writer` is read by `csv.reader` as the rows written. -/
theorem C99_roundtrip (rows : List (List Txt)) :
    csvRead false (csvWrite rows) = .ok (rows.map fun r => r.map Field.text) :=
  rows_written (.inl rfl) rows _ (mapM_rows_text rows)

/-- Two tables with the same text are the same. -/
theorem C99_injective {rows rows' : List (List Txt)} (h : csvWrite rows = csvWrite rows') : rows = rows' := by
  have h1 := C99_roundtrip rows
  rw [h, C99_roundtrip rows', Except.ok.injEq] at h1
  have hinj : Function.Injective Field.text := fun a b h => by injection h
  exact (List.map_injective_iff.2 (List.map_injective_iff.2 hinj) h1).symm

theorem mapM_none {α β : Type} {f : α → Option β} {l : List α} {a : α} (ha : a ∈ l) (h : f a = none) :
    l.mapM f = none := by
  induction l with
  | nil => cases ha
  | cons b l ih =>
    rw [List.mapM_cons]
    rcases List.mem_cons.1 ha with rfl | ha
    · rw [h]; rfl
    · rw [ih ha]; cases f b <;> rfl

/-- **C99 (open quotes).**  Quotes that are opened after the rows and never closed take the rest of the
file, line ends included, as one more row with one field. -/
theorem C99_open_quotes (rows : List (List Txt)) (t : Txt) (ht : '"' ∉ t) :
    csvRead false (csvWrite rows ++ '"' :: t) = .ok (rows.map (fun r => r.map .text) ++ [[.text t]]) := by
  unfold csvWrite
  rw [rows_prefix (.inl rfl) rows _ (mapM_rows_text rows)]
  have : csvRead false ('"' :: t) = .ok [[.text t]] := by
    unfold csvRead
    by_cases h : t = []
    · subst h; rfl
    · rw [lineEvents_cons (by decide) h, rows_step (σ' := ⟨.inQuoted, false, [], []⟩) rfl,
        rows_open t ht _ rfl rfl]
      rfl
  rw [this]
  rfl

/-- **C99 (carriage returns).**  A carriage return outside quotes that is not part of a line end is an
error. -/
theorem C99_bare_return (rows : List (List Txt)) (t : Txt) (ht : needsQuotes t = false) (c : Char)
    (h1 : c ≠ '\n') (h2 : c ≠ '\r') (u : Txt) :
    csvRead false (csvWrite rows ++ (t ++ '\r' :: c :: u)) = .error .newLine := by
  unfold csvWrite
  rw [rows_prefix (.inl rfl) rows _ (mapM_rows_text rows)]
  have : csvRead false (t ++ '\r' :: c :: u) = .error .newLine := by
    unfold csvRead
    have hw : writeField t = t := by unfold writeField; rw [if_neg (by simp [ht])]
    obtain ⟨es, he⟩ : ∃ es, lineEvents (c :: u) = some c :: es := by
      cases u with
      | nil => exact ⟨_, rfl⟩
      | cons e u => simp only [lineEvents]; split <;> exact ⟨_, rfl⟩
    have hend : ∀ σ : CsvReader, σ.st = .eatNewLine →
        CsvReader.rows false (lineEvents (c :: u)) σ = .error .newLine := fun σ hσ => by
      rw [he]
      simp [CsvReader.rows, CsvReader.step, hσ, h1, h2, bind, Except.bind]
    by_cases h0 : t = []
    · subst h0
      rw [List.nil_append, lineEvents_cons (by decide) (by simp),
        rows_step (σ' := ⟨.eatNewLine, false, [], []⟩) rfl, hend _ rfl]
    · obtain ⟨σ, hd, e⟩ := rows_field (b := false) t (.text t) (by simp [Model.convert]) ('\r' :: c :: u)
        (by simp) .startRecord [] (.inr rfl)
      rw [hw] at e
      rw [show CsvReader.init = ⟨.startRecord, false, [], []⟩ from rfl, e,
        lineEvents_cons (by decide) (by simp),
        rows_step (hd.line (fun h => h0 h.2) '\r' (.inr rfl)), hend _ rfl]
  rw [this]
  rfl

/-- One row and the start of another. -/
example : csvRead false (csvWrite [["a".toList]] ++ '"' :: "b,c".toList)
      = .ok [[.text "a".toList], [.text "b,c".toList]]
    ∧ csvRead false (csvWrite [["a".toList]] ++ ("b".toList ++ '\r' :: 'c' :: [])) = .error .newLine :=
  ⟨C99_open_quotes [["a".toList]] "b,c".toList (by decide),
    C99_bare_return [["a".toList]] "b".toList (by decide) 'c' (by decide) (by decide) []⟩

theorem floatOf_none {t : Txt} (h : ∀ g, ¬ FloatText t g) : floatOf t = none := by
  cases e : floatOf t with
  | none => rfl
  | some g =>
    obtain ⟨g', h', -⟩ := (floatOf_iff _ _).1 e
    exact absurd h' (h g')

theorem not_floatText {t : Txt} (h : floatOf t = none) (g : Gap) : ¬ FloatText t g := fun hg => by
  rw [(floatOf_iff _ _).2 ⟨g, hg, rfl⟩] at h
  cases h

/-- What `csv.QUOTE_NONNUMERIC` makes of a written text: empty texts and those with a comma, a quote or a
line end stay texts, the others are numbers. -/
def ReadAs (t : Txt) (f : Field) : Prop :=
  ((t = [] ∨ ∃ c ∈ t, c ∈ [',', '"', '\r', '\n']) ∧ f = .text t)
  ∨ (t ≠ [] ∧ (∀ c ∈ t, c ∉ [',', '"', '\r', '\n']) ∧ ∃ g, FloatText t g ∧ f = .num (roundDouble g))

theorem needsQuotes_iff (t : Txt) : needsQuotes t = true ↔ ∃ c ∈ t, c ∈ [',', '"', '\r', '\n'] := by
  simp [needsQuotes, or_assoc]

theorem convert_readAs {t : Txt} {f : Field} : Model.convert true t = some f ↔ ReadAs t f := by
  unfold Model.convert ReadAs
  by_cases h : t ≠ [] ∧ needsQuotes t = false
  · have h' : ∀ c ∈ t, c ∉ [',', '"', '\r', '\n'] := by
      have := mt (needsQuotes_iff t).2 (by simp [h.2])
      push Not at this
      exact this
    rw [if_pos ⟨rfl, h⟩, Option.map_eq_some_iff]
    constructor
    · rintro ⟨g, hg, rfl⟩
      obtain ⟨g', h1, rfl⟩ := (floatOf_iff _ _).1 hg
      exact .inr ⟨h.1, h', g', h1, rfl⟩
    · rintro (⟨h1 | ⟨c, h1, h2⟩, -⟩ | ⟨-, -, g, hg, rfl⟩)
      · exact absurd h1 h.1
      · exact absurd h2 (h' c h1)
      · exact ⟨_, (floatOf_iff _ _).2 ⟨g, hg, rfl⟩, rfl⟩
  · rw [if_neg (fun hh => h hh.2)]
    have h' : t = [] ∨ ∃ c ∈ t, c ∈ [',', '"', '\r', '\n'] := by
      rw [← needsQuotes_iff]
      by_contra hc
      push Not at hc
      exact h ⟨hc.1, by simpa using hc.2⟩
    constructor
    · rintro ⟨⟩
      exact .inl ⟨h', rfl⟩
    · rintro (⟨-, rfl⟩ | ⟨h1, h2, -⟩)
      · rfl
      · rcases h' with h' | ⟨c, h3, h4⟩
        · exact absurd h' h1
        · exact absurd h4 (h2 c h3)

theorem mapM_some_forall₂ {α β : Type} {f : α → Option β} {l : List α} {r : List β} :
    l.mapM f = some r ↔ List.Forall₂ (fun a b => f a = some b) l r := by
  induction l generalizing r with
  | nil => simp [List.mapM_nil, eq_comm]
  | cons a l ih =>
    rw [List.mapM_cons]
    constructor
    · intro h
      cases h1 : f a with
      | none => rw [h1] at h; cases h
      | some b =>
        cases h2 : l.mapM f with
        | none => rw [h1, h2] at h; cases h
        | some r' =>
          rw [h1, h2] at h
          cases h
          exact .cons h1 (ih.1 h2)
    · intro h
      cases h with
      | cons h1 h2 =>
        rw [h1, ih.2 h2]
        rfl

/-- **C99 (numbers).**  A written table is read with conversion of numbers exactly if every field that
is neither empty nor quoted is a number for Python's `float`, and then as these numbers, rounded to
doubles. -/
theorem C99_numbers (rows : List (List Txt)) (fss : List (List Field)) :
    csvRead true (csvWrite rows) = .ok fss ↔ List.Forall₂ (List.Forall₂ ReadAs) rows fss := by
  have key : rows.mapM (fun r => r.mapM (Model.convert true)) = some fss
      ↔ List.Forall₂ (List.Forall₂ ReadAs) rows fss := by
    rw [mapM_some_forall₂]
    simp only [mapM_some_forall₂, convert_readAs]
  rw [← key]
  constructor
  · intro h
    cases hm : rows.mapM (fun r => r.mapM (Model.convert true)) with
    | none =>
      have := rows_written_error (.inl rfl) rows hm
      unfold csvWrite at h
      rw [this] at h
      cases h
    | some fss' =>
      have := rows_written (.inl rfl) rows _ hm
      unfold csvWrite at h
      rw [this] at h
      cases h
      rfl
  · exact rows_written (.inl rfl) rows _

/-- Blanks, capital letters, underscores and missing digits are accepted as by `float`. -/
example : (match csvRead true (csvWrite [[" 1_0.5E-1".toList, "-.5".toList, "".toList], ["+Infinity".toList]]) with
    | .ok fss => fss
    | .error _ => []) = [[.num (.fin (rd (21 / 20))), .num (.fin (-1 / 2)), .text []], [.num .posInf]] := by
  decide +kernel

/-- **C99 (instance files).**  A file in which some field that needs no quotes is neither empty nor a
number is refused when it is read as an instance, wherever the field stands. -/
theorem C99_refused (rows : List (List Txt))
    (h : ∃ r ∈ rows, ∃ t ∈ r, t ≠ [] ∧ needsQuotes t = false ∧ ∀ g, ¬ FloatText t g) (cont : Bool) (eps : ℚ) :
    csvRead true (csvWrite rows) = .error .notNumber
    ∧ readInstance (csvWrite rows) cont eps = .error (.csv .notNumber) := by
  have key : csvRead true (csvWrite rows) = .error .notNumber := by
    refine rows_written_error (.inl rfl) rows ?_
    obtain ⟨r, hr, t, ht, h1, h2, h3⟩ := h
    refine mapM_none hr (mapM_none ht ?_)
    unfold Model.convert
    rw [if_pos ⟨rfl, h1, h2⟩, floatOf_none h3]
    rfl
  exact ⟨key, by unfold readInstance; rw [key]⟩

/-- A header line is refused. -/
example : readInstance (csvWrite [["n".toList, "m".toList], ["1".toList, "2".toList]]) false 0
    = .error (.csv .notNumber) :=
  (C99_refused _ ⟨["n".toList, "m".toList], by simp, "n".toList, by simp, by decide, by decide,
    not_floatText (by decide +kernel)⟩ _ _).2

/-- **C99 (universal line ends).**  `read_table`, which lets Python translate the line ends, returns the
first row, if no text has a carriage return. -/
theorem C99_read_table (r : List Txt) (rows : List (List Txt))
    (h : ∀ r' ∈ r :: rows, ∀ t ∈ r', '\r' ∉ t) : readTable (csvWrite (r :: rows)) = .ok r := by
  unfold readTable
  rw [universal_written h, rows_written (.inr rfl) _ _ (mapM_rows_text _)]
  simp only [List.map_cons, List.map_map]
  exact congrArg Except.ok (List.map_id'' (fun _ => rfl) r)

/-- The text of a cell: as it is, or any notation of the double, without line ends. -/
def CellShows : Cell → Txt → Prop
  | .text u, t => t = u
  | .flt q, t => floatOf t = some (.fin (rd q)) ∧ '\r' ∉ t ∧ '\n' ∉ t

/-- Numbers rounded to doubles. -/
def rdVal : Val → Val
  | .str t => .str t
  | .num g => .num (roundDouble g)

theorem pyFloat_ok {t : Txt} {g : Gap} (h : pyFloat t = .ok g) : readFloat t = some g := by
  unfold pyFloat at h
  split at h
  · cases h; assumption
  · cases h

theorem cells_doubles {cs : List Cell} {ts : List Txt} (h : List.Forall₂ CellShows cs ts) {l : List Val}
    (hl : (cs.mapM fun x => (cellFloat x).map Val.num) = .ok l) :
    ∃ gs, ts.mapM floatOf = some gs ∧ gs.map Val.num = l.map rdVal := by
  induction h generalizing l with
  | nil =>
    cases hl
    exact ⟨[], rfl, rfl⟩
  | @cons c t cs ts h1 _ ih =>
    simp only [List.mapM_cons, bind, Except.bind, pure, Except.pure] at hl
    cases h2 : cellFloat c with
    | error e => rw [h2] at hl; cases hl
    | ok g =>
      rw [h2] at hl
      dsimp only [Except.map] at hl
      split at hl
      · cases hl
      · rename_i l' hl'
        cases hl
        obtain ⟨gs, e1, e2⟩ := ih hl'
        have h3 : floatOf t = some (roundDouble g) := by
          cases c with
          | text u =>
            obtain rfl : t = u := h1
            obtain h4 := pyFloat_ok (show pyFloat t = .ok g from h2)
            exact floatOf_readFloat h4
          | flt q =>
            cases h2
            exact h1.1
        exact ⟨roundDouble g :: gs, by simp [List.mapM_cons, h3, e1], by simp [rdVal, e2]⟩

theorem shows_no_cr {c : Cell} {t : Txt} (h : CellShows c t) {g : Gap} (hc : cellFloat c = .ok g) :
    '\r' ∉ t := by
  cases c with
  | text u =>
    obtain rfl : t = u := h
    have hg := pyFloat_ok (show pyFloat t = .ok g from hc)
    intro he
    cases g with
    | fin q => exact absurd ((readFloat_chars hg).2 _ he).1 (by decide)
    | posInf | negInf | nan =>
      unfold readFloat at hg
      split_ifs at hg with h1 h2 h3
      · rw [h1] at he; exact absurd he (by decide)
      · rw [h2] at he; exact absurd he (by decide)
      · rw [h3] at he; exact absurd he (by decide)
      · split at hg
        · obtain ⟨q', -, hq⟩ := Option.map_eq_some_iff.1 hg; cases hq
        · obtain ⟨q', -, hq⟩ := Option.map_eq_some_iff.1 hg; cases hq
  | flt q => exact h.2.1

/-- **C99 (result files).**  A row that the model reads as `vals` is written as text and read back by
`read_single_experiment` as the same values in double precision, whatever characters other than
carriage returns the name of the instance has. -/
theorem C99_results {name : Txt} {cs : List Cell} {ts : List Txt} (hn : '\r' ∉ name)
    (h : List.Forall₂ CellShows cs ts) {vals : List Val}
    (hv : readExperiment (some (.text name :: cs)) = .ok vals) :
    textExperiment (csvWrite [name :: ts]) = .ok (vals.map rdVal) := by
  simp only [readExperiment, bind, Except.bind, pure, Except.pure] at hv
  split at hv
  · cases hv
  · rename_i l hl
    cases hv
    obtain ⟨gs, e1, e2⟩ := cells_doubles h hl
    have hcr : ∀ t ∈ ts, '\r' ∉ t := by
      clear e1 e2 hn
      induction h generalizing l with
      | nil => simp
      | @cons c t cs ts h1 _ ih =>
        simp only [List.mapM_cons, bind, Except.bind, pure, Except.pure] at hl
        cases h2 : cellFloat c with
        | error e => rw [h2] at hl; cases hl
        | ok g =>
          rw [h2] at hl
          dsimp only [Except.map] at hl
          split at hl
          · cases hl
          · rename_i l' hl'
            intro u hu
            rcases List.mem_cons.1 hu with rfl | hu
            · exact shows_no_cr h1 h2
            · exact ih l' hl' u hu
    unfold textExperiment
    rw [C99_read_table _ _ (by
      intro r hr t ht
      simp only [List.mem_cons, List.not_mem_nil, or_false] at hr
      subst hr
      rcases List.mem_cons.1 ht with rfl | ht
      · exact hn
      · exact hcr t ht)]
    dsimp only
    rw [e1]
    simp [e2, rdVal, cellText]

/-- **C99 (results).**  A result file in which a cell after the name is no number is refused. -/
theorem C99_results_refused {name : Txt} {ts : List Txt} (hn : ∀ t ∈ name :: ts, '\r' ∉ t)
    (h : ∃ t ∈ ts, ∀ g, ¬ FloatText t g) :
    textExperiment (csvWrite [name :: ts]) = .error (.py .valueError) := by
  unfold textExperiment
  rw [C99_read_table _ _ (by
    intro r hr t ht
    simp only [List.mem_cons, List.not_mem_nil, or_false] at hr
    subst hr
    exact hn t ht)]
  dsimp only
  obtain ⟨t, ht, h⟩ := h
  rw [mapM_none ht (floatOf_none h)]

/-- A time that was never set is written as `None`. -/
example : textExperiment (csvWrite ["a".toList :: ["1.5".toList, "None".toList]]) = .error (.py .valueError) :=
  C99_results_refused (by decide) ⟨"None".toList, by simp, not_floatText (by decide +kernel)⟩

/-- A carriage return in the name of the instance is read as a line feed. -/
theorem C99_carriage_return_counterexample :
    readTable (csvWrite [[['a', '\r', 'b'], ['1']]]) = .ok [['a', '\n', 'b'], ['1']] := by
  rfl

/-- A row with a comma, quotes and a line break in the name. -/
example : (match textExperiment (csvWrite [[['m', ',', '"', '\n'], ['1', '.', '5', '0'], ['i', 'n', 'f'],
        ['4', 'e', '-', '0', '7']]]) with
      | .ok v => some v
      | .error _ => none)
      = some [.str ['m', ',', '"', '\n'], .num (.fin (3 / 2)), .num .posInf, .num (.fin (fl64 (4 / 10 ^ 7)))]
    ∧ readExperiment (some [.text ['m', ',', '"', '\n'], .text ['1', '.', '5', '0'],
        .text ['i', 'n', 'f'], .flt (4 / 10 ^ 7)])
      = .ok [.str ['m', ',', '"', '\n'], .num (.fin (3 / 2)), .num .posInf, .num (.fin (4 / 10 ^ 7))]
    ∧ List.Forall₂ CellShows [.text ['1', '.', '5', '0'], .text ['i', 'n', 'f'], .flt (4 / 10 ^ 7)]
        [['1', '.', '5', '0'], ['i', 'n', 'f'], ['4', 'e', '-', '0', '7']]
    ∧ csvWrite [[['m', ',', '"', '\n'], ['1', '.', '5', '0']]]
      = ['"', 'm', ',', '"', '"', '\n', '"', ',', '1', '.', '5', '0', '\r', '\n'] := by
  refine ⟨by decide +kernel, by decide +kernel, .cons rfl (.cons rfl (.cons ?_ .nil)), by decide +kernel⟩
  exact ⟨by decide +kernel, by decide, by decide⟩

end Verif.Props
