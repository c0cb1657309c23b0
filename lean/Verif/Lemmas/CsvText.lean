import Verif.Model.CsvText
import Verif.Lemmas.PyNumber
import Mathlib.Data.List.TakeWhile

/-!
# Reading what was written
-/

namespace Verif.Model
open Spec

/-- What the reader makes of a written text: with `nonnumeric`, texts without quotes are numbers. -/
def convert (nonnumeric : Bool) (t : Txt) : Option Field :=
  if nonnumeric = true ∧ t ≠ [] ∧ needsQuotes t = false then (floatOf t).map .num
  else some (.text t)

/-- Line ends after which the reader starts a new row. -/
def LineEnd (eol : Txt) : Prop := eol = ['\r', '\n'] ∨ eol = ['\n']

theorem lineEvents_cons {c : Char} (h : c ≠ '\n') {t : Txt} (ht : t ≠ []) :
    lineEvents (c :: t) = some c :: lineEvents t := by
  cases t with
  | nil => exact absurd rfl ht
  | cons d t => simp [lineEvents, h]

theorem lineEvents_newLine {t : Txt} : lineEvents ('\n' :: t) = some '\n' :: none :: lineEvents t := by
  cases t with
  | nil => rfl
  | cons d t => simp [lineEvents]

theorem rows_step {b : Bool} {σ σ' : CsvReader} {c : Char} {es : List (Option Char)}
    (h : σ.step b (some c) = .ok σ') :
    CsvReader.rows b (some c :: es) σ = CsvReader.rows b es σ' := by
  simp [CsvReader.rows, h, bind, Except.bind]

/-- The end of a row. -/
theorem rows_lineEnd {b : Bool} {eol : Txt} (he : LineEnd eol) {σ σ' : CsvReader} (t : Txt)
    (h1 : ∀ c, c = '\n' ∨ c = '\r' → σ.step b (some c) = .ok σ') (h2 : σ'.st = .eatNewLine) :
    CsvReader.rows b (lineEvents (eol ++ t)) σ
      = (CsvReader.rows b (lineEvents t) .init).map fun rs => σ'.row :: rs := by
  have key : CsvReader.rows b (none :: lineEvents t) σ'
      = (CsvReader.rows b (lineEvents t) .init).map fun rs => σ'.row :: rs := by
    simp only [CsvReader.rows, CsvReader.step, h2, bind, Except.bind, true_and, if_true, pure,
      Except.pure, Except.map]
  rcases he with rfl | rfl
  · rw [List.cons_append, lineEvents_cons (by decide) (by simp), rows_step (h1 _ (.inr rfl)),
      List.cons_append, List.nil_append, lineEvents_newLine, rows_step (σ' := σ'), key]
    simp [CsvReader.step, h2]
  · rw [List.cons_append, List.nil_append, lineEvents_newLine, rows_step (h1 _ (.inl rfl)), key]

/-- Characters of a field without quotes. -/
theorem rows_inField {b : Bool} (t : Txt) (ht : needsQuotes t = false) (u : Txt) (hu : u ≠ [])
    (σ : CsvReader) (hs : σ.st = .inField) :
    CsvReader.rows b (lineEvents (t ++ u)) σ
      = CsvReader.rows b (lineEvents u) { σ with field := σ.field ++ t } := by
  induction t generalizing σ with
  | nil => simp
  | cons c t ih =>
    simp only [needsQuotes, List.any_cons, Bool.or_eq_false_iff, beq_eq_false_iff_ne] at ht
    obtain ⟨⟨⟨⟨h1, h2⟩, h3⟩, h4⟩, h5⟩ := ht
    have h5 : needsQuotes t = false := h5
    rw [List.cons_append, lineEvents_cons h4 (by simp [hu]),
      rows_step (σ' := σ.add c .inField) (by simp [CsvReader.step, hs, h1, h3, h4]),
      ih h5 _ rfl]
    simp [CsvReader.add, hs]

/-- Characters in quotes. -/
theorem rows_inQuoted {b : Bool} (t : Txt) (u : Txt) (σ : CsvReader) (hs : σ.st = .inQuoted) :
    CsvReader.rows b (lineEvents (doubleQuotes t ++ '"' :: u)) σ
      = CsvReader.rows b (lineEvents ('"' :: u)) { σ with field := σ.field ++ t } := by
  induction t generalizing σ with
  | nil => simp [doubleQuotes]
  | cons c t ih =>
    have hne : doubleQuotes t ++ '"' :: u ≠ [] := by simp
    by_cases hc : c = '"'
    · subst hc
      rw [doubleQuotes, if_pos rfl, List.cons_append, List.cons_append,
        lineEvents_cons (by decide) (by simp),
        rows_step (σ' := { σ with st := .quoteInQuoted }) (by simp [CsvReader.step, hs]),
        lineEvents_cons (by decide) hne,
        rows_step (σ' := σ.add '"' .inQuoted) (by simp [CsvReader.step, CsvReader.add]), ih _ rfl]
      simp [CsvReader.add, hs]
    · rw [doubleQuotes, if_neg hc, List.cons_append]
      by_cases hn : c = '\n'
      · subst hn
        rw [lineEvents_newLine, rows_step (σ' := σ.add '\n' .inQuoted) (by simp [CsvReader.step, hs])]
        rw [show CsvReader.rows b (none :: lineEvents (doubleQuotes t ++ '"' :: u))
            (σ.add '\n' .inQuoted) = CsvReader.rows b (lineEvents (doubleQuotes t ++ '"' :: u))
            (σ.add '\n' .inQuoted) by
          simp [CsvReader.rows, CsvReader.step, CsvReader.add, bind, Except.bind], ih _ rfl]
        simp [CsvReader.add, hs]
      · rw [lineEvents_cons hn hne, rows_step (σ' := σ.add c .inQuoted)
          (by simp [CsvReader.step, hs, hc]), ih _ rfl]
        simp [CsvReader.add, hs]

/-- The reader after a field: one character ends it.  At the start of a row a line end is no field. -/
structure Done (b : Bool) (σ : CsvReader) (r : List Field) (start : Prop) : Prop where
  comma : σ.step b (some ',') = .ok ⟨.startField, false, [], r⟩
  line : ¬ start → ∀ c, c = '\n' ∨ c = '\r' → σ.step b (some c) = .ok ⟨.eatNewLine, false, [], r⟩

/-- A written field is read. -/
theorem rows_field {b : Bool} (t : Txt) (f : Field) (hf : convert b t = some f) (u : Txt)
    (hu : u ≠ []) (s : CsvState) (r : List Field) (hs : s = .startField ∨ s = .startRecord) :
    ∃ σ, Done b σ (r ++ [f]) (s = .startRecord ∧ t = [])
      ∧ CsvReader.rows b (lineEvents (writeField t ++ u)) ⟨s, false, [], r⟩
        = CsvReader.rows b (lineEvents u) σ := by
  unfold writeField
  by_cases hq : needsQuotes t = true
  · have hf' : f = .text t := by
      have : some (Field.text t) = some f := by simpa [convert, hq] using hf
      exact (Option.some.inj this).symm
    subst hf'
    rw [if_pos hq]
    refine ⟨⟨.quoteInQuoted, false, t, r⟩, ⟨rfl, ?_⟩, ?_⟩
    · rintro - c (rfl | rfl) <;> rfl
    · have e : ('"' :: doubleQuotes t ++ ['"']) ++ u = '"' :: (doubleQuotes t ++ '"' :: u) := by simp
      rw [e, lineEvents_cons (by decide) (by simp),
        rows_step (σ' := ⟨.inQuoted, false, [], r⟩), rows_inQuoted _ _ _ rfl,
        lineEvents_cons (by decide) hu, rows_step (σ' := ⟨.quoteInQuoted, false, t, r⟩)]
      · simp [CsvReader.step]
      · rcases hs with rfl | rfl <;> simp [CsvReader.step, CsvReader.first]
  · simp only [Bool.not_eq_true] at hq
    rw [if_neg (by simp [hq])]
    cases t with
    | nil =>
      have hf' : f = .text [] := by
        have : some (Field.text []) = some f := by simpa [convert] using hf
        exact (Option.some.inj this).symm
      subst hf'
      refine ⟨_, ⟨?_, ?_⟩, by rw [List.nil_append]⟩
      · rcases hs with rfl | rfl <;> rfl
      · rintro h c hc
        obtain rfl : s = .startField := hs.resolve_right fun h' => h ⟨h', rfl⟩
        rcases hc with rfl | rfl <;> rfl
    | cons c t =>
      simp only [needsQuotes, List.any_cons, Bool.or_eq_false_iff, beq_eq_false_iff_ne] at hq
      obtain ⟨⟨⟨⟨h1, h2⟩, h3⟩, h4⟩, h5⟩ := hq
      have hsave : ∀ s', CsvReader.save ⟨.inField, b, c :: t, r⟩ s' = .ok ⟨s', false, [], r ++ [f]⟩ := by
        intro s'
        cases b with
        | false =>
          have hf' : f = .text (c :: t) := by
            have : some (Field.text (c :: t)) = some f := by simpa [convert] using hf
            exact (Option.some.inj this).symm
          subst hf'
          rfl
        | true =>
          have hn : needsQuotes (c :: t) = false := by
            simp only [needsQuotes, List.any_cons, Bool.or_eq_false_iff, beq_eq_false_iff_ne]
            exact ⟨⟨⟨⟨h1, h2⟩, h3⟩, h4⟩, h5⟩
          simp only [convert, hn, ne_eq, reduceCtorEq, not_false_eq_true, and_self, if_true,
            Option.map_eq_some_iff] at hf
          obtain ⟨g, hg, rfl⟩ := hf
          simp [CsvReader.save, hg]
      refine ⟨⟨.inField, b, c :: t, r⟩, ⟨?_, ?_⟩, ?_⟩
      · simp [CsvReader.step, hsave]
      · rintro - d (rfl | rfl) <;> simp [CsvReader.step, hsave]
      · rw [List.cons_append, lineEvents_cons h4 (by simp [hu]),
          rows_step (σ' := ⟨.inField, b, [c], r⟩), rows_inField t h5 u hu _ rfl]
        · simp
        · rcases hs with rfl | rfl <;>
            simp [CsvReader.step, CsvReader.first, CsvReader.add, h1, h2, h3, h4]

theorem writeFields_ne {t : Txt} {r : List Txt} (h : t :: r ≠ [[]]) :
    writeFields (t :: r) ≠ [] := by
  cases r with
  | nil =>
    simp only [writeFields, writeField]
    split
    · simp
    · simpa using h
  | cons u r => simp [writeFields]

/-- Written fields are read. -/
theorem rows_fields {b : Bool} {eol : Txt} (he : LineEnd eol) (ts : List Txt) (hts : ts ≠ [])
    (fs : List Field) (hf : ts.mapM (convert b) = some fs) (u : Txt) (s : CsvState)
    (r : List Field) (hs : s = .startField ∨ s = .startRecord ∧ ts ≠ [[]]) :
    CsvReader.rows b (lineEvents (writeFields ts ++ (eol ++ u))) ⟨s, false, [], r⟩
      = (CsvReader.rows b (lineEvents u) .init).map fun rs => (r ++ fs) :: rs := by
  have hne : eol ++ u ≠ [] := by rcases he with rfl | rfl <;> simp
  induction ts generalizing fs s r with
  | nil => exact absurd rfl hts
  | cons t ts ih =>
    simp only [List.mapM_cons, bind, Option.bind, pure] at hf
    cases h1 : convert b t with
    | none => simp [h1] at hf
    | some f =>
      simp only [h1] at hf
      cases h2 : ts.mapM (convert b) with
      | none => simp [h2] at hf
      | some gs =>
        simp only [h2, Option.some.injEq] at hf
        subst hf
        have hs' : s = .startField ∨ s = .startRecord := hs.imp_right And.left
        cases ts with
        | nil =>
          have hg : gs = [] := by simpa [pure, eq_comm] using h2
          subst hg
          obtain ⟨σ, hd, e⟩ := rows_field t f h1 (eol ++ u) hne s r hs'
          rw [writeFields, e, rows_lineEnd he u (hd.line ?_) rfl]
          rintro ⟨h3, rfl⟩
          rcases hs with h | ⟨-, h⟩
          · rw [h3] at h; cases h
          · exact h rfl
        | cons t' ts =>
          obtain ⟨σ, hd, e⟩ := rows_field t f h1 (',' :: writeFields (t' :: ts) ++ (eol ++ u)) (by simp) s r
            hs'
          rw [writeFields, List.append_assoc, e, List.cons_append, lineEvents_cons (by decide)
            (by simp only [ne_eq, List.append_eq_nil_iff, not_and]; intro _; simpa using hne),
            rows_step hd.comma, ih (by simp) gs h2 _ _ (.inl rfl), List.append_assoc]
          · simp
          · simp

/-- Written rows are read, whatever comes after them. -/
theorem rows_prefix {b : Bool} {eol : Txt} (he : LineEnd eol) (rows : List (List Txt))
    (fss : List (List Field)) (hf : rows.mapM (fun r => r.mapM (convert b)) = some fss) (u : Txt) :
    csvRead b (csvWriteWith eol rows ++ u) = (csvRead b u).map fun rs => fss ++ rs := by
  unfold csvRead csvWriteWith
  induction rows generalizing fss with
  | nil =>
    obtain rfl : fss = [] := by simpa [pure, eq_comm] using hf
    simp only [List.map_nil, List.flatten_nil, List.nil_append]
    cases CsvReader.rows b (lineEvents u) .init <;> rfl
  | cons r rows ih =>
    simp only [List.mapM_cons, bind, Option.bind, pure] at hf
    cases h1 : r.mapM (convert b) with
    | none => simp [h1] at hf
    | some fs =>
      simp only [h1] at hf
      cases h2 : rows.mapM (fun r => r.mapM (convert b)) with
      | none => simp [h2] at hf
      | some gss =>
        simp only [h2, Option.some.injEq] at hf
        subst hf
        rw [List.map_cons, List.flatten_cons, writeRow, List.append_assoc, List.append_assoc]
        have hi := ih gss h2
        have hgoal : ∀ x : Except CsvErr (List (List Field)),
            x = (CsvReader.rows b (lineEvents ((rows.map (writeRow eol)).flatten ++ u)) .init).map
              (fun rs => fs :: rs) →
            x = (CsvReader.rows b (lineEvents u) .init).map fun rs => (fs :: gss) ++ rs := fun x hx => by
          rw [hx, hi]
          cases CsvReader.rows b (lineEvents u) .init <;> rfl
        refine hgoal _ ?_
        by_cases hr : r = [[]]
        · subst hr
          rw [if_pos rfl]
          have e : fs = [.text []] := by
            have : some [Field.text []] = some fs := by simpa [convert, pure] using h1
            exact (Option.some.inj this).symm
          subst e
          rw [List.cons_append, List.cons_append, List.nil_append, lineEvents_cons (by decide) (by simp),
            rows_step (σ' := ⟨.inQuoted, false, [], []⟩) rfl, lineEvents_cons (by decide)
              (by rcases he with rfl | rfl <;> simp),
            rows_step (σ' := ⟨.quoteInQuoted, false, [], []⟩) rfl,
            rows_lineEnd he _ (σ' := ⟨.eatNewLine, false, [], [.text []]⟩) ?_ rfl]
          rintro c (rfl | rfl) <;> rfl
        · rw [if_neg hr]
          cases r with
          | nil =>
            have e : fs = [] := by simpa [pure, eq_comm] using h1
            subst e
            rw [writeFields, List.nil_append,
              rows_lineEnd he _ (σ' := ⟨.eatNewLine, false, [], []⟩) ?_ rfl]
            rintro c (rfl | rfl) <;> rfl
          | cons t r =>
            have := rows_fields he (t :: r) (by simp) fs h1 ((rows.map (writeRow eol)).flatten ++ u)
              .startRecord [] (.inr ⟨rfl, hr⟩)
            rw [List.nil_append] at this
            exact this

/-- Written rows are read. -/
theorem rows_written {b : Bool} {eol : Txt} (he : LineEnd eol) (rows : List (List Txt))
    (fss : List (List Field)) (hf : rows.mapM (fun r => r.mapM (convert b)) = some fss) :
    csvRead b (csvWriteWith eol rows) = .ok fss := by
  have h := rows_prefix he rows fss hf []
  rw [List.append_nil] at h
  rw [h]
  simp [csvRead, lineEvents, CsvReader.rows, CsvReader.init, Except.map]

/-- Quotes that are not closed take the rest of the file. -/
theorem rows_open {b : Bool} (t : Txt) (ht : '"' ∉ t) (σ : CsvReader) (hs : σ.st = .inQuoted)
    (hn : σ.numeric = false) :
    CsvReader.rows b (lineEvents t) σ = .ok [σ.row ++ [.text (σ.field ++ t)]] := by
  induction t generalizing σ with
  | nil => simp [lineEvents, CsvReader.rows, hs, CsvReader.save, hn, Except.map]
  | cons c t ih =>
    have hc : c ≠ '"' := fun h => ht (by simp [h])
    have ht' : '"' ∉ t := fun h => ht (by simp [h])
    have hst : σ.step b (some c) = .ok (σ.add c .inQuoted) := by simp [CsvReader.step, hs, hc]
    have hnone : ∀ es, CsvReader.rows b (none :: es) (σ.add c .inQuoted)
        = CsvReader.rows b es (σ.add c .inQuoted) := fun es => by
      simp [CsvReader.rows, CsvReader.step, CsvReader.add, bind, Except.bind]
    have hih := ih ht' (σ.add c .inQuoted) rfl hn
    have e : (σ.add c .inQuoted).row ++ [Field.text ((σ.add c .inQuoted).field ++ t)]
        = σ.row ++ [.text (σ.field ++ c :: t)] := by simp [CsvReader.add]
    rw [e] at hih
    by_cases h : c = '\n' ∨ t = []
    · have : lineEvents (c :: t) = some c :: none :: lineEvents t := by
        rcases h with rfl | rfl
        · exact lineEvents_newLine
        · rfl
      rw [this, rows_step hst, hnone, hih]
    · push Not at h
      rw [lineEvents_cons h.1 h.2, rows_step hst, hih]

/-- A written field that is no number ends the reading. -/
theorem rows_field_error (t : Txt) (hf : convert true t = none) (d : Char) (hd : d = ',' ∨ d = '\n' ∨ d = '\r')
    (u : Txt) (s : CsvState) (r : List Field) (hs : s = .startField ∨ s = .startRecord) :
    CsvReader.rows true (lineEvents (writeField t ++ d :: u)) ⟨s, false, [], r⟩ = .error .notNumber := by
  have h : t ≠ [] ∧ needsQuotes t = false ∧ floatOf t = none := by
    unfold convert at hf
    split at hf
    · rename_i h; exact ⟨h.2.1, h.2.2, by simpa using hf⟩
    · cases hf
  obtain ⟨h0, hq, ht⟩ := h
  unfold writeField
  rw [if_neg (by simp [hq])]
  cases t with
  | nil => exact absurd rfl h0
  | cons c t =>
    simp only [needsQuotes, List.any_cons, Bool.or_eq_false_iff, beq_eq_false_iff_ne] at hq
    obtain ⟨⟨⟨⟨h1, h2⟩, h3⟩, h4⟩, h5⟩ := hq
    have hsave : ∀ s', CsvReader.save ⟨.inField, true, c :: t, r⟩ s' = .error .notNumber := fun s' => by
      simp [CsvReader.save, ht]
    rw [List.cons_append, lineEvents_cons h4 (by simp),
      rows_step (σ' := ⟨.inField, true, [c], r⟩), rows_inField t h5 _ (by simp) _ rfl]
    · obtain ⟨es, he⟩ : ∃ es, lineEvents (d :: u) = some d :: es := by
        cases u with
        | nil => exact ⟨_, rfl⟩
        | cons e u => simp only [lineEvents]; split <;> exact ⟨_, rfl⟩
      rw [he]
      have : CsvReader.step true ⟨.inField, true, [c] ++ t, r⟩ (some d) = .error .notNumber := by
        rcases hd with rfl | rfl | rfl <;> simp [CsvReader.step, hsave]
      simp only [CsvReader.rows, this, bind, Except.bind]
    · rcases hs with rfl | rfl <;>
        simp [CsvReader.step, CsvReader.first, CsvReader.add, h1, h2, h3, h4]

theorem rows_fields_error {eol : Txt} (he : LineEnd eol) (ts : List Txt)
    (hf : ts.mapM (convert true) = none) (u : Txt) (s : CsvState)
    (r : List Field) (hs : s = .startField ∨ s = .startRecord) :
    CsvReader.rows true (lineEvents (writeFields ts ++ (eol ++ u))) ⟨s, false, [], r⟩
      = .error .notNumber := by
  induction ts generalizing s r with
  | nil => cases hf
  | cons t ts ih =>
    simp only [List.mapM_cons, bind, Option.bind, pure] at hf
    cases h1 : convert true t with
    | none =>
      cases ts with
      | nil =>
        rw [writeFields]
        rcases he with rfl | rfl
        · exact rows_field_error t h1 _ (.inr (.inr rfl)) _ s r hs
        · exact rows_field_error t h1 _ (.inr (.inl rfl)) _ s r hs
      | cons t' ts =>
        rw [writeFields, List.append_assoc, List.cons_append]
        · exact rows_field_error t h1 _ (.inl rfl) _ s r hs
        · simp
    | some f =>
      simp only [h1] at hf
      cases h2 : ts.mapM (convert true) with
      | some gs => simp [h2] at hf
      | none =>
        cases ts with
        | nil => cases h2
        | cons t' ts =>
          obtain ⟨σ, hd, e⟩ := rows_field t f h1 (',' :: writeFields (t' :: ts) ++ (eol ++ u)) (by simp) s r
            hs
          rw [writeFields, List.append_assoc, e, List.cons_append, lineEvents_cons (by decide)
            (by rcases he with rfl | rfl <;> simp),
            rows_step hd.comma, ih h2 _ _ (.inl rfl)]
          simp

/-- A file with a field that is no number is refused. -/
theorem rows_written_error {eol : Txt} (he : LineEnd eol) (rows : List (List Txt))
    (hf : rows.mapM (fun r => r.mapM (convert true)) = none) :
    csvRead true (csvWriteWith eol rows) = .error .notNumber := by
  unfold csvRead csvWriteWith
  induction rows with
  | nil => cases hf
  | cons r rows ih =>
    simp only [List.mapM_cons, bind, Option.bind, pure] at hf
    rw [List.map_cons, List.flatten_cons, writeRow, List.append_assoc]
    cases h1 : r.mapM (convert true) with
    | none =>
      have hr : r ≠ [[]] := by rintro rfl; simp [convert, pure] at h1
      rw [if_neg hr]
      exact rows_fields_error he r h1 _ .startRecord [] (.inr rfl)
    | some fs =>
      simp only [h1] at hf
      cases h2 : rows.mapM (fun r => r.mapM (convert true)) with
      | some gss => simp [h2] at hf
      | none =>
        have hi := ih h2
        by_cases hr : r = [[]]
        · subst hr
          rw [if_pos rfl, List.cons_append, List.cons_append, List.nil_append,
            lineEvents_cons (by decide) (by simp),
            rows_step (σ' := ⟨.inQuoted, false, [], []⟩) rfl, lineEvents_cons (by decide)
              (by rcases he with rfl | rfl <;> simp),
            rows_step (σ' := ⟨.quoteInQuoted, false, [], []⟩) rfl,
            rows_lineEnd he _ (σ' := ⟨.eatNewLine, false, [], [.text []]⟩) ?_ rfl, hi]
          · rfl
          · rintro c (rfl | rfl) <;> rfl
        · rw [if_neg hr]
          cases r with
          | nil =>
            rw [writeFields, List.nil_append,
              rows_lineEnd he _ (σ' := ⟨.eatNewLine, false, [], []⟩) ?_ rfl, hi]
            · rfl
            · rintro c (rfl | rfl) <;> rfl
          | cons t r =>
            have := rows_fields he (t :: r) (by simp) fs h1 (rows.map (writeRow eol)).flatten .startRecord []
              (.inr ⟨rfl, hr⟩)
            rw [show CsvReader.init = ⟨.startRecord, false, [], []⟩ from rfl, this]
            rw [show CsvReader.init = ⟨.startRecord, false, [], []⟩ from rfl] at hi
            rw [show CsvReader.init = ⟨.startRecord, false, [], []⟩ from rfl, hi]
            rfl

/-! ## Line ends -/

theorem universal_cons {c : Char} (h : c ≠ '\r') (t : Txt) : universal (c :: t) = c :: universal t := by
  cases t with
  | nil => simp [universal, h]
  | cons d t => simp [universal, h]

theorem universal_append {t : Txt} (h : '\r' ∉ t) (u : Txt) :
    universal (t ++ u) = t ++ universal u := by
  induction t with
  | nil => rfl
  | cons c t ih =>
    simp only [List.mem_cons, not_or] at h
    rw [List.cons_append, universal_cons (fun e => h.1 e.symm), ih h.2, List.cons_append]

theorem doubleQuotes_no {t : Txt} (h : '\r' ∉ t) : '\r' ∉ doubleQuotes t := by
  induction t with
  | nil => simp [doubleQuotes]
  | cons c t ih =>
    simp only [List.mem_cons, not_or] at h
    unfold doubleQuotes
    split <;> simp [h.1, ih h.2]

theorem writeField_no {t : Txt} (h : '\r' ∉ t) : '\r' ∉ writeField t := by
  unfold writeField
  split
  · simp [doubleQuotes_no h]
  · exact h

theorem writeFields_no {r : List Txt} (h : ∀ t ∈ r, '\r' ∉ t) : '\r' ∉ writeFields r := by
  induction r with
  | nil => simp [writeFields]
  | cons t r ih =>
    simp only [List.mem_cons, forall_eq_or_imp] at h
    cases r with
    | nil => simpa [writeFields] using writeField_no h.1
    | cons u r => simp [writeFields, writeField_no h.1, ih h.2]

/-- Reading with universal line ends turns `\r\n` into `\n`. -/
theorem universal_written {rows : List (List Txt)} (h : ∀ r ∈ rows, ∀ t ∈ r, '\r' ∉ t) :
    universal (csvWrite rows) = csvWriteWith ['\n'] rows := by
  unfold csvWrite csvWriteWith
  induction rows with
  | nil => rfl
  | cons r rows ih =>
    simp only [List.mem_cons, forall_eq_or_imp] at h
    have h1 : '\r' ∉ (if r = [[]] then ['"', '"'] else writeFields r) := by
      split
      · decide
      · exact writeFields_no h.1
    rw [List.map_cons, List.flatten_cons, List.map_cons, List.flatten_cons, writeRow, writeRow,
      List.append_assoc, List.append_assoc, universal_append h1, ← ih h.2]
    simp [universal]

/-! ## Characters of numbers -/

/-- Characters of numbers. -/
def numChar (c : Char) : Bool := c.isDigit || c == '.' || c == '-' || c == '+' || c == 'e'

theorem takeWhile_holds (p : Char → Bool) (t : Txt) : ∀ c ∈ t.takeWhile p, p c = true :=
  List.all_eq_true.1 List.all_takeWhile

theorem numChar_digit {c : Char} (h : c.isDigit = true) : numChar c = true ∧ c ≠ 'e' :=
  ⟨by simp [numChar, h], by rintro rfl; exact absurd h (by decide)⟩

theorem readUnsigned_chars {t : Txt} {q : ℚ} (h : readUnsigned t = some q) :
    t ≠ [] ∧ ∀ c ∈ t, numChar c = true ∧ c ≠ 'e' := by
  have h1 := takeWhile_holds Char.isDigit t
  have h2 : t.takeWhile Char.isDigit ++ t.dropWhile Char.isDigit = t := List.takeWhile_append_dropWhile
  unfold readUnsigned at h
  split at h
  · cases h
  · rename_i heq hne
    constructor
    · rintro rfl
      exact hne (by simp)
    · rw [← h2, heq, List.append_nil]
      exact fun c hc => numChar_digit (h1 c hc)
  · rename_i f heq hne
    split at h
    · rename_i hf
      constructor
      · rintro rfl
        exact hne (by simp)
      · rw [← h2, heq]
        intro c hc
        rcases List.mem_append.1 hc with hc | hc
        · exact numChar_digit (h1 c hc)
        · rcases List.mem_cons.1 hc with rfl | hc
          · decide
          · exact numChar_digit (List.all_eq_true.1 hf c hc)
    · cases h
  · cases h

theorem readFloat_chars {t : Txt} {q : ℚ} (h : readFloat t = some (.fin q)) :
    t ≠ [] ∧ ∀ c ∈ t, numChar c = true ∧ c ≠ 'e' := by
  unfold readFloat at h
  split_ifs at h
  · cases h
  · cases h
  · cases h
  split at h
  · rename_i r _ _ _
    obtain ⟨q', hq, -⟩ := Option.map_eq_some_iff.1 h
    refine ⟨by simp, fun c hc => ?_⟩
    rcases List.mem_cons.1 hc with rfl | hc
    · decide
    · exact (readUnsigned_chars hq).2 c hc
  · obtain ⟨q', hq, -⟩ := Option.map_eq_some_iff.1 h
    exact readUnsigned_chars hq

/-! ### Notations -/

theorem numeral_digits {a : Txt} (ha : a ≠ []) (h : ∀ c ∈ a, c.isDigit = true) :
    Numeral a (Nat.ofDigitChars 10 a 0) a.length := by
  induction a using List.reverseRecOn with
  | nil => exact absurd rfl ha
  | append_singleton a c ih =>
    obtain ⟨d, hd, rfl⟩ := (digit_iff c).1 (h c (by simp))
    have e : ∀ k, Nat.ofDigitChars 10 [Nat.digitChar d] k = 10 * k + d := fun k => by
      rw [Nat.ofDigitChars_cons_digitChar_of_lt_ten hd, Nat.ofDigitChars_nil]
    by_cases h0 : a = []
    · subst h0
      simpa [e] using Numeral.one d hd
    · rw [Nat.ofDigitChars_append, e, List.length_append]
      exact .next d hd (ih h0 fun c hc => h c (by simp [hc]))

theorem mantissa_readUnsigned {t : Txt} {q : ℚ} (h : readUnsigned t = some q) : Mantissa t q := by
  have h1 := takeWhile_holds Char.isDigit t
  have h2 : t.takeWhile Char.isDigit ++ t.dropWhile Char.isDigit = t := List.takeWhile_append_dropWhile
  unfold readUnsigned at h
  split at h
  · cases h
  · rename_i heq hne
    rw [heq, List.append_nil] at h2
    cases h
    rw [h2] at h1 hne ⊢
    exact .whole (numeral_digits (fun e => hne e) h1)
  · rename_i f heq hne
    split at h
    · rename_i hf
      cases h
      rw [← h2, heq]
      have ha := numeral_digits (fun e => hne e) h1
      rw [show (t.takeWhile Char.isDigit ++ '.' :: f).takeWhile Char.isDigit = t.takeWhile Char.isDigit from by
        rw [← heq, h2]]
      by_cases h0 : f = []
      · subst h0
        simpa using Mantissa.point ha
      · exact .both ha (numeral_digits h0 (List.all_eq_true.1 hf))
    · cases h
  · cases h

/-- The notations of `format` and of integers. -/
theorem floatText_readFloat {t : Txt} {g : Gap} (h : readFloat t = some g) : FloatText t g := by
  have nb : Blanks [] := by simp [Blanks]
  refine ⟨[], t, [], nb, nb, by simp, ?_⟩
  unfold readFloat at h
  split_ifs at h with h1 h2 h3
  · cases h; subst h1; exact .none (.inf (.inl rfl))
  · cases h; subst h2; exact .minus (.inf (.inl rfl))
  · cases h; subst h3; exact .none (.nan rfl)
  · split at h
    · obtain ⟨q', hq, e⟩ := Option.map_eq_some_iff.1 h
      subst e
      exact .minus (g := .fin q') (.plain (mantissa_readUnsigned hq))
    · obtain ⟨q', hq, e⟩ := Option.map_eq_some_iff.1 h
      subst e
      exact .none (.plain (mantissa_readUnsigned hq))

theorem floatOf_readFloat {t : Txt} {g : Gap} (h : readFloat t = some g) :
    floatOf t = some (roundDouble g) := (floatOf_iff _ _).2 ⟨g, floatText_readFloat h, rfl⟩

/-- Neither a comma nor a quote. -/
def plainChar (c : Char) : Bool := c != ',' && c != '"'

theorem plain_digit {c : Char} (h : c.isDigit = true ∨ c = '_' ∨ c = '.') : plainChar c = true := by
  by_contra hc
  simp only [plainChar, Bool.and_eq_true, bne_iff_ne, not_and_or, not_not] at hc
  rcases hc with rfl | rfl <;> revert h <;> decide

theorem plain_lower {t w : Txt} (h : t.map Char.toLower = w) (hw : ',' ∉ w ∧ '"' ∉ w) :
    ∀ c ∈ t, plainChar c = true := by
  intro c hc
  by_contra hc'
  simp only [plainChar, Bool.and_eq_true, bne_iff_ne, not_and_or, not_not] at hc'
  subst h
  rcases hc' with rfl | rfl
  · exact hw.1 (List.mem_map.2 ⟨_, hc, by decide⟩)
  · exact hw.2 (List.mem_map.2 ⟨_, hc, by decide⟩)

theorem plain_signed {s : Txt} {z : ℤ} (h : SignedNumeral s z) : ∀ c ∈ s, plainChar c = true := by
  have key : ∀ {t : Txt} {v k : ℕ}, Numeral t v k → ∀ c ∈ t, plainChar c = true := fun h c hc =>
    plain_digit (((numeral_chars h).1 c hc).imp_right .inl)
  cases h with
  | none h => exact key h
  | plus h | minus h => exact fun c hc => (List.mem_cons.1 hc).elim (fun e => e ▸ by decide) (key h c)

theorem plain_body {t : Txt} {g : Gap} (h : FloatBody t g) : t ≠ [] ∧ ∀ c ∈ t, plainChar c = true := by
  have key : ∀ {m : Txt} {q : ℚ}, Mantissa m q → m ≠ [] ∧ ∀ c ∈ m, plainChar c = true := fun h => by
    obtain ⟨h1, ⟨c, u, rfl, -⟩, -⟩ := mantissa_chars h
    exact ⟨by simp, fun c hc => plain_digit (h1 c hc)⟩
  cases h with
  | plain h => exact key h
  | exp h hc h' =>
    refine ⟨by simp, fun c hc' => ?_⟩
    rcases List.mem_append.1 hc' with hc' | hc'
    · exact (key h).2 c hc'
    · rcases List.mem_cons.1 hc' with rfl | hc'
      · rcases hc with rfl | rfl <;> decide
      · exact plain_signed h' c hc'
  | inf h =>
    rcases h with h | h
    · exact ⟨by rintro rfl; exact absurd h (by decide), plain_lower h (by decide)⟩
    · exact ⟨by rintro rfl; exact absurd h (by decide), plain_lower h (by decide)⟩
  | nan h => exact ⟨by rintro rfl; exact absurd h (by decide), plain_lower h (by decide)⟩

/-- A number has no comma and no quote. -/
theorem floatText_chars {t : Txt} {g : Gap} (h : FloatText t g) : t ≠ [] ∧ ∀ c ∈ t, plainChar c = true := by
  obtain ⟨l, u, r, hl, hr, rfl, h⟩ := h
  have hu : u ≠ [] ∧ ∀ c ∈ u, plainChar c = true := by
    cases h with
    | none h => exact plain_body h
    | plus h | minus h =>
      exact ⟨by simp, fun c hc => (List.mem_cons.1 hc).elim (fun e => e ▸ by decide) ((plain_body h).2 c)⟩
  have hb : ∀ {l : Txt}, Blanks l → ∀ c ∈ l, plainChar c = true := fun hl c hc => by
    have := hl c hc
    revert this
    generalize c = d
    intro h
    simp only [List.mem_cons, List.not_mem_nil, or_false] at h
    rcases h with rfl | rfl | rfl | rfl | rfl | rfl | rfl | rfl | rfl | rfl <;> decide
  refine ⟨by simp [hu.1], fun c hc => ?_⟩
  rcases List.mem_append.1 hc with hc | hc
  · rcases List.mem_append.1 hc with hc | hc
    · exact hb hl c hc
    · exact hu.2 c hc
  · exact hb hr c hc

/-- A number without line ends is written without quotes. -/
theorem needsQuotes_number {t : Txt} {g : Gap} (h : floatOf t = some g) (h1 : '\r' ∉ t) (h2 : '\n' ∉ t) :
    t ≠ [] ∧ needsQuotes t = false := by
  obtain ⟨g', hg, -⟩ := (floatOf_iff _ _).1 h
  obtain ⟨h3, h4⟩ := floatText_chars hg
  refine ⟨h3, ?_⟩
  unfold needsQuotes
  rw [List.any_eq_false]
  intro c hc hc'
  simp only [Bool.or_eq_true, beq_iff_eq] at hc'
  rcases hc' with ((rfl | rfl) | rfl) | rfl
  · exact absurd (h4 _ hc) (by decide)
  · exact absurd (h4 _ hc) (by decide)
  · exact h1 hc
  · exact h2 hc

end Verif.Model
