import Verif.Model.OrLibText
import Verif.Lemmas.CsvText

/-!
# Reading words separated by spaces
-/

namespace Verif.Model
open Spec

/-- With the usual delimiter and quote character the reader is the one of the other files. -/
theorem rowsWith_comma (es : List (Option Char)) (σ : CsvReader) (h : σ.numeric = false) :
    CsvReader.rowsWith ',' '"' es σ = CsvReader.rows false es σ := by
  have hsave : ∀ (σ σ' : CsvReader) s, σ.save s = .ok σ' → σ'.numeric = false := fun σ σ' s hs => by
    unfold CsvReader.save at hs
    split at hs
    · split at hs
      · cases hs; rfl
      · cases hs
    · cases hs; rfl
  have hstep : ∀ (σ : CsvReader) e, σ.numeric = false → σ.stepWith ',' '"' e = σ.step false e := fun σ e h => by
    have hn : ({ σ with numeric := false } : CsvReader) = σ := by cases σ; simp_all
    have hf : σ.firstWith ',' '"' e = σ.first false e := by
      cases e with
      | none => rfl
      | some c => simp only [CsvReader.firstWith, CsvReader.first, hn]
    unfold CsvReader.stepWith CsvReader.step
    rw [hf]
    rfl
  have hnum : ∀ (σ σ' : CsvReader) e, σ.numeric = false → σ.step false e = .ok σ' → σ'.numeric = false := by
    intro σ σ' e h hs
    unfold CsvReader.step CsvReader.first CsvReader.add at hs
    repeat' split at hs
    all_goals first
      | exact hsave _ _ _ hs
      | (cases hs; first | exact h | rfl)
      | cases hs
  induction es generalizing σ with
  | nil => rfl
  | cons e es ih =>
    unfold CsvReader.rowsWith CsvReader.rows
    rw [hstep σ e h]
    cases hs : σ.step false e with
    | error err => rfl
    | ok σ' =>
      simp only [bind, Except.bind]
      rw [ih _ rfl, ih _ (hnum σ σ' e h hs)]

/-- Words with single spaces between them. -/
def spaced : List Txt → Txt
  | [] => []
  | [w] => w
  | w :: ws => w ++ ' ' :: spaced ws

/-- A word: no space, no quote character, no line end. -/
def PlainWord (w : Txt) : Prop := ∀ c ∈ w, c ≠ ' ' ∧ c ≠ '|' ∧ c ≠ '\n' ∧ c ≠ '\r'

theorem rowsWith_step {dl qc : Char} {σ σ' : CsvReader} {c : Char} {es : List (Option Char)}
    (h : σ.stepWith dl qc (some c) = .ok σ') :
    CsvReader.rowsWith dl qc (some c :: es) σ = CsvReader.rowsWith dl qc es σ' := by
  simp [CsvReader.rowsWith, h, bind, Except.bind]

/-- The reader inside or before a word. -/
structure AtWord (σ : CsvReader) (r : List Field) (w : Txt) : Prop where
  st : σ.st = .inField ∨ (σ.st = .startField ∨ σ.st = .startRecord) ∧ w = []
  numeric : σ.numeric = false
  field : σ.field = w
  row : σ.row = r

/-- The characters of a word. -/
theorem rowsWith_word (w : Txt) (hw : PlainWord w) (u : Txt) (hu : u ≠ []) (σ : CsvReader) (r : List Field)
    (v : Txt) (hσ : AtWord σ r v) :
    ∃ σ', AtWord σ' r (v ++ w) ∧ (σ'.st = .startRecord → σ.st = .startRecord ∧ w = [])
      ∧ CsvReader.rowsWith ' ' '|' (lineEvents (w ++ u)) σ
        = CsvReader.rowsWith ' ' '|' (lineEvents u) σ' := by
  induction w generalizing σ v with
  | nil => exact ⟨σ, by simpa using hσ, fun h => ⟨h, rfl⟩, rfl⟩
  | cons c w ih =>
    obtain ⟨h1, h2, h3, h4⟩ := hw c (by simp)
    have hstep : σ.stepWith ' ' '|' (some c) = .ok (σ.add c .inField) := by
      rcases hσ.st with hs | ⟨hs | hs, -⟩ <;>
        simp [CsvReader.stepWith, CsvReader.firstWith, hs, h1, h2, h3, h4]
    obtain ⟨σ', a, b, e⟩ := ih (fun c' hc' => hw c' (by simp [hc'])) (σ.add c .inField) (v ++ [c])
      ⟨.inl rfl, hσ.numeric, by simp [CsvReader.add, hσ.field], hσ.row⟩
    refine ⟨σ', by simpa using a, fun h => ?_, ?_⟩
    · have := (b h).1
      simp [CsvReader.add] at this
    · rw [List.cons_append, lineEvents_cons h3 (by simp [hu]), rowsWith_step hstep, e]

/-- The space after a word. -/
theorem AtWord.space {σ : CsvReader} {r : List Field} {w : Txt} (h : AtWord σ r w) :
    σ.stepWith ' ' '|' (some ' ') = .ok ⟨.startField, false, [], r ++ [.text w]⟩ := by
  rcases h.st with hs | ⟨hs | hs, -⟩ <;>
    simp [CsvReader.stepWith, CsvReader.firstWith, CsvReader.save, hs, h.numeric, h.field, h.row]

/-- The end of a line after a word. -/
theorem AtWord.lineEnd {σ : CsvReader} {r : List Field} {w : Txt} (h : AtWord σ r w)
    (hne : σ.st ≠ .startRecord) {eol : Txt} (he : LineEnd eol) (u : Txt) :
    CsvReader.rowsWith ' ' '|' (lineEvents (eol ++ u)) σ
      = (CsvReader.rowsWith ' ' '|' (lineEvents u) .init).map fun rs => (r ++ [.text w]) :: rs := by
  have h1 : ∀ c, c = '\n' ∨ c = '\r' →
      σ.stepWith ' ' '|' (some c) = .ok ⟨.eatNewLine, false, [], r ++ [.text w]⟩ := by
    rintro c hc
    rcases h.st with hs | ⟨hs | hs, -⟩
    · simp [CsvReader.stepWith, CsvReader.save, hs, hc, h.numeric, h.field, h.row]
    · simp [CsvReader.stepWith, CsvReader.firstWith, CsvReader.save, hs, hc, h.numeric, h.field, h.row]
    · exact absurd hs hne
  have key : CsvReader.rowsWith ' ' '|' (none :: lineEvents u) ⟨.eatNewLine, false, [], r ++ [.text w]⟩
      = (CsvReader.rowsWith ' ' '|' (lineEvents u) .init).map fun rs => (r ++ [.text w]) :: rs := by
    simp only [CsvReader.rowsWith, CsvReader.stepWith, bind, Except.bind, true_and, if_true, pure,
      Except.pure, Except.map]
  rcases he with rfl | rfl
  · rw [List.cons_append, lineEvents_cons (by decide) (by simp), rowsWith_step (h1 _ (.inr rfl)),
      List.cons_append, List.nil_append, lineEvents_newLine, rowsWith_step (c := '\n') rfl, key]
  · rw [List.cons_append, List.nil_append, lineEvents_newLine, rowsWith_step (h1 _ (.inl rfl)), key]

/-- The words of a line. -/
theorem rowsWith_words {eol : Txt} (he : LineEnd eol) (ws : List Txt) (hne : ws ≠ [])
    (hw : ∀ w ∈ ws, PlainWord w) (u : Txt) (s : CsvState) (r : List Field)
    (hs : s = .startField ∨ s = .startRecord ∧ ws ≠ [[]]) :
    CsvReader.rowsWith ' ' '|' (lineEvents (spaced ws ++ (eol ++ u))) ⟨s, false, [], r⟩
      = (CsvReader.rowsWith ' ' '|' (lineEvents u) .init).map fun rs => (r ++ ws.map .text) :: rs := by
  have hu : eol ++ u ≠ [] := by rcases he with rfl | rfl <;> simp
  induction ws generalizing s r with
  | nil => exact absurd rfl hne
  | cons w ws ih =>
    have h0 : AtWord ⟨s, false, [], r⟩ r [] := ⟨.inr ⟨hs.imp_right And.left, rfl⟩, rfl, rfl, rfl⟩
    cases ws with
    | nil =>
      obtain ⟨σ, a, b, e⟩ := rowsWith_word w (hw w (by simp)) (eol ++ u) hu _ r [] h0
      rw [spaced, e, a.lineEnd _ he u]
      · simp
      · intro h
        obtain ⟨h1, rfl⟩ := b h
        rcases hs with h2 | ⟨-, h2⟩
        · exact absurd (h1.symm.trans h2) (by decide)
        · exact h2 rfl
    | cons w' ws =>
      obtain ⟨σ, a, b, e⟩ := rowsWith_word w (hw w (by simp)) (' ' :: spaced (w' :: ws) ++ (eol ++ u))
        (by simp) _ r [] h0
      rw [spaced, List.append_assoc, e, List.cons_append, lineEvents_cons (by decide)
        (by simp only [ne_eq, List.append_eq_nil_iff, not_and]; intro _; simpa using hu),
        rowsWith_step a.space, ih (by simp) (fun w hw' => hw w (by simp [hw'])) _ _ (.inl rfl)]
      · simp
      · simp

/-- Lines of words with single spaces between them. -/
def orText (eol : Txt) (rows : List (List Txt)) : Txt := (rows.map fun r => spaced r ++ eol).flatten

/-- Lines are read as their words. -/
theorem rowsWith_lines {eol : Txt} (he : LineEnd eol) (rows : List (List Txt))
    (hw : ∀ r ∈ rows, r ≠ [[]] ∧ ∀ w ∈ r, PlainWord w) (u : Txt) :
    CsvReader.rowsWith ' ' '|' (lineEvents (orText eol rows ++ u)) .init
      = (CsvReader.rowsWith ' ' '|' (lineEvents u) .init).map
        fun rs => rows.map (fun r => r.map .text) ++ rs := by
  induction rows with
  | nil =>
    simp only [orText, List.map_nil, List.flatten_nil, List.nil_append]
    cases CsvReader.rowsWith ' ' '|' (lineEvents u) .init <;> rfl
  | cons r rows ih =>
    have ih := ih fun r hr => hw r (by simp [hr])
    obtain ⟨h1, h2⟩ := hw r (by simp)
    have e : orText eol (r :: rows) ++ u = spaced r ++ (eol ++ (orText eol rows ++ u)) := by
      simp [orText]
    have goal : ∀ x, x = (CsvReader.rowsWith ' ' '|' (lineEvents (orText eol rows ++ u)) .init).map
        (fun rs => r.map Field.text :: rs) → x = (CsvReader.rowsWith ' ' '|' (lineEvents u) .init).map
        fun rs => (r :: rows).map (fun r => r.map Field.text) ++ rs := fun x hx => by
      rw [hx, ih]
      cases CsvReader.rowsWith ' ' '|' (lineEvents u) .init <;> rfl
    rw [e]
    refine goal _ ?_
    cases r with
    | nil =>
      have key : CsvReader.rowsWith ' ' '|' (none :: lineEvents (orText eol rows ++ u))
          ⟨.eatNewLine, false, [], []⟩
          = (CsvReader.rowsWith ' ' '|' (lineEvents (orText eol rows ++ u)) .init).map
            fun rs => [] :: rs := by
        simp only [CsvReader.rowsWith, CsvReader.stepWith, bind, Except.bind, true_and, if_true, pure,
          Except.pure, Except.map]
      rw [spaced, List.nil_append]
      rcases he with rfl | rfl
      · rw [List.cons_append, lineEvents_cons (by decide) (by simp),
          rowsWith_step (σ' := ⟨.eatNewLine, false, [], []⟩) rfl,
          List.cons_append, List.nil_append, lineEvents_newLine, rowsWith_step (c := '\n') rfl, key]
        rfl
      · rw [List.cons_append, List.nil_append, lineEvents_newLine,
          rowsWith_step (σ' := ⟨.eatNewLine, false, [], []⟩) rfl, key]
        rfl
    | cons w ws =>
      have := rowsWith_words he (w :: ws) (by simp) h2 (orText eol rows ++ u) .startRecord []
        (.inr ⟨rfl, h1⟩)
      rw [List.nil_append] at this
      exact this

/-! ## The last line without line end -/

theorem lineEvents_line {t : Txt} (ht : t ≠ []) (hn : '\n' ∉ t) : lineEvents t = t.map some ++ [none] := by
  induction t with
  | nil => exact absurd rfl ht
  | cons c t ih =>
    cases t with
    | nil => rfl
    | cons d t =>
      have hc : c ≠ '\n' := fun h => hn (by simp [h])
      rw [lineEvents_cons hc (by simp), ih (by simp) fun h => hn (by simp_all)]
      rfl

theorem rowsWith_chars (w : Txt) (hw : PlainWord w) (es : List (Option Char)) (σ : CsvReader)
    (r : List Field) (v : Txt) (hσ : AtWord σ r v) :
    ∃ σ', AtWord σ' r (v ++ w) ∧ (σ'.st = .startRecord → σ.st = .startRecord ∧ w = [])
      ∧ CsvReader.rowsWith ' ' '|' (w.map some ++ es) σ = CsvReader.rowsWith ' ' '|' es σ' := by
  induction w generalizing σ v with
  | nil => exact ⟨σ, by simpa using hσ, fun h => ⟨h, rfl⟩, rfl⟩
  | cons c w ih =>
    obtain ⟨h1, h2, h3, h4⟩ := hw c (by simp)
    have hstep : σ.stepWith ' ' '|' (some c) = .ok (σ.add c .inField) := by
      rcases hσ.st with hs | ⟨hs | hs, -⟩ <;>
        simp [CsvReader.stepWith, CsvReader.firstWith, hs, h1, h2, h3, h4]
    obtain ⟨σ', a, b, e⟩ := ih (fun c' hc' => hw c' (by simp [hc'])) (σ.add c .inField) (v ++ [c])
      ⟨.inl rfl, hσ.numeric, by simp [CsvReader.add, hσ.field], hσ.row⟩
    refine ⟨σ', by simpa using a, fun h => ?_, ?_⟩
    · have := (b h).1
      simp [CsvReader.add] at this
    · rw [List.map_cons, List.cons_append, rowsWith_step hstep, e]

theorem rowsWith_lastWords (ws : List Txt) (hne : ws ≠ []) (hw : ∀ w ∈ ws, PlainWord w) (s : CsvState)
    (r : List Field) (hs : s = .startField ∨ s = .startRecord ∧ ws ≠ [[]]) :
    CsvReader.rowsWith ' ' '|' ((spaced ws).map some ++ [none]) ⟨s, false, [], r⟩
      = .ok [r ++ ws.map .text] := by
  induction ws generalizing s r with
  | nil => exact absurd rfl hne
  | cons w ws ih =>
    have h0 : AtWord ⟨s, false, [], r⟩ r [] := ⟨.inr ⟨hs.imp_right And.left, rfl⟩, rfl, rfl, rfl⟩
    cases ws with
    | nil =>
      obtain ⟨σ, a, b, e⟩ := rowsWith_chars w (hw w (by simp)) [none] _ r [] h0
      have hst : σ.st ≠ .startRecord := fun h => by
        obtain ⟨h1, rfl⟩ := b h
        rcases hs with h2 | ⟨-, h2⟩
        · exact absurd (h1.symm.trans h2) (by decide)
        · exact h2 rfl
      have hstep : σ.stepWith ' ' '|' none = .ok ⟨.startRecord, false, [], r ++ [.text w]⟩ := by
        have hf : σ.field = w := by simpa using a.field
        rcases a.st with h | ⟨h | h, -⟩
        · simp [CsvReader.stepWith, CsvReader.save, h, a.numeric, hf, a.row]
        · simp [CsvReader.stepWith, CsvReader.firstWith, CsvReader.save, h, a.numeric, hf, a.row]
        · exact absurd h hst
      rw [spaced, e]
      simp [CsvReader.rowsWith, hstep, bind, Except.bind, pure, Except.pure, CsvReader.init]
    | cons w' ws =>
      obtain ⟨σ, a, b, e⟩ := rowsWith_chars w (hw w (by simp))
        (some ' ' :: ((spaced (w' :: ws)).map some ++ [none])) _ r [] h0
      have e2 : (spaced (w :: w' :: ws)).map some ++ [none]
          = w.map some ++ (some ' ' :: ((spaced (w' :: ws)).map some ++ [none])) := by
        simp [spaced]
      rw [e2, e, rowsWith_step a.space, ih (by simp) (fun w hw' => hw w (by simp [hw'])) _ _ (.inl rfl)]
      simp

theorem spaced_ne {ws : List Txt} (h1 : ws ≠ []) (h2 : ws ≠ [[]]) : spaced ws ≠ [] := by
  match ws with
  | [] => exact absurd rfl h1
  | [w] => simpa [spaced] using h2
  | w :: w' :: ws => simp [spaced]

theorem spaced_no {ws : List Txt} (hw : ∀ w ∈ ws, PlainWord w) : '\n' ∉ spaced ws := by
  induction ws with
  | nil => simp [spaced]
  | cons w ws ih =>
    have h1 : '\n' ∉ w := fun h => (hw w (by simp) _ h).2.2.1 rfl
    cases ws with
    | nil => simpa [spaced] using h1
    | cons w' ws =>
      have := ih fun w hw' => hw w (by simp [hw'])
      simp [spaced, h1, this]

/-- A file of lines, with or without line end after the last one. -/
theorem rowsWith_file {eol : Txt} (he : LineEnd eol) (rows : List (List Txt)) (last : List Txt)
    (hw : ∀ r ∈ rows ++ [last], r ≠ [[]] ∧ ∀ w ∈ r, PlainWord w) :
    CsvReader.rowsWith ' ' '|' (lineEvents (orText eol rows ++ spaced last)) .init
      = .ok ((rows ++ if last = [] then [] else [last]).map fun r => r.map .text) := by
  rw [rowsWith_lines he rows fun r hr => hw r (by simp [hr])]
  by_cases hl : last = []
  · subst hl
    simp [spaced, lineEvents, CsvReader.rowsWith, CsvReader.init, Except.map]
  · obtain ⟨h1, h2⟩ := hw last (by simp)
    rw [lineEvents_line (spaced_ne hl h1) (spaced_no h2), CsvReader.init,
      rowsWith_lastWords last hl h2 _ _ (.inr ⟨rfl, h1⟩)]
    simp [Except.map, hl]

end Verif.Model
