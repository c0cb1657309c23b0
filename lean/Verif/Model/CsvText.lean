import Verif.Model.PyNumber

/-!
# Model of the text of csv files

`csv.writer` and `csv.reader` of CPython 3.11 (Modules/_csv.c) on the characters of a file, with the
dialects that the code uses: delimiter `,`, quote character `"`, line terminator `\r\n`; the writer
quotes as little as possible, the reader takes all fields as texts or converts those without quotes to
`float` (`csv.QUOTE_NONNUMERIC`).  The limit of 131072 characters per field is left out.
-/

namespace Verif.Model

/-- A field as the reader returns it (src/instance/ChanceInstance.py:25-27,
src/export/format_results.py:7-8). -/
inductive Field
  | text (t : Txt)
  | num (g : Gap)
  deriving DecidableEq

/-- Exceptions of the reader: `csv.Error` for a line break inside a record, `ValueError` for a field
that is no number (src/instance/ChanceInstance.py:27). -/
inductive CsvErr
  | newLine
  | notNumber
  deriving DecidableEq

/-- Exceptions of the functions that read csv files (src/instance/ChanceKnapInstance.py:9-14,
src/export/format_results.py:18-31): of the csv reader, of the code, and others that are not modelled:
those of numpy on texts, `inf` and `nan`, and `StopIteration` for an empty result file. -/
inductive FileErr
  | csv (e : CsvErr)
  | py (e : PyErr)
  | other

/-! ## Writer -/

/-- Does `csv.writer` put the text in quotes?  (`QUOTE_MINIMAL`, src/solver/MilpSolver.py:81,
data/cc-instances/knapsack/instance-generator.py:67) -/
def needsQuotes (t : Txt) : Bool :=
  t.any fun c => c == ',' || c == '"' || c == '\r' || c == '\n'

/-- A quote in the text is written twice (`doublequote`, src/solver/MilpSolver.py:81). -/
def doubleQuotes : Txt → Txt
  | [] => []
  | c :: t => if c = '"' then c :: c :: doubleQuotes t else c :: doubleQuotes t

/-- One field (src/solver/MilpSolver.py:82). -/
def writeField (t : Txt) : Txt :=
  if needsQuotes t then '"' :: doubleQuotes t ++ ['"'] else t

/-- Fields with commas between them (src/solver/MilpSolver.py:82). -/
def writeFields : List Txt → Txt
  | [] => []
  | [t] => writeField t
  | t :: r => writeField t ++ ',' :: writeFields r

/-- `writerow` (src/solver/MilpSolver.py:82,
data/cc-instances/knapsack/instance-generator.py:68-72) with line end `eol`; a single empty field is
quoted. -/
def writeRow (eol : Txt) (r : List Txt) : Txt :=
  (if r = [[]] then ['"', '"'] else writeFields r) ++ eol

/-- The text of a file written with `csv.writer`; with `newline='\n'` the line ends are written as they
are (src/solver/MilpSolver.py:80-82, src/solver/AdaptivePartitioner.py:358-367,
src/export/format_results.py:13-15, data/cc-instances/knapsack/instance-generator.py:66-72). -/
def csvWriteWith (eol : Txt) (rows : List (List Txt)) : Txt := (rows.map (writeRow eol)).flatten

/-- Line end of `csv.writer` (src/solver/MilpSolver.py:81). -/
def csvWrite (rows : List (List Txt)) : Txt := csvWriteWith ['\r', '\n'] rows

/-! ## Reader -/

/-- States of the reader (src/instance/ChanceInstance.py:25-28). -/
inductive CsvState
  | startRecord
  | startField
  | inField
  | inQuoted
  | quoteInQuoted
  | eatNewLine
  deriving DecidableEq

/-- The reader object (src/instance/ChanceInstance.py:25-28): state, whether the field will be converted,
characters of the field and fields of the row read so far. -/
structure CsvReader where
  st : CsvState
  numeric : Bool
  field : Txt
  row : List Field
  deriving DecidableEq

/-- The reader at the start of a row (src/instance/ChanceInstance.py:25-28). -/
def CsvReader.init : CsvReader := ⟨.startRecord, false, [], []⟩

/-- The end of a field (src/instance/ChanceInstance.py:25-28); the next state is `s`. -/
def CsvReader.save (σ : CsvReader) (s : CsvState) : Except CsvErr CsvReader :=
  if σ.numeric then
    match floatOf σ.field with
    | some g => .ok ⟨s, false, [], σ.row ++ [.num g]⟩
    | none => .error .notNumber
  else .ok ⟨s, false, [], σ.row ++ [.text σ.field]⟩

/-- A further character of the field (src/instance/ChanceInstance.py:25-28). -/
def CsvReader.add (σ : CsvReader) (c : Char) (s : CsvState) : CsvReader :=
  { σ with st := s, field := σ.field ++ [c] }

/-- The first character of a field; `none` is the end of the line
(src/instance/ChanceInstance.py:25-28).  `nonnumeric` stands for `quoting=csv.QUOTE_NONNUMERIC`. -/
def CsvReader.first (nonnumeric : Bool) (σ : CsvReader) : Option Char → Except CsvErr CsvReader
  | none => σ.save .startRecord
  | some c =>
    if c = '\n' ∨ c = '\r' then σ.save .eatNewLine
    else if c = '"' then .ok { σ with st := .inQuoted }
    else if c = ',' then σ.save .startField
    else .ok ({ σ with numeric := nonnumeric }.add c .inField)

/-- The next character, or `none` at the end of a line (src/instance/ChanceInstance.py:25-28,
src/export/format_results.py:7-8). -/
def CsvReader.step (nonnumeric : Bool) (σ : CsvReader) (e : Option Char) :
    Except CsvErr CsvReader :=
  match σ.st with
  | .startRecord =>
    match e with
    | none => .ok σ
    | some c =>
      if c = '\n' ∨ c = '\r' then .ok { σ with st := .eatNewLine } else σ.first nonnumeric e
  | .startField => σ.first nonnumeric e
  | .inField =>
    match e with
    | none => σ.save .startRecord
    | some c =>
      if c = '\n' ∨ c = '\r' then σ.save .eatNewLine
      else if c = ',' then σ.save .startField
      else .ok (σ.add c .inField)
  | .inQuoted =>
    match e with
    | none => .ok σ
    | some c => if c = '"' then .ok { σ with st := .quoteInQuoted } else .ok (σ.add c .inQuoted)
  | .quoteInQuoted =>
    match e with
    | none => σ.save .startRecord
    | some c =>
      if c = '"' then .ok (σ.add c .inQuoted)
      else if c = ',' then σ.save .startField
      else if c = '\n' ∨ c = '\r' then σ.save .eatNewLine
      else .ok (σ.add c .inField)
  | .eatNewLine =>
    match e with
    | none => .ok { σ with st := .startRecord }
    | some c => if c = '\n' ∨ c = '\r' then .ok σ else .error .newLine

/-- What the reader is given: the characters of the lines, `none` at the end of each line
(the iteration over the file, src/instance/ChanceInstance.py:24-28: with `newline='\n'` a line ends with
`\n` only). -/
def lineEvents : Txt → List (Option Char)
  | [] => []
  | [c] => [some c, none]
  | c :: d :: t =>
    if c = '\n' then some c :: none :: lineEvents (d :: t) else some c :: lineEvents (d :: t)

/-- The rows (src/instance/ChanceInstance.py:28): a row ends with the line, unless the line ends in
quotes; what is left at the end of the file is one more row. -/
def CsvReader.rows (nonnumeric : Bool) :
    List (Option Char) → CsvReader → Except CsvErr (List (List Field))
  | [], σ =>
    if σ.field ≠ [] ∨ σ.st = .inQuoted then (σ.save .startRecord).map fun σ' => [σ'.row] else .ok []
  | e :: es, σ => do
    let σ' ← σ.step nonnumeric e
    if e = none ∧ σ'.st = .startRecord then
      let rs ← CsvReader.rows nonnumeric es .init
      pure (σ'.row :: rs)
    else CsvReader.rows nonnumeric es σ'

/-- `[row for row in csv.reader(file)]` (src/instance/ChanceInstance.py:24-28,
src/export/format_results.py:6-9). -/
def csvRead (nonnumeric : Bool) (t : Txt) : Except CsvErr (List (List Field)) :=
  CsvReader.rows nonnumeric (lineEvents t) .init

/-- `open(file, 'r')` without `newline`: every line end is read as `\n`
(src/export/format_results.py:6). -/
def universal : Txt → Txt
  | [] => []
  | [c] => if c = '\r' then ['\n'] else [c]
  | c :: d :: t =>
    if c = '\r' then (if d = '\n' then '\n' :: universal t else '\n' :: universal (d :: t))
    else c :: universal (d :: t)

/-- A field that is a text (src/export/format_results.py:8). -/
def fieldText : Field → Txt
  | .text t => t
  | .num _ => []

/-- `read_table` on the text of the file (src/export/format_results.py:5-9): the first row.
Simplification: an error in a later row is raised too. -/
def readTable (t : Txt) : Except FileErr (List Txt) :=
  match csvRead false (universal t) with
  | .error e => .error (.csv e)
  | .ok [] => .error .other
  | .ok (r :: _) => .ok (r.map fieldText)

/-- `read_single_experiment` on the text of an existing file (src/export/format_results.py:18-31), on
doubles. -/
def textExperiment (t : Txt) : Except FileErr (List Val) :=
  match readTable t with
  | .error e => .error e
  | .ok [] => .error (.py .indexError)
  | .ok (c :: cs) =>
    match cs.mapM floatOf with
    | some l => .ok (.str c :: l.map .num)
    | none => .error (.py .valueError)

end Verif.Model
