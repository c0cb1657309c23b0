import Verif.Model.FloatFiles

/-!
# Model of reading an OR-library file in instance-generator.py

`csv.reader` of CPython 3.11 with delimiter and quote character as parameters, all fields as texts, and
the generator on the text of its input.
-/

namespace Verif.Model

/-- The first character of a field; `none` is the end of the line
(data/cc-instances/knapsack/instance-generator.py:19-21). -/
def CsvReader.firstWith (dl qc : Char) (σ : CsvReader) : Option Char → Except CsvErr CsvReader
  | none => σ.save .startRecord
  | some c =>
    if c = '\n' ∨ c = '\r' then σ.save .eatNewLine
    else if c = qc then .ok { σ with st := .inQuoted }
    else if c = dl then σ.save .startField
    else .ok (σ.add c .inField)

/-- The next character, or `none` at the end of a line
(data/cc-instances/knapsack/instance-generator.py:19-21). -/
def CsvReader.stepWith (dl qc : Char) (σ : CsvReader) (e : Option Char) : Except CsvErr CsvReader :=
  match σ.st with
  | .startRecord =>
    match e with
    | none => .ok σ
    | some c =>
      if c = '\n' ∨ c = '\r' then .ok { σ with st := .eatNewLine } else σ.firstWith dl qc e
  | .startField => σ.firstWith dl qc e
  | .inField =>
    match e with
    | none => σ.save .startRecord
    | some c =>
      if c = '\n' ∨ c = '\r' then σ.save .eatNewLine
      else if c = dl then σ.save .startField
      else .ok (σ.add c .inField)
  | .inQuoted =>
    match e with
    | none => .ok σ
    | some c => if c = qc then .ok { σ with st := .quoteInQuoted } else .ok (σ.add c .inQuoted)
  | .quoteInQuoted =>
    match e with
    | none => σ.save .startRecord
    | some c =>
      if c = qc then .ok (σ.add c .inQuoted)
      else if c = dl then σ.save .startField
      else if c = '\n' ∨ c = '\r' then σ.save .eatNewLine
      else .ok (σ.add c .inField)
  | .eatNewLine =>
    match e with
    | none => .ok { σ with st := .startRecord }
    | some c => if c = '\n' ∨ c = '\r' then .ok σ else .error .newLine

/-- The rows (data/cc-instances/knapsack/instance-generator.py:19-21). -/
def CsvReader.rowsWith (dl qc : Char) :
    List (Option Char) → CsvReader → Except CsvErr (List (List Field))
  | [], σ =>
    if σ.field ≠ [] ∨ σ.st = .inQuoted then (σ.save .startRecord).map fun σ' => [σ'.row] else .ok []
  | e :: es, σ => do
    let σ' ← σ.stepWith dl qc e
    if e = none ∧ σ'.st = .startRecord then
      let rs ← CsvReader.rowsWith dl qc es .init
      pure (σ'.row :: rs)
    else CsvReader.rowsWith dl qc es σ'

/-- `completeFile` (data/cc-instances/knapsack/instance-generator.py:18-21): delimiter `' '`, quote
character `'|'`; with `newline='\n'` a line ends with `\n` only. -/
def orRead (t : Txt) : Except FileErr (List (List Txt)) :=
  match CsvReader.rowsWith ' ' '|' (lineEvents t) .init with
  | .error e => .error (.csv e)
  | .ok rows => .ok (rows.map fun r => r.map fieldText)

/-- A row of `completeFile` (data/cc-instances/knapsack/instance-generator.py:24-29). -/
def wordRow (rows : List (List Txt)) (k : ℕ) : Except FileErr (List Txt) :=
  match rows[k]? with
  | some r => .ok r
  | none => .error (.py .indexError)

/-- An entry of `np.array(completeFile[0][0:2]).astype(int)`
(data/cc-instances/knapsack/instance-generator.py:24-26), where numpy reads each text like `int`.
Simplification, as in `sizeAt`: a negative size raises `ValueError` here. -/
def wordSize (r : List Txt) (k : ℕ) : Except FileErr ℕ :=
  if ∃ w ∈ r.take 2, intOf w = none then .error (.py .valueError)
  else match r[k]? with
    | none => .error (.py .indexError)
    | some w =>
      match intOf w with
      | some z => if 0 ≤ z then .ok z.toNat else .error (.py .valueError)
      | none => .error (.py .valueError)

/-- `np.array(row).astype(float)` (data/cc-instances/knapsack/instance-generator.py:27-29), where numpy
reads each text like `float`. -/
def wordNumbers (r : List Txt) : Except FileErr (List Gap) :=
  match r.mapM floatOf with
  | some l => .ok l
  | none => .error (.py .valueError)

/-- The finite numbers of a row (data/cc-instances/knapsack/instance-generator.py:27-29). -/
def finiteRow (r : List Gap) : Option (List ℚ) :=
  r.mapM fun
    | .fin q => some q
    | _ => none

/-- The generator on the text of an OR-library file: the names and the rows of the files written, in double
precision (data/cc-instances/knapsack/instance-generator.py:15-72).  Rows of unequal lengths raise
`ValueError`, a missing row or a row shorter than the number of items raises `IndexError`.  What happens
with infinite numbers and `nan` is not modelled (`FileErr.other`). -/
def textGenerate (t : Txt) (N K : ℕ) (d : Draws) : Except FileErr (List (Txt × List (List ℚ))) := do
  let file ← orRead t
  let info ← wordRow file 0
  let n ← wordSize info 0
  let m ← wordSize info 1
  let c ← wordNumbers (← wordRow file 1)
  let rows := (file.drop 2).take m
  if ¬ (∀ r ∈ rows, r.length = (rows.headD []).length) then throw (.py .valueError)
  let A ← rows.mapM wordNumbers
  let b ← wordNumbers (← wordRow file (2 + m))
  if 0 < K ∧ 0 < m ∧ (rows.headD []).length < n then throw (.py .indexError)
  match finiteRow c, A.mapM finiteRow, finiteRow b with
  | some c, some _, some b =>
    pure ((List.range' 1 K).map fun k => (genName n m N k, flGenRows n m N c b d k))
  | _, _, _ => throw .other

end Verif.Model
