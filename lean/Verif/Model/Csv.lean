import Verif.Model.Catalogue
/-!
# The catalogue file (/repo/src/dispersion/catalogue.py 110-114 and 211-215)

`save_to_file` calls `DataFrame.to_csv` and `Catalogue.__init__` calls `pd.read_csv`. Modelled at
the level of characters are: the quoting of `csv.writer` with `QUOTE_MINIMAL`, `,` as delimiter
and `\n` as line end, the state machine of the C parser of pandas with its defaults (blank lines
are skipped, short lines are filled with empty fields, long lines are errors), and the conversion
of the columns with `dtype=META_DATA`, `na_values=NA_VALUES` and `keep_default_na=False`.
Not modelled: errors of the operating system, the encoding (UTF-8 in both directions), lines that
begin with a blank after a single carriage return (pandas goes back to the last `\n` then), files
whose header is not the one that `save_to_file` writes, and files whose first line of data has
more fields than the header (pandas uses the first column as labels then).
-/

namespace Disp

variable {F : Type} [PyFloat F]

/-- What the library functions do with cells: the text of a number and of other objects, the
number for a text, and whether `csv.writer` puts fields with a carriage return in quotes (from
Python 3.13 on, with `\n` as line end). -/
class CsvIO (F : Type) where
  num : F → List Char
  parse : List Char → Res F
  dictText : List (String × String) → List Char
  arrayText : List F → List Char
  quotesCr : Bool

variable [CsvIO F]

/-- catalogue.py 80-93: the names of the columns. -/
def csvColumns : List (List Char) :=
  ["Alias", "Name", "FullName", "Author", "Comment", "Reference", "SpectrumType", "Unit",
    "SpectrumLowerBound", "SpectrumUpperBound", "N_Reference", "K_Reference", "Path",
    "Module"].map String.toList

/-! ## Writing -/

/-- `csv.writer`: does a field need quotes? -/
def needsQuotes (cr : Bool) (s : List Char) : Bool :=
  s.any (fun c => c = ',' || c = '"' || c = '\n' || (cr && c = '\r'))

/-- `csv.writer` with `doublequote=True`: quotes are doubled. -/
def doubled (s : List Char) : List Char := s.flatMap (fun c => if c = '"' then ['"', '"'] else [c])

/-- `csv.writer`: a field. -/
def csvField (cr : Bool) (s : List Char) : List Char :=
  if needsQuotes cr s then '"' :: (doubled s ++ ['"']) else s

/-- `csv.writer.writerow` for lines with two or more fields. -/
def csvLine (cr : Bool) : List (List Char) → List Char
  | [] => ['\n']
  | [s] => csvField cr s ++ ['\n']
  | s :: t => csvField cr s ++ ',' :: csvLine cr t

/-- The text of a number; missing numbers are empty (`na_rep`). -/
def numText (F : Type) [PyFloat F] [CsvIO F] (x : F) : List Char :=
  if PyFloat.isNaN x then [] else CsvIO.num x

/-- The text of a cell. -/
def Cell.text (F : Type) [CsvIO F] : Cell → List Char
  | .nan => []
  | .str s => s.toList
  | .dict d => CsvIO.dictText F d

/-- The text of a cell with a number or an array. -/
def Vals.text : Vals F → List Char
  | .scalar x => numText F x
  | .array _ xs => CsvIO.arrayText xs

/-- The fields of a row. -/
def Row.fields (r : Row F) : List (List Char) :=
  [r.al.text F, r.name.text F, r.fullName.text F, r.author.text F, r.comment.text F,
    r.reference.text F, r.stype.text F, r.unit.text F, numText F r.lower, numText F r.upper,
    r.nRef.text, r.kRef.text, r.path.text F, r.modl.text F]

/-- catalogue.py 211-215 `save_to_file`: the content of the file. The labels are not written. -/
def csvText (f : Frame F) : List Char :=
  (csvColumns :: f.map (fun p => p.2.fields)).flatMap (csvLine (CsvIO.quotesCr F))

/-! ## Reading -/

/-- The states of the parser. `blank` is `WHITESPACE_LINE`, `cr` is `EAT_CRNL`, `crNop` is
`EAT_CRNL_NOP`. -/
inductive CsvState
  | record | field | inField | quoted | quoteInQuoted | blank | cr | crNop
  deriving DecidableEq

/-- The parser: its state, the field that is being read, the fields of the line that is being
read and the lines that have been read (all of them in reading order). -/
structure CsvParser where
  state : CsvState
  word : List Char
  fields : List (List Char)
  lines : List (List (List Char))

namespace CsvParser

/-- `PUSH_CHAR`. -/
def push (p : CsvParser) (c : Char) (s : CsvState) : CsvParser :=
  { p with word := p.word ++ [c], state := s }

/-- `END_FIELD`. -/
def endField (p : CsvParser) (s : CsvState) : CsvParser :=
  { p with word := [], fields := p.fields ++ [p.word], state := s }

/-- `END_LINE`. -/
def endLine (p : CsvParser) (s : CsvState) : CsvParser :=
  { p with fields := [], lines := p.lines ++ [p.fields], state := s }

/-- `START_FIELD`. -/
def stepField (p : CsvParser) (c : Char) : CsvParser :=
  if c = '\n' then (p.endField .field).endLine .record
  else if c = '\r' then p.endField .cr
  else if c = '"' then { p with state := .quoted }
  else if c = ',' then p.endField .field
  else p.push c .inField

/-- `IN_FIELD`. -/
def stepInField (p : CsvParser) (c : Char) : CsvParser :=
  if c = '\n' then (p.endField .field).endLine .record
  else if c = '\r' then p.endField .cr
  else if c = ',' then p.endField .field
  else p.push c .inField

/-- `START_RECORD`. -/
def stepRecord (p : CsvParser) (c : Char) : CsvParser :=
  if c = '\n' then p
  else if c = '\r' then { p with state := .crNop }
  else if c = ' ' ∨ c = '\t' then p.push c .blank
  else p.stepField c

/-- `WHITESPACE_LINE`. If the line is not blank after all, the parser goes back to its first
character and reads it as the beginning of a field. -/
def stepBlank (p : CsvParser) (c : Char) : CsvParser :=
  if c = '\n' then { p with word := [], state := .record }
  else if c = '\r' then { p with word := [], state := .crNop }
  else if c = ' ' ∨ c = '\t' then p.push c .blank
  else p.stepInField c

/-- `QUOTE_IN_QUOTED_FIELD`. -/
def stepQuote (p : CsvParser) (c : Char) : CsvParser :=
  if c = '\n' then (p.endField .field).endLine .record
  else if c = '\r' then p.endField .cr
  else if c = '"' then p.push c .quoted
  else if c = ',' then p.endField .field
  else p.push c .inField

/-- One character of the file. -/
def step (p : CsvParser) (c : Char) : CsvParser :=
  match p.state with
  | .record => p.stepRecord c
  | .field => p.stepField c
  | .inField => p.stepInField c
  | .quoted => if c = '"' then { p with state := .quoteInQuoted } else p.push c .quoted
  | .quoteInQuoted => p.stepQuote c
  | .blank => p.stepBlank c
  | .cr => if c = '\n' then p.endLine .record else (p.endLine .record).stepRecord c
  | .crNop => if c = '\n' then { p with state := .record } else { p with state := .record }.stepRecord c

/-- The end of the file. -/
def finish (p : CsvParser) : Res (List (List (List Char))) :=
  match p.state with
  | .record | .blank | .crNop => .ok p.lines
  | .quoted => .error .value
  | .cr => .ok (p.endLine .record).lines
  | _ => .ok ((p.endField .field).endLine .record).lines

/-- The parser at the beginning of the file. -/
def start : CsvParser := ⟨.record, [], [], []⟩

end CsvParser

/-- The lines of a file with their fields. The fields are C strings: they end at a NUL. -/
def csvLines (text : List Char) : Res (List (List (List Char))) := do
  let lines ← (text.foldl CsvParser.step CsvParser.start).finish
  .ok (lines.map (fun l => l.map (fun w => w.takeWhile (· ≠ '\x00'))))

/-- A column of numbers without missing values: an empty field is an error. -/
def parseNum (s : List Char) : Res F :=
  if s = [] then .error .value else CsvIO.parse s

/-- catalogue.py 94-95: in the columns `N_Reference` and `K_Reference` an empty field is a missing
value. -/
def parseRef (s : List Char) : Res (Vals F) :=
  if s = [] then .ok (.scalar PyFloat.nan) else do .ok (.scalar (← CsvIO.parse s))

/-- A text column. -/
def textCell (s : List Char) : Cell := .str (String.ofList s)

/-- A line as a row of the table. Missing fields are empty, more fields than columns are an
error. -/
def Row.ofFields (l : List (List Char)) : Res (Row F) :=
  if csvColumns.length < l.length then .error .value
  else do
    let lower ← parseNum (l.getD 8 [])
    let upper ← parseNum (l.getD 9 [])
    let nRef ← parseRef (l.getD 10 [])
    let kRef ← parseRef (l.getD 11 [])
    .ok { al := textCell (l.getD 0 []), name := textCell (l.getD 1 []),
          fullName := textCell (l.getD 2 []), author := textCell (l.getD 3 []),
          comment := textCell (l.getD 4 []), reference := textCell (l.getD 5 []),
          stype := textCell (l.getD 6 []), unit := textCell (l.getD 7 []), lower := lower,
          upper := upper, nRef := nRef, kRef := kRef, path := textCell (l.getD 12 []),
          modl := textCell (l.getD 13 []) }

/-- Is the file outside of this model (see above)? -/
def csvForeign : List (List (List Char)) → Bool
  | h :: l :: _ => h ≠ csvColumns || csvColumns.length < l.length
  | [h] => h ≠ csvColumns
  | [] => false

/-- catalogue.py 110-114: `pd.read_csv`; `none` if the file is outside of this model. An empty
file is an error (`EmptyDataError`, a ValueError). -/
def loadCsv (text : List Char) : Option (Res (Frame F)) :=
  match csvLines text with
  | .error e => some (.error e)
  | .ok ls =>
    if csvForeign ls then none
    else match ls with
      | [] => some (.error .value)
      | _ :: t => some (do .ok (numbered (← t.mapM Row.ofFields)))

end Disp
