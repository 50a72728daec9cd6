import Verif.Model.Reader
/-
  The CSV reader of the Go library (encoding/csv) as csv.go configures it.
-/
namespace Rodb

/-- Where `readRecord` is inside a record: at the beginning of a field, in a field without quotes, between the quotes of a field, after a quote inside such
a field, after the end of the record, or after a misplaced quote (`ErrBareQuote`, `ErrQuote`). -/
inductive CsvMode where
  | field | plain | quoted | quote | ended | bad
  deriving DecidableEq, Repr

/-- The fields read so far, the bytes of the current field, and where the reader is. -/
structure CsvLine where
  mode : CsvMode
  cells : List Bytes
  cell : Bytes
  deriving DecidableEq, Repr

/-- encoding/csv `readRecord`, the loop `parseField`, one byte of a line at a time; csv.go:168-173 leaves `LazyQuotes`, `TrimLeadingSpace` and `Comment` unset.
A line feed is always the last byte of a line. -/
def csvByte (comma : UInt8) (s : CsvLine) (b : UInt8) : CsvLine :=
  match s.mode with
  | .field =>
    if b = 34 then { s with mode := .quoted }
    else if b = comma then { mode := .field, cells := s.cells ++ [s.cell], cell := [] }
    else if b = 10 then { s with mode := .ended }
    else { s with mode := .plain, cell := s.cell ++ [b] }
  | .plain =>
    if b = comma then { mode := .field, cells := s.cells ++ [s.cell], cell := [] }
    else if b = 34 then { s with mode := .bad }
    else if b = 10 then { s with mode := .ended }
    else { s with cell := s.cell ++ [b] }
  | .quoted => if b = 34 then { s with mode := .quote } else { s with cell := s.cell ++ [b] }
  | .quote =>
    if b = 34 then { s with mode := .quoted, cell := s.cell ++ [34] }
    else if b = comma then { mode := .field, cells := s.cells ++ [s.cell], cell := [] }
    else if b = 10 then { s with mode := .ended }
    else { s with mode := .bad }
  | .ended => { s with mode := .bad }
  | .bad => s

/-- encoding/csv `readLine`: the end `\r\n` of a line becomes `\n`. -/
def csvLineEnd (line : Bytes) : Bytes := if line.drop (line.length - 2) = [13, 10] then line.take (line.length - 2) ++ [10] else line

/-- encoding/csv `readLine`: a `\r` before the end of the file is dropped. -/
def csvFileEnd (line : Bytes) : Bytes := if line.getLast? = some 13 then line.dropLast else line

/-- The bytes of the current line, and what the lines before it in the same record gave. -/
structure CsvState where
  line : Bytes
  before : CsvLine
  deriving DecidableEq, Repr

/-- The beginning of a record. -/
def CsvState.start : CsvState := { line := [], before := { mode := .field, cells := [], cell := [] } }

/-- encoding/csv `readRecord` after `readLine`: empty lines before a record are skipped, a record goes on in the next line if the line ends
between quotes. -/
def csvTakeLine (comma : UInt8) (before : CsvLine) (line : Bytes) : CsvState ⊕ CsvRead :=
  if before = CsvState.start.before ∧ (line = [] ∨ line = [10]) then .inl CsvState.start
  else
    let s := line.foldl (csvByte comma) before
    match s.mode with
    | .quoted => .inl { line := [], before := s }
    | .bad => .inr .bad
    | _ => .inr (.row (s.cells ++ [s.cell]))

/-- csv.go:168-173 (`csv.NewReader`, `Comma`) and encoding/csv `Read`, for a valid comma. The comma is one byte (csv_config.go:80-82). The comparison of the
width of the row with the number of columns is in the callers. -/
def csvRecordReader (comma : UInt8) : ItemReader CsvRead where
  σ := CsvState
  init := CsvState.start
  step := fun s b =>
    if b = 10 then csvTakeLine comma s.before (csvLineEnd (s.line ++ [b]))
    else .inl { s with line := s.line ++ [b] }
  eof := fun s =>
    match csvTakeLine comma s.before (csvFileEnd s.line) with
    | .inr a => a
    | .inl s => if s = CsvState.start then .eof else .bad

/-- csv.go:168-173 (`csv.NewReader`, `Comma`): a comma that is a quote, a line end or a NUL is refused by every `Read` (`validDelim` in encoding/csv).
Simplification: such a `Read` uses up one byte. -/
def csvReader (comma : UInt8) : ItemReader CsvRead :=
  if comma = 34 ∨ comma = 10 ∨ comma = 13 ∨ comma = 0 then { σ := Unit, init := (), step := fun _ _ => .inr .bad, eof := fun _ => .bad }
  else csvRecordReader comma

end Rodb
