import Verif.Model.Path
/-
  pkg/util/bufio.go, and the CSV and JSON inputs: csv.go, json.go.
-/
namespace Rodb

/-! ### bufio.go -/

/-- A file being read through a `bufio.Reader`: the content of the file, the offset of the file reader, and
the bytes that were read ahead and not yet consumed. -/
structure BufReader where
  content : Bytes
  offset : Nat
  buffer : Bytes
  deriving DecidableEq, Repr

/-- One refill of the buffer: the file returns up to `k` bytes. -/
def BufReader.fill (r : BufReader) (k : Nat) : BufReader :=
  { r with offset := r.offset + (slice r.content r.offset k).length, buffer := r.buffer ++ slice r.content r.offset k }

/-- bufio.go:8-20 `GetBufferedReaderOffset`. -/
def getBufferedReaderOffset (r : BufReader) : Int := (r.offset : Int) - (r.buffer.length : Int)

/-- bufio.go:22-35 `SetBufferedReaderOffset`. Seeking to a negative offset fails; seeking past the end is
allowed. -/
def setBufferedReaderOffset (r : BufReader) (offset : Int) : Res BufReader :=
  if offset < 0 then .error (.err "invalid argument")
  else .ok { r with offset := offset.toNat, buffer := [] }

/-- Consuming one byte (or reaching the end of the file). `ahead` bytes are read ahead first, as the operating
system and bufio like; an empty buffer has to be refilled. -/
def BufReader.next (r : BufReader) (ahead : Nat) : Option UInt8 × BufReader :=
  let r := r.fill ahead
  let r := if r.buffer = [] then r.fill 1 else r
  match r.buffer with
  | [] => (none, r)
  | b :: rest => (some b, { r with buffer := rest })

/-- A reader of one item (`csv.Reader.Read`): it consumes bytes one after the other and stops at some byte or at the
end of the file. It keeps nothing from one item to the next. -/
structure ItemReader (α : Type) where
  σ : Type
  init : σ
  step : σ → UInt8 → σ ⊕ α
  eof : σ → α

/-- Reading one item; `sched` gives the amounts read ahead. The fuel is the number of bytes left plus one. -/
def ItemReader.run {α : Type} (m : ItemReader α) : Nat → List Nat → m.σ → BufReader → α × BufReader
  | 0, _, s, r => (m.eof s, r)
  | fuel+1, sched, s, r =>
    match r.next (sched.headD 0) with
    | (none, r') => (m.eof s, r')
    | (some b, r') =>
      match m.step s b with
      | .inr a => (a, r')
      | .inl s' => m.run fuel sched.tail s' r'

/-- Reading one item. -/
def ItemReader.read {α : Type} (m : ItemReader α) (sched : List Nat) (r : BufReader) : α × BufReader :=
  m.run (r.content.length + r.buffer.length + 1) sched m.init r

/-! ### csv.go -/

/-- What `csv.Reader.Read` finds: a row of cells, the end of the file, or a malformed row. -/
inductive CsvRead where
  | row (cells : List Bytes)
  | eof
  | bad

/-- csv.go:18-27 `type Csv`: the columns, with their parsers, `ignoreFirstRow`, and the row reader made by the
library for the configured delimiter. The width of a row is compared by the library with the number of columns
(csv.go:172), which is `ErrFieldCount`. -/
structure CsvInput where
  columns : List CsvColumn
  ignoreFirstRow : Bool
  reader : ItemReader CsvRead

/-- csv.go:191-214, one call of the iterator. A row of the wrong width is logged and kept. -/
def csvNext (c : CsvInput) (sched : List Nat) (r : BufReader) : Res (Option Rec) × BufReader :=
  let position := getBufferedReaderOffset r
  match c.reader.read sched r with
  | (.eof, r') => (.ok none, r')
  | (.bad, r') => (.error (.err "Cannot read csv data"), r')
  | (.row cells, r') => (.ok (some (csvRecord c.columns cells position)), r')

/-- csv.go:157-176 `open`. -/
def csvOpen (content : Bytes) : BufReader := { content := content, offset := 0, buffer := [] }

/-- csv.go:178-189: opening the file and skipping the first row, of which every error is returned. -/
def csvStart (c : CsvInput) (content : Bytes) (sched : List Nat) : Res BufReader :=
  if c.ignoreFirstRow then
    match c.reader.read sched (csvOpen content) with
    | (.eof, _) => .error (.err "EOF")
    | (.bad, _) => .error (.err "parse error")
    | (.row cells, r) =>
      if cells.length ≠ c.columns.length then .error (.err "wrong number of fields") else .ok r
  else .ok (csvOpen content)

/-- The records handed out by the successive calls of the iterator, up to its end or first error. The fuel is
the number of bytes plus one. -/
def csvRecords (c : CsvInput) : Nat → (Nat → List Nat) → BufReader → List (Res Rec)
  | 0, _, _ => [.error .diverge]
  | fuel+1, sched, r =>
    match csvNext c (sched 0) r with
    | (.ok none, _) => []
    | (.error e, _) => [.error e]
    | (.ok (some x), r') => .ok x :: csvRecords c fuel (fun i => sched (i + 1)) r'

/-- csv.go:178-221 `IterateAll`. `sched i` is what is read ahead during the `i`-th row. -/
def csvScan (c : CsvInput) (content : Bytes) (sched : Nat → List Nat) : Res (List (Res Rec)) :=
  match csvStart c content (sched 0) with
  | .error e => .error e
  | .ok r => .ok (csvRecords c (content.length + 1) (fun i => sched (i + 1)) r)

/-- csv.go:85-108 `Get`, from any state `r` of the shared reader. -/
def csvFetch (c : CsvInput) (sched : List Nat) (r : BufReader) (position : Int) : Res Rec × BufReader :=
  match setBufferedReaderOffset r position with
  | .error e => (.error e, r)
  | .ok r =>
    match c.reader.read sched r with
    | (.eof, r') => (.error (.err "Cannot read csv data: EOF"), r')
    | (.bad, r') => (.error (.err "Cannot read csv data"), r')
    | (.row cells, r') => (.ok (csvRecord c.columns cells position), r')

/-- csv.go:137-152, the loop of `autodetectColumns`. The parser "string" is given. -/
def autodetectLoop (string : Bytes → Res Value) : List String → List String → Res (List CsvColumn)
  | [], _ => .ok []
  | name :: rest, seen =>
    if name = "" then .error (.err "the column does not have a name")
    else if seen.contains name then .error (.err "duplicate column")
    else
      match autodetectLoop string rest (name :: seen) with
      | .error e => .error e
      | .ok cs => .ok ({ name := name, parse := string } :: cs)

/-- csv.go:128-155 `autodetectColumns`, on the cells of the first row. -/
def autodetectColumns (string : Bytes → Res Value) (cells : List String) : Res (List CsvColumn) := autodetectLoop string cells []

/-! ### Concurrent fetches -/

/-- A request inside `Get` (csv.go:85-108): before the lock, with the lock, after the `Seek`, after the
`Reset` of the buffer while reading, and after the unlock. -/
inductive FetchState (m : ItemReader CsvRead) where
  | waiting
  | locked
  | sought
  | reading (s : m.σ)
  | read (a : CsvRead)
  | done (a : CsvRead)

/-- A request and the position it asked for. -/
structure Fetch (m : ItemReader CsvRead) where
  position : Nat
  state : FetchState m

/-- All the requests, the lock and the shared reader. -/
structure FetchSystem (m : ItemReader CsvRead) where
  locked : Bool
  reader : BufReader
  fetches : List (Fetch m)

/-- One step of request `i`, reading `ahead` bytes ahead if it reads. A request that waits for the lock, or that
is done, does nothing. -/
def FetchSystem.step {m : ItemReader CsvRead} (s : FetchSystem m) (i ahead : Nat) : FetchSystem m :=
  match s.fetches[i]? with
  | none => s
  | some f =>
    match f.state with
    | .waiting =>
      if s.locked then s else { s with locked := true, fetches := s.fetches.set i { f with state := .locked } }
    | .locked =>
      { s with reader := { s.reader with offset := f.position }, fetches := s.fetches.set i { f with state := .sought } }
    | .sought =>
      { s with reader := { s.reader with buffer := [] }, fetches := s.fetches.set i { f with state := .reading m.init } }
    | .reading st =>
      match s.reader.next ahead with
      | (none, r) => { s with reader := r, fetches := s.fetches.set i { f with state := .read (m.eof st) } }
      | (some b, r) =>
        match m.step st b with
        | .inr a => { s with reader := r, fetches := s.fetches.set i { f with state := .read a } }
        | .inl st' => { s with reader := r, fetches := s.fetches.set i { f with state := .reading st' } }
    | .read a => { s with locked := false, fetches := s.fetches.set i { f with state := .done a } }
    | .done _ => s

/-- A run: which request does the next step, and how much is read ahead. -/
def FetchSystem.run {m : ItemReader CsvRead} : FetchSystem m → List (Nat × Nat) → FetchSystem m
  | s, [] => s
  | s, (i, ahead) :: rest => (s.step i ahead).run rest

/-! ### json.go -/

/-- What `json.Decoder.Decode` into a `map[string]interface{}` finds: an object (`null` gives a nil map), or
something else or malformed content. -/
inductive JsonRead where
  | doc (data : GoMap Value)
  | bad

/-- JSON whitespace (encoding/json `isSpace`). -/
def isJsonSpace (b : UInt8) : Bool := b = 32 || b = 9 || b = 13 || b = 10

/-- `Decode` in encoding/json on what follows the current position, which is not a space: the result and
how many bytes were used. -/
abbrev JsonDecoder := Bytes → JsonRead × Nat

/-- pkg/input/json.go:129-150, one call of the iterator, `offset` bytes having been used: `More` skips the spaces and answers
false at the end of the file and before a closing bracket or brace; `InputOffset` is then the start of the document. -/
def jsonNext (decode : JsonDecoder) (content : Bytes) (offset : Nat) : Res (Option Rec) × Nat :=
  let start := offset + ((content.drop offset).takeWhile isJsonSpace).length
  match content.drop start with
  | [] => (.ok none, start)
  | b :: rest =>
    if b = 93 ∨ b = 125 then (.ok none, start)
    else
      match decode (b :: rest) with
      | (.doc data, n) => (.ok (some (jsonRecord data start)), start + n)
      | (.bad, n) => (.error (.err "Cannot read json data"), start + n)

/-- The records handed out by the successive calls, up to the end or the first error; the fuel is the number of
bytes plus one. -/
def jsonRecords (decode : JsonDecoder) (content : Bytes) : Nat → Nat → List (Res Rec)
  | 0, _ => [.error .diverge]
  | fuel+1, offset =>
    match jsonNext decode content offset with
    | (.ok none, _) => []
    | (.error e, _) => [.error e]
    | (.ok (some x), offset') => .ok x :: jsonRecords decode content fuel offset'

/-- pkg/input/json.go:119-157 `IterateAll`. -/
def jsonScan (decode : JsonDecoder) (content : Bytes) : Res (List (Res Rec)) :=
  .ok (jsonRecords decode content (content.length + 1) 0)

/-- pkg/input/json.go:65-88 `Get`: a new decoder at the position. `Decode` skips spaces. Simplification: an end of
file is like any other malformed content. -/
def jsonFetch (decode : JsonDecoder) (content : Bytes) (position : Int) : Res Rec :=
  if position < 0 then .error (.err "Cannot seek position in json file")
  else
    match decode ((content.drop position.toNat).dropWhile isJsonSpace) with
    | (.doc data, _) => .ok (jsonRecord data position)
    | (.bad, _) => .error (.err "Cannot read json data")

end Rodb
