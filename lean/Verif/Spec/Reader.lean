import Verif.Model.Reader
/-
  Specification vocabulary: reading items from a sequence of bytes, without any buffer.
-/
namespace Rodb.Spec

/-- The item read at the start of the bytes, and how many bytes it takes. -/
def readItem {α : Type} (m : ItemReader α) : m.σ → Bytes → α × Nat
  | s, [] => (m.eof s, 0)
  | s, b :: rest =>
    match m.step s b with
    | .inr a => (a, 1)
    | .inl s' => ((readItem m s' rest).1, (readItem m s' rest).2 + 1)

/-- The first item of the bytes. -/
def firstItem {α : Type} (m : ItemReader α) (bytes : Bytes) : α := (readItem m m.init bytes).1

/-- What is done with a reader: read ahead, consume bytes (one for each amount read ahead before it), or go to
a position. -/
inductive ReaderOp where
  | readAhead (n : Nat)
  | consume (aheads : List Nat)
  | seek (position : Nat)

/-- The position after an operation, in a file of `size` bytes: only the number of bytes consumed counts. -/
def positionAfter (size : Nat) (p : Nat) : ReaderOp → Nat
  | .readAhead _ => p
  | .consume aheads => p + min aheads.length (size - p)
  | .seek q => q

/-- The rows of a CSV file from the position `p` on, each with its position; the last component tells whether the rows
end with the file or with a malformed row. -/
inductive CsvRows (m : ItemReader CsvRead) (content : Bytes) : Nat → List (Nat × List Bytes) → Bool → Prop where
  | eof {p : Nat} : firstItem m (content.drop p) = .eof → CsvRows m content p [] true
  | bad {p : Nat} : firstItem m (content.drop p) = .bad → CsvRows m content p [] false
  | row {p n : Nat} {cells : List Bytes} {rest : List (Nat × List Bytes)} {complete : Bool} :
    readItem m m.init (content.drop p) = (.row cells, n) → CsvRows m content (p + n) rest complete →
    CsvRows m content p ((p, cells) :: rest) complete

end Rodb.Spec

namespace Rodb.Spec

/-- The bytes from position `p` on are documents, each after some spaces, then `tail`. The documents are given with their
positions. -/
inductive JsonDocs (decode : JsonDecoder) : Nat → Bytes → List (Nat × GoMap Value) → Bytes → Prop where
  | done {p : Nat} {tail : Bytes} : JsonDocs decode p tail [] tail
  | doc {p : Nat} {spaces text rest tail : Bytes} {data : GoMap Value} {docs : List (Nat × GoMap Value)} :
    (∀ b ∈ spaces, isJsonSpace b = true) → (∃ b t, text = b :: t ∧ isJsonSpace b = false ∧ b ≠ 93 ∧ b ≠ 125) →
    decode (text ++ rest) = (.doc data, text.length) →
    JsonDocs decode (p + spaces.length + text.length) rest docs tail →
    JsonDocs decode p (spaces ++ text ++ rest) ((p + spaces.length, data) :: docs) tail

/-- Only spaces. -/
def Blank (bytes : Bytes) : Prop := ∀ b ∈ bytes, isJsonSpace b = true

/-- After some spaces, a closing bracket or brace. -/
def StartsClosing (bytes : Bytes) : Prop :=
  ∃ spaces b rest, bytes = spaces ++ b :: rest ∧ Blank spaces ∧ (b = 93 ∨ b = 125)

/-- After some spaces, content that is neither a document nor a closing bracket or brace. -/
def Malformed (decode : JsonDecoder) (bytes : Bytes) : Prop :=
  ∃ spaces b rest, bytes = spaces ++ b :: rest ∧ Blank spaces ∧ isJsonSpace b = false ∧ b ≠ 93 ∧ b ≠ 125 ∧
    (decode (b :: rest)).1 = .bad

end Rodb.Spec

namespace Rodb.Spec

/-- Consuming bytes one by one. -/
def takeBytes : List Nat → BufReader → Bytes × BufReader
  | [], r => ([], r)
  | ahead :: rest, r =>
    match r.next ahead with
    | (none, r') => takeBytes rest r'
    | (some b, r') => (b :: (takeBytes rest r').1, (takeBytes rest r').2)

/-- Doing an operation: the bytes handed out and the reader afterwards. -/
def doOp (r : BufReader) : ReaderOp → Bytes × BufReader
  | .readAhead n => ([], r.fill n)
  | .consume aheads => takeBytes aheads r
  | .seek q =>
    match setBufferedReaderOffset r q with
    | .ok r' => ([], r')
    | .error _ => ([], r)

/-- Doing operations one after the other. -/
def doOps : BufReader → List ReaderOp → Bytes × BufReader
  | r, [] => ([], r)
  | r, op :: rest => ((doOp r op).1 ++ (doOps (doOp r op).2 rest).1, (doOps (doOp r op).2 rest).2)

/-- The bytes an operation hands out at position `p`. -/
def bytesOf (content : Bytes) (p : Nat) : ReaderOp → Bytes
  | .consume aheads => (content.drop p).take aheads.length
  | _ => []

/-- The same for operations done one after the other. -/
def bytesOfAll (content : Bytes) : Nat → List ReaderOp → Bytes
  | _, [] => []
  | p, op :: rest => bytesOf content p op ++ bytesOfAll content (positionAfter content.length p op) rest

/-- A small CSV reader for the examples: commas, line feeds, cells in double quotes, empty lines skipped. Its state is
the row so far (if it has begun), the current cell, and whether it is inside quotes. -/
def sampleCsv : ItemReader CsvRead where
  σ := Bool × List Bytes × Bytes × Bool
  init := (false, [], [], false)
  step := fun (begun, cells, cell, quoted) b =>
    if quoted then
      if b = 34 then .inl (true, cells, cell, false) else .inl (true, cells, cell ++ [b], true)
    else if b = 34 then
      if cell = [] then .inl (true, cells, cell, true) else .inr .bad
    else if b = 44 then .inl (true, cells ++ [cell], [], false)
    else if b = 10 then if begun then .inr (.row (cells ++ [cell])) else .inl (false, [], [], false)
    else .inl (true, cells, cell ++ [b], false)
  eof := fun (begun, cells, cell, quoted) => if quoted then .bad else if begun then .row (cells ++ [cell]) else .eof

end Rodb.Spec
