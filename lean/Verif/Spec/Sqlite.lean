import Verif.Model.Fts5
/-
  What the SQLite and FTS5 indexes are expected to store, and histories of starts of the program.
-/
namespace Rodb.Spec

/-- The value that SQLite keeps for a value of a record. -/
inductive Stands : Value → SqlValue → Prop where
  | null : Stands .null .null
  | yes : Stands (.bool true) (.int 1)
  | no : Stands (.bool false) (.int 0)
  | int (i : Int) : Stands (.int i) (.int i)
  | nan : Stands (.float .nan) .null
  | float (f : GoFloat) : f ≠ .nan → Stands (.float f) (.real f)
  | text (s : Bytes) : Stands (.str s) (.text s)

/-- The values behind the position in a row: one for each property. -/
def StoredValues (r : Rec) : List String → List SqlValue → Prop
  | [], [] => True
  | p :: ps, w :: ws => (∃ v, r.get p = .ok v ∧ Stands v w) ∧ StoredValues r ps ws
  | _, _ => False

/-- The row of a record: its position and the values of the properties of the index. -/
def StoredRow (properties : List String) (r : Rec) (row : List SqlValue) : Prop :=
  ∃ values, row = .int r.position :: values ∧ StoredValues r properties values

/-- One row for each record, in their order, and no other row. -/
def StoredRows (properties : List String) : List Rec → List (List SqlValue) → Prop
  | [], [] => True
  | r :: rs, row :: rows => StoredRow properties r row ∧ StoredRows properties rs rows
  | _, _ => False

/-- The columns of a SQLite index: the position, and a column with its collation for each property. -/
def columnsOf (c : SqliteDecl) : List SqlColumn :=
  ⟨"offset".toList, "BINARY".toList⟩ :: c.properties.map (fun p => ⟨"property_".toList ++ p.name.toList, p.collate.toList⟩)

/-- The columns of an FTS5 index: the position, and a column for each property. -/
def ftsColumnsOf (c : Fts5Decl) : List SqlColumn :=
  ⟨"__offset".toList, "BINARY".toList⟩ :: c.properties.map (fun p => ⟨p.toList, "BINARY".toList⟩)

/-- An index that is stored in a database. -/
inductive StoredIndex where
  | sqlite (c : SqliteDecl)
  | fts5 (c : Fts5Decl)

/-- Its name. -/
def StoredIndex.name : StoredIndex → String
  | .sqlite c => c.name
  | .fts5 c => c.name

/-- Its properties. -/
def StoredIndex.properties : StoredIndex → List String
  | .sqlite c => c.properties.map (·.name)
  | .fts5 c => c.properties

/-- The columns of its table. -/
def StoredIndex.columns : StoredIndex → List SqlColumn
  | .sqlite c => columnsOf c
  | .fts5 c => ftsColumnsOf c

/-- The settings of its table: the position is not searched by a full-text index. -/
def StoredIndex.settings : StoredIndex → Option FtsSettings
  | .sqlite _ => none
  | .fts5 c => some ⟨c.tokenize.toList, ["__offset".toList]⟩

/-- What a start of the program does with it. -/
def StoredIndex.start (lib : SqlLib) (x : StoredIndex) (input : Input) : SqlM Unit :=
  match x with
  | .sqlite c => newSqlite lib c input
  | .fts5 c => newFts5 lib c input

/-- The database holds exactly the records that reading the input from its beginning to its end gave. -/
def HoldsAll (x : StoredIndex) (input : Input) (db : SqlDb) : Prop :=
  ∃ records table, input.scan = .ok (records.map .ok) ∧ db.table ("rodb_".toList ++ x.name.toList ++ "_index".toList) = some table ∧
    table.columns = x.columns ∧ table.fts = x.settings ∧ x.columns.Pairwise (fun a b => sameName a.name b.name = false) ∧ StoredRows x.properties records table.rows

/-- A start of the program with an index in the database; after `writes` statements the process dies (`none`: it lives on). -/
structure SqliteStart where
  index : StoredIndex
  input : Input
  writes : Option Nat

/-- A name as YAML can write it without an escaped NUL character, which SQLite takes as the end of the name. -/
def NoNul (name : String) : Prop := '\x00' ∉ name.toList

/-- An index that the validation of the configuration accepts, with names without NUL. -/
structure SqliteAccepted (c : SqliteDecl) : Prop where
  name : NoNul c.name
  properties : ∀ p ∈ c.properties, NoNul p.name
  collate : ∀ p ∈ c.properties, p.collate ∈ ["BINARY", "NOCASE", "RTIRM"]

/-- A full-text index that the validation of the configuration accepts, with names without NUL. -/
structure Fts5Accepted (c : Fts5Decl) : Prop where
  name : NoNul c.name
  properties : ∀ p ∈ c.properties, NoNul p
  tokenize : NoNul c.tokenize

/-- An index that the validation of the configuration accepts, with names without NUL. -/
def StoredIndex.Accepted : StoredIndex → Prop
  | .sqlite c => SqliteAccepted c
  | .fts5 c => Fts5Accepted c

/-- The database after a start of the program. -/
@[irreducible] def afterStart (lib : SqlLib) (db : SqlDb) (s : SqliteStart) : SqlDb := (s.index.start lib s.input ⟨db, s.writes⟩).2.db

/-- The database after starts of the program, one after the other. -/
def afterStarts (lib : SqlLib) (db : SqlDb) : List SqliteStart → SqlDb
  | [] => db
  | s :: rest => afterStarts lib (afterStart lib db s) rest

/-- SQLite gives the rows of a statement in some order. -/
def PlansPermute (lib : SqlLib) : Prop := ∀ text rows, (lib.plan text rows).Perm rows

/-- The two inputs have the same size and, in seconds, the same modification time. -/
def SameStat (a b : Input) : Prop :=
  ∃ s t u, a.size = .ok s ∧ b.size = .ok s ∧ a.modTimeNs = .ok t ∧ b.modTimeNs = .ok u ∧ unixSeconds t = unixSeconds u

/-- Lower case of the ASCII letters. -/
def asciiLower (b : UInt8) : UInt8 := if 65 ≤ b.toNat ∧ b.toNat ≤ 90 then b + 32 else b

/-- The texts are equal for the collation of the property: up to the case of ASCII letters for NOCASE (where SQLite does not look behind a NUL byte), byte
by byte otherwise. -/
def sameText (collate : String) (a b : Bytes) : Bool :=
  if collate = "NOCASE" then a.length = b.length && (a.takeWhile (· ≠ 0)).map asciiLower = (b.takeWhile (· ≠ 0)).map asciiLower else a = b

/-- 0 or 1. -/
def bit (b : Bool) : Int := if b then 1 else 0

/-- Whether SQLite finds the value `v` of a record equal to the filter `f`: numbers are compared as numbers, false and true are 0 and 1, texts are compared
with the collation; null and NaN are equal to nothing, and a text is never equal to a number. -/
def sqliteEquals (lib : SqlLib) (collate : String) (v f : Value) : Bool :=
  match v, f with
  | .str a, .str b => sameText collate a b
  | .int a, .int b => a = b
  | .bool a, .bool b => a = b
  | .int a, .bool b => a = bit b
  | .bool a, .int b => bit a = b
  | .float a, .float b => a.eq b
  | .int a, .float b => b ≠ .nan && lib.intEqReal a b
  | .float a, .int b => a ≠ .nan && lib.intEqReal b a
  | .bool a, .float b => b ≠ .nan && lib.intEqReal (bit a) b
  | .float a, .bool b => a ≠ .nan && lib.intEqReal (bit b) a
  | _, _ => false

/-- The record satisfies the filter on a property of the index. -/
def sqliteSat (lib : SqlLib) (c : SqliteDecl) (property : String) (f : Value) (r : Rec) : Bool :=
  c.properties.any (fun p => p.name = property && (match r.get property with | .ok v => sqliteEquals lib p.collate v f | .error _ => false))

/-- A filter that the index can be asked for: on one of its properties, and not with an array or an object. -/
def SqliteAcceptable (c : SqliteDecl) (property : String) (f : Value) : Prop :=
  (∃ p ∈ c.properties, p.name = property) ∧ ∃ w, Stands f w

/-- The first word is a tokenizer of FTS5, whatever the case of its letters; arguments may follow behind a space. -/
def KnownTokenizer (t : List Char) : Prop :=
  ∃ (spaces w rest : List Char), t = spaces ++ w ++ rest ∧ (∀ c ∈ spaces, c = ' ') ∧ (rest = [] ∨ ∃ r, rest = ' ' :: r) ∧
    ∃ known ∈ ["unicode61", "ascii", "porter", "trigram"], sameName w known.toList = true

/-- A full-text index that FTS5 can build: it has properties, whose names differ in more than the case of letters and are not names that the table uses itself, the tokenizer is
known, and there are at most 31 lengths of prefixes, from 1 to 999. -/
structure FtsBuildable (c : Fts5Decl) : Prop where
  some : c.properties ≠ []
  different : c.properties.Pairwise (fun p q => sameName p.toList q.toList = false)
  names : ∀ p ∈ c.properties, ∀ n ∈ ["__offset".toList, "rank".toList, "rowid".toList, "rodb_".toList ++ c.name.toList ++ "_index".toList], sameName p.toList n = false
  tokenizer : KnownTokenizer c.tokenize.toList
  count : c.prefixes.length ≤ 31
  prefixes : ∀ n ∈ c.prefixes, 1 ≤ n ∧ n ≤ 999

/-- An index that SQLite can build: it has properties, whose names differ in more than the case of letters, and SQLite has their collations. -/
structure SqliteBuildable (c : SqliteDecl) : Prop where
  some : c.properties ≠ []
  different : c.properties.Pairwise (fun p q => sameName p.name.toList q.name.toList = false)
  collations : ∀ p ∈ c.properties, p.collate = "BINARY" ∨ p.collate = "NOCASE"

/-- An index that SQLite can build. -/
def StoredIndex.Buildable : StoredIndex → Prop
  | .sqlite c => SqliteBuildable c
  | .fts5 c => FtsBuildable c

/-- The names and the tokenizer of the index have no NUL. -/
def StoredIndex.WithoutNul : StoredIndex → Prop
  | .sqlite c => NoNul c.name ∧ ∀ p ∈ c.properties, NoNul p.name
  | .fts5 c => NoNul c.name ∧ (∀ p ∈ c.properties, NoNul p) ∧ NoNul c.tokenize

/-- An input whose records can be stored: its file has a size and a time, all of its records can be read, and these properties of each of them are values that SQLite has. -/
def Storable (input : Input) (properties : List String) : Prop :=
  (∃ size, input.size = .ok size) ∧ (∃ time, input.modTimeNs = .ok time) ∧
    ∃ records : List Rec, input.scan = .ok (records.map .ok) ∧ ∀ r ∈ records, ∀ p ∈ properties, ∃ v w, r.get p = .ok v ∧ Stands v w

/-- What SQLite keeps for a value that is not an array or an object. -/
def storedAs : Value → SqlValue
  | .bool b => .int (bit b)
  | .int i => .int i
  | .float .nan => .null
  | .float f => .real f
  | .str s => .text s
  | _ => .null

/-- What SQLite keeps for a property of a record. -/
def storedProperty (r : Rec) (p : String) : SqlValue :=
  match r.get p with
  | .ok v => storedAs v
  | .error _ => .null

/-- The record matches the expression: FTS5, with the tokenizer and the properties of the index, takes the expression and finds it in the values of these properties. -/
def ftsSat (lib : SqlLib) (c : Fts5Decl) (expression : Value) (r : Rec) : Bool :=
  match lib.matches c.tokenize.toList (c.properties.map (·.toList)) (storedAs expression) with
  | some found => found (c.properties.map (storedProperty r))
  | none => false

/-- A filter that a full-text index can be asked for: `match`, and not with an array or an object. -/
def FtsAcceptable (property : String) (f : Value) : Prop := property = "match" ∧ ∃ w, Stands f w

end Rodb.Spec
