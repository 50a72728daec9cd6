import Verif.Spec.Running
import Verif.Spec.Sqlite
import Verif.Spec.Table
import Verif.Model.Indexes
/-
  What is on disk when the program starts, and what the declared indexes find.
-/
namespace Rodb.Spec

/-- The declared index of that name. -/
def declaredIndex (p : ParsedConfig) (n : String) : Option IndexDecl := p.indexes.find? (fun i => i.name = n)

/-- The SQLite index with its default collations. -/
def completedSqlite (config : ConfigLib) (d : SqliteDecl) : SqliteDecl :=
  { d with properties := d.properties.map (fun q => { q with collate := if q.collate = "" then "BINARY" else toUpper config q.collate }) }

/-- The full-text index with its default tokenizer. -/
def completedFts5 (d : Fts5Decl) : Fts5Decl := { d with tokenize := if d.tokenize = "" then "unicode61" else d.tokenize }

/-- The property of the record is a text that contains the given one, up to the case of letters if the index ignores it. -/
def wildcardFinds (lower : Bytes → Bytes) (ignoreCase : Bool) (r : Rec) (property : String) (v : Value) : Bool :=
  match r.get property, v with
  | .ok (.str text), .str query => if ignoreCase then decide (lower query <:+: lower text) else decide (query <:+: text)
  | _, _ => false

/-- What a record must satisfy to be found: for a wildcard index it contains the text, for a SQLite index it is equal for SQLite, for a full-text index it matches, for the others it is equal. -/
def finds (config : ConfigLib) (st : Storage) (p : ParsedConfig) (index property : String) (v : Value) (r : Rec) : Bool :=
  match declaredIndex p index with
  | some (.wildcard d) => wildcardFinds st.lower (d.ignoreCase.getD false) r property v
  | some (.sqlite d) => sqliteSat st.sql (completedSqlite config d) property v r
  | some (.fts5 d) => ftsSat st.sql (completedFts5 d) v r
  | _ => propEquals r property v

/-- The filters that can be asked of an index that keeps its data on disk: a text that is not empty for wildcard indexes, anything but arrays and objects for SQLite,
and for full-text indexes if the filter is called `match`. -/
def findable (config : ConfigLib) (st : Storage) (p : ParsedConfig) (index property : String) (v : Value) : Prop :=
  match declaredIndex p index with
  | some (.wildcard d) => property ∈ d.properties ∧ ∃ query, v = .str query ∧ (if d.ignoreCase.getD false then st.lower query else query) ≠ []
  | some (.sqlite d) => SqliteAcceptable (completedSqlite config d) property v
  | some (.fts5 _) => FtsAcceptable property v
  | _ => False

/-- The disk for a wildcard index on an input: the rows have texts, and the file does not exist yet or is the one that was built from this input. -/
structure WildcardDisk (st : Storage) (d : WildcardDecl) (input : Input) (records : List Rec) : Prop where
  texts : ∃ rows, TextTable input d.properties rows ∧ rows.map Row.record = records
  small : (createIndex st.lower d.settings input (Stream.new [] 0 d.settings.bufferSize)).2.streamSize < 2^63
  count : d.properties.length ≤ 2^45
  file : st.file d.path = none ∨ st.file d.path = some (newWildcard st.lower d.settings input none).2

/-- The disk for a SQLite or FTS5 index on an input: a database without tables of the program, or what is left of it by any starts with any indexes, each of
which died after any number of statements or went on; the indexes of that name were this one, on inputs that give the records of this one if they have its size and modification second. -/
structure StoredDisk (st : Storage) (x : StoredIndex) (dsn : String) (input : Input) : Prop where
  name : NoNul x.name
  properties : ∀ q ∈ x.properties, NoNul q
  tokenize : ∀ s, x.settings = some s → '\x00' ∉ s.tokenize
  database : ∃ (empty : SqlDb) (starts : List SqliteStart), (∀ n, empty.table ("rodb_".toList ++ n ++ "_metadata".toList) = none) ∧
    (∀ s ∈ starts, s.index.Accepted) ∧ (∀ s ∈ starts, sameName s.index.name.toList x.name.toList = true → s.index = x ∧ (SameStat s.input input → s.input.scan = input.scan)) ∧
    st.db dsn = afterStarts st.sql empty starts

/-- SQLite gives the rows in the order of their insertion and reading them does not fail. -/
structure ReadsInOrder (lib : SqlLib) : Prop where
  plan : ∀ text rows, lib.plan text rows = rows
  complete : ∀ text, lib.failsAfter text = none

/-- The disk for all the indexes of the input `x`. -/
structure DiskFor (config : ConfigLib) (lib : StartLib) (st : Storage) (p : ParsedConfig) (functions : GoMap (Bytes → Res Value)) (x : InputDecl)
    (records : List Rec) : Prop where
  index : lib.index = openIndex st
  named : ∀ e input, WithColumns lib (completedInput x) e → lib.input e (declaredTypes p) functions = .ok input → input.name = x.name
  rows : ∀ e input, WithColumns lib (completedInput x) e → lib.input e (declaredTypes p) functions = .ok input → input.scan = .ok (records.map .ok)
  wildcard : ∀ d, .wildcard d ∈ p.indexes → d.input = x.name → ∀ e input, WithColumns lib (completedInput x) e → lib.input e (declaredTypes p) functions = .ok input →
    WildcardDisk st d input records
  sqlite : ∀ d, .sqlite d ∈ p.indexes → d.input = x.name → ReadsInOrder st.sql ∧ ∀ e input, WithColumns lib (completedInput x) e →
    lib.input e (declaredTypes p) functions = .ok input → StoredDisk st (.sqlite (completedSqlite config d)) d.dsn input
  fts5 : ∀ d, .fts5 d ∈ p.indexes → d.input = x.name → ReadsInOrder st.sql ∧ ∀ e input, WithColumns lib (completedInput x) e →
    lib.input e (declaredTypes p) functions = .ok input → StoredDisk st (.fts5 (completedFts5 d)) d.dsn input

end Rodb.Spec
