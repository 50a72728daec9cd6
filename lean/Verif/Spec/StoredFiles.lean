import Verif.Spec.RelatedObjects
import Verif.Spec.Storage
/-
  Specification vocabulary: what the indexes on disk find, in terms of the objects in the files.
-/
namespace Rodb.Spec

/-- What SQLite keeps for the path: what stands for the value there, or null if there is none. -/
def StoredAt (o : GoMap Value) (q : String) (s : SqlValue) : Prop :=
  (∃ v, ValueAt o q v ∧ s = storedAs v) ∨ ((∀ v, ¬ ValueAt o q v) ∧ s = .null)

/-- The object is found: for a wildcard index it has, at that path, a text that contains the given one (up to the case of letters if the index ignores it); for a SQLite index a
value that is equal for SQLite; for a full-text index FTS5 takes the expression and finds it in the values at the paths of the index; for the others an equal value. -/
def FoundIn (config : ConfigLib) (st : Storage) (p : ParsedConfig) (index property : String) (v : Value) (o : GoMap Value) : Prop :=
  match declaredIndex p index with
  | some (.wildcard d) => ∃ text query, ValueAt o property (.str text) ∧ v = .str query ∧
      if d.ignoreCase.getD false = true then st.lower query <:+: st.lower text else query <:+: text
  | some (.sqlite d) => ∃ x, ValueAt o property x ∧ ∃ q ∈ (completedSqlite config d).properties, q.name = property ∧ sqliteEquals st.sql q.collate x v = true
  | some (.fts5 d) => ∃ (found : List SqlValue → Bool) (values : List SqlValue), st.sql.matches (completedFts5 d).tokenize.toList (d.properties.map (·.toList)) (storedAs v) = some found ∧
      values.length = d.properties.length ∧ (∀ k (h : k < d.properties.length) (h' : k < values.length), StoredAt o d.properties[k] values[k]) ∧
      found values = true
  | _ => ∃ x, ValueAt o property x ∧ sameValue x v = true

open Classical in
/-- The same as a boolean. -/
noncomputable def foundIn (config : ConfigLib) (st : Storage) (p : ParsedConfig) (index property : String) (v : Value) (o : GoMap Value) : Bool :=
  decide (FoundIn config st p index property v o)

/-- What can be asked of an index: any value of full scans and map indexes, and what is `findable` of the others. -/
def Askable (config : ConfigLib) (st : Storage) (p : ParsedConfig) (index property : String) (v : Value) : Prop :=
  ∀ i, IsIndex p index i → FindsEqual i ∨ findable config st p index property v

/-- The disk for a wildcard index on the file of an input: the objects have texts at its paths, the file of the input is smaller than 2^63 bytes and so is the file of the index,
which does not exist yet or is the one that was built from this input. -/
structure WildcardOn (files : Files) (st : Storage) (d : WildcardDecl) (path : String) (asked : List String) (objects : List (GoMap Value)) (input : Input) : Prop where
  asked : ∀ q ∈ d.properties, q ∈ asked
  texts : ∀ o ∈ objects, ∀ q ∈ d.properties, ∃ text, ValueAt o q (.str text)
  length : ∀ content, files.content path = some content → content.length < 2^63
  time : Int64Range (files.modTimeNs path)
  small : (createIndex st.lower d.settings input (Stream.new [] 0 d.settings.bufferSize)).2.streamSize < 2^63
  count : d.properties.length ≤ 2^45
  file : st.file d.path = none ∨ st.file d.path = some (newWildcard st.lower d.settings input none).2

/-- The disk for all the indexes of the input `x`, whose file holds `objects`. -/
structure StoredOn (config : ConfigLib) (lib : StartLib) (files : Files) (st : Storage) (p : ParsedConfig) (functions : GoMap (Bytes → Res Value)) (x : InputDecl)
    (asked : List String) (objects : List (GoMap Value)) : Prop where
  wildcard : ∀ d, .wildcard d ∈ p.indexes → d.input = x.name → ∀ e input, WithColumns (lib.onFiles files) (completedInput x) e → openInput files e (declaredTypes p) functions = .ok input →
    WildcardOn files st d (inputPath x) asked objects input
  sqlite : ∀ d, .sqlite d ∈ p.indexes → d.input = x.name → ReadsInOrder st.sql ∧ ∀ e input, WithColumns (lib.onFiles files) (completedInput x) e →
    openInput files e (declaredTypes p) functions = .ok input → StoredDisk st (.sqlite (completedSqlite config d)) d.dsn input
  fts5 : ∀ d, .fts5 d ∈ p.indexes → d.input = x.name → ReadsInOrder st.sql ∧ (∀ q ∈ d.properties, q ∈ asked) ∧
    ∀ e input, WithColumns (lib.onFiles files) (completedInput x) e → openInput files e (declaredTypes p) functions = .ok input → StoredDisk st (.fts5 (completedFts5 d)) d.dsn input

end Rodb.Spec
