import Verif.Spec.Storage
import Verif.Model.Restart
import Verif.Spec.Running
/-
  Specification vocabulary: indexes that can be kept on the same machine.
-/
namespace Rodb.Spec

/-- The index as it is stored in a database, with its DSN. -/
def storedOf : IndexDecl → Option (StoredIndex × String)
  | .sqlite d => some (.sqlite d, d.dsn)
  | .fts5 d => some (.fts5 d, d.dsn)
  | _ => none

/-- The indexes do not use the same file, and in the same database their names differ in more than the case of letters. -/
structure KeptApart (i j : IndexDecl) : Prop where
  files : ∀ a b, i = .wildcard a → j = .wildcard b → a.path ≠ b.path
  tables : ∀ x y, storedOf i = some x → storedOf j = some y → x.2 = y.2 → sameName x.1.name.toList y.1.name.toList = false

/-- The disk for an index on an input, as in `WildcardDisk` and `StoredDisk`. -/
structure IndexDisk (st : Storage) (i : IndexDecl) (input : Input) : Prop where
  wildcard : ∀ d, i = .wildcard d → d.properties.Nodup ∧ ∃ records, WildcardDisk st d input records
  stored : ∀ x dsn, storedOf i = some (x, dsn) → StoredDisk st x dsn input ∧ x.Accepted

/-- The indexes of the configuration are kept apart from each other. -/
def OwnPlaces (config : ConfigLib) (p : ParsedConfig) : Prop := ∀ i ∈ p.indexes, ∀ j ∈ p.indexes, i = j ∨ KeptApart (completedIndex config i) (completedIndex config j)

/-- `functions` are what the running parsers of the configuration, `texts`, do. -/
def ParsersRun (lib : StartLib) (p : ParsedConfig) (texts : GoMap TextParser) (functions : GoMap (Bytes → Res Value)) : Prop :=
  (∀ n x, IsParser p n x → ∃ t, mapGet texts n = some t ∧ RunsParser lib (completedParser x) t) ∧ functions = parseFunctions lib texts

/-- The indexes use neither the same file nor the same database. -/
structure Separate (i j : IndexDecl) : Prop where
  files : ∀ a b, i = .wildcard a → j = .wildcard b → a.path ≠ b.path
  databases : ∀ x y, storedOf i = some x → storedOf j = some y → x.2 ≠ y.2

/-- Every index of the configuration has a file or a database of its own. -/
def OwnFiles (p : ParsedConfig) : Prop := ∀ i ∈ p.indexes, ∀ j ∈ p.indexes, i = j ∨ Separate i j

/-- The file of a wildcard index says that it is complete: its 39th byte is not zero. -/
def SaysComplete (content : Bytes) : Prop := ∃ b, content[38]? = some b ∧ b ≠ 0

/-- No start is killed between the write of a wildcard index that says that its file is complete and its last write: a file that says so is the one that the start would have left if it had not been
killed. -/
def NoneInGap (lib : StartLib) : Storage → List Run → Prop
  | _, [] => True
  | st, r :: rest => (∀ path content, (r.leaves lib st).file path = some content → SaysComplete content → (Run.leaves lib st { r with death := none }).file path = some content) ∧
    NoneInGap lib (r.leaves lib st) rest

/-- Starts of the program with these data files and this configuration, in any order of its maps, killed at any point or not at all. -/
def StartsOf (files : Files) (c : Config) (runs : List Run) : Prop := ∀ r ∈ runs, r.files = files ∧ Reordered c r.config

end Rodb.Spec
