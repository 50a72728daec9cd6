import Verif.Spec.Restart
import Verif.Spec.JsonFiles
/-
  Specification vocabulary: data files that change between starts of the program.
-/
namespace Rodb.Spec

/-- The file at this path is missing in one of the two, or has another size or another modification time in seconds. -/
def Touched (a b : Files) (path : String) : Prop :=
  (a.content path).map List.length ≠ (b.content path).map List.length ∨ a.modTimeNs path / 1000000000 ≠ b.modTimeNs path / 1000000000

/-- The sizes and times of the files are 64-bit integers. -/
def RealFiles (files : Files) : Prop := ∀ path content, files.content path = some content → content.length < 2^63 ∧ Int64Range (files.modTimeNs path)

/-- The index is one that is kept on the machine between the starts, for the input of this name. -/
def keptFor (i : IndexDecl) (input : String) : Prop :=
  match i with
  | .wildcard d => d.input = input
  | .sqlite d => d.input = input
  | .fts5 d => d.input = input
  | _ => False

/-- The names in SQLite and full-text indexes have no NUL character. -/
def PlainNames (p : ParsedConfig) : Prop :=
  (∀ d, .sqlite d ∈ p.indexes → NoNul d.name ∧ ∀ q ∈ d.properties, NoNul q.name) ∧
  (∀ d, .fts5 d ∈ p.indexes → NoNul d.name ∧ (∀ q ∈ d.properties, NoNul q) ∧ NoNul d.tokenize)

/-- The databases hold nothing of the indexes of the configuration. -/
def NothingStored (p : ParsedConfig) (st : Storage) : Prop :=
  (∀ d, .sqlite d ∈ p.indexes → (st.db d.dsn).table ("rodb_".toList ++ d.name.toList ++ "_metadata".toList) = none) ∧
  (∀ d, .fts5 d ∈ p.indexes → (st.db d.dsn).table ("rodb_".toList ++ d.name.toList ++ "_metadata".toList) = none)

end Rodb.Spec
