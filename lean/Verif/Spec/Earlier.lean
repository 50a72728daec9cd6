import Verif.Spec.Changed
import Verif.Spec.StoredFiles
/-
  Specification vocabulary: earlier starts of the program, perhaps with other data files.
-/
namespace Rodb.Spec

/-- The file of a wildcard index on this input, whose data is at `path`, would be described by 64-bit integers. -/
structure WildcardPossible (files : Files) (lower : Bytes → Bytes) (settings : WildcardConfig) (path : String) (input : Input) : Prop where
  length : ∀ content, files.content path = some content → content.length < 2^63
  time : Int64Range (files.modTimeNs path)
  positions : PositionsFit input
  small : (createIndex lower settings input (Stream.new [] 0 settings.bufferSize)).2.streamSize < 2^63

/-- An earlier start of the program with the configuration, in any order of its maps, killed or not. Each data file had the content that it has today, or another size or another modification time in
seconds. -/
structure EarlierStart (lib : StartLib) (files : Files) (st : Storage) (p : ParsedConfig) (functions : GoMap (Bytes → Res Value)) (c : Config) (r : Run) : Prop where
  config : Reordered c r.config
  libraries : r.files.decodeJson = files.decodeJson ∧ r.files.lexXml = files.lexXml ∧ r.files.xpath = files.xpath
  file : ∀ x ∈ p.inputs, r.files.content (inputPath x) = files.content (inputPath x) ∨ Touched r.files files (inputPath x)
  possible : ∀ x ∈ p.inputs, Touched r.files files (inputPath x) → ∀ d, .wildcard d ∈ p.indexes → d.input = x.name → ∀ e input, WithColumns (lib.onFiles r.files) (completedInput x) e →
    openInput r.files e (declaredTypes p) functions = .ok input → WildcardPossible r.files st.lower d.settings (inputPath x) input

end Rodb.Spec
