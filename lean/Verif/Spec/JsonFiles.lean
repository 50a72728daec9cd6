import Verif.Spec.Files
import Verif.Spec.XmlFiles
import Verif.Spec.Json
/-
  Specification vocabulary: what a JSON file of the machine means for a declared input.
-/
namespace Rodb.Spec

/-- The file of the JSON input `d` is made of the texts of `objects`, whose keys are distinct; what is asked or indexed are paths that can be followed in all of them. Map indexes
are on values that are not arrays or objects. -/
structure JsonContent (files : Files) (parseFloat : Bytes → Res GoFloat) (p : ParsedConfig) (d : JsonDecl) (asked : List String) (objects : List (GoMap Value)) : Prop where
  decoder : files.decodeJson = jsonDecoder parseFloat
  file : ∃ content, files.content d.path = some content ∧ JsonFile JsonChar (ReadNumber parseFloat) (objects.map .obj) content
  data : ∀ o ∈ objects, DistinctKeys (.obj o) ∧ Nested 10000 (.obj o) ∧ ¬ HasNonFinite (.obj o)
  paths : ∀ q ∈ asked, q ≠ "" ∧ ∀ o ∈ objects, ∃ v, ValueAt o q v
  indexed : ∀ m, .map m ∈ p.indexes → m.input = d.name → ∀ q ∈ m.properties, q ≠ "" ∧ ∀ o ∈ objects, ∃ v, ValueAt o q v ∧ Scalar v

/-- The same, and the indexes of the input are full scans or map indexes. -/
structure JsonData (files : Files) (parseFloat : Bytes → Res GoFloat) (p : ParsedConfig) (d : JsonDecl) (asked : List String) (objects : List (GoMap Value)) : Prop
    extends JsonContent files parseFloat p d asked objects where
  equality : ∀ i ∈ p.indexes, inputOfIndex i = some d.name → FindsEqual i

/-- The file of the input holds `objects`. -/
def FileContent (files : Files) (parseFloat : Bytes → Res GoFloat) (p : ParsedConfig) (functions : GoMap (Bytes → Res Value)) (d : InputDecl) (asked : List String)
    (objects : List (GoMap Value)) : Prop :=
  match d with
  | .csv d => CsvContent files p functions d asked objects
  | .json d => JsonContent files parseFloat p d asked objects
  | .xml d => XmlInputContent files p functions d asked objects

/-- The path of the file of an input. -/
def inputPath : InputDecl → String
  | .csv d => d.path
  | .json d => d.path
  | .xml d => d.path

/-- The file of the input holds `objects`, and the indexes of the input are full scans or map indexes. -/
def FileData (files : Files) (parseFloat : Bytes → Res GoFloat) (p : ParsedConfig) (functions : GoMap (Bytes → Res Value)) (d : InputDecl) (asked : List String)
    (objects : List (GoMap Value)) : Prop :=
  match d with
  | .csv d => CsvData files p functions d asked objects
  | .json d => JsonData files parseFloat p d asked objects
  | .xml d => XmlInputData files p functions d asked objects

end Rodb.Spec
