import Verif.Spec.Retold
import Verif.Spec.JsonFiles
/-
  Specification vocabulary: files that are written in different ways and hold the same data.
-/
namespace Rodb.Spec

/-- The file of the JSON input `d` is made of the texts of these objects, whose keys are distinct. -/
def JsonHolds (files : Files) (parseFloat : Bytes → Res GoFloat) (d : JsonDecl) (objects : List (GoMap Value)) : Prop :=
  files.decodeJson = jsonDecoder parseFloat ∧ (∀ o ∈ objects, DistinctKeys (.obj o) ∧ Nested 10000 (.obj o)) ∧
    ∃ content, files.content d.path = some content ∧ JsonFile JsonChar (ReadNumber parseFloat) (objects.map .obj) content

/-- The file of the XML input `d` is a well-formed document, in which these are the elements that the expression of the records looks for, anywhere in the document. No record comes after the
end of an element with a record in it, and what was fetched before are records of the file. -/
def XmlHolds (files : Files) (d : XmlDecl) (elements : List XmlNode) : Prop :=
  SteadyLexer files.lexXml ∧ ∃ content nodes P, files.content d.path = some content ∧ LooksFor (files.xpath.matching d.recordXPath) P ∧ IsDocument files.lexXml content nodes ∧ Straight P nodes ∧
    recordsIn P nodes = elements ∧
    ∀ types functions input, openInput files (completedInput (.xml d)) types functions = .ok input → ∀ position, ∀ before ∈ files.fetchedXml d.name position,
      ∃ records r, input.scan = .ok records ∧ .ok r ∈ records ∧ r.position = before

/-- The files of the input hold the same data in both cases: the same columns and rows, the same objects, or the same elements. Quotes, line ends, blank lines, spaces, the way characters and numbers are
written and, in XML, everything outside of the records can be different. -/
def SameData (files files' : Files) (parseFloat : Bytes → Res GoFloat) : InputDecl → Prop
  | .csv d => ∃ columns rows, CsvFile files d columns rows ∧ CsvFile files' d columns rows
  | .json d => ∃ objects, JsonHolds files parseFloat d objects ∧ JsonHolds files' parseFloat d objects
  | .xml d => files'.xpath = files.xpath ∧ ∃ elements, XmlHolds files d elements ∧ XmlHolds files' d elements

end Rodb.Spec
