import Verif.Spec.Files
import Verif.Spec.XmlInput
/-
  Specification vocabulary: what an XML file of the machine means for a declared input.
-/
namespace Rodb.Spec

/-- The value of a primitive property: a text is read by the parser; a number is taken by a float or an integer parser, a boolean by a boolean parser, and the XML of selected nodes by
a string parser. -/
inductive XmlPrimitive (xpath : XPathLib) (types : String → Option ParserType) (functions : GoMap (Bytes → Res Value)) (parser : String) : XPathResult → Value → Prop where
  | text {parse : Bytes → Res Value} {s : Bytes} {v : Value} : mapGet functions parser = some parse → parse s = .ok v → XmlPrimitive xpath types functions parser (.str s) v
  | float {f : GoFloat} : types parser = some .float → XmlPrimitive xpath types functions parser (.num f) (.float f)
  | integer {f : GoFloat} : types parser = some .integer → XmlPrimitive xpath types functions parser (.num f) (.int (xpath.floatToInt f))
  | boolean {b : Bool} : types parser = some .boolean → XmlPrimitive xpath types functions parser (.bool b) (.bool b)
  | nodes {xml : Bytes} : types parser = some .string → XmlPrimitive xpath types functions parser (.nodes xml) (.str xml)

mutual
/-- The value of a declared property on a node. Properties are primitives by default, which are texts by default; an object is null if its expression selects nothing. -/
inductive XmlReads (xpath : XPathLib) (types : String → Option ParserType) (functions : GoMap (Bytes → Res Value)) : XmlPropDecl → XmlNode → Value → Prop where
  | primitive {name type parser expr : String} {items : Option XmlPropDecl} {properties : List XmlPropDecl} {node : XmlNode} {v : Value} :
      type = "" ∨ type = "primitive" → XmlPrimitive xpath types functions (orText parser "string") (xpath.eval expr node) v →
      XmlReads xpath types functions (.mk name type parser expr items properties) node v
  | array {name parser expr : String} {items : XmlPropDecl} {properties : List XmlPropDecl} {node : XmlNode} {values : List Value} :
      XmlReadsEach xpath types functions items (xpath.select expr node) values →
      XmlReads xpath types functions (.mk name "array" parser expr (some items) properties) node (.arr values)
  | absent {name parser expr : String} {items : Option XmlPropDecl} {properties : List XmlPropDecl} {node : XmlNode} :
      xpath.select expr node = [] → XmlReads xpath types functions (.mk name "object" parser expr items properties) node .null
  | object {name parser expr : String} {items : Option XmlPropDecl} {properties : List XmlPropDecl} {node child : XmlNode} {object : GoMap Value} :
      xpath.select expr node = [child] → XmlReadsObject xpath types functions properties child object →
      XmlReads xpath types functions (.mk name "object" parser expr items properties) node (.obj object)
/-- The values of one property on several nodes. -/
inductive XmlReadsEach (xpath : XPathLib) (types : String → Option ParserType) (functions : GoMap (Bytes → Res Value)) : XmlPropDecl → List XmlNode → List Value → Prop where
  | nil {items : XmlPropDecl} : XmlReadsEach xpath types functions items [] []
  | cons {items : XmlPropDecl} {node : XmlNode} {nodes : List XmlNode} {v : Value} {values : List Value} : XmlReads xpath types functions items node v →
      XmlReadsEach xpath types functions items nodes values → XmlReadsEach xpath types functions items (node :: nodes) (v :: values)
/-- The object with the values of several properties on one node. -/
inductive XmlReadsObject (xpath : XPathLib) (types : String → Option ParserType) (functions : GoMap (Bytes → Res Value)) : List XmlPropDecl → XmlNode → GoMap Value → Prop where
  | nil {node : XmlNode} : XmlReadsObject xpath types functions [] node []
  | cons {property : XmlPropDecl} {properties : List XmlPropDecl} {node : XmlNode} {v : Value} {object : GoMap Value} : XmlReads xpath types functions property node v →
      XmlReadsObject xpath types functions properties node object → XmlReadsObject xpath types functions (property :: properties) node ((property.name, v) :: object)
end

/-- The objects of all the nodes. -/
def XmlReadsAll (xpath : XPathLib) (types : String → Option ParserType) (functions : GoMap (Bytes → Res Value)) (properties : List XmlPropDecl) : List XmlNode → List (GoMap Value) → Prop
  | [], objects => objects = []
  | node :: nodes, objects => ∃ object rest, XmlReadsObject xpath types functions properties node object ∧ XmlReadsAll xpath types functions properties nodes rest ∧
      objects = object :: rest

/-- A path to a property, or inside of its values. -/
def InProperty (properties : List XmlPropDecl) (path : String) : Prop := ∃ name rest, splitPath path = name :: rest ∧ name ∈ properties.map XmlPropDecl.name

/-- The file of the XML input `d` is a well-formed document, in whose records the properties have the values in `objects`. The expression of the records looks for elements
anywhere in the document, and no record comes after the end of an element with a record in it. The records that were fetched before are records of the file. What is asked or indexed are
paths that can be followed in all of them. Map indexes are on values that are not arrays or objects. -/
structure XmlInputContent (files : Files) (p : ParsedConfig) (functions : GoMap (Bytes → Res Value)) (d : XmlDecl) (asked : List String) (objects : List (GoMap Value)) : Prop where
  lexer : SteadyLexer files.lexXml
  file : ∃ content nodes P, files.content d.path = some content ∧ LooksFor (files.xpath.matching d.recordXPath) P ∧ IsDocument files.lexXml content nodes ∧ Straight P nodes ∧
    XmlReadsAll files.xpath (declaredTypes p) functions d.properties (recordsIn P nodes) objects
  fetched : ∀ input, openInput files (completedInput (.xml d)) (declaredTypes p) functions = .ok input → ∀ position, ∀ before ∈ files.fetchedXml d.name position,
    ∃ records r, input.scan = .ok records ∧ .ok r ∈ records ∧ r.position = before
  paths : ∀ q ∈ asked, InProperty d.properties q ∧ ∀ o ∈ objects, ∃ v, ValueAt o q v
  indexed : ∀ m, .map m ∈ p.indexes → m.input = d.name → ∀ q ∈ m.properties, InProperty d.properties q ∧ ∀ o ∈ objects, ∃ v, ValueAt o q v ∧ Scalar v
  finite : ∀ o ∈ objects, ¬ HasNonFinite (.obj o)

/-- The same, and the indexes of the input are full scans or map indexes. -/
structure XmlInputData (files : Files) (p : ParsedConfig) (functions : GoMap (Bytes → Res Value)) (d : XmlDecl) (asked : List String) (objects : List (GoMap Value)) : Prop
    extends XmlInputContent files p functions d asked objects where
  equality : ∀ i ∈ p.indexes, inputOfIndex i = some d.name → FindsEqual i

end Rodb.Spec
