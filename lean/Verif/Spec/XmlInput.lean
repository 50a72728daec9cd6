import Verif.Model.XmlInput
/-
  Specification vocabulary: XML documents and the records in them.
-/
namespace Rodb.Spec

/-- The tokens of a well-formed document, each with a number of bytes, and its nodes. -/
inductive XmlContent : List (XmlRaw × Nat) → List XmlNode → Prop where
  | nil : XmlContent [] []
  | other {kind : XmlKind} {data : Bytes} {size : Nat} {tokens : List (XmlRaw × Nat)} {nodes : List XmlNode} :
      XmlContent tokens nodes → XmlContent ((.other kind data, size) :: tokens) (.other kind data :: nodes)
  | closed {name : String} {attr : List (String × Bytes)} {size : Nat} {tokens : List (XmlRaw × Nat)} {nodes : List XmlNode} :
      XmlContent tokens nodes → XmlContent ((.start name attr true, size) :: tokens) (.element name attr [] :: nodes)
  | element {name : String} {attr : List (String × Bytes)} {size size' : Nat} {inner tokens : List (XmlRaw × Nat)} {children nodes : List XmlNode} :
      XmlContent inner children → XmlContent tokens nodes →
      XmlContent ((.start name attr false, size) :: (inner ++ (.stop name, size') :: tokens)) (.element name attr children :: nodes)

/-- `node` is one of the nodes, or inside of one of them. -/
inductive Occurs (node : XmlNode) : List XmlNode → Prop where
  | here {nodes : List XmlNode} : node ∈ nodes → Occurs node nodes
  | inside {name : String} {attr : List (String × Bytes)} {children nodes : List XmlNode} : .element name attr children ∈ nodes → Occurs node children → Occurs node nodes

/-- An XPath expression that looks for elements with some name or some attributes anywhere in the document, for example `//item` or `//item[@id]`. -/
def LooksFor (query : XmlQuery) (P : String → List (String × Bytes) → Bool) : Prop :=
  ∀ doc, query doc = true ↔ ∃ name attr children, P name attr = true ∧ Occurs (.element name attr children) doc

mutual
/-- The records in a node: the elements that are looked for, in the order of the document. What is inside of a record is part of it. -/
def recordsOf (P : String → List (String × Bytes) → Bool) : XmlNode → List XmlNode
  | .element name attr children => if P name attr = true then [.element name attr children] else recordsIn P children
  | .other _ _ => []
/-- The records in some nodes. -/
def recordsIn (P : String → List (String × Bytes) → Bool) : List XmlNode → List XmlNode
  | [] => []
  | node :: nodes => recordsOf P node ++ recordsIn P nodes
end

/-- No record comes after the end of an element with a record in it. For example, all the records are children of one element. -/
inductive Straight (P : String → List (String × Bytes) → Bool) : List XmlNode → Prop where
  | none {nodes : List XmlNode} : recordsIn P nodes = [] → Straight P nodes
  | record {name : String} {attr : List (String × Bytes)} {children nodes : List XmlNode} : P name attr = true → Straight P nodes → Straight P (.element name attr children :: nodes)
  | without {node : XmlNode} {nodes : List XmlNode} : recordsOf P node = [] → Straight P nodes → Straight P (node :: nodes)
  | inside {name : String} {attr : List (String × Bytes)} {children nodes : List XmlNode} : P name attr = false → Straight P children → recordsIn P nodes = [] →
      Straight P (.element name attr children :: nodes)

/-- The tokens of a file have at least one byte, and those after a token do not depend on it. -/
def SteadyLexer (lex : XmlLexer) : Prop :=
  ∀ left t size rest e, lex left = ((t, size) :: rest, e) → 0 < size ∧ size ≤ left.length ∧ lex (left.drop size) = (rest, e)

/-- The content of the file is a well-formed document with these nodes. -/
def IsDocument (lex : XmlLexer) (content : Bytes) (nodes : List XmlNode) : Prop := ∃ tokens, lex content = (tokens, .eof) ∧ XmlContent tokens nodes

/-- The records of a scan: at each position a node. -/
def Placed (make : XmlNode → Int → Rec) (nodes : List XmlNode) (positions : List Nat) : List (Res Rec) := (nodes.zip positions).map (fun x => .ok (make x.1 x.2))

end Rodb.Spec
