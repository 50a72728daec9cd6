import Verif.Spec.XmlInput
/-
  Specification vocabulary: the records that a record expression finds while a document is read.
-/
namespace Rodb.Spec

mutual
/-- Reading a node of the document. The expression is asked at the beginning of each element about the document so far, without the records that were found before and, if the parser forgets them,
without what is before a record in the same element: `whole` is this document, given the nodes
beside the element, `before` are those before it. If there is something that the expression selects, the element is a record. The second result are the nodes that remain. -/
def seenNode (query : XmlQuery) (whole : List XmlNode → List XmlNode) (before : List XmlNode) : XmlNode → List XmlNode × List XmlNode
  | .element name attr children =>
    if query (whole (before ++ [.element name attr []])) = true then ([.element name attr children], if query.forgets then [] else before)
    else
      let r := seenNodes query (fun l => whole (before ++ [.element name attr l])) [] children
      (r.1, before ++ [.element name attr r.2])
  | .other kind data => ([], before ++ [.other kind data])
/-- Reading nodes one after the other. -/
def seenNodes (query : XmlQuery) (whole : List XmlNode → List XmlNode) (before : List XmlNode) : List XmlNode → List XmlNode × List XmlNode
  | [] => ([], before)
  | node :: nodes =>
    let r := seenNode query whole before node
    let r' := seenNodes query whole r.2 nodes
    (r.1 ++ r'.1, r'.2)
end

/-- The names and attributes of an element and of those it is in, the outermost first. -/
abbrev XmlChain := List (String × List (String × Bytes))

/-- Some element has a chain of this kind. `above` is the chain of the element that the nodes are in. -/
inductive Reached (Q : XmlChain → Bool) : XmlChain → List XmlNode → Prop where
  | here {above : XmlChain} {name : String} {attr : List (String × Bytes)} {children nodes : List XmlNode} : .element name attr children ∈ nodes → Q (above ++ [(name, attr)]) = true → Reached Q above nodes
  | inside {above : XmlChain} {name : String} {attr : List (String × Bytes)} {children nodes : List XmlNode} : .element name attr children ∈ nodes → Reached Q (above ++ [(name, attr)]) children →
      Reached Q above nodes

/-- An expression that looks for elements by their names and attributes and those of the elements they are in, such as `/root/item`, `//item` or `//list[@id]/item`. -/
def LooksAlong (query : XmlQuery) (Q : XmlChain → Bool) : Prop := ∀ doc, query doc = true ↔ Reached Q [] doc

mutual
/-- The elements with such a chain in a node, in the order of the document. What is inside of a record is part of it. -/
def recordsAtNode (Q : XmlChain → Bool) (above : XmlChain) : XmlNode → List XmlNode
  | .element name attr children => if Q (above ++ [(name, attr)]) = true then [.element name attr children] else recordsAt Q (above ++ [(name, attr)]) children
  | .other _ _ => []
/-- The elements with such a chain in some nodes. -/
def recordsAt (Q : XmlChain → Bool) (above : XmlChain) : List XmlNode → List XmlNode
  | [] => []
  | node :: nodes => recordsAtNode Q above node ++ recordsAt Q above nodes
end

end Rodb.Spec
