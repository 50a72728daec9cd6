import Verif.Model.XPath
import Verif.Spec.XmlExpr
import Verif.Spec.XmlText
import Verif.Spec.XmlFiles
/-
  Specification vocabulary: how XPath expressions are written, and where the paths lead in a document.
-/
namespace Rodb.Spec

/-! ### How expressions are written -/

/-- A condition, without its brackets. -/
def predText : XPred → List Char
  | .has a => '@' :: a
  | .lacks a => "not(@".toList ++ a ++ ")".toList
  | .equals a v => '@' :: (a ++ "='".toList ++ v ++ "'".toList)
  | .child name => name

/-- A step: `name`, `*`, `name[@a][b]`, and so on. -/
def stepText (s : XStep) : List Char := s.name.getD ['*'] ++ s.preds.flatMap (fun q => '[' :: (predText q ++ [']']))

/-- The parts with slashes between them. -/
def withSlashes : List (List Char) → List Char
  | [] => []
  | [part] => part
  | part :: parts => part ++ '/' :: withSlashes parts

/-- A path: `.`, `/`, `a/b`, `/a/b`, `//a/b`, `/a/@b`, and so on. -/
def pathText (p : XPath) : List Char :=
  let parts := withSlashes (p.steps.map stepText ++ (p.attr.map (fun a => '@' :: a)).toList)
  match p.start with
  | .here => if parts = [] then ['.'] else parts
  | .root => '/' :: parts
  | .anywhere => '/' :: '/' :: parts

/-- An expression. -/
def exprText : XExpr → List Char
  | .path p => pathText p
  | .string p => "string(".toList ++ pathText p ++ ")".toList
  | .boolean p => "boolean(".toList ++ pathText p ++ ")".toList
  | .count p => "count(".toList ++ pathText p ++ ")".toList

/-- The path in an expression. -/
def pathOf : XExpr → XPath
  | .path p | .string p | .boolean p | .count p => p

/-- A name of an element or an attribute, as in XML. -/
def XName (name : List Char) : Prop := XmlName (String.ofList name)

/-- The names in a condition are names, and its text has no special characters. -/
def GoodPred : XPred → Prop
  | .has a => XName a
  | .lacks a => XName a
  | .equals a v => XName a ∧ '\'' ∉ v ∧ ']' ∉ v ∧ '/' ∉ v
  | .child name => XName name

/-- A path that can be written: its names are names, and `//` is followed by a step. -/
structure GoodXPath (p : XPath) : Prop where
  names : ∀ s ∈ p.steps, ∀ n, s.name = some n → XName n
  preds : ∀ s ∈ p.steps, ∀ q ∈ s.preds, GoodPred q
  attr : ∀ a, p.attr = some a → XName a
  anywhere : p.start = .anywhere → p.steps ≠ []

/-- The text of this expression. -/
def IsExpr (e : XExpr) (text : String) : Prop := GoodXPath (pathOf e) ∧ text.toList = exprText e

/-! ### Where paths lead. A place in a node is given by the numbers of the children on the way to it. -/

/-- What a condition says of an element with these attributes and children. -/
def PredHolds (attr : List (String × Bytes)) (children : List XmlNode) : XPred → Prop
  | .has a => ∃ v, attr.lookup (String.ofList a) = some v
  | .lacks a => attr.lookup (String.ofList a) = none
  | .equals a v => attr.lookup (String.ofList a) = some (utf8 v)
  | .child name => ∃ attr' children', .element (String.ofList name) attr' children' ∈ children

/-- A step can lead to this node: an element with the name, or any name for `*`, and the conditions hold. -/
def StepTo (s : XStep) (node : XmlNode) : Prop :=
  ∃ name attr children, node = .element name attr children ∧ (∀ n, s.name = some n → name = String.ofList n) ∧ ∀ q ∈ s.preds, PredHolds attr children q

/-- The steps lead from a node to the one at this place in it, from child to child. -/
inductive Follows : List XStep → XmlNode → List Nat → XmlNode → Prop where
  | here {node : XmlNode} : Follows [] node [] node
  | child {s : XStep} {steps : List XStep} {name : String} {attr : List (String × Bytes)} {children : List XmlNode} {i : Nat} {node target : XmlNode} {place : List Nat} :
      children[i]? = some node → StepTo s node → Follows steps node place target → Follows (s :: steps) (.element name attr children) (i :: place) target

/-- `target` is at this place in the node. -/
inductive IsAt : XmlNode → List Nat → XmlNode → Prop where
  | here {node : XmlNode} : IsAt node [] node
  | child {name : String} {attr : List (String × Bytes)} {children : List XmlNode} {i : Nat} {node target : XmlNode} {place : List Nat} :
      children[i]? = some node → IsAt node place target → IsAt (.element name attr children) (i :: place) target

/-- The path leads from the node to the one at this place in it. A path that begins with `//` begins with any node inside of it to which the first step can lead; `/` is the node itself. -/
def LeadsTo (p : XPath) (node : XmlNode) (place : List Nat) (target : XmlNode) : Prop :=
  if p.start = .anywhere then
    ∃ s steps above below found, p.steps = s :: steps ∧ place = above ++ below ∧ above ≠ [] ∧ IsAt node above found ∧ StepTo s found ∧ Follows steps found below target
  else Follows p.steps node place target

/-- One place comes before another one in the document: an element before what is in it. -/
abbrev PlaceBefore (a b : List Nat) : Prop := List.Lex (· < ·) a b

/-- The nodes are those at the places with this property, each once. -/
def Lists (P : List Nat → XmlNode → Prop) (nodes : List XmlNode) : Prop :=
  ∃ places : List (List Nat), places.length = nodes.length ∧ places.Nodup ∧ ∀ place target, P place target ↔ ∃ i : Nat, places[i]? = some place ∧ nodes[i]? = some target

/-- The same, in the order of the document. -/
def ListsInOrder (P : List Nat → XmlNode → Prop) (nodes : List XmlNode) : Prop :=
  ∃ places : List (List Nat), places.length = nodes.length ∧ places.Pairwise PlaceBefore ∧ ∀ place target, P place target ↔ ∃ i : Nat, places[i]? = some place ∧ nodes[i]? = some target

mutual
/-- The text in a node: the texts and CDATA sections in it, one after the other. -/
inductive HasText : XmlNode → Bytes → Prop where
  | element {name : String} {attr : List (String × Bytes)} {children : List XmlNode} {text : Bytes} : HaveText children text → HasText (.element name attr children) text
  | text {data : Bytes} : HasText (.other .text data) data
  | cdata {data : Bytes} : HasText (.other .cdata data) data
  | comment {data : Bytes} : HasText (.other .comment data) []
  | instruction {target : String} {data : Bytes} : HasText (.other (.instruction target) data) []
  | directive {data : Bytes} : HasText (.other .directive data) []
/-- The text in some nodes. -/
inductive HaveText : List XmlNode → Bytes → Prop where
  | nil : HaveText [] []
  | cons {node : XmlNode} {nodes : List XmlNode} {text texts : Bytes} : HasText node text → HaveText nodes texts → HaveText (node :: nodes) (text ++ texts)
end

/-- The path leads to this text: that of an element, or the value of an attribute. -/
def LeadsToText (p : XPath) (node : XmlNode) (place : List Nat) (text : Bytes) : Prop :=
  ∃ target, LeadsTo p node place target ∧
    match p.attr with
    | none => HasText target text
    | some a => ∃ name attr children, target = .element name attr children ∧ attr.lookup (String.ofList a) = some text

/-- The text at the first place that the path leads to; the empty text if there is none. -/
def FirstText (p : XPath) (node : XmlNode) (text : Bytes) : Prop :=
  (∃ place, LeadsToText p node place text ∧ ∀ place' text', LeadsToText p node place' text' → place' = place ∨ PlaceBefore place place') ∨
  text = [] ∧ ∀ place text', ¬ LeadsToText p node place text'

/-- The number of places that the path leads to. -/
def HowMany (p : XPath) (node : XmlNode) (n : Nat) : Prop :=
  ∃ places : List (List Nat), places.length = n ∧ places.Nodup ∧ ∀ place, place ∈ places ↔ ∃ text, LeadsToText p node place text

/-! ### Record expressions -/

/-- The conditions of a path look at attributes only. -/
def AttributesOnly (p : XPath) : Prop := ∀ s ∈ p.steps, ∀ name, .child name ∉ s.preds

/-- What a step says of the name and the attributes of an element, if its conditions look at attributes only. -/
def stepFits (s : XStep) (e : String × List (String × Bytes)) : Bool :=
  (match s.name with
    | none => true
    | some n => e.1 = String.ofList n) &&
  s.preds.all (fun q => match q with
    | .has a => (e.2.lookup (String.ofList a)).isSome
    | .lacks a => (e.2.lookup (String.ofList a)).isNone
    | .equals a v => e.2.lookup (String.ofList a) = some (utf8 v)
    | .child _ => false)

/-- The elements fit the steps one by one. -/
def stepsFit : List XStep → XmlChain → Bool
  | [], chain => chain.isEmpty
  | _ :: _, [] => false
  | s :: steps, e :: chain => stepFits s e && stepsFit steps chain

/-- The element with this chain is one that the path leads to from the top of the document: all of the chain fits the steps, or, if the path begins with `//`, the end of it. -/
def chainFits (p : XPath) (chain : XmlChain) : Bool :=
  if p.start = .anywhere then p.steps.length ≤ chain.length && stepsFit p.steps (chain.drop (chain.length - p.steps.length)) else stepsFit p.steps chain

/-! ### The values of properties -/

/-- The order in which a path finds its places is that of the document. -/
def KeepsOrder (p : XPath) : Prop := p.start = .anywhere → p.steps.length = 1

mutual
/-- The value of a declared property of an XML input on a node, with the expressions of this syntax. Properties are primitives by default, which are texts by default: `string(path)` with any
parser, `boolean(path)` with a boolean parser, and `count(path)` with an integer parser. The values of an array are those of its items on the elements that the path leads to. An object is null if
its path leads nowhere. -/
inductive XPathReads (types : String → Option ParserType) (functions : GoMap (Bytes → Res Value)) : XmlPropDecl → XmlNode → Value → Prop where
  | text {name type parser expr : String} {items : Option XmlPropDecl} {properties : List XmlPropDecl} {node : XmlNode} {p : XPath} {t : Bytes} {parse : Bytes → Res Value} {v : Value} :
      type = "" ∨ type = "primitive" → IsExpr (.string p) expr → KeepsOrder p → FirstText p node t → mapGet functions (orText parser "string") = some parse → parse t = .ok v →
      XPathReads types functions (.mk name type parser expr items properties) node v
  | boolean {name type parser expr : String} {items : Option XmlPropDecl} {properties : List XmlPropDecl} {node : XmlNode} {p : XPath} {b : Bool} :
      type = "" ∨ type = "primitive" → IsExpr (.boolean p) expr → types (orText parser "string") = some .boolean → (b = true ↔ ∃ place t, LeadsToText p node place t) →
      XPathReads types functions (.mk name type parser expr items properties) node (.bool b)
  | count {name type parser expr : String} {items : Option XmlPropDecl} {properties : List XmlPropDecl} {node : XmlNode} {p : XPath} {n : Nat} :
      type = "" ∨ type = "primitive" → IsExpr (.count p) expr → types (orText parser "string") = some .integer → HowMany p node n → n ≤ 2 ^ 53 →
      XPathReads types functions (.mk name type parser expr items properties) node (.int n)
  | array {name parser expr : String} {items : XmlPropDecl} {properties : List XmlPropDecl} {node : XmlNode} {p : XPath} {nodes : List XmlNode} {values : List Value} :
      IsExpr (.path p) expr → p.attr = none → KeepsOrder p → ListsInOrder (LeadsTo p node) nodes → XPathReadsEach types functions items nodes values →
      XPathReads types functions (.mk name "array" parser expr (some items) properties) node (.arr values)
  | absent {name parser expr : String} {items : Option XmlPropDecl} {properties : List XmlPropDecl} {node : XmlNode} {p : XPath} :
      IsExpr (.path p) expr → p.attr = none → (∀ place target, ¬ LeadsTo p node place target) → XPathReads types functions (.mk name "object" parser expr items properties) node .null
  | object {name parser expr : String} {items : Option XmlPropDecl} {properties : List XmlPropDecl} {node child : XmlNode} {p : XPath} {place : List Nat} {object : GoMap Value} :
      IsExpr (.path p) expr → p.attr = none → LeadsTo p node place child → (∀ place' target, LeadsTo p node place' target → place' = place) →
      XPathReadsObject types functions properties child object → XPathReads types functions (.mk name "object" parser expr items properties) node (.obj object)
/-- The values of one property on several nodes. -/
inductive XPathReadsEach (types : String → Option ParserType) (functions : GoMap (Bytes → Res Value)) : XmlPropDecl → List XmlNode → List Value → Prop where
  | nil {items : XmlPropDecl} : XPathReadsEach types functions items [] []
  | cons {items : XmlPropDecl} {node : XmlNode} {nodes : List XmlNode} {v : Value} {values : List Value} : XPathReads types functions items node v →
      XPathReadsEach types functions items nodes values → XPathReadsEach types functions items (node :: nodes) (v :: values)
/-- The object with the values of several properties on one node. -/
inductive XPathReadsObject (types : String → Option ParserType) (functions : GoMap (Bytes → Res Value)) : List XmlPropDecl → XmlNode → GoMap Value → Prop where
  | nil {node : XmlNode} : XPathReadsObject types functions [] node []
  | cons {property : XmlPropDecl} {properties : List XmlPropDecl} {node : XmlNode} {v : Value} {object : GoMap Value} : XPathReads types functions property node v →
      XPathReadsObject types functions properties node object → XPathReadsObject types functions (property :: properties) node ((property.name, v) :: object)
end

/-- The objects of all the nodes. -/
inductive XPathReadsAll (types : String → Option ParserType) (functions : GoMap (Bytes → Res Value)) (properties : List XmlPropDecl) : List XmlNode → List (GoMap Value) → Prop where
  | nil : XPathReadsAll types functions properties [] []
  | cons {node : XmlNode} {nodes : List XmlNode} {object : GoMap Value} {objects : List (GoMap Value)} : XPathReadsObject types functions properties node object →
      XPathReadsAll types functions properties nodes objects → XPathReadsAll types functions properties (node :: nodes) (object :: objects)

/-- The file of the XML input `d` is an XML text that stands for `nodes`. Its records are the elements that a path such as `//name[@a]` leads to, and no record comes after the end of an element with
a record in it. In the records, the properties have the values in `objects`. The records that were fetched before are records of the file. What is asked or indexed are paths that can be followed in
all of them. The indexes of the input are full scans or map indexes, on values that are not arrays or objects. -/
structure XPathInputData (files : Files) (p : ParsedConfig) (functions : GoMap (Bytes → Res Value)) (d : XmlDecl) (asked : List String) (objects : List (GoMap Value)) : Prop where
  file : ∃ content nodes s, files.content d.path = some content ∧ XmlWritten nodes content ∧ IsExpr (.path ⟨.anywhere, [s], none⟩) d.recordXPath ∧ (∀ name, .child name ∉ s.preds) ∧
    Straight (fun name attr => stepFits s (name, attr)) nodes ∧
    XPathReadsAll (declaredTypes p) functions d.properties (recordsIn (fun name attr => stepFits s (name, attr)) nodes) objects
  fetched : ∀ input, openInput files (completedInput (.xml d)) (declaredTypes p) functions = .ok input → ∀ position, ∀ before ∈ files.fetchedXml d.name position,
    ∃ records r, input.scan = .ok records ∧ .ok r ∈ records ∧ r.position = before
  paths : ∀ q ∈ asked, InProperty d.properties q ∧ ∀ o ∈ objects, ∃ v, ValueAt o q v
  indexed : ∀ m, .map m ∈ p.indexes → m.input = d.name → ∀ q ∈ m.properties, InProperty d.properties q ∧ ∀ o ∈ objects, ∃ v, ValueAt o q v ∧ Scalar v
  finite : ∀ o ∈ objects, ¬ HasNonFinite (.obj o)
  equality : ∀ i ∈ p.indexes, inputOfIndex i = some d.name → FindsEqual i

end Rodb.Spec
