import Verif.Model.Inputs
/-
  XPath: the expressions of the documentation (docs/schema/inputs/xml.yaml:13-35) and of the tests of the code, as antchfx/xpath compiles and evaluates them on the nodes of xmlquery
  (xml_config.go:61, 105; xml_record.go:94-103). Everything else is left to a parameter. The libraries are not part of the repository and are modelled from memory.
-/
namespace Rodb

/-- A condition on an element: `[@a]`, `[not(@a)]`, `[@a='v']` or `[name]` (there is a child with this name). -/
inductive XPred where
  | has (attr : List Char)
  | lacks (attr : List Char)
  | equals (attr value : List Char)
  | child (name : List Char)
  deriving DecidableEq

/-- A step to elements: a name, or none for `*`, with conditions. -/
structure XStep where
  name : Option (List Char)
  preds : List XPred
  deriving DecidableEq

/-- Where a path begins: at the node (`a`), at the root (`/a`), which is the node that the expression is evaluated on (xml_record.go:102 `CreateXPathNavigator`), or anywhere in it (`//a`). -/
inductive XStart where
  | here
  | root
  | anywhere
  deriving DecidableEq

/-- A path: its steps, and the attribute that it ends with. -/
structure XPath where
  start : XStart
  steps : List XStep
  attr : Option (List Char)
  deriving DecidableEq

/-- An expression: a path, `string(path)`, `boolean(path)` or `count(path)`. -/
inductive XExpr where
  | path (p : XPath)
  | string (p : XPath)
  | boolean (p : XPath)
  | count (p : XPath)
  deriving DecidableEq

/-! ### xml_config.go:61, 105 `xpath.Compile`: from the text to the expression -/

/-- A character of a name. Simplification: names of other languages and with namespaces are not part of the modelled syntax. -/
def isXNameChar (c : Char) : Bool := c.isAlphanum || c = '_' || c = '-' || c = '.'

/-- A name: it begins with a letter or `_`. -/
def isXName : List Char → Bool
  | [] => false
  | c :: cs => (c.isAlpha || c = '_') && cs.all isXNameChar

/-- A name at the end of an expression. -/
def xName (cs : List Char) : Option (List Char) := if isXName cs then some cs else none

/-- The text before a character and what comes after it. -/
def beforeChar (stop : Char) : List Char → Option (List Char × List Char)
  | [] => none
  | c :: cs => if c = stop then some ([], cs) else (beforeChar stop cs).map (fun r => (c :: r.1, r.2))

/-- What is between two texts. -/
def between (start stop cs : List Char) : Option (List Char) :=
  if start.isPrefixOf cs && stop.isSuffixOf (cs.drop start.length) then some ((cs.drop start.length).take (cs.length - start.length - stop.length)) else none

/-- The condition in a pair of brackets. Simplification: values that contain quotes, brackets or slashes are not part of the modelled syntax. -/
def parseXPred (cs : List Char) : Option XPred :=
  match cs with
  | '@' :: rest =>
    match beforeChar '=' rest with
    | none => (xName rest).map .has
    | some (name, value) => do
      let name ← xName name
      let value ← between ['\''] ['\''] value
      if value.contains '\'' then none else some (.equals name value)
  | _ =>
    match between "not(@".toList ")".toList cs with
    | some name => (xName name).map .lacks
    | none => (xName cs).map .child

/-- The conditions of a step, at most `fuel` of them. -/
def parseXPreds : Nat → List Char → Option (List XPred)
  | _, [] => some []
  | 0, _ => none
  | fuel + 1, '[' :: cs => do
    let (inner, rest) ← beforeChar ']' cs
    let pred ← parseXPred inner
    let preds ← parseXPreds fuel rest
    some (pred :: preds)
  | _, _ => none

/-- A step. -/
def parseXStep (cs : List Char) : Option XStep :=
  let name := cs.takeWhile (· ≠ '[')
  let rest := cs.dropWhile (· ≠ '[')
  if name = ['*'] then (parseXPreds rest.length rest).map (XStep.mk none)
  else do
    let name ← xName name
    let preds ← parseXPreds rest.length rest
    some ⟨some name, preds⟩

/-- The parts of a text between slashes. -/
def splitSlashes : List Char → List (List Char)
  | [] => [[]]
  | c :: cs =>
    if c = '/' then [] :: splitSlashes cs
    else match splitSlashes cs with
      | [] => [[c]]
      | part :: parts => (c :: part) :: parts

/-- The steps, and the attribute at the end. -/
def parseXSteps : List (List Char) → Option (List XStep × Option (List Char))
  | [] => some ([], none)
  | [('@' :: name)] => (xName name).map (fun n => ([], some n))
  | part :: parts => do
    let step ← parseXStep part
    let (steps, attr) ← parseXSteps parts
    some (step :: steps, attr)

/-- A path. Simplification: `//` inside of a path and before an attribute, other axes, `text()`, positions and so on are not part of the modelled syntax. -/
def parseXPath (cs : List Char) : Option XPath :=
  match cs with
  | ['.'] => some ⟨.here, [], none⟩
  | ['/'] => some ⟨.root, [], none⟩
  | '/' :: '/' :: rest => do
    let (steps, attr) ← parseXSteps (splitSlashes rest)
    if steps.isEmpty then none else some ⟨.anywhere, steps, attr⟩
  | '/' :: rest => do
    let (steps, attr) ← parseXSteps (splitSlashes rest)
    some ⟨.root, steps, attr⟩
  | _ => do
    let (steps, attr) ← parseXSteps (splitSlashes cs)
    some ⟨.here, steps, attr⟩

/-- An expression. -/
def parseXExpr (cs : List Char) : Option XExpr :=
  match between "string(".toList ")".toList cs with
  | some inner => (parseXPath inner).map .string
  | none =>
    match between "boolean(".toList ")".toList cs with
    | some inner => (parseXPath inner).map .boolean
    | none =>
      match between "count(".toList ")".toList cs with
      | some inner => (parseXPath inner).map .count
      | none => (parseXPath cs).map .path

/-! ### xml_record.go:94-103 `QuerySelectorAll`, `Evaluate`: from the expression and a node to its value -/

/-- The value of an attribute. -/
def attrValue (attr : List (String × Bytes)) (name : List Char) : Option Bytes := (attr.find? (fun a => a.1 = String.ofList name)).map (·.2)

/-- Is this an element with this name? -/
def isNamed (name : List Char) : XmlNode → Bool
  | .element n _ _ => n = String.ofList name
  | .other _ _ => false

/-- Does a condition hold for an element with these attributes and children? -/
def XPred.holds (attr : List (String × Bytes)) (children : List XmlNode) : XPred → Bool
  | .has a => (attrValue attr a).isSome
  | .lacks a => (attrValue attr a).isNone
  | .equals a v => attrValue attr a = some (utf8 v)
  | .child name => children.any (isNamed name)

/-- Does a step lead to this node? -/
def XStep.accepts (s : XStep) : XmlNode → Bool
  | .element name attr children =>
    (match s.name with
      | none => true
      | some n => name = String.ofList n) && s.preds.all (XPred.holds attr children)
  | .other _ _ => false

/-- The children of a node. -/
def childrenOf : XmlNode → List XmlNode
  | .element _ _ children => children
  | .other _ _ => []

mutual
/-- A node and everything in it, in the order of the document. -/
def nodeAndInside : XmlNode → List XmlNode
  | .element name attr children => .element name attr children :: allInside children
  | .other kind data => [.other kind data]
/-- Some nodes and everything in them, in the order of the document. -/
def allInside : List XmlNode → List XmlNode
  | [] => []
  | node :: nodes => nodeAndInside node ++ allInside nodes
end

/-- Following the steps from some nodes. -/
def followSteps : List XStep → List XmlNode → List XmlNode
  | [], nodes => nodes
  | s :: steps, nodes => followSteps steps (nodes.flatMap (fun node => (childrenOf node).filter s.accepts))

/-- The elements that the steps of a path lead to. -/
def XPath.elements (p : XPath) (node : XmlNode) : List XmlNode :=
  match p.start, p.steps with
  | .anywhere, s :: steps => followSteps steps ((allInside (childrenOf node)).filter s.accepts)
  | _, steps => followSteps steps [node]

mutual
/-- `Node.InnerText`: the text in a node. -/
def innerText : XmlNode → Bytes
  | .element _ _ children => innerTexts children
  | .other .text data => data
  | .other .cdata data => data
  | .other _ _ => []
/-- The text in some nodes. -/
def innerTexts : List XmlNode → Bytes
  | [] => []
  | node :: nodes => innerText node ++ innerTexts nodes
end

/-- The value of an attribute of a node. -/
def XmlNode.attrOf (name : List Char) : XmlNode → Option Bytes
  | .element _ attr _ => attrValue attr name
  | .other _ _ => none

/-- The texts of what a path leads to, elements or attributes. -/
def XPath.texts (p : XPath) (node : XmlNode) : List Bytes :=
  match p.attr with
  | none => (p.elements node).map innerText
  | some a => (p.elements node).filterMap (XmlNode.attrOf a)

/-- What the modelled expressions need beside: whether the stream parser forgets nodes (`XmlQuery`), `float64(n)`, and the XML text of a node (`OutputXML`). -/
structure XPathRest where
  forgets : Bool
  ofNat : Nat → GoFloat
  output : XmlNode → Bytes

/-- The value of an expression on a node; none if it is not modelled: the XML text of attributes. -/
def XExpr.value (rest : XPathRest) (node : XmlNode) : XExpr → Option XPathResult
  | .path p => match p.attr with
    | none => some (.nodes ((p.elements node).flatMap rest.output))
    | some _ => none
  | .string p => some (.str ((p.texts node).headD []))
  | .boolean p => some (.bool (!(p.texts node).isEmpty))
  | .count p => some (.num (rest.ofNat (p.texts node).length))

/-- The nodes that an expression selects. An expression with another value selects none; attributes are not modelled. -/
def XExpr.select (node : XmlNode) : XExpr → Option (List XmlNode)
  | .path p => match p.attr with
    | none => some (p.elements node)
    | some _ => none
  | _ => some []

/-- xml_config.go:61, 105, xml_record.go:94-103: the expressions given by their texts. `others` is everything that is not modelled. -/
def xpathLib (rest : XPathRest) (others : XPathLib) : XPathLib where
  matching text := match parseXExpr text.toList with
    | some e => ⟨fun doc => match e.select (.element "" [] doc) with
      | some nodes => !nodes.isEmpty
      | none => (others.matching text).asks doc, rest.forgets⟩
    | none => others.matching text
  select text node := ((parseXExpr text.toList).bind (XExpr.select node)).getD (others.select text node)
  eval text node := ((parseXExpr text.toList).bind (XExpr.value rest node)).getD (others.eval text node)
  floatToInt := others.floatToInt

end Rodb
