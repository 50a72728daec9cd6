import Verif.Model.Reader
/-
  The XML input: xml.go. The parts of the libraries it reads the file with, encoding/xml's Decoder (Strict is off) and xmlquery's StreamParser, are modelled from
  the tokens on.
-/
namespace Rodb

/-- What else than elements is in a document. -/
inductive XmlKind where
  | text
  | cdata
  | comment
  | instruction (target : String)
  | directive
  deriving DecidableEq

/-- A node of a document, as xmlquery keeps it: an element with its attributes and children, or anything else (text, comment, ...) with its content. Simplification: names
have no namespaces. -/
inductive XmlNode where
  | element (name : String) (attr : List (String × Bytes)) (children : List XmlNode)
  | other (kind : XmlKind) (data : Bytes)

/-- A raw token of encoding/xml, without looking at the elements that are open: a start tag, which can be self-closing, an end tag, or anything else. -/
inductive XmlRaw where
  | start (name : String) (attr : List (String × Bytes)) (closed : Bool)
  | stop (name : String)
  | other (kind : XmlKind) (data : Bytes)

/-- How the tokens end: at the end of the file or at something that is not a token. -/
inductive XmlEnd where
  | eof
  | bad (msg : String)

/-- The raw tokens of what is left of a file, each with its number of bytes, and how they end. It is a parameter of the model. -/
abbrev XmlLexer := Bytes → List (XmlRaw × Nat) × XmlEnd

/-- The record expression in the hands of the stream parser. `asks` is what the XPath expression tells of a document: whether it selects a node (`QuerySelector(doc, expr) != nil`).
`forgets` is whether the parser also removes the nodes before a returned element, beside it, from the document when it goes on, which differs between versions of the library.
Both are parameters of the model. -/
structure XmlQuery where
  asks : List XmlNode → Bool
  forgets : Bool

instance : CoeFun XmlQuery (fun _ => List XmlNode → Bool) := ⟨XmlQuery.asks⟩

/-- An element that is open: its children so far, the newest first. -/
structure XmlFrame where
  name : String
  attr : List (String × Bytes)
  children : List XmlNode

/-- xml.go:30 `xmlParser`: the state of the stream parser and of its decoder. `opened` are the open elements, the innermost first; `top` are the nodes before them at the top of the
document, the newest first; `target` counts the open elements from the one that will be returned on; `pending` is an end tag that was read and still closes elements;
`failed` is the error that the decoder keeps. -/
structure XmlStream where
  opened : List XmlFrame
  top : List XmlNode
  target : Option Nat
  pending : Option String
  failed : Option XmlEnd

/-- xml.go:72-76, 137-141 `CreateStreamParserWithOptions`. -/
def XmlStream.fresh : XmlStream := { opened := [], top := [], target := none, pending := none, failed := none }

/-- The document that was read so far, in its order. `inner` are the newest nodes in the innermost open element. -/
def docOf : List XmlFrame → List XmlNode → List XmlNode → List XmlNode
  | [], top, inner => (inner ++ top).reverse
  | f :: fs, top, inner => docOf fs top [.element f.name f.attr (inner ++ f.children).reverse]

/-- Adding a node to the innermost open element. -/
def addNode (opened : List XmlFrame) (top : List XmlNode) (node : XmlNode) : List XmlFrame × List XmlNode :=
  match opened with
  | [] => ([], node :: top)
  | f :: fs => ({ f with children := node :: f.children } :: fs, top)

/-- The open elements and the top of the document when a returned element was removed from the innermost open one. -/
def leave (forgets : Bool) (opened : List XmlFrame) (top : List XmlNode) : List XmlFrame × List XmlNode :=
  match opened with
  | [] => ([], if forgets then [] else top)
  | f :: fs => ({ f with children := if forgets then [] else f.children } :: fs, top)

/-- What reading a token leads to: going on, the element that was looked for, or an error. -/
inductive XmlStep where
  | next (s : XmlStream)
  | found (node : XmlNode) (s : XmlStream)
  | failed (s : XmlStream)

/-- The end tag `</name>`. It closes the innermost open element and, because Strict is off (xml.go:18-22), also further ones until one has its name. If there is none, the decoder fails.
The element that was looked for is returned when it is closed; the tag still closes further elements when the reading goes on. It is removed from the document then;
here it is removed at once. `inner` are nodes that this tag has closed and that are still to be added to the innermost open element. -/
def closeTag (forgets : Bool) (name : String) (top : List XmlNode) : List XmlNode → List XmlFrame → Option Nat → XmlStep
  | inner, [], target => .failed { opened := [], top := inner ++ top, target := target, pending := none, failed := some (.bad "unexpected end element") }
  | inner, f :: fs, target =>
    let node := XmlNode.element f.name f.attr (inner ++ f.children).reverse
    if target = some 1 then .found node { opened := (leave forgets fs top).1, top := (leave forgets fs top).2, target := none, pending := if f.name = name then none else some name, failed := none }
    else if f.name = name then
      .next { opened := (addNode fs top node).1, top := (addNode fs top node).2, target := target.map (· - 1), pending := none, failed := none }
    else closeTag forgets name top [node] fs (target.map (· - 1))

/-- One raw token. At a start tag outside of the element that is looked for, the expression is evaluated on the document (`streamElementXPath`). -/
def XmlStream.take (query : XmlQuery) (s : XmlStream) : XmlRaw → XmlStep
  | .start name attr closed =>
    let opened := { name := name, attr := attr, children := [] } :: s.opened
    let target := match s.target with
      | some n => some (n + 1)
      | none => if query (docOf opened s.top []) then some 1 else none
    if closed then closeTag query.forgets name s.top [] opened target else .next { s with opened := opened, target := target }
  | .stop name => closeTag query.forgets name s.top [] s.opened s.target
  | .other kind data => .next { s with opened := (addNode s.opened s.top (.other kind data)).1, top := (addNode s.opened s.top (.other kind data)).2 }

/-- What `StreamParser.Read` returns: an element, the end of the file (`io.EOF`) or another error. -/
inductive XmlRead where
  | node (node : XmlNode)
  | eof
  | bad (msg : String)

/-- How a read ends that cannot go on: the end of the file is an error if elements are open. -/
def XmlStream.ends (s : XmlStream) (e : XmlEnd) : XmlRead × XmlStream :=
  let s := { s with failed := some e }
  match e with
  | .bad msg => (.bad msg, s)
  | .eof => if s.opened.isEmpty then (.eof, s) else (.bad "unexpected EOF", s)

/-- The loop of `StreamParser.Read` over the tokens: the result, the state, and the number of bytes that were read. -/
def readLoop (query : XmlQuery) (last : XmlEnd) : XmlStream → List (XmlRaw × Nat) → XmlRead × XmlStream × Nat
  | s, [] => ((s.ends last).1, (s.ends last).2, 0)
  | s, (t, size) :: rest =>
    match s.take query t with
    | .next s' =>
      let r := readLoop query last s' rest
      (r.1, r.2.1, size + r.2.2)
    | .found node s' => (.node node, s', size)
    | .failed s' => ((s'.ends (s'.failed.getD .eof)).1, s', size)

/-- `StreamParser.Read` on what is left of the file. -/
def XmlStream.read (lex : XmlLexer) (query : XmlQuery) (s : XmlStream) (left : Bytes) : XmlRead × XmlStream × Nat :=
  match s.failed with
  | some e => ((s.ends e).1, s, 0)
  | none =>
    match s.pending with
    | none => readLoop query (lex left).2 s (lex left).1
    | some name =>
      match closeTag query.forgets name s.top [] s.opened s.target with
      | .next s' => readLoop query (lex left).2 s' (lex left).1
      | .found node s' => (.node node, s', 0)
      | .failed s' => ((s'.ends (s'.failed.getD .eof)).1, s', 0)

/-- xml.go:146-170, the calls of the iterator until it reports the end or an error. The position of a record is where its reading began. The fuel is the number of bytes plus one. -/
def xmlRecords (lex : XmlLexer) (query : XmlQuery) (make : XmlNode → Int → Rec) (content : Bytes) : Nat → XmlStream → Nat → List (Res Rec)
  | 0, _, _ => [.error .diverge]
  | fuel + 1, s, offset =>
    match s.read lex query (content.drop offset) with
    | (.eof, _, _) => []
    | (.bad _, _, _) => [.error (.err "Cannot read xml data")]
    | (.node node, s', size) => .ok (make node offset) :: xmlRecords lex query make content fuel s' (offset + size)

/-- xml.go:128-177 `IterateAll`: a new parser on a new reader. `make` is `NewXmlRecord` (xml_record.go:20-32). -/
def xmlScan (lex : XmlLexer) (query : XmlQuery) (make : XmlNode → Int → Rec) (content : Bytes) : Res (List (Res Rec)) :=
  .ok (xmlRecords lex query make content (content.length + 1) .fresh 0)

/-- xml.go:92-108 `Get`: the shared parser goes on, in the state in which the fetches before left it, at the position. The lock (93-94) is held from the beginning to the end. -/
def xmlFetch (lex : XmlLexer) (query : XmlQuery) (make : XmlNode → Int → Rec) (content : Bytes) (s : XmlStream) (position : Int) : Res Rec × XmlStream :=
  if position < 0 then (.error (.err "invalid argument"), s)
  else
    match s.read lex query (content.drop position.toNat) with
    | (.eof, s', _) => (.error (.err "Did not find an XML record at position"), s')
    | (.bad _, s', _) => (.error (.err "Cannot read xml data"), s')
    | (.node node, s', _) => (.ok (make node position), s')

/-- The state of the shared parser after the fetches of these positions, one after the other, since the input was opened (xml.go:41-86 `NewXml`). -/
def xmlAfter (lex : XmlLexer) (query : XmlQuery) (make : XmlNode → Int → Rec) (content : Bytes) : List Int → XmlStream
  | [] => .fresh
  | position :: before => (xmlFetch lex query make content (xmlAfter lex query make content before) position).2

end Rodb
