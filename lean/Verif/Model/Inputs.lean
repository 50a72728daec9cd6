import Verif.Model.Startup
import Verif.Model.CsvText
import Verif.Model.XmlInput
/-
  The inputs as the program opens them at its start, from the files of the machine.
-/
namespace Rodb

/-- csv.go:18-27 `type Csv` seen through `input.Input` (pkg/input/input.go:11-24): `sched` is what is read ahead during a scan, and `fetchFrom` is the state of the
shared reader when a record is fetched, with what is read ahead then. -/
def csvAsInput (c : CsvInput) (name : String) (content : Bytes) (modTimeNs : Int) (sched : Nat → List Nat)
    (fetchFrom : Int → BufReader × List Nat) : Input :=
  { name := name
    scan := csvScan c content sched
    fetch := fun p => (csvFetch c (fetchFrom p).2 (fetchFrom p).1 p).1
    size := .ok content.length
    modTimeNs := .ok modTimeNs }

/-- pkg/input/json.go:15-21 `type Json` seen through `input.Input` (pkg/input/input.go:11-24). -/
def jsonAsInput (decode : JsonDecoder) (name : String) (content : Bytes) (modTimeNs : Int) : Input :=
  { name := name
    scan := jsonScan decode content
    fetch := jsonFetch decode content
    size := .ok content.length
    modTimeNs := .ok modTimeNs }

/-- What XPath expressions, given by their texts, select and evaluate to: whether the record expression selects something in a document, the nodes that the expression of an
array or object selects, the value of the expression of a primitive, and the Go conversion `int64(float64)`. -/
structure XPathLib where
  matching : String → XmlQuery
  select : String → XmlNode → List XmlNode
  eval : String → XmlNode → XPathResult
  floatToInt : GoFloat → Int

mutual
/-- xml_config.go:30-38 `XmlPropertyConfig`, with its expression given by what it selects. Simplification: another type than the three, which validation refuses, is
taken as a primitive, and an array without items, which it refuses too, has no elements. -/
def XmlPropDecl.prop (lib : XPathLib) : XmlPropDecl → XmlProp XmlNode
  | .mk name type parser xpath items properties =>
    if type = "array" then xmlItemsProp lib name xpath items
    else if type = "object" then .object name (lib.select xpath) (xmlProps lib properties)
    else .primitive name (lib.eval xpath) parser
/-- The array with these items. -/
def xmlItemsProp (lib : XPathLib) (name xpath : String) : Option XmlPropDecl → XmlProp XmlNode
  | some items => .array name (lib.select xpath) (items.prop lib)
  | none => .array name (fun _ => []) (.primitive "" (fun _ => .other) "")
/-- All the properties. -/
def xmlProps (lib : XPathLib) : List XmlPropDecl → List (XmlProp XmlNode)
  | [] => []
  | p :: rest => p.prop lib :: xmlProps lib rest
end

/-- The files of the machine, which do not change while the program runs; the JSON decoder, the XML lexer and the XPath library; and, for every path, what is read ahead by the
scans and the state in which the shared reader is found when a position is fetched (offset, buffer and what is read ahead). For an XML input, the state of the shared
parser is given by the positions that were fetched before. -/
structure Files where
  content : String → Option Bytes
  modTimeNs : String → Int
  decodeJson : JsonDecoder
  lexXml : XmlLexer
  xpath : XPathLib
  ahead : String → Nat → List Nat
  shared : String → Int → Nat × Bytes × List Nat
  fetchedXml : String → Int → List Int

/-- csv.go:171: `[]rune(csvInput.config.Delimiter)[0]`, which is one byte (csv_config.go:80-82). -/
def CsvDecl.comma (c : CsvDecl) : Res UInt8 :=
  match c.delimiter.toList with
  | [] => .error (.panic "index out of range")
  | d :: _ => .ok (UInt8.ofNat d.toNat)

/-- csv.go:69-76: the columns with their parsers; `NewCsv` has found all of them. -/
def CsvDecl.csvColumns (c : CsvDecl) (parsers : GoMap (Bytes → Res Value)) : List CsvColumn :=
  c.columns.map (fun column =>
    { name := column.name
      parse := match mapGet parsers column.parser with
        | some f => f
        | none => fun _ => .error (.err "Parser does not exist") })

/-- csv.go:157-176 `open`, with the columns found. -/
def openCsvInput (files : Files) (c : CsvDecl) (parsers : GoMap (Bytes → Res Value)) : Res Input :=
  match files.content c.path with
  | none => .error (.err "no such file or directory")
  | some content => do
    let comma ← c.comma
    .ok (csvAsInput { columns := c.csvColumns parsers, ignoreFirstRow := c.ignoreFirstRow, reader := csvReader comma } c.name content (files.modTimeNs c.path)
      (files.ahead c.path) (fun p => ({ content := content, offset := (files.shared c.path p).1, buffer := (files.shared c.path p).2.1 }, (files.shared c.path p).2.2)))

/-- pkg/input/json.go:23-59 `NewJson`. -/
def openJsonInput (files : Files) (c : JsonDecl) : Res Input :=
  match files.content c.path with
  | none => .error (.err "no such file or directory")
  | some content => .ok (jsonAsInput files.decodeJson c.name content (files.modTimeNs c.path))

/-- xml_record.go:20-32 `NewXmlRecord` for the nodes of an XML input. -/
def XmlDecl.record (xpath : XPathLib) (c : XmlDecl) (types : String → Option ParserType) (parsers : GoMap (Bytes → Res Value)) (node : XmlNode) (position : Int) : Rec :=
  xmlRecord { functions := parsers, types := types, floatToInt := xpath.floatToInt } (xmlProps xpath c.properties) node position

/-- xml.go:24-33 `type Xml` seen through `input.Input` (pkg/input/input.go:11-24): `before` are the positions that were fetched, the last one first, when a position is fetched. -/
def xmlAsInput (lex : XmlLexer) (query : XmlQuery) (make : XmlNode → Int → Rec) (name : String) (content : Bytes) (modTimeNs : Int) (before : Int → List Int) : Input :=
  { name := name
    scan := xmlScan lex query make content
    fetch := fun p => (xmlFetch lex query make content (xmlAfter lex query make content (before p)) p).1
    size := .ok content.length
    modTimeNs := .ok modTimeNs }

/-- xml.go:41-86 `NewXml`. The record expression can be compiled (xml_config.go:53-59). -/
def openXmlInput (files : Files) (c : XmlDecl) (types : String → Option ParserType) (parsers : GoMap (Bytes → Res Value)) : Res Input :=
  match files.content c.path with
  | none => .error (.err "no such file or directory")
  | some content =>
    .ok (xmlAsInput files.lexXml (files.xpath.matching c.recordXPath) (c.record files.xpath types parsers) c.name content (files.modTimeNs c.path) (files.fetchedXml c.name))

/-- pkg/input/input.go:34-48 `NewFromConfig`, what depends on the files. -/
def openInput (files : Files) (c : InputDecl) (types : String → Option ParserType) (parsers : GoMap (Bytes → Res Value)) : Res Input :=
  match c with
  | .csv c => openCsvInput files c parsers
  | .json c => openJsonInput files c
  | .xml c => openXmlInput files c types parsers

/-- The text of some bytes, if they are valid UTF-8. -/
def decodeUtf8 (bytes : Bytes) : Option String := (bytes.toByteArray.utf8Decode?).map (fun text => String.ofList text.toList)

/-- The names in a row. -/
def rowNames : List Bytes → Res (List String)
  | [] => .ok []
  | cell :: rest =>
    match decodeUtf8 cell with
    | none => .error (.err "not modelled: a column name that is not valid UTF-8")
    | some name => do
      let names ← rowNames rest
      .ok (name :: names)

/-- csv.go:128-132: the first row of the file, read with the columns not known yet. Simplification: a column name that is not valid UTF-8 is an error. -/
def firstCsvRow (files : Files) (c : CsvDecl) : Res (List String) :=
  match files.content c.path with
  | none => .error (.err "no such file or directory")
  | some content => do
    let comma ← c.comma
    match ((csvReader comma).read (files.ahead c.path 0) (csvOpen content)).1 with
    | .row cells => rowNames cells
    | _ => .error (.err "Cannot read csv data")

/-- csv.go:48-51 (`open`), the errors of opening the file. -/
def openCsvFile (files : Files) (c : CsvDecl) : Res Unit :=
  match files.content c.path with
  | none => .error (.err "no such file or directory")
  | some _ => .ok ()

/-- The program started on these files: what it uses outside of the model otherwise is `rest`. -/
def StartLib.onFiles (rest : StartLib) (files : Files) : StartLib :=
  { rest with openCsv := openCsvFile files, firstRow := firstCsvRow files, input := openInput files }

end Rodb
