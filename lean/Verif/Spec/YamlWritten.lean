import Verif.Spec.Yaml
/-
  Specification vocabulary: a document for every configuration, and the documented settings of every kind of component.
-/
namespace Rodb.Spec

def writeBool (b : Bool) : Yaml := .bool b (if b then "true" else "false")

def writeNumber (v : Int) : Yaml := .int v (toString v)

/-- `null` if it is not set. -/
def writeOptional {α : Type} (write : α → Yaml) : Option α → Yaml
  | none => .null
  | some v => write v

def writeList {α : Type} (write : α → Yaml) (vs : List α) : Yaml := .list (vs.map write)

def writeMap {α : Type} (write : α → Yaml) (m : List (String × α)) : Yaml := .map (m.map (fun e => (e.1, write e.2)))

def writeParser (p : ParserDecl) : Yaml :=
  match p.kind with
  | .integer ignore => .map [("name", .text p.name), ("type", .text "integer"), ("ignoreCharacters", .text ignore)]
  | .float separator ignore => .map [("name", .text p.name), ("type", .text "float"), ("decimalSeparator", .text separator), ("ignoreCharacters", .text ignore)]
  | .boolean t f => .map [("name", .text p.name), ("type", .text "boolean"), ("trueValues", writeList .text t), ("falseValues", writeList .text f)]
  | .string charset => .map [("name", .text p.name), ("type", .text "string"), ("convertFromCharset", .text charset)]
  | .json => .map [("name", .text p.name), ("type", .text "json")]
  | .split delimiter isRegexp parser => .map [("name", .text p.name), ("type", .text "split"), ("delimiter", writeOptional .text delimiter),
      ("delimiterIsRegexp", writeOptional writeBool isRegexp), ("parser", .text parser)]

def writeColumn (c : ColumnDecl) : Yaml := .map [("name", .text c.name), ("parser", .text c.parser)]

mutual
def writeXmlProp : XmlPropDecl → Yaml
  | .mk name type parser xpath items properties => .map [("name", .text name), ("type", .text type), ("parser", .text parser), ("xpath", .text xpath),
      ("items", writeXmlItems items), ("properties", .list (writeXmlProps properties))]
def writeXmlItems : Option XmlPropDecl → Yaml
  | none => .null
  | some q => writeXmlProp q
def writeXmlProps : List XmlPropDecl → List Yaml
  | [] => []
  | q :: rest => writeXmlProp q :: writeXmlProps rest
end

def writeInput : InputDecl → Yaml
  | .csv d => .map [("name", .text d.name), ("type", .text "csv"), ("path", .text d.path), ("dieOnInputChange", writeOptional writeBool d.dieOnInputChange),
      ("ignoreFirstRow", writeBool d.ignoreFirstRow), ("autodetectColumns", writeBool d.autodetectColumns), ("delimiter", .text d.delimiter),
      ("columns", writeList writeColumn d.columns)]
  | .xml d => .map [("name", .text d.name), ("type", .text "xml"), ("path", .text d.path), ("dieOnInputChange", writeOptional writeBool d.dieOnInputChange),
      ("properties", .list (writeXmlProps d.properties)), ("recordXpath", .text d.recordXPath)]
  | .json d => .map [("name", .text d.name), ("type", .text "json"), ("path", .text d.path), ("dieOnInputChange", writeOptional writeBool d.dieOnInputChange)]

def writeSqliteProperty (q : SqlitePropertyDecl) : Yaml := .map [("name", .text q.name), ("collate", .text q.collate)]

def writeIndex : IndexDecl → Yaml
  | .map d => .map [("name", .text d.name), ("type", .text "map"), ("input", .text d.input), ("properties", writeList .text d.properties)]
  | .wildcard d => .map [("name", .text d.name), ("type", .text "wildcard"), ("path", .text d.path), ("input", .text d.input),
      ("properties", writeList .text d.properties), ("ignoreCase", writeOptional writeBool d.ignoreCase)]
  | .sqlite d => .map [("name", .text d.name), ("type", .text "sqlite"), ("dsn", .text d.dsn), ("input", .text d.input),
      ("properties", writeList writeSqliteProperty d.properties)]
  | .fts5 d => .map [("name", .text d.name), ("type", .text "fts5"), ("dsn", .text d.dsn), ("input", .text d.input), ("prefix", writeList writeNumber d.prefixes),
      ("tokenize", .text d.tokenize), ("properties", writeList .text d.properties)]
  | .noop name => .map [("name", .text name), ("type", .text "noop")]

def writeParameter (p : ParamConfig) : Yaml := .map [("property", .text p.property), ("index", .text p.index), ("parser", .text p.parser)]

def writeSort (s : SortConfig) : Yaml := .map [("property", .text s.property), ("ascending", writeOptional writeBool s.ascending)]

def writeMatch (m : MatchConfig) : Yaml := .map [("parentProperty", .text m.parentProperty), ("childProperty", .text m.childProperty), ("childIndex", .text m.childIndex)]

mutual
def writeRelationship : Relationship → Yaml
  | .mk input isArray limit sort matching relationships => .map [("input", .text input), ("isArray", writeBool isArray), ("limit", writeNumber limit),
      ("sort", writeList writeSort sort), ("match", writeList writeMatch matching), ("relationships", .map (writeRelationships relationships))]
def writeRelationships : List (String × Relationship) → List (String × Yaml)
  | [] => []
  | (k, r) :: rest => (k, writeRelationship r) :: writeRelationships rest
end

def writeOutput : OutputDecl → Yaml
  | .graphql name => .map [("name", .text name), ("type", .text "graphql")]
  | .array name d => .map [("name", .text name), ("type", .text "jsonArray"), ("input", .text d.input),
      ("limit", .map [("default", writeNumber d.limit.default), ("max", writeNumber d.limit.max), ("parameter", .text d.limit.parameter)]),
      ("offset", .map [("parameter", .text d.offsetParameter)]), ("parameters", writeMap writeParameter d.parameters),
      ("relationships", .map (writeRelationships d.relationships))]
  | .object name d => .map [("name", .text name), ("type", .text "jsonObject"), ("input", .text d.input), ("parameters", writeMap writeParameter d.parameters),
      ("relationships", .map (writeRelationships d.relationships))]

def writeListen (listen : String) : Yaml := .map [("listen", .text listen)]

def writeHttps (d : HttpsDecl) : Yaml := .map [("listen", .text d.listen), ("certificatePath", .text d.certificatePath), ("privateKeyPath", .text d.privateKeyPath)]

def writeRoute (r : RouteDecl) : Yaml := .map [("output", .text r.output), ("path", .text r.path)]

def writeService (s : ServiceDecl) : Yaml :=
  .map [("name", .text s.name), ("type", .text "http"), ("http", writeOptional writeListen s.http),
    ("https", writeOptional writeHttps s.https), ("errorsType", .text s.errorsType), ("routes", writeList writeRoute s.routes)]

/-- The configuration with every setting written out. -/
def documentOf (p : ParsedConfig) : Yaml :=
  .map [("parsers", writeList writeParser p.parsers), ("inputs", writeList writeInput p.inputs), ("indexes", writeList writeIndex p.indexes),
    ("services", writeList writeService p.services), ("outputs", writeList writeOutput p.outputs)]

mutual
/-- Limits are 64-bit numbers, and the names in a map are distinct. -/
def InRange : Relationship → Prop
  | .mk _ _ limit _ _ relationships => limit < 2 ^ 64 ∧ (relationships.map (·.1)).Nodup ∧ AllInRange relationships
def AllInRange : List (String × Relationship) → Prop
  | [] => True
  | (_, r) :: rest => InRange r ∧ AllInRange rest
end

/-- Numbers are 64-bit numbers, and the names in a map are distinct: what the Go types can hold. -/
structure Representable (p : ParsedConfig) : Prop where
  prefixes : ∀ d, .fts5 d ∈ p.indexes → ∀ v ∈ d.prefixes, -2 ^ 63 ≤ v ∧ v < 2 ^ 63
  arrays : ∀ name d, .array name d ∈ p.outputs → d.limit.default < 2 ^ 64 ∧ d.limit.max < 2 ^ 64 ∧ (d.parameters.map (·.1)).Nodup ∧
    (d.relationships.map (·.1)).Nodup ∧ AllInRange d.relationships
  objects : ∀ name d, .object name d ∈ p.outputs → (d.parameters.map (·.1)).Nodup ∧ (d.relationships.map (·.1)).Nodup ∧ AllInRange d.relationships

/-- The kinds of components in each list of the file, and their settings, after docs/schema. GraphQL outputs are not documented. -/
def documented : List (String × String × List String) :=
  [("parsers", "integer", ["name", "type", "ignoreCharacters"]),
   ("parsers", "float", ["name", "type", "decimalSeparator", "ignoreCharacters"]),
   ("parsers", "boolean", ["name", "type", "trueValues", "falseValues"]),
   ("parsers", "string", ["name", "type", "convertFromCharset"]),
   ("parsers", "json", ["name", "type"]),
   ("parsers", "split", ["name", "type", "delimiter", "delimiterIsRegexp", "parser"]),
   ("inputs", "csv", ["name", "type", "path", "delimiter", "autodetectColumns", "ignoreFirstRow", "columns", "dieOnInputChange"]),
   ("inputs", "json", ["name", "type", "path", "dieOnInputChange"]),
   ("inputs", "xml", ["name", "type", "path", "recordXpath", "properties", "dieOnInputChange"]),
   ("indexes", "map", ["name", "type", "input", "properties"]),
   ("indexes", "wildcard", ["name", "type", "path", "input", "ignoreCase", "properties"]),
   ("indexes", "sqlite", ["name", "type", "dsn", "input", "properties"]),
   ("indexes", "fts5", ["name", "type", "dsn", "input", "prefix", "tokenize", "properties"]),
   ("indexes", "noop", ["name", "type"]),
   ("outputs", "graphql", ["name", "type"]),
   ("outputs", "jsonArray", ["name", "type", "input", "limit", "offset", "parameters", "relationships"]),
   ("outputs", "jsonObject", ["name", "type", "input", "parameters", "relationships"]),
   ("services", "http", ["name", "type", "http", "https", "errorsType", "routes"])]

/-- The fields of the program that have no documented setting, which the library fills in nevertheless. -/
def undocumented : List String := ["logger", "delimiterregexp", "columnindexbyname"]

end Rodb.Spec
