import Verif.Spec.Config
/-
  Specification vocabulary: which configurations are well-formed, and what "only filling in values that were not set" means.
-/
namespace Rodb.Spec

/-- A list with an element for every name, no two with the same one, and none with an empty one. -/
def GoodNames (names : List String) : Prop := names.Nodup ∧ "" ∉ names

/-- The path leads to something that is not a directory. -/
def IsFile (lib : ConfigLib) (path : String) : Prop := lib.stat path = .file

/-- The parser called `n`. -/
def IsParser (p : ParsedConfig) (n : String) (x : ParserDecl) : Prop := IsComponent ParserDecl.name p.parsers builtinParsers n x

/-- The index called `n`; the index called "default" is there without being declared. -/
def IsIndex (p : ParsedConfig) (n : String) (x : IndexDecl) : Prop := IsComponent IndexDecl.name p.indexes [.noop "default"] n x

/-- The name of a parser, or nothing (which stands for the string parser). -/
def ParserName (p : ParsedConfig) (n : String) : Prop := n = "" ∨ ∃ x, IsParser p n x

/-- The name of an input. -/
def InputName (p : ParsedConfig) (n : String) : Prop := ∃ x ∈ p.inputs, x.name = n

/-- The name of an output. -/
def OutputName (p : ParsedConfig) (n : String) : Prop := ∃ x ∈ p.outputs, x.name = n

/-- The index with this name (if there is none, "default") can search the property in the input. -/
def Searchable (p : ParsedConfig) (index input property : String) : Prop :=
  ∃ i, IsIndex p (if index = "" then "default" else index) i ∧ Searches i input property

def WellFormedParser (lib : ConfigLib) (p : ParsedConfig) (x : ParserDecl) : Prop :=
  match x.kind with
  | .float separator _ => separator ≠ ""
  | .boolean t f => t ≠ [] ∧ f ≠ []
  | .split delimiter isRegexp parser => ∃ d, delimiter = some d ∧ (isRegexp = some true → lib.regexpCompiles d = true) ∧ ∃ y, IsParser p parser y
  | _ => True

/-- One property of an XML input, without the ones inside it. -/
def WellFormedXml (lib : ConfigLib) (p : ParsedConfig) : XmlPropDecl → Prop
  | .mk _ type parser xpath items properties => lib.xpathCompiles xpath = true ∧
    (((type = "" ∨ type = "primitive") ∧ ParserName p parser ∧ items = none ∧ properties = []) ∨
     (type = "array" ∧ parser = "" ∧ items ≠ none ∧ properties = []) ∨
     (type = "object" ∧ parser = "" ∧ items = none ∧ properties ≠ [] ∧ GoodNames (namesOfXml properties)))

def WellFormedInput (lib : ConfigLib) (p : ParsedConfig) : InputDecl → Prop
  | .csv d => IsFile lib d.path ∧ (d.autodetectColumns = true ↔ d.columns = []) ∧ d.delimiter.utf8ByteSize ≤ 1 ∧
      GoodNames (d.columns.map ColumnDecl.name) ∧ ∀ column ∈ d.columns, ParserName p column.parser
  | .xml d => IsFile lib d.path ∧ lib.xpathCompiles d.recordXPath = true ∧ d.properties ≠ [] ∧ GoodNames (namesOfXml d.properties) ∧
      ∀ q ∈ xmlAll d.properties, WellFormedXml lib p q
  | .json d => IsFile lib d.path

def WellFormedIndex (lib : ConfigLib) (p : ParsedConfig) : IndexDecl → Prop
  | .map d => InputName p d.input ∧ d.properties.Nodup
  | .wildcard d => d.path ≠ "" ∧ (lib.stat d.path = .absent ∨ lib.stat d.path = .file) ∧ InputName p d.input ∧ d.properties.Nodup
  | .sqlite d => d.dsn ≠ "" ∧ InputName p d.input ∧ GoodNames (d.properties.map SqlitePropertyDecl.name) ∧
      ∀ q ∈ d.properties, q.collate = "" ∨ toUpper lib q.collate ∈ ["BINARY", "NOCASE", "RTIRM"]
  | .fts5 d => d.dsn ≠ "" ∧ InputName p d.input ∧ d.properties.Nodup
  | .noop _ => True

/-- One relationship, without the ones inside it. -/
def WellFormedRelationship (p : ParsedConfig) : Relationship → Prop
  | .mk input isArray _ sort matching _ => InputName p input ∧ (sort = [] ∨ isArray = true) ∧ (sort.map SortConfig.property).Nodup ∧
    matching ≠ [] ∧ (matching.map MatchConfig.childProperty).Nodup ∧ ∀ m ∈ matching, Searchable p m.childIndex input m.childProperty

def WellFormedParameter (p : ParsedConfig) (input : String) (param : ParamConfig) : Prop :=
  param.property ≠ "" ∧ Searchable p param.index input param.property ∧
  ∃ x, IsParser p (if param.parser = "" then "string" else param.parser) x ∧ x.primitive = true

def WellFormedOutput (p : ParsedConfig) : OutputDecl → Prop
  | .graphql _ => True
  | .array _ d => d.input ≠ "" ∧ InputName p d.input ∧
      (if d.limit.default = 0 then 100 else d.limit.default) ≤ (if d.limit.max = 0 then 1000 else d.limit.max) ∧
      (∀ name param, (name, param) ∈ d.parameters → WellFormedParameter p d.input param ∧
        name ≠ (if d.limit.parameter = "" then "limit" else d.limit.parameter) ∧ name ≠ (if d.offsetParameter = "" then "offset" else d.offsetParameter)) ∧
      ∀ r ∈ relationshipsAll d.relationships, WellFormedRelationship p r
  | .object _ d => d.input ≠ "" ∧ InputName p d.input ∧ d.parameters ≠ [] ∧
      (∀ name param, (name, param) ∈ d.parameters → WellFormedParameter p d.input param) ∧
      ∀ r ∈ relationshipsAll d.relationships, WellFormedRelationship p r

def WellFormedService (lib : ConfigLib) (p : ParsedConfig) (s : ServiceDecl) : Prop :=
  (s.errorsType = "" ∨ s.errorsType = "application/json") ∧ (s.http ≠ none ∨ s.https ≠ none) ∧
  (∀ d, s.https = some d → d.certificatePath ≠ "" ∧ IsFile lib d.certificatePath ∧ d.privateKeyPath ≠ "" ∧ IsFile lib d.privateKeyPath) ∧
  s.routes ≠ [] ∧ GoodNames (s.routes.map RouteDecl.path) ∧ ∀ r ∈ s.routes, r.output ≠ "" ∧ OutputName p r.output

/-- The configurations that rodb should accept. -/
structure WellFormed (lib : ConfigLib) (p : ParsedConfig) : Prop where
  parserNames : GoodNames (p.parsers.map ParserDecl.name)
  inputNames : GoodNames (p.inputs.map InputDecl.name)
  indexNames : GoodNames (p.indexes.map IndexDecl.name)
  serviceNames : GoodNames (p.services.map ServiceDecl.name)
  outputNames : GoodNames (p.outputs.map OutputDecl.name)
  parsers : ∀ x ∈ p.parsers, WellFormedParser lib p x
  inputs : ∀ x ∈ p.inputs, WellFormedInput lib p x
  indexes : ∀ x ∈ p.indexes, WellFormedIndex lib p x
  services : ∀ x ∈ p.services, WellFormedService lib p x
  outputs : ∀ x ∈ p.outputs, WellFormedOutput p x

/-! ### The documented defaults -/

/-- A text setting with its default. -/
def orText (given default : String) : String := if given = "" then default else given

/-- A number setting with its default. -/
def orNumber (given default : Nat) : Nat := if given = 0 then default else given

/-- docs/schema/parsers/split.yaml: `delimiterIsRegexp` is false by default. -/
def completedParser (x : ParserDecl) : ParserDecl :=
  match x.kind with
  | .split delimiter isRegexp parser => { x with kind := .split delimiter (some (isRegexp.getD false)) parser }
  | _ => x

mutual
/-- docs/schema/inputs/xml.yaml: a property is a primitive by default, and the values of a primitive are texts by default. -/
def completedXml : XmlPropDecl → XmlPropDecl
  | .mk name type parser xpath items properties =>
    .mk name (orText type "primitive") (if orText type "primitive" = "primitive" then orText parser "string" else parser) xpath (completedItems items)
      (completedProperties properties)
def completedItems : Option XmlPropDecl → Option XmlPropDecl
  | none => none
  | some q => some (completedXml q)
def completedProperties : List XmlPropDecl → List XmlPropDecl
  | [] => []
  | q :: rest => completedXml q :: completedProperties rest
end

/-- docs/schema/inputs: an input dies when its file changes, CSV values are separated by commas and columns are texts by default. -/
def completedInput : InputDecl → InputDecl
  | .csv d => .csv { d with
      dieOnInputChange := some (d.dieOnInputChange.getD true), delimiter := orText d.delimiter ",",
      columns := d.columns.map (fun c => { c with parser := orText c.parser "string" }) }
  | .xml d => .xml { d with dieOnInputChange := some (d.dieOnInputChange.getD true), properties := completedProperties d.properties }
  | .json d => .json { d with dieOnInputChange := some (d.dieOnInputChange.getD true) }

/-- docs/schema/indexes: collations are binary, a wildcard index looks at the case, the tokenizer is unicode61 by default. Collations are written in
upper case. -/
def completedIndex (lib : ConfigLib) : IndexDecl → IndexDecl
  | .map d => .map d
  | .wildcard d => .wildcard { d with ignoreCase := some (d.ignoreCase.getD false) }
  | .sqlite d => .sqlite { d with properties := d.properties.map (fun q => { q with collate := if q.collate = "" then "BINARY" else toUpper lib q.collate }) }
  | .fts5 d => .fts5 { d with tokenize := orText d.tokenize "unicode61" }
  | .noop n => .noop n

/-- docs/schema/outputs/definitions/parameters.yaml. -/
def completedParameter (x : ParamConfig) : ParamConfig := { x with index := orText x.index "default", parser := orText x.parser "string" }

mutual
/-- docs/schema/outputs/definitions/relationships.yaml: sorting is ascending by default. -/
def completedRelationship : Relationship → Relationship
  | .mk input isArray limit sort matching relationships =>
    .mk input isArray limit (sort.map (fun s => { s with ascending := some (s.ascending.getD true) }))
      (matching.map (fun m => { m with childIndex := orText m.childIndex "default" })) (completedRelationships relationships)
def completedRelationships : List (String × Relationship) → List (String × Relationship)
  | [] => []
  | (name, r) :: rest => (name, completedRelationship r) :: completedRelationships rest
end

/-- docs/schema/outputs/json-array.yaml: pages of 100 and at most 1000, asked for with `limit` and `offset` by default. -/
def completedOutput : OutputDecl → OutputDecl
  | .graphql name => .graphql name
  | .array name d => .array name {
      input := d.input
      limit := { default := orNumber d.limit.default 100, max := orNumber d.limit.max 1000, parameter := orText d.limit.parameter "limit" }
      offsetParameter := orText d.offsetParameter "offset"
      parameters := d.parameters.map (fun e => (e.1, completedParameter e.2))
      relationships := completedRelationships d.relationships }
  | .object name d => .object name {
      input := d.input
      parameters := d.parameters.map (fun e => (e.1, completedParameter e.2))
      relationships := completedRelationships d.relationships }

/-- docs/schema/services: a local address with any free port, and JSON errors by default. -/
def completedService (s : ServiceDecl) : ServiceDecl :=
  { s with
    http := s.http.map (fun listen => orText listen "127.0.0.1:0")
    https := s.https.map (fun d => { d with listen := orText d.listen "127.0.0.1:0" })
    errorsType := orText s.errorsType "application/json" }

end Rodb.Spec
