import Verif.Model.Yaml
/-
  Specification vocabulary: what a configuration document says, after docs/schema.

  A structure is a mapping; each of its settings is given at most once, in any order, and no other keys are there (`additionalProperties: false`). A setting that is left out, or
  `null`, has its zero value (an empty text, no elements, zero, "not set").
-/
namespace Rodb.Spec

/-- The node is a scalar with this text, or nothing. -/
def SaysText (y : Yaml) (s : String) : Prop :=
  y = .text s ∨ (∃ b, y = .bool b s) ∨ (∃ v, y = .int v s) ∨ (∃ a b, y = .float a b s) ∨ (y = .null ∧ s = "")

def SaysBool (y : Yaml) (b : Bool) : Prop := (∃ s, y = .bool b s) ∨ (y = .null ∧ b = false)

/-- An integer from 0 to 2^64 - 1 (or what Go makes of a float). -/
def SaysUint (y : Yaml) (n : Nat) : Prop := (n < 2 ^ 64 ∧ ∃ s, y = .int n s) ∨ (∃ a s, y = .float (some n) a s) ∨ (y = .null ∧ n = 0)

/-- A 64-bit integer (or what Go makes of a float). -/
def SaysInt (y : Yaml) (v : Int) : Prop := (-2 ^ 63 ≤ v ∧ v < 2 ^ 63 ∧ ∃ s, y = .int v s) ∨ (∃ a s, y = .float a (some v) s) ∨ (y = .null ∧ v = 0)

def SaysOptional {α : Type} (says : Yaml → α → Prop) (y : Yaml) : Option α → Prop
  | none => y = .null
  | some v => y ≠ .null ∧ says y v

/-- Something is there, and says this. -/
def SaysPresent {α : Type} (says : Yaml → α → Prop) (y : Yaml) (v : α) : Prop := y ≠ .null ∧ says y v

/-- Each says what is at the same place in the other list. -/
def Respectively {α : Type} (says : Yaml → α → Prop) : List Yaml → List α → Prop
  | [], [] => True
  | y :: ys, v :: vs => says y v ∧ Respectively says ys vs
  | _, _ => False

def SaysList {α : Type} (says : Yaml → α → Prop) (y : Yaml) (vs : List α) : Prop :=
  (y = .null ∧ vs = []) ∨ ∃ ys, y = .list ys ∧ Respectively says ys vs

/-- A mapping with these keys, each once. -/
def SaysMap {α : Type} (says : Yaml → α → Prop) (y : Yaml) (m : List (String × α)) : Prop :=
  (y = .null ∧ m = []) ∨
    ∃ entries, y = .map entries ∧ (m.map (·.1)).Nodup ∧ entries.map (·.1) = m.map (·.1) ∧ Respectively says (entries.map (·.2)) (m.map (·.2))

/-- The settings of a structure: a mapping with some of the known keys, each at most once (or with one of the hidden ones, with a value that the library accepts). -/
def Settings (lib : YamlLib) (known hidden : List String) (y : Yaml) (entries : List (String × Yaml)) : Prop :=
  (y = .null ∧ entries = []) ∨
    (y = .map entries ∧ (entries.map (·.1)).Nodup ∧ ∀ k v, (k, v) ∈ entries → k ∈ known ∨ (k ∈ hidden ∧ lib.hidden k v = true))

/-- The setting is given and says this, or it is left out and this is its zero value. -/
def Setting {α : Type} (entries : List (String × Yaml)) (key : String) (says : Yaml → α → Prop) (zero v : α) : Prop :=
  (∃ y, (key, y) ∈ entries ∧ says y v) ∨ ((∀ y, (key, y) ∉ entries) ∧ v = zero)

/-- The component has this `type`, given as a text. -/
def OfType (y : Yaml) (type : String) : Prop := ∃ entries, y = .map entries ∧ ("type", .text type) ∈ entries

/-! ### Parsers (docs/schema/parsers) -/

def DescribesParser (lib : YamlLib) (y : Yaml) (p : ParserDecl) : Prop :=
  match p.kind with
  | .integer ignore => OfType y "integer" ∧ ∃ e, Settings lib ["name", "type", "ignoreCharacters"] ["logger"] y e ∧
      Setting e "name" SaysText "" p.name ∧ Setting e "ignoreCharacters" SaysText "" ignore
  | .float separator ignore => OfType y "float" ∧ ∃ e, Settings lib ["name", "type", "decimalSeparator", "ignoreCharacters"] ["logger"] y e ∧
      Setting e "name" SaysText "" p.name ∧ Setting e "decimalSeparator" SaysText "" separator ∧ Setting e "ignoreCharacters" SaysText "" ignore
  | .boolean t f => OfType y "boolean" ∧ ∃ e, Settings lib ["name", "type", "trueValues", "falseValues"] ["logger"] y e ∧
      Setting e "name" SaysText "" p.name ∧ Setting e "trueValues" (SaysList SaysText) [] t ∧ Setting e "falseValues" (SaysList SaysText) [] f
  | .string charset => OfType y "string" ∧ ∃ e, Settings lib ["name", "type", "convertFromCharset"] ["logger"] y e ∧
      Setting e "name" SaysText "" p.name ∧ Setting e "convertFromCharset" SaysText "" charset
  | .json => OfType y "json" ∧ ∃ e, Settings lib ["name", "type"] ["logger"] y e ∧ Setting e "name" SaysText "" p.name
  | .split delimiter isRegexp parser => OfType y "split" ∧
      ∃ e, Settings lib ["name", "type", "delimiter", "delimiterIsRegexp", "parser"] ["logger", "delimiterregexp"] y e ∧
      Setting e "name" SaysText "" p.name ∧ Setting e "delimiter" (SaysOptional SaysText) none delimiter ∧
      Setting e "delimiterIsRegexp" (SaysOptional SaysBool) none isRegexp ∧ Setting e "parser" SaysText "" parser

/-! ### Inputs (docs/schema/inputs) -/

def DescribesColumn (lib : YamlLib) (y : Yaml) (c : ColumnDecl) : Prop :=
  ∃ e, Settings lib ["name", "parser"] [] y e ∧ Setting e "name" SaysText "" c.name ∧ Setting e "parser" SaysText "" c.parser

mutual
/-- A property of an XML input. -/
def DescribesXmlProp (lib : YamlLib) (y : Yaml) : XmlPropDecl → Prop
  | .mk name type parser xpath items properties =>
    ∃ e, Settings lib ["name", "type", "parser", "xpath", "items", "properties"] ["compiledxpath"] y e ∧
      Setting e "name" SaysText "" name ∧ Setting e "type" SaysText "" type ∧ Setting e "parser" SaysText "" parser ∧ Setting e "xpath" SaysText "" xpath ∧
      DescribesXmlItems lib e items ∧ DescribesXmlProperties lib e properties
/-- The setting `items`, if it is there. -/
def DescribesXmlItems (lib : YamlLib) (e : List (String × Yaml)) : Option XmlPropDecl → Prop
  | none => ("items", .null) ∈ e ∨ ∀ y, ("items", y) ∉ e
  | some q => ∃ y, ("items", y) ∈ e ∧ y ≠ .null ∧ DescribesXmlProp lib y q
/-- The setting `properties`, a list. -/
def DescribesXmlProperties (lib : YamlLib) (e : List (String × Yaml)) : List XmlPropDecl → Prop
  | [] => ("properties", .null) ∈ e ∨ ("properties", .list []) ∈ e ∨ ∀ y, ("properties", y) ∉ e
  | q :: rest => ∃ y ys, ("properties", .list (y :: ys)) ∈ e ∧ y ≠ .null ∧ DescribesXmlProp lib y q ∧ DescribesXmlList lib ys rest
/-- The elements of the list. -/
def DescribesXmlList (lib : YamlLib) : List Yaml → List XmlPropDecl → Prop
  | ys, [] => ys = []
  | ys, q :: rest => ∃ y ys', ys = y :: ys' ∧ y ≠ .null ∧ DescribesXmlProp lib y q ∧ DescribesXmlList lib ys' rest
end

def DescribesInput (lib : YamlLib) (y : Yaml) : InputDecl → Prop
  | .csv d => OfType y "csv" ∧ ∃ e,
      Settings lib ["name", "type", "path", "dieOnInputChange", "ignoreFirstRow", "autodetectColumns", "delimiter", "columns"] ["logger", "columnindexbyname"] y e ∧
      Setting e "name" SaysText "" d.name ∧ Setting e "path" SaysText "" d.path ∧ Setting e "dieOnInputChange" (SaysOptional SaysBool) none d.dieOnInputChange ∧
      Setting e "ignoreFirstRow" SaysBool false d.ignoreFirstRow ∧ Setting e "autodetectColumns" SaysBool false d.autodetectColumns ∧
      Setting e "delimiter" SaysText "" d.delimiter ∧ Setting e "columns" (SaysList (SaysPresent (DescribesColumn lib))) [] d.columns
  | .xml d => OfType y "xml" ∧ ∃ e, Settings lib ["name", "type", "path", "dieOnInputChange", "properties", "recordXpath"] ["logger"] y e ∧
      Setting e "name" SaysText "" d.name ∧ Setting e "path" SaysText "" d.path ∧ Setting e "dieOnInputChange" (SaysOptional SaysBool) none d.dieOnInputChange ∧
      DescribesXmlProperties lib e d.properties ∧ Setting e "recordXpath" SaysText "" d.recordXPath
  | .json d => OfType y "json" ∧ ∃ e, Settings lib ["name", "type", "path", "dieOnInputChange"] ["logger"] y e ∧
      Setting e "name" SaysText "" d.name ∧ Setting e "path" SaysText "" d.path ∧ Setting e "dieOnInputChange" (SaysOptional SaysBool) none d.dieOnInputChange

/-! ### Indexes (docs/schema/indexes) -/

def DescribesSqliteProperty (lib : YamlLib) (y : Yaml) (q : SqlitePropertyDecl) : Prop :=
  ∃ e, Settings lib ["name", "collate"] [] y e ∧ Setting e "name" SaysText "" q.name ∧ Setting e "collate" SaysText "" q.collate

def DescribesIndex (lib : YamlLib) (y : Yaml) : IndexDecl → Prop
  | .map d => OfType y "map" ∧ ∃ e, Settings lib ["name", "type", "input", "properties"] ["logger"] y e ∧
      Setting e "name" SaysText "" d.name ∧ Setting e "input" SaysText "" d.input ∧ Setting e "properties" (SaysList SaysText) [] d.properties
  | .wildcard d => OfType y "wildcard" ∧ ∃ e, Settings lib ["name", "type", "path", "input", "properties", "ignoreCase"] ["logger"] y e ∧
      Setting e "name" SaysText "" d.name ∧ Setting e "path" SaysText "" d.path ∧ Setting e "input" SaysText "" d.input ∧
      Setting e "properties" (SaysList SaysText) [] d.properties ∧ Setting e "ignoreCase" (SaysOptional SaysBool) none d.ignoreCase
  | .sqlite d => OfType y "sqlite" ∧ ∃ e, Settings lib ["name", "type", "dsn", "input", "properties"] ["logger"] y e ∧
      Setting e "name" SaysText "" d.name ∧ Setting e "dsn" SaysText "" d.dsn ∧ Setting e "input" SaysText "" d.input ∧
      Setting e "properties" (SaysList (SaysPresent (DescribesSqliteProperty lib))) [] d.properties
  | .fts5 d => OfType y "fts5" ∧ ∃ e, Settings lib ["name", "type", "dsn", "input", "prefix", "tokenize", "properties"] ["logger"] y e ∧
      Setting e "name" SaysText "" d.name ∧ Setting e "dsn" SaysText "" d.dsn ∧ Setting e "input" SaysText "" d.input ∧
      Setting e "prefix" (SaysList SaysInt) [] d.prefixes ∧ Setting e "tokenize" SaysText "" d.tokenize ∧ Setting e "properties" (SaysList SaysText) [] d.properties
  | .noop name => OfType y "noop" ∧ ∃ e, Settings lib ["name", "type"] ["logger"] y e ∧ Setting e "name" SaysText "" name

/-! ### Outputs (docs/schema/outputs) -/

def DescribesLimit (lib : YamlLib) (y : Yaml) (l : LimitConfig) : Prop :=
  ∃ e, Settings lib ["default", "max", "parameter"] [] y e ∧ Setting e "default" SaysUint 0 l.default ∧ Setting e "max" SaysUint 0 l.max ∧
    Setting e "parameter" SaysText "" l.parameter

def DescribesOffset (lib : YamlLib) (y : Yaml) (parameter : String) : Prop := ∃ e, Settings lib ["parameter"] [] y e ∧ Setting e "parameter" SaysText "" parameter

def DescribesParameter (lib : YamlLib) (y : Yaml) (p : ParamConfig) : Prop :=
  ∃ e, Settings lib ["property", "index", "parser"] [] y e ∧ Setting e "property" SaysText "" p.property ∧ Setting e "index" SaysText "" p.index ∧
    Setting e "parser" SaysText "" p.parser

def DescribesSort (lib : YamlLib) (y : Yaml) (s : SortConfig) : Prop :=
  ∃ e, Settings lib ["property", "ascending"] ["logger"] y e ∧ Setting e "property" SaysText "" s.property ∧
    Setting e "ascending" (SaysOptional SaysBool) none s.ascending

def DescribesMatch (lib : YamlLib) (y : Yaml) (m : MatchConfig) : Prop :=
  ∃ e, Settings lib ["parentProperty", "childProperty", "childIndex"] [] y e ∧ Setting e "parentProperty" SaysText "" m.parentProperty ∧
    Setting e "childProperty" SaysText "" m.childProperty ∧ Setting e "childIndex" SaysText "" m.childIndex

mutual
/-- A relationship. -/
def DescribesRelationship (lib : YamlLib) (y : Yaml) : Relationship → Prop
  | .mk input isArray limit sort matching relationships =>
    ∃ e, Settings lib ["input", "isArray", "limit", "sort", "match", "relationships"] [] y e ∧
      Setting e "input" SaysText "" input ∧ Setting e "isArray" SaysBool false isArray ∧ Setting e "limit" SaysUint 0 limit ∧
      Setting e "sort" (SaysList (SaysPresent (DescribesSort lib))) [] sort ∧ Setting e "match" (SaysList (SaysPresent (DescribesMatch lib))) [] matching ∧
      (relationships.map (·.1)).Nodup ∧ DescribesRelationships lib e relationships
/-- The setting `relationships`, a mapping. -/
def DescribesRelationships (lib : YamlLib) (e : List (String × Yaml)) : List (String × Relationship) → Prop
  | [] => ("relationships", .null) ∈ e ∨ ("relationships", .map []) ∈ e ∨ ∀ y, ("relationships", y) ∉ e
  | (k, r) :: rest => ∃ y ys, ("relationships", .map ((k, y) :: ys)) ∈ e ∧ y ≠ .null ∧ DescribesRelationship lib y r ∧ DescribesRelationshipMap lib ys rest
/-- The entries of the mapping. -/
def DescribesRelationshipMap (lib : YamlLib) : List (String × Yaml) → List (String × Relationship) → Prop
  | ys, [] => ys = []
  | ys, (k, r) :: rest => ∃ y ys', ys = (k, y) :: ys' ∧ y ≠ .null ∧ DescribesRelationship lib y r ∧ DescribesRelationshipMap lib ys' rest
end

def DescribesOutput (lib : YamlLib) (y : Yaml) : OutputDecl → Prop
  | .graphql name => OfType y "graphql" ∧ ∃ e, Settings lib ["name", "type"] ["logger"] y e ∧ Setting e "name" SaysText "" name
  | .array name d => OfType y "jsonArray" ∧ ∃ e, Settings lib ["name", "type", "input", "limit", "offset", "parameters", "relationships"] ["logger"] y e ∧
      Setting e "name" SaysText "" name ∧ Setting e "input" SaysText "" d.input ∧
      Setting e "limit" (DescribesLimit lib) { default := 0, max := 0, parameter := "" } d.limit ∧ Setting e "offset" (DescribesOffset lib) "" d.offsetParameter ∧
      Setting e "parameters" (SaysMap (SaysPresent (DescribesParameter lib))) [] d.parameters ∧
      (d.relationships.map (·.1)).Nodup ∧ DescribesRelationships lib e d.relationships
  | .object name d => OfType y "jsonObject" ∧ ∃ e, Settings lib ["name", "type", "input", "parameters", "relationships"] ["logger"] y e ∧
      Setting e "name" SaysText "" name ∧ Setting e "input" SaysText "" d.input ∧
      Setting e "parameters" (SaysMap (SaysPresent (DescribesParameter lib))) [] d.parameters ∧
      (d.relationships.map (·.1)).Nodup ∧ DescribesRelationships lib e d.relationships

/-! ### Services (docs/schema/services) -/

def DescribesListen (lib : YamlLib) (y : Yaml) (listen : String) : Prop := ∃ e, Settings lib ["listen"] [] y e ∧ Setting e "listen" SaysText "" listen

def DescribesHttps (lib : YamlLib) (y : Yaml) (d : HttpsDecl) : Prop :=
  ∃ e, Settings lib ["listen", "certificatePath", "privateKeyPath"] [] y e ∧ Setting e "listen" SaysText "" d.listen ∧
    Setting e "certificatePath" SaysText "" d.certificatePath ∧ Setting e "privateKeyPath" SaysText "" d.privateKeyPath

def DescribesRoute (lib : YamlLib) (y : Yaml) (r : RouteDecl) : Prop :=
  ∃ e, Settings lib ["output", "path"] [] y e ∧ Setting e "output" SaysText "" r.output ∧ Setting e "path" SaysText "" r.path

def DescribesService (lib : YamlLib) (y : Yaml) (s : ServiceDecl) : Prop :=
  OfType y "http" ∧ ∃ e, Settings lib ["name", "type", "http", "https", "errorsType", "routes"] ["logger"] y e ∧
    Setting e "name" SaysText "" s.name ∧ Setting e "http" (SaysOptional (DescribesListen lib)) none s.http ∧
    Setting e "https" (SaysOptional (DescribesHttps lib)) none s.https ∧ Setting e "errorsType" SaysText "" s.errorsType ∧
    Setting e "routes" (SaysList (SaysPresent (DescribesRoute lib))) [] s.routes

/-! ### The document (docs/schema/config.yaml) -/

/-- The document describes this configuration. -/
def Describes (lib : YamlLib) (y : Yaml) (p : ParsedConfig) : Prop :=
  ∃ e, Settings lib ["parsers", "inputs", "indexes", "services", "outputs"] [] y e ∧
    Setting e "parsers" (SaysList (DescribesParser lib)) [] p.parsers ∧ Setting e "inputs" (SaysList (DescribesInput lib)) [] p.inputs ∧
    Setting e "indexes" (SaysList (DescribesIndex lib)) [] p.indexes ∧ Setting e "services" (SaysList (DescribesService lib)) [] p.services ∧
    Setting e "outputs" (SaysList (DescribesOutput lib)) [] p.outputs

end Rodb.Spec
