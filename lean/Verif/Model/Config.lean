import Verif.Model.Service
/-
  pkg/config/config.go and the `*_config.go` files : the configuration, its defaults and its validation.

  The structures are what the YAML decoder gives (a value that is not set is the empty text, zero or `none`). Simplification: a `null` element of a
  list or map of the file, which is a nil pointer in Go, is left out. The loggers are left out. A Go map is the list of its entries
  in the order in which `Validate` visits them; each map is visited once.
-/
namespace Rodb

/-- What `os.Stat` says about a path: `failed` is an error other than "does not exist". -/
inductive Stat where
  | absent
  | failed
  | directory
  | file
  deriving DecidableEq

/-- What validation uses outside of rodb: `os.Stat`, `regexp.Compile`, `xpath.Compile`, and `strings.ToUpper` on texts that are not ASCII. -/
structure ConfigLib where
  stat : String → Stat
  regexpCompiles : String → Bool
  xpathCompiles : String → Bool
  upper : String → String

/-- Return an error unless the condition holds. -/
def require (condition : Bool) (message : String) : Res Unit := if condition then .ok () else .error (.err message)

/-- The loops that validate the elements of a list and refuse a name that was seen before: map_config.go:30-36, sqlite_config.go:45-56,
fts5_config.go:49-55, wildcard_config.go:48-54, csv_config.go:84-95, xml_config.go:163-174 and 78-89, relationship/config.go:49-59 and
65-76, http_config.go:71-81. -/
def validateList {α : Type} (validate : α → Res α) (name : α → String) (message : String) : List String → List α → Res (List α)
  | _, [] => .ok []
  | seen, x :: rest => do
    let x ← validate x
    require (!seen.contains (name x)) message
    let rest ← validateList validate name message (name x :: seen) rest
    .ok (x :: rest)

/-- The loops that validate the elements of a map: pkg/config/config.go:149-153, 155-159, 161-165, 167-171, 173-177, json_array_config.go:67-79 and 81-86,
json_object_config.go:51-56 and 58-63, relationship/config.go:78-83. -/
def validateMap {α : Type} (validate : String → α → Res α) : GoMap α → Res (GoMap α)
  | [] => .ok []
  | (k, x) :: rest => do
    let x ← validate k x
    let rest ← validateMap validate rest
    .ok ((k, x) :: rest)

/-- csv_config.go:67-73, pkg/input/json_config.go:39-45, xml_config.go:70-76, http_config.go:108-114 and 119-125: `fileInfo` is nil after any error,
and only "does not exist" is looked at. -/
def checkFile (lib : ConfigLib) (path : String) : Res Unit :=
  match lib.stat path with
  | .absent => .error (.err "The file does not exist")
  | .failed => .error (.panic "invalid memory address or nil pointer dereference")
  | .directory => .error (.err "The path is not a file")
  | .file => .ok ()

/-! ### Parsers -/

/-- The configurations of pkg/parser/*_config.go, without their names. -/
inductive ParserKind where
  | string (convertFromCharset : String)
  | integer (ignore : String)
  | float (decimalSeparator ignore : String)
  | boolean (trueValues falseValues : List String)
  | json
  | split (delimiter : Option String) (isRegexp : Option Bool) (parser : String)
  deriving DecidableEq

/-- A parser of the configuration. -/
structure ParserDecl where
  name : String
  kind : ParserKind
  deriving DecidableEq

/-- `Primitive()` of each configuration: string_config.go:31-33, integer_config.go:29-31, float_config.go:34-36, boolean_config.go:37-39,
pkg/parser/json_config.go:28-30, split_config.go:68-70. -/
def ParserDecl.primitive (p : ParserDecl) : Bool :=
  match p.kind with
  | .json => false
  | .split _ _ _ => false
  | _ => true

/-- `Validate` of each parser: string_config.go:15-25, integer_config.go:15-23, float_config.go:16-28, boolean_config.go:16-31,
pkg/parser/json_config.go:14-22, split_config.go:35-66. -/
def ParserDecl.validate (lib : ConfigLib) (parsers : GoMap ParserDecl) (p : ParserDecl) : Res ParserDecl := do
  require (p.name ≠ "") "name is required"
  match p.kind with
  | .string _ => .ok p
  | .integer _ => .ok p
  | .float separator _ => do
    require (separator ≠ "") "float.decimalSeparator is required"
    .ok p
  | .boolean t f => do
    require (!t.isEmpty) "boolean.trueValues is required"
    require (!f.isEmpty) "boolean.falseValues is required"
    .ok p
  | .json => .ok p
  | .split delimiter isRegexp parser =>
    match delimiter with
    | none => .error (.err "split.delimiter is required")
    | some d => do
      let isRegexp := isRegexp.getD false
      require (!isRegexp || lib.regexpCompiles d) "split.delimiter: Error while parsing regexp"
      require (mapGet parsers parser).isSome "Parser not found in parsers list."
      .ok { p with kind := .split (some d) (some isRegexp) parser }

/-! ### Inputs -/

/-- csv_config.go:24-27 `CsvColumnConfig`. -/
structure ColumnDecl where
  name : String
  parser : String
  deriving DecidableEq

/-- csv_config.go:11-22 `CsvConfig`. -/
structure CsvDecl where
  name : String
  path : String
  dieOnInputChange : Option Bool
  ignoreFirstRow : Bool
  autodetectColumns : Bool
  delimiter : String
  columns : List ColumnDecl

/-- xml_config.go:30-38 `XmlPropertyConfig`. -/
inductive XmlPropDecl where
  | mk (name type parser xpath : String) (items : Option XmlPropDecl) (properties : List XmlPropDecl)

/-- xml_config.go:20-28 `XmlConfig`. -/
structure XmlDecl where
  name : String
  path : String
  dieOnInputChange : Option Bool
  properties : List XmlPropDecl
  recordXPath : String

/-- pkg/input/json_config.go:10-16 `JsonConfig`. -/
structure JsonDecl where
  name : String
  path : String
  dieOnInputChange : Option Bool

/-- The inputs of the configuration. -/
inductive InputDecl where
  | csv (c : CsvDecl)
  | xml (c : XmlDecl)
  | json (c : JsonDecl)

/-- `GetName()`: csv_config.go:29-31, xml_config.go:40-42, pkg/input/json_config.go:18-20. -/
def InputDecl.name : InputDecl → String
  | .csv c => c.name
  | .xml c => c.name
  | .json c => c.name

/-- `if config.Parser == "" { config.Parser = "string" }`: csv_config.go:105-108, xml_config.go:117-120, parameter/config.go:44-47. -/
def parserOrString (parser : String) : String := if parser = "" then "string" else parser

/-- csv_config.go:100-116 `Validate`. -/
def ColumnDecl.validate (parsers : GoMap ParserDecl) (c : ColumnDecl) : Res ColumnDecl := do
  require (c.name ≠ "") "name is required"
  require (mapGet parsers (parserOrString c.parser)).isSome "parser: Parser not found in parsers list."
  .ok { name := c.name, parser := parserOrString c.parser }

/-- csv_config.go:37-98 `Validate`. -/
def CsvDecl.validate (lib : ConfigLib) (parsers : GoMap ParserDecl) (c : CsvDecl) : Res CsvDecl := do
  require (c.name ≠ "") "csv.name is required"
  if c.autodetectColumns then
    require c.columns.isEmpty "A csv input with 'autodetectColumns' set to 'true' must not define columns."
  else
    require (!c.columns.isEmpty) "A csv input must have at least one column unless 'autodetectColumns' is set to 'true'"
  checkFile lib c.path
  let delimiter := if c.delimiter = "" then "," else c.delimiter
  require (delimiter.utf8ByteSize ≤ 1) "csv.delimiter must be a single character"
  let columns ← validateList (ColumnDecl.validate parsers) ColumnDecl.name "Column names must be unique." [] c.columns
  .ok { c with dieOnInputChange := some (c.dieOnInputChange.getD true), delimiter := delimiter, columns := columns }

/-- `property.Name`. -/
def XmlPropDecl.name : XmlPropDecl → String
  | .mk name _ _ _ _ _ => name

mutual
/-- xml_config.go:94-180 `Validate`. -/
def XmlPropDecl.validate (lib : ConfigLib) (parsers : GoMap ParserDecl) (nameRequired : Bool) : XmlPropDecl → Res XmlPropDecl
  | .mk name type parser xpath items properties => do
    require (!nameRequired || name ≠ "") "name is required"
    require (lib.xpathCompiles xpath) "xpath: Invalid xpath expression"
    let type := if type = "" then "primitive" else type
    if type = "primitive" then
      require (mapGet parsers (parserOrString parser)).isSome "parser: Parser not found in parsers list."
      require items.isNone "items can only be used on array properties."
      require properties.isEmpty "properties can only be used on object properties."
      .ok (.mk name type (parserOrString parser) xpath items properties)
    else if type = "array" then
      require (parser = "") "parser specified, but the property is not a primitive."
      require properties.isEmpty "properties can only be used on object properties."
      let items ← validateXmlItems lib parsers items
      .ok (.mk name type parser xpath items properties)
    else if type = "object" then
      require (parser = "") "parser specified, but the property is not a primitive."
      require items.isNone "items can only be used on array properties."
      require (!properties.isEmpty) "properties is required for objects."
      let properties ← validateXmlProperties lib parsers [] properties
      .ok (.mk name type parser xpath items properties)
    else .error (.err "type is invalid.")
/-- xml_config.go:142-149: the items of an array. -/
def validateXmlItems (lib : ConfigLib) (parsers : GoMap ParserDecl) : Option XmlPropDecl → Res (Option XmlPropDecl)
  | none => .error (.err "items is required for arrays.")
  | some items => do
    let items ← items.validate lib parsers false
    .ok (some items)
/-- xml_config.go:163-174 and 78-89: the loops over the properties. -/
def validateXmlProperties (lib : ConfigLib) (parsers : GoMap ParserDecl) : List String → List XmlPropDecl → Res (List XmlPropDecl)
  | _, [] => .ok []
  | seen, p :: rest => do
    let p ← p.validate lib parsers true
    require (!seen.contains p.name) "Property names must be unique."
    let rest ← validateXmlProperties lib parsers (p.name :: seen) rest
    .ok (p :: rest)
end

/-- xml_config.go:48-92 `Validate`. -/
def XmlDecl.validate (lib : ConfigLib) (parsers : GoMap ParserDecl) (c : XmlDecl) : Res XmlDecl := do
  require (c.name ≠ "") "xml.name is required"
  require (lib.xpathCompiles c.recordXPath) "recordXpath: Invalid xpath expression"
  require (!c.properties.isEmpty) "An xml input must have at least one property"
  checkFile lib c.path
  let properties ← validateXmlProperties lib parsers [] c.properties
  .ok { c with dieOnInputChange := some (c.dieOnInputChange.getD true), properties := properties }

/-- pkg/input/json_config.go:26-48 `Validate`. -/
def JsonDecl.validate (lib : ConfigLib) (c : JsonDecl) : Res JsonDecl := do
  require (c.name ≠ "") "json.name is required"
  checkFile lib c.path
  .ok { c with dieOnInputChange := some (c.dieOnInputChange.getD true) }

/-- `Validate` of the inputs. -/
def InputDecl.validate (lib : ConfigLib) (parsers : GoMap ParserDecl) : InputDecl → Res InputDecl
  | .csv c => do
    let c ← c.validate lib parsers
    .ok (.csv c)
  | .xml c => do
    let c ← c.validate lib parsers
    .ok (.xml c)
  | .json c => do
    let c ← c.validate lib
    .ok (.json c)

/-! ### Indexes -/

/-- sqlite_config.go:23-26 `SqlitePropertyConfig`. -/
structure SqlitePropertyDecl where
  name : String
  collate : String
  deriving DecidableEq

/-- map_config.go:10-16 `MapConfig`. -/
structure MapDecl where
  name : String
  input : String
  properties : List String

/-- wildcard_config.go:11-19 `WildcardConfig`. -/
structure WildcardDecl where
  name : String
  path : String
  input : String
  properties : List String
  ignoreCase : Option Bool

/-- sqlite_config.go:14-21 `SqliteConfig`. -/
structure SqliteDecl where
  name : String
  dsn : String
  input : String
  properties : List SqlitePropertyDecl

/-- fts5_config.go:12-21 `Fts5Config`. -/
structure Fts5Decl where
  name : String
  dsn : String
  input : String
  prefixes : List Int
  tokenize : String
  properties : List String

/-- The indexes of the configuration; the no-op index (noop_config.go:9-13) only has a name. -/
inductive IndexDecl where
  | map (c : MapDecl)
  | wildcard (c : WildcardDecl)
  | sqlite (c : SqliteDecl)
  | fts5 (c : Fts5Decl)
  | noop (name : String)

/-- `GetName()`: map_config.go:43-45, wildcard_config.go:67-69, sqlite_config.go:63-65, fts5_config.go:62-64, noop_config.go:25-27. -/
def IndexDecl.name : IndexDecl → String
  | .map c => c.name
  | .wildcard c => c.name
  | .sqlite c => c.name
  | .fts5 c => c.name
  | .noop name => name

/-- `DoesHandleProperty`: map_config.go:47-57, wildcard_config.go:71-81, sqlite_config.go:67-77, fts5_config.go:66-68, noop_config.go:29-31. -/
def IndexDecl.handlesProperty : IndexDecl → String → Bool
  | .map c, property => c.properties.any (fun p => property == p)
  | .wildcard c, property => c.properties.any (fun p => property == p)
  | .sqlite c, property => c.properties.any (fun p => property == p.name)
  | .fts5 _, property => property == "match"
  | .noop _, _ => true

/-- `DoesHandleInput`: map_config.go:59-61, wildcard_config.go:83-85, sqlite_config.go:79-81, fts5_config.go:70-72, noop_config.go:33-35. -/
def IndexDecl.handlesInput : IndexDecl → InputDecl → Bool
  | .map c, input => input.name == c.input
  | .wildcard c, input => input.name == c.input
  | .sqlite c, input => input.name == c.input
  | .fts5 c, input => input.name == c.input
  | .noop _, _ => true

/-- `strings.ToUpper` of one ASCII character. -/
def asciiUpper (c : Char) : Char := if 'a' ≤ c ∧ c ≤ 'z' then Char.ofNat (c.toNat - 32) else c

/-- `strings.ToUpper`: ASCII texts character by character. -/
def toUpper (lib : ConfigLib) (s : String) : String :=
  if s.toList.all (fun c => decide (c.toNat < 128)) then String.ofList (s.toList.map asciiUpper) else lib.upper s

/-- sqlite_config.go:12 `SqlitePropertyCollateAllowedValues`. -/
def collateAllowedValues : List String := ["BINARY", "NOCASE", "RTIRM"]

/-- sqlite_config.go:83-101 `Validate`. -/
def SqlitePropertyDecl.validate (lib : ConfigLib) (p : SqlitePropertyDecl) : Res SqlitePropertyDecl := do
  require (p.name ≠ "") "name is required"
  let collate := if p.collate = "" then "BINARY" else toUpper lib p.collate
  require (collateAllowedValues.contains collate) "collate value is invalid."
  .ok { p with collate := collate }

/-- map_config.go:18-41 `Validate`. -/
def MapDecl.validate (inputs : GoMap InputDecl) (c : MapDecl) : Res MapDecl := do
  require (c.name ≠ "") "map.name is required"
  require (mapGet inputs c.input).isSome "map.input: Input not found in inputs list."
  let properties ← validateList .ok id "map.properties: Duplicate property in array." [] c.properties
  .ok { c with properties := properties }

/-- wildcard_config.go:25-65 `Validate`. -/
def WildcardDecl.validate (lib : ConfigLib) (inputs : GoMap InputDecl) (c : WildcardDecl) : Res WildcardDecl := do
  require (c.name ≠ "") "wildcard.name is required"
  require (c.path ≠ "") "wildcard.path is required"
  require (lib.stat c.path ≠ .failed) "wildcard.path: Error checking the path"
  require (lib.stat c.path ≠ .directory) "wildcard.path: This path already exists and is a directory"
  require (mapGet inputs c.input).isSome "wildcard.input: Input not found in inputs list."
  let properties ← validateList .ok id "wildcard.properties: Duplicate property in array." [] c.properties
  .ok { c with properties := properties, ignoreCase := some (c.ignoreCase.getD false) }

/-- sqlite_config.go:28-61 `Validate`. -/
def SqliteDecl.validate (lib : ConfigLib) (inputs : GoMap InputDecl) (c : SqliteDecl) : Res SqliteDecl := do
  require (c.name ≠ "") "sqlite.name is required"
  require (c.dsn ≠ "") "sqlite.dsn is required"
  require (mapGet inputs c.input).isSome "sqlite.input: Input not found in inputs list."
  let properties ← validateList (SqlitePropertyDecl.validate lib) SqlitePropertyDecl.name "sqlite.properties: Duplicate property in array." [] c.properties
  .ok { c with properties := properties }

/-- fts5_config.go:23-60 `Validate`. -/
def Fts5Decl.validate (inputs : GoMap InputDecl) (c : Fts5Decl) : Res Fts5Decl := do
  require (c.name ≠ "") "sqlite.name is required"
  require (c.dsn ≠ "") "sqlite.dsn is required"
  require (mapGet inputs c.input).isSome "sqlite.input: Input not found in inputs list."
  let properties ← validateList .ok id "sqlite.properties: Duplicate property in array." [] c.properties
  .ok { c with tokenize := if c.tokenize = "" then "unicode61" else c.tokenize, properties := properties }

/-- `Validate` of the indexes; noop_config.go:15-23 for the last one. -/
def IndexDecl.validate (lib : ConfigLib) (inputs : GoMap InputDecl) : IndexDecl → Res IndexDecl
  | .map c => do
    let c ← c.validate inputs
    .ok (.map c)
  | .wildcard c => do
    let c ← c.validate lib inputs
    .ok (.wildcard c)
  | .sqlite c => do
    let c ← c.validate lib inputs
    .ok (.sqlite c)
  | .fts5 c => do
    let c ← c.validate inputs
    .ok (.fts5 c)
  | .noop name => do
    require (name ≠ "") "noop.name is required"
    .ok (.noop name)

/-! ### Outputs -/

/-- The outputs of the configuration: graphql_config.go:11-15, json_array_config.go:14-23, json_object_config.go:14-21. -/
inductive OutputDecl where
  | graphql (name : String)
  | array (name : String) (c : ArrayConfig)
  | object (name : String) (c : ObjectConfig)

/-- `GetName()`: graphql_config.go:17-19, json_array_config.go:35-37, json_object_config.go:23-25. -/
def OutputDecl.name : OutputDecl → String
  | .graphql name => name
  | .array name _ => name
  | .object name _ => name

/-- `if config.Index == "" { config.Index = "default" }`: parameter/config.go:29-32, relationship/config.go:96-99. -/
def indexOrDefault (index : String) : String := if index = "" then "default" else index

/-- parameter/config.go:33-42, relationship/config.go:101-110: the index exists and handles the input and the property. -/
def checkIndex (indexes : GoMap IndexDecl) (input : InputDecl) (index property : String) : Res Unit :=
  match mapGet indexes index with
  | none => .error (.err "Index not found in indexes list.")
  | some i => do
    require (i.handlesInput input) "Index does not handle input."
    require (i.handlesProperty property) "Index does not handle property."

/-- parameter/config.go:18-58 `Validate`. -/
def ParamConfig.validate (indexes : GoMap IndexDecl) (parsers : GoMap ParserDecl) (input : InputDecl) (p : ParamConfig) : Res ParamConfig := do
  require (p.property ≠ "") "property is empty"
  checkIndex indexes input (indexOrDefault p.index) p.property
  match mapGet parsers (parserOrString p.parser) with
  | none => .error (.err "parser: Parser not found in parsers list.")
  | some parser => do
    require parser.primitive "parser: The parser is not a primitive type and cannot be used as a parameter."
    .ok { p with index := indexOrDefault p.index, parser := parserOrString p.parser }

/-- sort_config.go:17-33 `Validate`. -/
def SortConfig.validate (c : SortConfig) : Res SortConfig := .ok { c with ascending := some (c.ascending.getD true) }

/-- relationship/config.go:88-113 `Validate`. -/
def MatchConfig.validate (indexes : GoMap IndexDecl) (input : InputDecl) (m : MatchConfig) : Res MatchConfig := do
  checkIndex indexes input (indexOrDefault m.childIndex) m.childProperty
  .ok { m with childIndex := indexOrDefault m.childIndex }

/-- relationship/config.go:32-76: one relationship without the nested ones. -/
def validateLevel (indexes : GoMap IndexDecl) (inputs : GoMap InputDecl) (inputName : String) (isArray : Bool) (sort : List SortConfig)
    (matching : List MatchConfig) : Res (List SortConfig × List MatchConfig) := do
  require (sort.isEmpty || isArray) "sort: You can only sort a relationship when isArray = 'true'."
  match mapGet inputs inputName with
  | none => .error (.err "map.input: Input not found in inputs list.")
  | some input => do
    let sort ← validateList SortConfig.validate SortConfig.property "sort: property is used twice for sorting" [] sort
    require (!matching.isEmpty) "match: Cannot define a relationship without matched properties."
    let matching ← validateList (MatchConfig.validate indexes input) MatchConfig.childProperty "childProperty: Duplicate filter on childProperty" []
      matching
    .ok (sort, matching)

mutual
/-- relationship/config.go:26-86 `Validate`. -/
def Relationship.validate (indexes : GoMap IndexDecl) (inputs : GoMap InputDecl) : Relationship → Res Relationship
  | .mk inputName isArray limit sort matching relationships => do
    let (sort, matching) ← validateLevel indexes inputs inputName isArray sort matching
    let relationships ← validateRelationships indexes inputs relationships
    .ok (.mk inputName isArray limit sort matching relationships)
/-- relationship/config.go:78-83, json_array_config.go:81-86, json_object_config.go:58-63: the loops over the relationships. -/
def validateRelationships (indexes : GoMap IndexDecl) (inputs : GoMap InputDecl) :
    List (String × Relationship) → Res (List (String × Relationship))
  | [] => .ok []
  | (name, r) :: rest => do
    let r ← r.validate indexes inputs
    let rest ← validateRelationships indexes inputs rest
    .ok ((name, r) :: rest)
end

/-- json_array_config.go:67-79: one parameter of a list output. -/
def validateArrayParameter (indexes : GoMap IndexDecl) (parsers : GoMap ParserDecl) (input : InputDecl) (limitParameter offsetParameter : String)
    (name : String) (p : ParamConfig) : Res ParamConfig := do
  let p ← p.validate indexes parsers input
  require (name ≠ limitParameter) "Parameter is already used for the limit"
  require (name ≠ offsetParameter) "Parameter is already used for the offset"
  .ok p

/-- json_array_config.go:39-89 `Validate`, with the offset (114-121). -/
def ArrayConfig.validate (inputs : GoMap InputDecl) (indexes : GoMap IndexDecl) (parsers : GoMap ParserDecl) (name : String) (c : ArrayConfig) :
    Res ArrayConfig := do
  require (name ≠ "") "jsonArray.name is required"
  require (c.input ≠ "") "jsonArray.input is empty. This field is required."
  match mapGet inputs c.input with
  | none => .error (.err "jsonObject.input: Input not found in inputs list.")
  | some input =>
    match c.limit.validate with
    | none => .error (.err "jsonArray.limit.default is higher than the max value.")
    | some limit => do
      let offsetParameter := if c.offsetParameter = "" then "offset" else c.offsetParameter
      let parameters ← validateMap (validateArrayParameter indexes parsers input limit.parameter offsetParameter) c.parameters
      let relationships ← validateRelationships indexes inputs c.relationships
      .ok { input := c.input, limit := limit, offsetParameter := offsetParameter, parameters := parameters, relationships := relationships }

/-- json_object_config.go:27-66 `Validate`. -/
def ObjectConfig.validate (inputs : GoMap InputDecl) (indexes : GoMap IndexDecl) (parsers : GoMap ParserDecl) (name : String) (c : ObjectConfig) :
    Res ObjectConfig := do
  require (name ≠ "") "jsonObject.name is required"
  require (!c.parameters.isEmpty) "jsonObject.parameters is empty. As least one is required."
  require (c.input ≠ "") "jsonObject.input is empty. This field is required."
  match mapGet inputs c.input with
  | none => .error (.err "jsonObject.input: Input not found in inputs list.")
  | some input => do
    let parameters ← validateMap (fun _ p => p.validate indexes parsers input) c.parameters
    let relationships ← validateRelationships indexes inputs c.relationships
    .ok { input := c.input, parameters := parameters, relationships := relationships }

/-- `Validate` of the outputs; graphql_config.go:21-34 for the first one. -/
def OutputDecl.validate (inputs : GoMap InputDecl) (indexes : GoMap IndexDecl) (parsers : GoMap ParserDecl) : OutputDecl → Res OutputDecl
  | .graphql name => do
    require (name ≠ "") "graphql.name is required"
    .ok (.graphql name)
  | .array name c => do
    let c ← c.validate inputs indexes parsers name
    .ok (.array name c)
  | .object name c => do
    let c ← c.validate inputs indexes parsers name
    .ok (.object name c)

/-! ### Services -/

/-- http_config.go:26-30 `HttpHttpsConfig`. -/
structure HttpsDecl where
  listen : String
  certificatePath : String
  privateKeyPath : String

/-- http_config.go:32-35 `HttpRouteConfig`. -/
structure RouteDecl where
  output : String
  path : String
  deriving DecidableEq

/-- http_config.go:12-20 `HttpConfig`; `http` is the address of 22-24 `HttpHttpConfig`. -/
structure ServiceDecl where
  name : String
  http : Option String
  https : Option HttpsDecl
  errorsType : String
  routes : List RouteDecl

/-- http_config.go:93-95 and 101-103: the default address. -/
def listenOrLocal (listen : String) : String := if listen = "" then "127.0.0.1:0" else listen

/-- http_config.go:100-128 `Validate`. -/
def HttpsDecl.validate (lib : ConfigLib) (c : HttpsDecl) : Res HttpsDecl := do
  require (c.certificatePath ≠ "") "certificatePath: This field is required"
  checkFile lib c.certificatePath
  require (c.privateKeyPath ≠ "") "privateKeyFile: This field is required"
  checkFile lib c.privateKeyPath
  .ok { c with listen := listenOrLocal c.listen }

/-- http_config.go:130-145 `Validate`. -/
def RouteDecl.validate (outputs : GoMap OutputDecl) (r : RouteDecl) : Res RouteDecl := do
  require (r.output ≠ "") "output is empty. This field is required"
  require (r.path ≠ "") "path is empty. This field is required"
  require (mapGet outputs r.output).isSome "output not found in outputs list."
  .ok r

/-- http_config.go:61-65: the https part, if there is one. -/
def validateHttps (lib : ConfigLib) : Option HttpsDecl → Res (Option HttpsDecl)
  | none => .ok none
  | some c => do
    let c ← c.validate lib
    .ok (some c)

/-- http_config.go:41-90 `Validate`, with 92-98 for the http part. -/
def ServiceDecl.validate (lib : ConfigLib) (outputs : GoMap OutputDecl) (c : ServiceDecl) : Res ServiceDecl := do
  require (c.name ≠ "") "http.name is required"
  let errorsType := if c.errorsType = "" then "application/json" else c.errorsType
  require (c.https.isSome || c.http.isSome) "At least one of the http or https property is required."
  let https ← validateHttps lib c.https
  require (!c.routes.isEmpty) "routes is empty. At least one route is required to start an HTTP service."
  let routes ← validateList (RouteDecl.validate outputs) RouteDecl.path "Duplicate path in array." [] c.routes
  require (["application/json"].contains errorsType) "http.errorsType: type is not supported."
  .ok { c with errorsType := errorsType, http := c.http.map listenOrLocal, https := https, routes := routes }

/-! ### The whole configuration -/

/-- pkg/config/config.go:16-22 `configParser`: what is in the file. -/
structure ParsedConfig where
  parsers : List ParserDecl
  inputs : List InputDecl
  indexes : List IndexDecl
  services : List ServiceDecl
  outputs : List OutputDecl

/-- pkg/config/config.go:24-30 `Config`. -/
structure Config where
  parsers : GoMap ParserDecl
  inputs : GoMap InputDecl
  indexes : GoMap IndexDecl
  services : GoMap ServiceDecl
  outputs : GoMap OutputDecl

/-- pkg/config/config.go:68-74, 75-81, 82-88, 89-95, 96-102: the loops that put the components in maps. -/
def collect {α : Type} (name : α → String) : List α → GoMap α → Res (GoMap α)
  | [], m => .ok m
  | x :: rest, m =>
    match mapGet m (name x) with
    | some _ => .error (.err "Duplicate name.")
    | none => collect name rest (mapSet m (name x) x)

/-- pkg/config/config.go:59-105 `NewConfigFromParsedConfig`. -/
def newConfig (p : ParsedConfig) : Res Config := do
  let parsers ← collect ParserDecl.name p.parsers []
  let inputs ← collect InputDecl.name p.inputs []
  let indexes ← collect IndexDecl.name p.indexes []
  let services ← collect ServiceDecl.name p.services []
  let outputs ← collect OutputDecl.name p.outputs []
  .ok { parsers := parsers, inputs := inputs, indexes := indexes, services := services, outputs := outputs }

/-- pkg/config/config.go:117-139: the parsers that are there without being declared. -/
def defaultParsers : List ParserDecl :=
  [{ name := "string", kind := .string "" },
   { name := "integer", kind := .integer "" },
   { name := "float", kind := .float "." "" },
   { name := "boolean", kind := .boolean ["true", "1", "TRUE"] ["false", "0", "FALSE"] },
   { name := "json", kind := .json }]

/-- pkg/config/config.go:111-115 and 140-144: add a default unless the name is taken. -/
def addDefault {α : Type} (name : α → String) (m : GoMap α) (x : α) : GoMap α :=
  match mapGet m (name x) with
  | some _ => m
  | none => mapSet m (name x) x

/-- pkg/config/config.go:107-146 `addDefaultConfigs`. -/
def addDefaults (c : Config) : Config :=
  { c with
    indexes := addDefault IndexDecl.name c.indexes (.noop "default")
    parsers := defaultParsers.foldl (addDefault ParserDecl.name) c.parsers }

/-- pkg/config/config.go:148-180 `Validate`. What a component looks at in the other ones (that they exist, their names, kinds, inputs and properties) is not
changed by their validation. -/
def Config.validate (lib : ConfigLib) (c : Config) : Res Config := do
  let parsers ← validateMap (fun _ p => p.validate lib c.parsers) c.parsers
  let inputs ← validateMap (fun _ i => i.validate lib c.parsers) c.inputs
  let indexes ← validateMap (fun _ i => i.validate lib c.inputs) c.indexes
  let services ← validateMap (fun _ s => s.validate lib c.outputs) c.services
  let outputs ← validateMap (fun _ o => o.validate c.inputs c.indexes c.parsers) c.outputs
  .ok { parsers := parsers, inputs := inputs, indexes := indexes, services := services, outputs := outputs }

/-- pkg/config/config.go:45-56: the configuration from the parsed file. -/
def loadConfig (lib : ConfigLib) (p : ParsedConfig) : Res Config := do
  let c ← newConfig p
  (addDefaults c).validate lib

end Rodb
