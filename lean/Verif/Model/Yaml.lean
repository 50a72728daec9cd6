import Verif.Model.Config
/-
  pkg/config/{config,parser,input,index,output,service}.go, pkg/util/config.go and the `yaml` tags of the `*_config.go` files : from a YAML document to the configuration.

  What gopkg.in/yaml.v2 does with a document is written from its source (decode.go, `UnmarshalStrict`). Simplifications: the document is given as the tree of its nodes, with
  aliases, merge keys and tags resolved; keys are scalars, given as their texts; `Null` and `NULL`, which are not quite the same as `null`, are left out. The library looks at the
  settings in the order of the file and collects all the errors; here the settings are looked up one by one and the first error is returned: the settings of a structure do not
  depend on each other. A `null` element of a list or of a map of pointers is a nil pointer, on which the loading fails or panics later (when it reads the name of the component,
  pkg/config/config.go:68-102, or in the `Validate` functions); here it panics at once.
-/
namespace Rodb

/-- A node of a YAML document. A scalar has its text, and the value that yaml.v2 sees in it: a float also has what Go's conversions to `uint64` and `int64` give
if they are in range. Timestamps are floats without them. -/
inductive Yaml where
  | null
  | text (s : String)
  | bool (value : Bool) (s : String)
  | int (value : Int) (s : String)
  | float (asUint : Option Nat) (asInt : Option Int) (s : String)
  | list (items : List Yaml)
  | map (entries : List (String × Yaml))

/-- What the library does with the exported fields without a `yaml` tag, which can be given under their names in lower case (`logger`, `delimiterregexp`, `columnindexbyname`,
`compiledxpath`): whether it accepts the value. The fields are overwritten by `Validate` or not read. -/
structure YamlLib where
  hidden : String → Yaml → Bool

/-- yaml.v2 decode.go `scalar`, into a `string`: the text of any scalar; the zero value for `null`. -/
def asText : Yaml → Res String
  | .null => .ok ""
  | .text s => .ok s
  | .bool _ s => .ok s
  | .int _ s => .ok s
  | .float _ _ s => .ok s
  | .list _ => .error (.err "cannot unmarshal !!seq into string")
  | .map _ => .error (.err "cannot unmarshal !!map into string")

/-- yaml.v2 decode.go `scalar`, into a `bool`. -/
def asBool : Yaml → Res Bool
  | .null => .ok false
  | .bool b _ => .ok b
  | _ => .error (.err "cannot unmarshal into bool")

/-- yaml.v2 decode.go `scalar`, into a `uint`. -/
def asUint : Yaml → Res Nat
  | .null => .ok 0
  | .int v _ => if 0 ≤ v ∧ v < 2 ^ 64 then .ok v.toNat else .error (.err "cannot unmarshal into uint")
  | .float (some n) _ _ => .ok n
  | _ => .error (.err "cannot unmarshal into uint")

/-- yaml.v2 decode.go `scalar`, into an `int`. -/
def asInt : Yaml → Res Int
  | .null => .ok 0
  | .int v _ => if -2 ^ 63 ≤ v ∧ v < 2 ^ 63 then .ok v else .error (.err "cannot unmarshal into int")
  | .float _ (some n) _ => .ok n
  | _ => .error (.err "cannot unmarshal into int")

/-- yaml.v2 decode.go `prepare`, for a pointer: nil for `null`. -/
def asOptional {α : Type} (decode : Yaml → Res α) : Yaml → Res (Option α)
  | .null => .ok none
  | y => do
    let v ← decode y
    .ok (some v)

/-- An element that is a pointer or an interface: the uses of a nil one panic. -/
def asPresent {α : Type} (decode : Yaml → Res α) : Yaml → Res α
  | .null => .error (.panic "invalid memory address or nil pointer dereference")
  | y => decode y

/-- yaml.v2 decode.go `sequence`, the loop over the elements. -/
def asElements {α : Type} (decode : Yaml → Res α) : List Yaml → Res (List α)
  | [] => .ok []
  | y :: rest => do
    let v ← decode y
    let rest ← asElements decode rest
    .ok (v :: rest)

/-- yaml.v2 decode.go `sequence`, into a slice. -/
def asList {α : Type} (decode : Yaml → Res α) : Yaml → Res (List α)
  | .null => .ok []
  | .list items => asElements decode items
  | _ => .error (.err "cannot unmarshal into slice")

/-- yaml.v2 decode.go `mapping`, the loop over the entries; a key can be given once (`setMapIndex`). -/
def asEntries {α : Type} (decode : Yaml → Res α) : List String → List (String × Yaml) → Res (GoMap α)
  | _, [] => .ok []
  | seen, (k, y) :: rest => do
    require (!seen.contains k) "key already set in map"
    let v ← decode y
    let rest ← asEntries decode (k :: seen) rest
    .ok ((k, v) :: rest)

/-- yaml.v2 decode.go `mapping`, into a map. -/
def asMap {α : Type} (decode : Yaml → Res α) : Yaml → Res (GoMap α)
  | .null => .ok []
  | .map entries => asEntries decode [] entries
  | _ => .error (.err "cannot unmarshal into map")

/-- yaml.v2 decode.go `mappingStruct`, with `d.strict`: every field is given at most once, and there are no other ones. -/
def checkKeys (lib : YamlLib) (known hidden : List String) : List String → List (String × Yaml) → Res Unit
  | _, [] => .ok ()
  | seen, (k, y) :: rest => do
    require (!seen.contains k) "field already set in type"
    require (known.contains k || hidden.contains k && lib.hidden k y) "field not found in type"
    checkKeys lib known hidden (k :: seen) rest

/-- yaml.v2 decode.go `mappingStruct`: the entries of the node; `null` is the zero value. -/
def structEntries (lib : YamlLib) (known hidden : List String) : Yaml → Res (List (String × Yaml))
  | .null => .ok []
  | .map entries => do
    checkKeys lib known hidden [] entries
    .ok entries
  | _ => .error (.err "cannot unmarshal into struct")

/-- yaml.v2 decode.go `mappingStruct`: one field, with its zero value. -/
def setting {α : Type} (entries : List (String × Yaml)) (key : String) (decode : Yaml → Res α) (zero : α) : Res α :=
  match mapGet entries key with
  | none => .ok zero
  | some y => decode y

/-- pkg/util/config.go:7-26 `GetTypeFromConfigUnmarshaler`. A key that is given twice, which it refuses, is also refused by `checkKeys`. -/
def componentType : Yaml → Res String
  | .map entries =>
    match mapGet entries "type" with
    | none => .error (.err "The 'type' attribute is required.")
    | some (.text s) => if s = "" then .error (.err "The 'type' attribute cannot be empty.") else .ok s
    | some _ => .error (.err "The 'type' attribute must be a string.")
  | .null => .error (.panic "invalid memory address or nil pointer dereference")
  | _ => .error (.err "cannot unmarshal into map[string]interface {}")

/-! ### Parsers -/

/-- integer_config.go:8-13. -/
def decodeInteger (lib : YamlLib) (y : Yaml) : Res ParserDecl := do
  let e ← structEntries lib ["name", "type", "ignoreCharacters"] ["logger"] y
  let name ← setting e "name" asText ""
  let ignore ← setting e "ignoreCharacters" asText ""
  .ok { name := name, kind := .integer ignore }

/-- float_config.go:8-14. -/
def decodeFloat (lib : YamlLib) (y : Yaml) : Res ParserDecl := do
  let e ← structEntries lib ["name", "type", "decimalSeparator", "ignoreCharacters"] ["logger"] y
  let name ← setting e "name" asText ""
  let separator ← setting e "decimalSeparator" asText ""
  let ignore ← setting e "ignoreCharacters" asText ""
  .ok { name := name, kind := .float separator ignore }

/-- boolean_config.go:8-14. -/
def decodeBoolean (lib : YamlLib) (y : Yaml) : Res ParserDecl := do
  let e ← structEntries lib ["name", "type", "trueValues", "falseValues"] ["logger"] y
  let name ← setting e "name" asText ""
  let t ← setting e "trueValues" (asList asText) []
  let f ← setting e "falseValues" (asList asText) []
  .ok { name := name, kind := .boolean t f }

/-- string_config.go:8-13. -/
def decodeString (lib : YamlLib) (y : Yaml) : Res ParserDecl := do
  let e ← structEntries lib ["name", "type", "convertFromCharset"] ["logger"] y
  let name ← setting e "name" asText ""
  let charset ← setting e "convertFromCharset" asText ""
  .ok { name := name, kind := .string charset }

/-- pkg/parser/json_config.go:8-12. -/
def decodeJsonParser (lib : YamlLib) (y : Yaml) : Res ParserDecl := do
  let e ← structEntries lib ["name", "type"] ["logger"] y
  let name ← setting e "name" asText ""
  .ok { name := name, kind := .json }

/-- split_config.go:10-18. -/
def decodeSplit (lib : YamlLib) (y : Yaml) : Res ParserDecl := do
  let e ← structEntries lib ["name", "type", "delimiter", "delimiterIsRegexp", "parser"] ["logger", "delimiterregexp"] y
  let name ← setting e "name" asText ""
  let delimiter ← setting e "delimiter" (asOptional asText) none
  let isRegexp ← setting e "delimiterIsRegexp" (asOptional asBool) none
  let parser ← setting e "parser" asText ""
  .ok { name := name, kind := .split delimiter isRegexp parser }

/-- pkg/config/parser.go:13-41 `UnmarshalYAML`. -/
def decodeParser (lib : YamlLib) (y : Yaml) : Res ParserDecl := do
  let type ← componentType y
  match type with
  | "integer" => decodeInteger lib y
  | "float" => decodeFloat lib y
  | "boolean" => decodeBoolean lib y
  | "string" => decodeString lib y
  | "json" => decodeJsonParser lib y
  | "split" => decodeSplit lib y
  | _ => .error (.err "Error in parser config: Unknown type")

/-! ### Inputs -/

/-- csv_config.go:24-27. -/
def decodeColumn (lib : YamlLib) (y : Yaml) : Res ColumnDecl := do
  let e ← structEntries lib ["name", "parser"] [] y
  let name ← setting e "name" asText ""
  let parser ← setting e "parser" asText ""
  .ok { name := name, parser := parser }

/-- csv_config.go:11-22. -/
def decodeCsv (lib : YamlLib) (y : Yaml) : Res CsvDecl := do
  let e ← structEntries lib ["name", "type", "path", "dieOnInputChange", "ignoreFirstRow", "autodetectColumns", "delimiter", "columns"] ["logger", "columnindexbyname"] y
  let name ← setting e "name" asText ""
  let path ← setting e "path" asText ""
  let die ← setting e "dieOnInputChange" (asOptional asBool) none
  let ignoreFirstRow ← setting e "ignoreFirstRow" asBool false
  let autodetectColumns ← setting e "autodetectColumns" asBool false
  let delimiter ← setting e "delimiter" asText ""
  let columns ← setting e "columns" (asList (asPresent (decodeColumn lib))) []
  .ok { name := name, path := path, dieOnInputChange := die, ignoreFirstRow := ignoreFirstRow, autodetectColumns := autodetectColumns, delimiter := delimiter, columns := columns }

mutual
/-- xml_config.go:30-38. -/
def decodeXmlProp (lib : YamlLib) : Yaml → Res XmlPropDecl
  | .map entries => do
    let e ← structEntries lib ["name", "type", "parser", "xpath", "items", "properties"] ["compiledxpath"] (.map entries)
    let name ← setting e "name" asText ""
    let type ← setting e "type" asText ""
    let parser ← setting e "parser" asText ""
    let xpath ← setting e "xpath" asText ""
    let items ← decodeXmlItems lib entries
    let properties ← decodeXmlProperties lib entries
    .ok (.mk name type parser xpath items properties)
  | .null => .ok (.mk "" "" "" "" none [])
  | _ => .error (.err "cannot unmarshal into struct")
/-- xml_config.go:35 `Items`. -/
def decodeXmlItems (lib : YamlLib) : List (String × Yaml) → Res (Option XmlPropDecl)
  | [] => .ok none
  | (k, y) :: rest =>
    if k = "items" then
      match y with
      | .null => .ok none
      | y => do
        let p ← decodeXmlProp lib y
        .ok (some p)
    else decodeXmlItems lib rest
/-- xml_config.go:36 `Properties`, and 25 of the input. -/
def decodeXmlProperties (lib : YamlLib) : List (String × Yaml) → Res (List XmlPropDecl)
  | [] => .ok []
  | (k, y) :: rest =>
    if k = "properties" then
      match y with
      | .null => .ok []
      | .list items => decodeXmlList lib items
      | _ => .error (.err "cannot unmarshal into slice")
    else decodeXmlProperties lib rest
/-- The elements of `Properties`. -/
def decodeXmlList (lib : YamlLib) : List Yaml → Res (List XmlPropDecl)
  | [] => .ok []
  | y :: rest =>
    match y with
    | .null => .error (.panic "invalid memory address or nil pointer dereference")
    | y => do
      let p ← decodeXmlProp lib y
      let rest ← decodeXmlList lib rest
      .ok (p :: rest)
end

/-- xml_config.go:20-28. -/
def decodeXml (lib : YamlLib) (y : Yaml) : Res XmlDecl := do
  let e ← structEntries lib ["name", "type", "path", "dieOnInputChange", "properties", "recordXpath"] ["logger"] y
  let name ← setting e "name" asText ""
  let path ← setting e "path" asText ""
  let die ← setting e "dieOnInputChange" (asOptional asBool) none
  let properties ← decodeXmlProperties lib e
  let recordXPath ← setting e "recordXpath" asText ""
  .ok { name := name, path := path, dieOnInputChange := die, properties := properties, recordXPath := recordXPath }

/-- pkg/input/json_config.go:10-16. -/
def decodeJsonInput (lib : YamlLib) (y : Yaml) : Res JsonDecl := do
  let e ← structEntries lib ["name", "type", "path", "dieOnInputChange"] ["logger"] y
  let name ← setting e "name" asText ""
  let path ← setting e "path" asText ""
  let die ← setting e "dieOnInputChange" (asOptional asBool) none
  .ok { name := name, path := path, dieOnInputChange := die }

/-- pkg/config/input.go:13-32 `UnmarshalYAML`. -/
def decodeInput (lib : YamlLib) (y : Yaml) : Res InputDecl := do
  let type ← componentType y
  match type with
  | "csv" => do
    let d ← decodeCsv lib y
    .ok (.csv d)
  | "xml" => do
    let d ← decodeXml lib y
    .ok (.xml d)
  | "json" => do
    let d ← decodeJsonInput lib y
    .ok (.json d)
  | _ => .error (.err "Error in input config: Unknown type")

/-! ### Indexes -/

/-- map_config.go:10-16. -/
def decodeMapIndex (lib : YamlLib) (y : Yaml) : Res MapDecl := do
  let e ← structEntries lib ["name", "type", "input", "properties"] ["logger"] y
  let name ← setting e "name" asText ""
  let input ← setting e "input" asText ""
  let properties ← setting e "properties" (asList asText) []
  .ok { name := name, input := input, properties := properties }

/-- wildcard_config.go:11-19. -/
def decodeWildcard (lib : YamlLib) (y : Yaml) : Res WildcardDecl := do
  let e ← structEntries lib ["name", "type", "path", "input", "properties", "ignoreCase"] ["logger"] y
  let name ← setting e "name" asText ""
  let path ← setting e "path" asText ""
  let input ← setting e "input" asText ""
  let properties ← setting e "properties" (asList asText) []
  let ignoreCase ← setting e "ignoreCase" (asOptional asBool) none
  .ok { name := name, path := path, input := input, properties := properties, ignoreCase := ignoreCase }

/-- sqlite_config.go:23-26. -/
def decodeSqliteProperty (lib : YamlLib) (y : Yaml) : Res SqlitePropertyDecl := do
  let e ← structEntries lib ["name", "collate"] [] y
  let name ← setting e "name" asText ""
  let collate ← setting e "collate" asText ""
  .ok { name := name, collate := collate }

/-- sqlite_config.go:14-21. -/
def decodeSqlite (lib : YamlLib) (y : Yaml) : Res SqliteDecl := do
  let e ← structEntries lib ["name", "type", "dsn", "input", "properties"] ["logger"] y
  let name ← setting e "name" asText ""
  let dsn ← setting e "dsn" asText ""
  let input ← setting e "input" asText ""
  let properties ← setting e "properties" (asList (asPresent (decodeSqliteProperty lib))) []
  .ok { name := name, dsn := dsn, input := input, properties := properties }

/-- fts5_config.go:12-21. -/
def decodeFts5 (lib : YamlLib) (y : Yaml) : Res Fts5Decl := do
  let e ← structEntries lib ["name", "type", "dsn", "input", "prefix", "tokenize", "properties"] ["logger"] y
  let name ← setting e "name" asText ""
  let dsn ← setting e "dsn" asText ""
  let input ← setting e "input" asText ""
  let prefixes ← setting e "prefix" (asList asInt) []
  let tokenize ← setting e "tokenize" asText ""
  let properties ← setting e "properties" (asList asText) []
  .ok { name := name, dsn := dsn, input := input, prefixes := prefixes, tokenize := tokenize, properties := properties }

/-- noop_config.go:9-13. -/
def decodeNoop (lib : YamlLib) (y : Yaml) : Res String := do
  let e ← structEntries lib ["name", "type"] ["logger"] y
  setting e "name" asText ""

/-- pkg/config/index.go:13-38 `UnmarshalYAML`. -/
def decodeIndex (lib : YamlLib) (y : Yaml) : Res IndexDecl := do
  let type ← componentType y
  match type with
  | "map" => do
    let d ← decodeMapIndex lib y
    .ok (.map d)
  | "wildcard" => do
    let d ← decodeWildcard lib y
    .ok (.wildcard d)
  | "sqlite" => do
    let d ← decodeSqlite lib y
    .ok (.sqlite d)
  | "fts5" => do
    let d ← decodeFts5 lib y
    .ok (.fts5 d)
  | "noop" => do
    let name ← decodeNoop lib y
    .ok (.noop name)
  | _ => .error (.err "Error in index config: Unknown type")

/-! ### Outputs -/

/-- json_array_config.go:25-29. -/
def decodeLimit (lib : YamlLib) (y : Yaml) : Res LimitConfig := do
  let e ← structEntries lib ["default", "max", "parameter"] [] y
  let default ← setting e "default" asUint 0
  let max ← setting e "max" asUint 0
  let parameter ← setting e "parameter" asText ""
  .ok { default := default, max := max, parameter := parameter }

/-- json_array_config.go:31-33. -/
def decodeOffset (lib : YamlLib) (y : Yaml) : Res String := do
  let e ← structEntries lib ["parameter"] [] y
  setting e "parameter" asText ""

/-- parameter/config.go:12-16. -/
def decodeParameter (lib : YamlLib) (y : Yaml) : Res ParamConfig := do
  let e ← structEntries lib ["property", "index", "parser"] [] y
  let property ← setting e "property" asText ""
  let index ← setting e "index" asText ""
  let parser ← setting e "parser" asText ""
  .ok { property := property, index := index, parser := parser }

/-- pkg/input/record/sort_config.go:7-11. -/
def decodeSort (lib : YamlLib) (y : Yaml) : Res SortConfig := do
  let e ← structEntries lib ["property", "ascending"] ["logger"] y
  let property ← setting e "property" asText ""
  let ascending ← setting e "ascending" (asOptional asBool) none
  .ok { property := property, ascending := ascending }

/-- relationship/config.go:20-24. -/
def decodeMatch (lib : YamlLib) (y : Yaml) : Res MatchConfig := do
  let e ← structEntries lib ["parentProperty", "childProperty", "childIndex"] [] y
  let parent ← setting e "parentProperty" asText ""
  let child ← setting e "childProperty" asText ""
  let index ← setting e "childIndex" asText ""
  .ok { parentProperty := parent, childProperty := child, childIndex := index }

mutual
/-- relationship/config.go:11-18. -/
def decodeRelationship (lib : YamlLib) : Yaml → Res Relationship
  | .map entries => do
    let e ← structEntries lib ["input", "isArray", "limit", "sort", "match", "relationships"] [] (.map entries)
    let input ← setting e "input" asText ""
    let isArray ← setting e "isArray" asBool false
    let limit ← setting e "limit" asUint 0
    let sort ← setting e "sort" (asList (asPresent (decodeSort lib))) []
    let matching ← setting e "match" (asList (asPresent (decodeMatch lib))) []
    let relationships ← decodeRelationships lib entries
    .ok (.mk input isArray limit sort matching relationships)
  | .null => .ok (.mk "" false 0 [] [] [])
  | _ => .error (.err "cannot unmarshal into struct")
/-- relationship/config.go:17 `Relationships`, json_array_config.go:21 and json_object_config.go:19. -/
def decodeRelationships (lib : YamlLib) : List (String × Yaml) → Res (List (String × Relationship))
  | [] => .ok []
  | (k, y) :: rest =>
    if k = "relationships" then
      match y with
      | .null => .ok []
      | .map entries => decodeRelationshipMap lib [] entries
      | _ => .error (.err "cannot unmarshal into map")
    else decodeRelationships lib rest
/-- The entries of `Relationships`. -/
def decodeRelationshipMap (lib : YamlLib) : List String → List (String × Yaml) → Res (List (String × Relationship))
  | _, [] => .ok []
  | seen, (k, y) :: rest => do
    require (!seen.contains k) "key already set in map"
    match y with
    | .null => .error (.panic "invalid memory address or nil pointer dereference")
    | y => do
      let r ← decodeRelationship lib y
      let rest ← decodeRelationshipMap lib (k :: seen) rest
      .ok ((k, r) :: rest)
end

/-- graphql_config.go:11-15. -/
def decodeGraphql (lib : YamlLib) (y : Yaml) : Res String := do
  let e ← structEntries lib ["name", "type"] ["logger"] y
  setting e "name" asText ""

/-- json_array_config.go:14-23. -/
def decodeArrayOutput (lib : YamlLib) (y : Yaml) : Res (String × ArrayConfig) := do
  let e ← structEntries lib ["name", "type", "input", "limit", "offset", "parameters", "relationships"] ["logger"] y
  let name ← setting e "name" asText ""
  let input ← setting e "input" asText ""
  let limit ← setting e "limit" (decodeLimit lib) { default := 0, max := 0, parameter := "" }
  let offset ← setting e "offset" (decodeOffset lib) ""
  let parameters ← setting e "parameters" (asMap (asPresent (decodeParameter lib))) []
  let relationships ← decodeRelationships lib e
  .ok (name, { input := input, limit := limit, offsetParameter := offset, parameters := parameters, relationships := relationships })

/-- json_object_config.go:14-21. -/
def decodeObjectOutput (lib : YamlLib) (y : Yaml) : Res (String × ObjectConfig) := do
  let e ← structEntries lib ["name", "type", "input", "parameters", "relationships"] ["logger"] y
  let name ← setting e "name" asText ""
  let input ← setting e "input" asText ""
  let parameters ← setting e "parameters" (asMap (asPresent (decodeParameter lib))) []
  let relationships ← decodeRelationships lib e
  .ok (name, { input := input, parameters := parameters, relationships := relationships })

/-- pkg/config/output.go:13-32 `UnmarshalYAML`. -/
def decodeOutput (lib : YamlLib) (y : Yaml) : Res OutputDecl := do
  let type ← componentType y
  match type with
  | "graphql" => do
    let name ← decodeGraphql lib y
    .ok (.graphql name)
  | "jsonArray" => do
    let d ← decodeArrayOutput lib y
    .ok (.array d.1 d.2)
  | "jsonObject" => do
    let d ← decodeObjectOutput lib y
    .ok (.object d.1 d.2)
  | _ => .error (.err "Error in output config: Unknown type")

/-! ### Services -/

/-- http_config.go:22-24. -/
def decodeListen (lib : YamlLib) (y : Yaml) : Res String := do
  let e ← structEntries lib ["listen"] [] y
  setting e "listen" asText ""

/-- http_config.go:26-30. -/
def decodeHttps (lib : YamlLib) (y : Yaml) : Res HttpsDecl := do
  let e ← structEntries lib ["listen", "certificatePath", "privateKeyPath"] [] y
  let listen ← setting e "listen" asText ""
  let certificate ← setting e "certificatePath" asText ""
  let key ← setting e "privateKeyPath" asText ""
  .ok { listen := listen, certificatePath := certificate, privateKeyPath := key }

/-- http_config.go:32-35. -/
def decodeRoute (lib : YamlLib) (y : Yaml) : Res RouteDecl := do
  let e ← structEntries lib ["output", "path"] [] y
  let output ← setting e "output" asText ""
  let path ← setting e "path" asText ""
  .ok { output := output, path := path }

/-- http_config.go:12-20. -/
def decodeHttp (lib : YamlLib) (y : Yaml) : Res ServiceDecl := do
  let e ← structEntries lib ["name", "type", "http", "https", "errorsType", "routes"] ["logger"] y
  let name ← setting e "name" asText ""
  let http ← setting e "http" (asOptional (decodeListen lib)) none
  let https ← setting e "https" (asOptional (decodeHttps lib)) none
  let errorsType ← setting e "errorsType" asText ""
  let routes ← setting e "routes" (asList (asPresent (decodeRoute lib))) []
  .ok { name := name, http := http, https := https, errorsType := errorsType, routes := routes }

/-- pkg/config/service.go:13-26 `UnmarshalYAML`. -/
def decodeService (lib : YamlLib) (y : Yaml) : Res ServiceDecl := do
  let type ← componentType y
  match type with
  | "http" => decodeHttp lib y
  | _ => .error (.err "Error in service config: Unknown type")

/-! ### The document -/

/-- pkg/config/config.go:16-22 and 40-43: the document into a `configParser`. -/
def decodeConfig (lib : YamlLib) (y : Yaml) : Res ParsedConfig := do
  let e ← structEntries lib ["parsers", "inputs", "indexes", "services", "outputs"] [] y
  let parsers ← setting e "parsers" (asList (decodeParser lib)) []
  let inputs ← setting e "inputs" (asList (decodeInput lib)) []
  let indexes ← setting e "indexes" (asList (decodeIndex lib)) []
  let services ← setting e "services" (asList (decodeService lib)) []
  let outputs ← setting e "outputs" (asList (decodeOutput lib)) []
  .ok { parsers := parsers, inputs := inputs, indexes := indexes, services := services, outputs := outputs }

end Rodb
