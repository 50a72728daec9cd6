import Verif.Model.Parser
/-
  pkg/input/record/path.go, and the records of the three inputs: csv_record.go, json_record.go, xml_record.go.
-/
namespace Rodb

/-- `valueArray[index]` for an `index` that is less than the length: a negative index panics. -/
def goIndex {α : Type} (l : List α) (index : Int) : Res α :=
  if index < 0 then .error (.panic "index out of range")
  else
    match l[index.toNat]? with
    | some v => .ok v
    | none => .error (.panic "index out of range")

/-- pkg/input/record/path.go:8-40 `GetSubValue`. -/
def getSubValue (value : Value) : List String → Res Value
  | [] => .ok value
  | key :: path =>
    match value with
    | .obj m =>
      match mapGet m key with
      | none => .ok .null
      | some v => getSubValue v path
    | .arr l =>
      match atoi (utf8 key.toList) with
      | none => .error (.err "Cannot get sub-path because the value is an array")
      | some index =>
        if index ≥ l.length then .ok .null
        else
          match goIndex l index with
          | .error e => .error e
          | .ok v => getSubValue v path
    | _ => .error (.err "Cannot get sub-path because the value is primitive or unknown")

/-- `strings.Split(path, ".")`. -/
def splitPath (path : String) : List String := (splitDots path.toList).map String.ofList

/-! ### JSON -/

/-- pkg/input/json_record.go:44-74 `getSubValue`. -/
def jsonGetSubValue (data : Value) : List String → Res Value
  | [] => .ok data
  | key :: path =>
    match data with
    | .obj m =>
      match mapGet m key with
      | none => .ok .null
      | some property => jsonGetSubValue property path
    | .arr l =>
      match atoi (utf8 key.toList) with
      | none => .error (.err "Cannot get path because the value is an array, but the index is non-numeric")
      | some index =>
        if index ≥ l.length then .ok .null
        else
          match goIndex l index with
          | .error e => .error e
          | .ok v => jsonGetSubValue v path
    | _ => .error (.err "Cannot get path because the value is primitive")

/-- json_record.go:30-42, 76-78: the record for a decoded object. -/
def jsonRecord (data : GoMap Value) (position : Int) : Rec :=
  { position := position
    all := .ok data
    get := fun path =>
      if path = "" then .error (.err "Cannot get the property because it's path is empty.")
      else jsonGetSubValue (.obj data) (splitPath path) }

/-! ### CSV -/

/-- csv_config.go:24-27 `CsvColumnConfig`, with the parser found under its name by `NewCsv` (csv.go:69-76). -/
structure CsvColumn where
  name : String
  parse : Bytes → Res Value

/-- csv_config.go:84-95, csv.go:136-152 `ColumnIndexByName`: the index at which each name is found. -/
def columnIndexes : List CsvColumn → Nat → GoMap Nat → GoMap Nat
  | [], _, m => m
  | c :: rest, i, m => columnIndexes rest (i + 1) (mapSet m c.name i)

/-- csv_record.go:45-63 `getColumn`. `columnParsers` has the length of the columns (csv.go:69). -/
def csvGetColumn (columns : List CsvColumn) (data : List Bytes) (name : String) : Res Value :=
  match mapGet (columnIndexes columns 0 []) name with
  | none => .error (.err "The column does not exist.")
  | some i =>
    match data[i]? with
    | none => .ok .null
    | some cell =>
      match columns[i]? with
      | none => .error (.panic "index out of range")
      | some c => c.parse cell

/-- csv_record.go:31-43 `All`, the loop over the columns. -/
def csvAll (columns : List CsvColumn) (data : List Bytes) : List CsvColumn → GoMap Value → Res (GoMap Value)
  | [], result => .ok result
  | c :: rest, result =>
    match csvGetColumn columns data c.name with
    | .error e => .error e
    | .ok v => csvAll columns data rest (mapSet result c.name v)

/-- csv_record.go:10-82 `CsvRecord`. -/
def csvRecord (columns : List CsvColumn) (data : List Bytes) (position : Int) : Rec :=
  { position := position
    all := csvAll columns data columns []
    get := fun path =>
      if path = "" then .error (.err "Cannot get the property because it's path is empty.")
      else
        match splitPath path with
        | [] => .error (.panic "index out of range")
        | name :: sub =>
          match csvGetColumn columns data name with
          | .error e => .error e
          | .ok v => getSubValue v sub }

/-! ### XML -/

/-- What evaluating an XPath expression on a node gives (xml_record.go:101-123): a string, a number, a
boolean, nodes (given by the concatenation of their `OutputXML(true)`) or something else. -/
inductive XPathResult where
  | str (s : Bytes)
  | num (f : GoFloat)
  | bool (b : Bool)
  | nodes (xml : Bytes)
  | other

/-- xml_config.go:30-38 `XmlPropertyConfig` after validation, for documents with nodes `N`. The XPath
expression is given by its result: the selected nodes (`xmlquery.QuerySelectorAll`) for arrays and objects,
the evaluation for primitives. -/
inductive XmlProp (N : Type) where
  | array (name : String) (select : N → List N) (items : XmlProp N)
  | object (name : String) (select : N → List N) (properties : List (XmlProp N))
  | primitive (name : String) (eval : N → XPathResult) (parser : String)

/-- `property.Name`. -/
def XmlProp.name {N : Type} : XmlProp N → String
  | .array n _ _ => n
  | .object n _ _ => n
  | .primitive n _ _ => n

/-- What the XML input gets from its environment: the parsers by their names, given by their `Parse` functions and their types, and the Go conversion
`int64(float64)`. -/
structure XmlEnv where
  functions : GoMap (Bytes → Res Value)
  types : String → Option ParserType
  floatToInt : GoFloat → Int

/-- These parsers as the environment of XML records; `depth` is the depth of nested split parsers (see `parse`). -/
def XmlEnv.ofParsers (lib : ParserLib) (parsers : GoMap ParserConfig) (depth : Nat) (floatToInt : GoFloat → Int) : XmlEnv :=
  { functions := parsers.map (fun p => (p.1, parse lib parsers depth p.2))
    types := fun name => (mapGet parsers name).map ParserConfig.type
    floatToInt := floatToInt }

/-- xml_record.go:176-183 `handleStringValue`. -/
def XmlEnv.stringValue (env : XmlEnv) (parser : String) (s : Bytes) : Res Value :=
  match mapGet env.functions parser with
  | none => .error (.err "The parser was not found.")
  | some parse => parse s

/-- xml_record.go:185-198 `handleNumericValue`. -/
def XmlEnv.numericValue (env : XmlEnv) (parser : String) (f : GoFloat) : Res Value :=
  match env.types parser with
  | none => .error (.err "The parser was not found.")
  | some .float => .ok (.float f)
  | some .integer => .ok (.int (env.floatToInt f))
  | some _ => .error (.err "got a numeric value, but the property does not have a numeric parser")

/-- xml_record.go:200-211 `handleBoolValue`. -/
def XmlEnv.boolValue (env : XmlEnv) (parser : String) (b : Bool) : Res Value :=
  match env.types parser with
  | none => .error (.err "The parser was not found.")
  | some .boolean => .ok (.bool b)
  | some _ => .error (.err "got a boolean value, but the property does not have a boolean parser")

/-- xml_record.go:128-158 `handleNodeIteratorValue`. -/
def XmlEnv.nodesValue (env : XmlEnv) (parser : String) (xml : Bytes) : Res Value :=
  match env.types parser with
  | none => .error (.err "The parser was not found.")
  | some .string => .ok (.str xml)
  | some _ => .error (.err "got XmlRecord node(s), but the property does not have a string parser")

/-- xml_record.go:109-123: the value of a primitive property. -/
def XmlEnv.primitiveValue (env : XmlEnv) (parser : String) : XPathResult → Res Value
  | .str s => env.stringValue parser s
  | .num f => env.numericValue parser f
  | .bool b => env.boolValue parser b
  | .nodes x => env.nodesValue parser x
  | .other => .error (.err "returned an unexpected type")

/-- xml_record.go:53-60, the loop of `nodeIteratorToArray`. -/
def xmlArray {N : Type} (f : N → Res Value) : List N → Res (List Value)
  | [] => .ok []
  | n :: rest =>
    match f n with
    | .error e => .error e
    | .ok v =>
      match xmlArray f rest with
      | .error e => .error e
      | .ok vs => .ok (v :: vs)

mutual
/-- xml_record.go:89-124 `getAllValues`, with `nodeIteratorToArray` (48-63) and `nodeIteratorToObject`
(65-87). -/
def xmlAllValues {N : Type} (env : XmlEnv) : XmlProp N → N → Res Value
  | .array _ select items, node =>
    match xmlArray (xmlAllValues env items) (select node) with
    | .error e => .error e
    | .ok vs => .ok (.arr vs)
  | .object _ select properties, node =>
    match select node with
    | [] => .ok .null
    | [n] =>
      match xmlObject env properties n [] with
      | .error e => .error e
      | .ok m => .ok (.obj m)
    | _ => .error (.err "got multiple nodes, but the property has an object type")
  | .primitive _ eval parser, node => env.primitiveValue parser (eval node)
/-- xml_record.go:77-84 and 36-43, the loops over the properties. -/
def xmlObject {N : Type} (env : XmlEnv) : List (XmlProp N) → N → GoMap Value → Res (GoMap Value)
  | [], _, values => .ok values
  | p :: rest, node, values =>
    match xmlAllValues env p node with
    | .error e => .error e
    | .ok v => xmlObject env rest node (mapSet values p.name v)
end

mutual
/-- xml_record.go:265-315 `getSubValue`, with `getSubArrayValue` (213-235) and `getSubObjectValue`
(237-263). -/
def xmlSubValue {N : Type} (env : XmlEnv) : XmlProp N → N → List String → Res Value
  | .array _ select items, node, path =>
    match path with
    | [] =>
      match xmlArray (xmlAllValues env items) (select node) with
      | .error e => .error e
      | .ok vs => .ok (.arr vs)
    | key :: sub =>
      match atoi (utf8 key.toList) with
      | none => .error (.err "Cannot get sub-path because the value is an array")
      | some index =>
        if index ≥ (select node).length then .ok .null
        else
          match goIndex (select node) index with
          | .error e => .error e
          | .ok n => xmlSubValue env items n sub
  | .object _ select properties, node, path =>
    match path with
    | [] =>
      match select node with
      | [] => .ok .null
      | [n] =>
        match xmlObject env properties n [] with
        | .error e => .error e
        | .ok m => .ok (.obj m)
      | _ => .error (.err "got multiple nodes, but the property has an object type")
    | key :: sub =>
      match select node with
      | [] => .ok .null
      | [n] => xmlSubProperty env properties n key sub (.ok .null)
      | _ => .error (.err "got multiple nodes, but the property has an object type")
  | .primitive _ eval parser, node, path =>
    match eval node with
    | .str s =>
      match env.stringValue parser s with
      | .error e => .error e
      | .ok v => getSubValue v path
    | r =>
      if path.length > 0 then .error (.err "Cannot get sub-path because the value is primitive.")
      else env.primitiveValue parser r
/-- xml_record.go:254-262 and 167-173: the first property with the requested name; `absent` if there is
none. -/
def xmlSubProperty {N : Type} (env : XmlEnv) : List (XmlProp N) → N → String → List String → Res Value → Res Value
  | [], _, _, _, absent => absent
  | p :: rest, node, key, sub, absent =>
    if p.name = key then xmlSubValue env p node sub else xmlSubProperty env rest node key sub absent
end

/-- xml_record.go:13-46, 160-174 `XmlRecord`. -/
def xmlRecord {N : Type} (env : XmlEnv) (properties : List (XmlProp N)) (node : N) (position : Int) : Rec :=
  { position := position
    all := xmlObject env properties node []
    get := fun path =>
      if path = "" then .error (.err "Cannot get the property because it's path is empty.")
      else
        match splitPath path with
        | [] => .error (.panic "index out of range")
        | key :: sub => xmlSubProperty env properties node key sub (.error (.err "The path does not exist in this record.")) }

mutual
/-- xml_config.go:78-89, 94-180 `Validate`, as far as the names are concerned: the names of the properties of
the record, and of each object, are not empty and different. -/
def XmlProp.valid {N : Type} : XmlProp N → Bool
  | .array _ _ items => items.valid
  | .object _ _ properties => validXmlProps properties && decide (properties.map XmlProp.name).Nodup
  | .primitive _ _ _ => true
/-- The loop of `Validate` over the properties. -/
def validXmlProps {N : Type} : List (XmlProp N) → Bool
  | [] => true
  | p :: rest => decide (p.name ≠ "") && p.valid && validXmlProps rest
end

end Rodb
