import Verif.Model.Config
import Verif.Model.MapIndex
import Verif.Model.Noop
/-
  main.go and the constructors `NewFromConfig(s)` : from the validated configuration to running services.

  A Go map is the list of its entries in the order in which `range` visits them.
-/
namespace Rodb

/-- What starting uses outside of the model: the library functions of the parsers; the decoder of a character set; `Split` of a compiled regular
expression; opening a CSV file; its first row; opening the file of an input (with the columns and parsers found for it) and watching it;
building or loading a wildcard, sqlite or fts5 index; listening on the addresses of a service; the library's sort; and the order of `range` in the
outputs. -/
structure StartLib where
  parserLib : ParserLib
  charset : String → Res (Bytes → Res Bytes)
  regexpSplit : String → Bytes → List Bytes
  openCsv : CsvDecl → Res Unit
  firstRow : CsvDecl → Res (List String)
  input : InputDecl → (String → Option ParserType) → GoMap (Bytes → Res Value) → Res Input
  index : IndexDecl → Input → Res IndexFn
  listen : ServiceDecl → Res Unit
  sort : (Rec → Rec → Bool) → List Rec → List Rec
  visit : List Nat → {α : Type} → List α → List α

/-- The loops of `NewFromConfigs`: pkg/parser/parser.go:48-57, pkg/input/input.go:54-63, pkg/index/index.go:54-63, pkg/output/output.go:66-75, pkg/service/service.go:40-51. -/
def instantiateMap {α β : Type} (instantiate : α → Res β) : GoMap α → Res (GoMap β)
  | [] => .ok []
  | (k, x) :: rest => do
    let y ← instantiate x
    let rest ← instantiateMap instantiate rest
    .ok ((k, y) :: rest)

/-! ### Parsers -/

/-- pkg/parser/parser.go:23-43 `NewFromConfig`, with string.go:16-33 `NewString` and split.go:13-21 `NewSplit`. Simplification: a split parser without delimiter, which
validation refuses, fails here and not when it is used (split_config.go:28-33). -/
def ParserDecl.instantiate (lib : StartLib) (p : ParserDecl) : Res TextParser :=
  match p.kind with
  | .string charset =>
    if charset ≠ "" then do
      let convert ← lib.charset charset
      .ok (.string (some convert))
    else .ok (.string none)
  | .integer ignore => .ok (.integer ignore.toList)
  | .float separator ignore => .ok (.float separator.toList ignore.toList)
  | .boolean t f => .ok (.boolean (t.map String.toList) (f.map String.toList))
  | .json => .ok (.nonPrimitive .json)
  | .split none _ _ => .error (.panic "invalid memory address or nil pointer dereference")
  | .split (some d) isRegexp parser =>
    .ok (.nonPrimitive (.split (if isRegexp = some true then .regexp (lib.regexpSplit d) else .literal (utf8 d.toList)) parser))

/-- The `Parse` functions of all the parsers. Split parsers call each other at most as deep as there are parsers, or for ever. -/
def parseFunctions (lib : StartLib) (parsers : GoMap TextParser) : GoMap (Bytes → Res Value) :=
  parsers.map (fun p => (p.1, parse lib.parserLib (parsers.map (fun q => (q.1, q.2.config))) parsers.length p.2.config))

/-- The Go types of the parsers. -/
def parserTypes (parsers : GoMap TextParser) : String → Option ParserType := fun name => (mapGet parsers name).map (fun p => p.config.type)

/-! ### Inputs -/

/-- csv.go:128-155 `autodetectColumns`, the loop over the first row. -/
def detectColumns : List String → List String → Res (List ColumnDecl)
  | _, [] => .ok []
  | seen, name :: rest => do
    require (name ≠ "") "autodetectColumns is enabled, but a column does not have a name."
    require (!seen.contains name) "autodetectColumns is enabled, but there is a duplicate column."
    let rest ← detectColumns (name :: seen) rest
    .ok ({ name := name, parser := "string" } :: rest)

/-- csv.go:63-67: the columns, found in the first row if they are not configured. -/
def CsvDecl.findColumns (lib : StartLib) (c : CsvDecl) : Res (List ColumnDecl) :=
  if c.autodetectColumns then do
    let row ← lib.firstRow c
    detectColumns [] row
  else .ok c.columns

/-- csv.go:29-79 `NewCsv`. -/
def CsvDecl.instantiate (lib : StartLib) (parsers : GoMap TextParser) (c : CsvDecl) : Res Input := do
  lib.openCsv c
  let columns ← c.findColumns lib
  require (columns.all (fun column => (mapGet parsers column.parser).isSome)) "Parser does not exist"
  lib.input (.csv { c with columns := columns }) (parserTypes parsers) (parseFunctions lib parsers)

/-- pkg/input/input.go:34-48 `NewFromConfig`; xml.go:41-86 `NewXml` and pkg/input/json.go:23-59 `NewJson` only use the file. -/
def InputDecl.instantiate (lib : StartLib) (parsers : GoMap TextParser) : InputDecl → Res Input
  | .csv c => c.instantiate lib parsers
  | .xml c => lib.input (.xml c) (parserTypes parsers) (parseFunctions lib parsers)
  | .json c => lib.input (.json c) (parserTypes parsers) (parseFunctions lib parsers)

/-! ### Indexes -/

/-- `inputs[config.Input]` with its error: map.go:25-28, wildcard.go:24-27, sqlite.go:25-28, fts5.go:27-30. -/
def findInput (inputs : GoMap Input) (name : String) : Res Input :=
  match mapGet inputs name with
  | none => .error (.err "Input not found in inputs list.")
  | some input => .ok input

/-- pkg/index/index.go:30-48 `NewFromConfig`. -/
def IndexDecl.instantiate (lib : StartLib) (inputs : GoMap Input) : IndexDecl → Res IndexFn
  | .map c => do
    let input ← findInput inputs c.input
    let index ← newMap { properties := c.properties } input
    .ok (fun input filters => index.getRecordPositions input.name filters)
  | .wildcard c => do
    let input ← findInput inputs c.input
    lib.index (.wildcard c) input
  | .sqlite c => do
    let input ← findInput inputs c.input
    lib.index (.sqlite c) input
  | .fts5 c => do
    let input ← findInput inputs c.input
    lib.index (.fts5 c) input
  | .noop _ => .ok noopGetRecordPositions

/-! ### Outputs -/

mutual
/-- json_common.go:12-29 `checkRelationshipMatches`: the inputs of the nested relationships exist. -/
def checkRelationship (inputs : GoMap Input) : Relationship → Res Unit
  | .mk _ _ _ _ _ relationships => checkNested inputs relationships
/-- json_common.go:17-26, the loop over the nested relationships. -/
def checkNested (inputs : GoMap Input) : List (String × Relationship) → Res Unit
  | [] => .ok ()
  | (_, .mk inputName isArray limit sort matching relationships) :: rest => do
    require (mapGet inputs inputName).isSome "Input not found in inputs list."
    checkRelationship inputs (.mk inputName isArray limit sort matching relationships)
    checkNested inputs rest
end

/-- json_array.go:45-49, json_object.go:53-57: the loop over the relationships. -/
def checkRelationships (inputs : GoMap Input) : List (String × Relationship) → Res Unit
  | [] => .ok ()
  | (_, r) :: rest => do
    checkRelationship inputs r
    checkRelationships inputs rest

/-- What the outputs use. -/
def outputEnv (lib : StartLib) (inputs : GoMap Input) (indexes : GoMap IndexFn) (defaultIndex : IndexFn) (parsers : GoMap TextParser) : OutputEnv where
  inputs := inputs
  indexes := indexes
  defaultIndex := defaultIndex
  parsers := parseFunctions lib parsers
  sort := lib.sort
  visit := lib.visit

/-- pkg/output/output.go:39-58 `NewFromConfig`, with json_array.go:24-52 `NewJsonArray` and json_object.go:23-60 `NewJsonObject`. -/
def OutputDecl.instantiate (lib : StartLib) (inputs : GoMap Input) (indexes : GoMap IndexFn) (parsers : GoMap TextParser) (o : OutputDecl) :
    Res OutputApi :=
  match mapGet indexes "default" with
  | none => .error (.err "Index 'default' not found in indexes list.")
  | some defaultIndex =>
    match o with
    | .graphql _ => .error (.err "Unknown output config type")
    | .array _ c => do
      require (mapGet inputs c.input).isSome "Input not found in inputs list."
      checkRelationships inputs c.relationships
      .ok (arrayApi (outputEnv lib inputs indexes defaultIndex parsers) c parsers)
    | .object _ c => do
      require (c.parameters.all (fun p => (mapGet parsers p.2.parser).isSome)) "Parser does not exist"
      require (mapGet inputs c.input).isSome "There is no such input"
      checkRelationships inputs c.relationships
      .ok (objectApi (outputEnv lib inputs indexes defaultIndex parsers) c parsers)

/-! ### Services -/

/-- http.go:41-109 `NewHttp`: the routes, then the listeners. -/
def ServiceDecl.instantiate (lib : StartLib) (outputs : GoMap OutputApi) (c : ServiceDecl) : Res (String × List Route) := do
  let routes ← createRoutes outputs (c.routes.map (fun r => (r.output, r.path.toList)))
  lib.listen c
  .ok (c.errorsType, routes)

/-! ### The program -/

/-- main.go:48-101, the construction of everything: the services with the type of their errors and their routes. -/
def start (lib : StartLib) (c : Config) : Res (GoMap (String × List Route)) := do
  let parsers ← instantiateMap (ParserDecl.instantiate lib) c.parsers
  let inputs ← instantiateMap (InputDecl.instantiate lib parsers) c.inputs
  let indexes ← instantiateMap (IndexDecl.instantiate lib inputs) c.indexes
  let outputs ← instantiateMap (OutputDecl.instantiate lib inputs indexes parsers) c.outputs
  instantiateMap (ServiceDecl.instantiate lib outputs) c.services

end Rodb
