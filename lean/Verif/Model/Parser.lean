import Verif.Model.Text
import Verif.Model.Value
/-
  pkg/parser : the parsers, from their validated configurations.
-/
namespace Rodb

/-- The library functions used by the parsers: `strconv.ParseFloat(s, 64)`, `json.Unmarshal` into an
`interface{}`, `strings.Split(s, "")`. -/
structure ParserLib where
  parseFloat : Bytes → Res GoFloat
  unmarshal : Bytes → Res Value
  explode : Bytes → List Bytes

/-- The delimiter of a split parser (split_config.go:10-18): a text, or a regular expression given by its
`Split(value, -1)` function. -/
inductive Delimiter where
  | literal (d : Bytes)
  | regexp (split : Bytes → List Bytes)

/-- The configurations of pkg/parser/*_config.go. The charset of a string parser is given by the conversion
function of its decoder, used by one request at a time (concurrent use is in Model/Charset.lean). -/
inductive ParserConfig where
  | string (convert : Option (Bytes → Res Bytes))
  | integer (ignore : List Char)
  | float (decimalSeparator : Bytes) (ignore : List Char)
  | boolean (trueValues falseValues : List Bytes)
  | json
  | split (delimiter : Delimiter) (parser : String)

/-- The Go type of a parser, as far as XML records ask for it (xml_record.go:134, 191-193, 206). -/
inductive ParserType where
  | string | integer | float | boolean | other
  deriving DecidableEq

/-- The Go type of a parser. -/
def ParserConfig.type : ParserConfig → ParserType
  | .string _ => .string
  | .integer _ => .integer
  | .float _ _ => .float
  | .boolean _ _ => .boolean
  | .json => .other
  | .split _ _ => .other

/-- `Primitive()` of each configuration. -/
def ParserConfig.primitive : ParserConfig → Bool
  | .json => false
  | .split _ _ => false
  | _ => true

/-- integer.go:38-42 `Parse`. -/
def integerParse (ignore : List Char) (value : Bytes) : Res Value :=
  match atoi (removeCharacters value ignore) with
  | some i => .ok (.int i)
  | none => .error (.err "strconv.Atoi: invalid syntax or value out of range")

/-- float.go:40-47 `Parse`. -/
def floatParse (lib : ParserLib) (separator : Bytes) (ignore : List Char) (value : Bytes) : Res Value :=
  let cleaned := removeCharacters value ignore
  let cleaned := if separator ≠ [46] then replaceAll cleaned separator [46] else cleaned
  match lib.parseFloat cleaned with
  | .ok f => .ok (.float f)
  | .error e => .error e

/-- boolean.go:41-50 `Parse`. -/
def booleanParse (trueValues falseValues : List Bytes) (value : Bytes) : Res Value :=
  if isInArray value trueValues then .ok (.bool true)
  else if isInArray value falseValues then .ok (.bool false)
  else .error (.err "The value was found but is neither declared in trueValues or falseValues.")

/-- string.go:47-59 `Parse`. -/
def stringParse (convert : Option (Bytes → Res Bytes)) (value : Bytes) : Res Value :=
  match convert with
  | none => .ok (.str value)
  | some f =>
    match f value with
    | .error e => .error e
    | .ok v => .ok (.str v)

/-- split.go:36-41: the pieces of the text. -/
def Delimiter.pieces (lib : ParserLib) (value : Bytes) : Delimiter → List Bytes
  | .regexp split => split value
  | .literal [] => lib.explode value
  | .literal d => splitBytes value d

/-- split.go:50-57: the loop over the pieces. -/
def parsePieces (parse : Bytes → Res Value) : List Bytes → Res (List Value)
  | [] => .ok []
  | p :: rest => do
    let v ← parse p
    let vs ← parsePieces parse rest
    .ok (v :: vs)

/-- `Parse` of all the parsers. A split parser calls another parser of the list (split.go:35-60); the fuel
bounds the depth of such calls, and running out of it is `diverge`. -/
def parse (lib : ParserLib) (parsers : GoMap ParserConfig) : Nat → ParserConfig → Bytes → Res Value
  | _, .string convert, value => stringParse convert value
  | _, .integer ignore, value => integerParse ignore value
  | _, .float separator ignore, value => floatParse lib separator ignore value
  | _, .boolean t f, value => booleanParse t f value
  | _, .json, value => lib.unmarshal value
  | 0, .split _ _, _ => .error .diverge
  | fuel+1, .split delimiter parser, value =>
    match mapGet parsers parser with
    | none => .error (.err "The parser was not found in parser list")
    | some p =>
      match parsePieces (parse lib parsers fuel p) (delimiter.pieces lib value) with
      | .error e => .error e
      | .ok vs => .ok (.arr vs)

/-- The validation of the parsers, as far as it is used: a split parser names a parser of the list
(split_config.go:35-66), a boolean parser has values of both kinds (boolean_config.go:16-31), a float parser has a
decimal separator (float_config.go:16-28). Simplification: names, and compiling a regular expression, are left out. -/
def validParsers (parsers : GoMap ParserConfig) : Bool :=
  parsers.all (fun p =>
    match p.2 with
    | .split _ name => (mapGet parsers name).isSome
    | .boolean t f => !t.isEmpty && !f.isEmpty
    | .float s _ => !s.isEmpty
    | _ => true)

end Rodb
