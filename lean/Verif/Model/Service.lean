import Verif.Model.Regexp
import Verif.Model.Parser
import Verif.Model.Output
/-
  pkg/service/http.go : routes, requests and responses; pkg/util/utils.go `GetAddress`.
-/
namespace Rodb

/-! ### The patterns of the parsers -/

/-- A primitive parser as written in the configuration file, whose texts are valid UTF-8; `nonPrimitive` stands for the json and
split parsers. -/
inductive TextParser where
  | string (convert : Option (Bytes → Res Bytes))
  | integer (ignore : List Char)
  | float (decimalSeparator : List Char) (ignore : List Char)
  | boolean (trueValues falseValues : List (List Char))
  | nonPrimitive (config : ParserConfig)

/-- The same configuration with encoded texts. -/
def TextParser.config : TextParser → ParserConfig
  | .string convert => .string convert
  | .integer ignore => .integer ignore
  | .float separator ignore => .float (utf8 separator) ignore
  | .boolean t f => .boolean (t.map utf8) (f.map utf8)
  | .nonPrimitive c => c

/-- `strings.Join(values, "|")`. -/
def joinBars : List (List Char) → List Char
  | [] => []
  | [v] => v
  | v :: w :: rest => v ++ '|' :: joinBars (w :: rest)

/-- integer.go:30-34 and float.go:32-36: the optional ignored characters at the beginning. -/
def ignorePrefix (ignore : List Char) : List Char :=
  if quoteMeta ignore ≠ [] then '[' :: quoteMeta ignore ++ [']', '*'] else []

/-- `GetRegexpPattern()` of each parser: string.go:43-45, integer.go:29-36, float.go:30-38, boolean.go:30-39, pkg/parser/json.go:27-29,
split.go:31-33. -/
def TextParser.pattern : TextParser → List Char
  | .string _ => ['.', '+']
  | .integer ignore => ignorePrefix ignore ++ ['[', '-', ']', '?', '[', '0', '-', '9'] ++ quoteMeta ignore ++ [']', '+']
  | .float separator ignore =>
    ignorePrefix ignore ++ ['[', '-', ']', '?', '[', '0', '-', '9'] ++ quoteMeta ignore ++ [']', '+', '(', '['] ++ quoteMeta separator ++
      [']', '[', '0', '-', '9'] ++ quoteMeta ignore ++ [']', '+', ')', '?']
  | .boolean t f => '(' :: joinBars ((t ++ f).map quoteMeta) ++ [')']
  | .nonPrimitive _ => []

/-! ### Routes -/

/-- What the service uses of an output (pkg/output/output.go:12-25). `handle` gives what `Handle` sends, before the encoding to JSON. -/
structure OutputApi where
  payloadType : Option String
  responseType : String
  hasParameter : String → Bool
  parameterParser : String → Res TextParser
  handle : GoMap Bytes → Bytes → Answer

/-- http.go:148-154: what `{([^}]+)}` finds in the path: the text before the first placeholder, then each placeholder
with the text after it. The first number is fuel, for the length of the path. -/
def splitTemplate : Nat → List Char → List Char × List (List Char × List Char)
  | 0, path => (path, [])
  | _, [] => ([], [])
  | fuel+1, c :: rest =>
    let name := rest.takeWhile (· ≠ '}')
    match rest.dropWhile (· ≠ '}') with
    | _ :: after =>
      if c = '{' ∧ name ≠ [] then
        let (literal, placeholders) := splitTemplate fuel after
        ([], (name, literal) :: placeholders)
      else
        let (literal, placeholders) := splitTemplate fuel rest
        (c :: literal, placeholders)
    | [] =>
      let (literal, placeholders) := splitTemplate fuel rest
      (c :: literal, placeholders)

/-- http.go:156-171: the loop over the placeholders. -/
def pathPattern (output : OutputApi) : List (List Char × List Char) → Res (List Char)
  | [] => .ok []
  | (name, literal) :: rest =>
    match output.parameterParser (String.ofList name) with
    | .error e => .error e
    | .ok parser =>
      if parser.config.primitive then
        match pathPattern output rest with
        | .error e => .error e
        | .ok pattern => .ok ('(' :: parser.pattern ++ ')' :: literal ++ pattern)
      else .error (.err "Cannot use the parser as route parameter because it's not a primitive.")

/-- http.go:139-179 `createPathRegexp`. -/
def createPathRegexp (path : List Char) (output : OutputApi) : Res (Regex × List String) :=
  let (first, placeholders) := splitTemplate path.length path
  match pathPattern output placeholders with
  | .error e => .error e
  | .ok pattern =>
    match compilePattern ('^' :: (first ++ pattern) ++ ['$']) with
    | none => .error (.err "error parsing regexp")
    | some r => .ok (r, placeholders.map (fun p => String.ofList p.1))

/-- http.go:34-39 `httpRoute`; `path` is the one of the configuration. -/
structure Route where
  path : List Char
  regexp : Regex
  parameters : List String
  output : OutputApi

/-- http.go:54-75: one route. -/
def createRoute (outputs : GoMap OutputApi) (output : String) (path : List Char) : Res Route :=
  match mapGet outputs output with
  | none => .error (.err "Output not found in outputs list.")
  | some api =>
    match createPathRegexp path api with
    | .error e => .error e
    | .ok (regexp, parameters) =>
      if parameters.all api.hasParameter then .ok { path := path, regexp := regexp, parameters := parameters, output := api }
      else .error (.err "Output does not have such a parameter.")

/-- http.go:52-76: the routes of the configuration, each with its output and path. -/
def createRoutes (outputs : GoMap OutputApi) : List (String × List Char) → Res (List Route)
  | [] => .ok []
  | (output, path) :: rest =>
    match createRoute outputs output path with
    | .error e => .error e
    | .ok route =>
      match createRoutes outputs rest with
      | .error e => .error e
      | .ok routes => .ok (route :: routes)

/-! ### Requests -/

/-- A request: `request.Method`, `request.Header.Get("Content-Type")` (empty if absent), `request.URL.Path` (simplification: valid UTF-8),
`request.URL.Query()` in the order of `range`, and what `ReadAll` gives for the body. -/
structure Request where
  method : String
  contentType : String
  path : List Char
  query : GoMap (List Bytes)
  body : Res Bytes

/-- The libraries used by the service: `FindStringSubmatch` of a regular expression without the whole match, the JSON
encoder of the outputs, and the JSON text of an error message (`json.Marshal` of a map with one string, which cannot fail). -/
structure ServiceLib where
  find : Regex → List Char → Option (List (Option (List Char)))
  encode : Value → Res Bytes
  errorText : String → Bytes

/-- http.go:264-269: the condition of one route. -/
def routeMatches (lib : ServiceLib) (request : Request) (route : Route) : Bool :=
  let isValidGet := request.method = "GET" ∧ route.output.payloadType = none
  let isValidPost := request.method = "POST" ∧ route.output.payloadType = some request.contentType
  decide (isValidGet ∨ isValidPost) && (lib.find route.regexp request.path).isSome

/-- http.go:262-275 `getMatchingRoute`. -/
def getMatchingRoute (lib : ServiceLib) (request : Request) : List Route → Option Route
  | [] => none
  | route :: rest => if routeMatches lib request route then some route else getMatchingRoute lib request rest

/-- http.go:280-282: the parameters of the query string. -/
def queryParams : GoMap (List Bytes) → GoMap Bytes → Res (GoMap Bytes)
  | [], params => .ok params
  | (_, []) :: _, _ => .error (.panic "index out of range")
  | (k, v :: _) :: rest, params => queryParams rest (mapSet params k v)

/-- http.go:286-288: the parameters of the path; a group that took no part is the empty text. -/
def pathParams : List String → List (Option (List Char)) → GoMap Bytes → Res (GoMap Bytes)
  | [], _, params => .ok params
  | _ :: _, [], _ => .error (.panic "index out of range")
  | name :: names, m :: ms, params => pathParams names ms (mapSet params name (utf8 (m.getD [])))

/-- http.go:277-291 `getParams`. -/
def getParams (lib : ServiceLib) (route : Route) (request : Request) : Res (GoMap Bytes) :=
  match queryParams request.query [] with
  | .error e => .error e
  | .ok params => pathParams route.parameters ((lib.find route.regexp request.path).getD []) params

/-- http.go:293-299 `getPayload`. -/
def getPayload (route : Route) (request : Request) : Res Bytes :=
  if route.output.payloadType ≠ none then request.body else .ok []

/-! ### Responses -/

/-- What a handler does with its `http.ResponseWriter`. -/
inductive Event where
  | header (name value : String)
  | status (code : Nat)
  | body (data : Bytes)
  deriving DecidableEq

/-- How a handler ends: it returns, panics (then `net/http` closes the connection), or never ends. -/
inductive Ending where
  | returned
  | panicked
  | stuck
  deriving DecidableEq

/-- http.go:226-260 `sendErrorResponse`. -/
def sendErrorResponse (lib : ServiceLib) (errorsType : String) (status : Nat) (message : String) : List Event :=
  if errorsType = "application/json" then
    [.header "Content-Type" (errorsType ++ "; charset=UTF-8"), .status status, .body (lib.errorText message)]
  else
    [.header "Content-Type" "text/plain; charset=UTF-8", .status status, .body message.toUTF8.toList]

/-- http.go:205-220 with json_array.go:72-136 or json_object.go:80-119: what a failure does. A panic goes through all these functions. -/
def sendFailure (lib : ServiceLib) (errorsType : String) : Fail → List Event × Ending
  | .err m => (sendErrorResponse lib errorsType 500 m, .returned)
  | .panic _ => ([], .panicked)
  | .diverge => ([], .stuck)

/-- http.go:205-220 with the end of `Handle` (json_array.go:135, json_object.go:103 and 118): `Encode` writes the whole text or,
if it fails, nothing; its error is only logged. -/
def sendAnswer (lib : ServiceLib) (errorsType responseType : String) : Answer → List Event × Ending
  | .error e => sendFailure lib errorsType e
  | .notFound => (sendErrorResponse lib errorsType 404 "Record not found", .returned)
  | .data v =>
    match lib.encode v with
    | .ok text => ([.header "Content-Type" (responseType ++ "; charset=UTF-8"), .status 200, .body text], .returned)
    | .error _ => ([.header "Content-Type" (responseType ++ "; charset=UTF-8"), .status 200], .returned)

/-- http.go:195-220: a request with its route. -/
def serveRoute (lib : ServiceLib) (errorsType : String) (request : Request) (route : Route) : List Event × Ending :=
  match getPayload route request with
  | .error e => sendFailure lib errorsType e
  | .ok payload =>
    match getParams lib route request with
    | .error e => sendFailure lib errorsType e
    | .ok params => sendAnswer lib errorsType route.output.responseType (route.output.handle params payload)

/-- http.go:181-224 `getHandlerFunc`. -/
def handleRequest (lib : ServiceLib) (errorsType : String) (routes : List Route) (request : Request) : List Event × Ending :=
  let (events, ending) :=
    match getMatchingRoute lib request routes with
    | none => (sendErrorResponse lib errorsType 404 "No matching route was found", .returned)
    | some route => serveRoute lib errorsType request route
  (.header "X-Powered-By" "RODB (https://rodb-io.github.io/rodb/)" :: events, ending)

/-- What the client gets. -/
structure Response where
  status : Nat
  headers : GoMap String
  body : Bytes

/-- `net/http`: headers count until the status or the body is written, the first status counts, writing a body or
returning without a status sends 200. -/
def writeResponse : Option Nat → GoMap String → Bytes → List Event → Response
  | status, headers, body, [] => { status := status.getD 200, headers := headers, body := body }
  | none, headers, body, .header n v :: rest => writeResponse none (mapSet headers n v) body rest
  | some s, headers, body, .header _ _ :: rest => writeResponse (some s) headers body rest
  | none, headers, body, .status s :: rest => writeResponse (some s) headers body rest
  | some s, headers, body, .status _ :: rest => writeResponse (some s) headers body rest
  | status, headers, body, .body data :: rest => writeResponse (some (status.getD 200)) headers (body ++ data) rest

/-- What the client gets from a handler: nothing if it panics (simplification: here no handler writes before it
panics) or never ends. -/
def clientGets : List Event × Ending → Option Response
  | (events, .returned) => some (writeResponse none [] [] events)
  | _ => none

/-! ### The two outputs -/

/-- json_array.go:58-64, 203-220: the output as the service sees it. `parsers` are the parsers as written in the configuration. -/
def arrayApi (env : OutputEnv) (c : ArrayConfig) (parsers : GoMap TextParser) : OutputApi where
  payloadType := none
  responseType := "application/json"
  hasParameter name := (mapGet c.parameters name).isSome
  parameterParser name :=
    match mapGet c.parameters name with
    | none => .error (.err "Parameter does not exist")
    | some p =>
      match mapGet parsers p.parser with
      | none => .error (.err "Parser does not exist")
      | some parser => .ok parser
  handle params _ := handleArray env c params

/-- json_object.go:66-72, 140-152; the parser of every parameter is looked up by `NewJsonObject` (30-37), a missing one is an
error there. -/
def objectApi (env : OutputEnv) (c : ObjectConfig) (parsers : GoMap TextParser) : OutputApi where
  payloadType := none
  responseType := "application/json"
  hasParameter name := (mapGet c.parameters name).isSome
  parameterParser name :=
    match mapGet c.parameters name with
    | none => .error (.err "Parameter does not exist")
    | some p =>
      match mapGet parsers p.parser with
      | none => .error (.err "Parameter does not exist")
      | some parser => .ok parser
  handle params _ := handleObject env c params

/-! ### utils.go -/

/-- `strings.HasPrefix(s, p)` and then `s[len(p):]`. -/
def afterPrefix (p s : List Char) : Option (List Char) := if p.isPrefixOf s then some (s.drop p.length) else none

/-- utils.go:26-38 `GetAddress`; `order` is the order in which `range` visits the map of replacements. -/
def getAddress (order : List (List Char × List Char)) (address : List Char) : List Char :=
  order.foldl (fun result fromTo => match afterPrefix fromTo.1 result with | some rest => fromTo.2 ++ rest | none => result) address

/-- utils.go:28-31: the map of replacements. -/
def addressReplacements : List (List Char × List Char) :=
  [("[::]:".toList, "127.0.0.1:".toList), ("0.0.0.0:".toList, "127.0.0.1:".toList)]

end Rodb
