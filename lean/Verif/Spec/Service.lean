import Verif.Spec.Regexp
import Verif.Model.Service
/-
  Specification vocabulary: routes, requests and responses.
-/
namespace Rodb.Spec

/-! ### Routes -/

/-- A route path as written in the configuration: a text, then placeholders `{name}` with the text after each. -/
def template (first : List Char) (placeholders : List (List Char × List Char)) : List Char :=
  first ++ placeholders.flatMap (fun p => '{' :: p.1 ++ '}' :: p.2)

/-- The path obtained by writing texts in place of the placeholders. -/
def filled (first : List Char) (placeholders : List (List Char × List Char)) (texts : List (List Char)) : List Char :=
  first ++ (List.zipWith (fun p t => t ++ p.2) placeholders texts).flatten

/-- Texts without a special meaning in regular expressions or route paths. -/
def PlainText (text : List Char) : Prop :=
  ∀ c ∈ text, c ∉ ['\\', '.', '+', '*', '?', '(', ')', '|', '[', ']', '{', '}', '^', '$']

def isDigitChar (c : Char) : Prop := '0' ≤ c ∧ c ≤ '9'

/-- The texts that a placeholder with this parser stands for. Integers: ignored characters, a minus sign or nothing, then at least
one digit or ignored character. Floats: the same, then nothing or one character of the decimal separator with at least one digit or
ignored character. Booleans: the configured texts. Strings: any text without newlines, except the empty one. -/
def PlaceholderText : TextParser → List Char → Prop
  | .string _, text => text ≠ [] ∧ '\n' ∉ text
  | .integer ignore, text => ∃ lead sign body, text = lead ++ sign ++ body ∧ (∀ c ∈ lead, c ∈ ignore) ∧ (sign = [] ∨ sign = ['-']) ∧
      body ≠ [] ∧ ∀ c ∈ body, isDigitChar c ∨ c ∈ ignore
  | .float separator ignore, text => ∃ lead sign body fraction, text = lead ++ sign ++ body ++ fraction ∧ (∀ c ∈ lead, c ∈ ignore) ∧
      (sign = [] ∨ sign = ['-']) ∧ (body ≠ [] ∧ ∀ c ∈ body, isDigitChar c ∨ c ∈ ignore) ∧
      (fraction = [] ∨ ∃ point digits, fraction = point :: digits ∧ point ∈ separator ∧ digits ≠ [] ∧ ∀ c ∈ digits, isDigitChar c ∨ c ∈ ignore)
  | .boolean t f, text => text ∈ t ∨ text ∈ f
  | .nonPrimitive _, _ => False

/-- A parser that can be used in a route: not a json or split parser, and without a hyphen among the ignored characters and the decimal
separator, which is not empty; boolean parsers have texts for both values. -/
def RouteParser : TextParser → Prop
  | .string _ => True
  | .integer ignore => '-' ∉ ignore
  | .float separator ignore => '-' ∉ ignore ∧ '-' ∉ separator ∧ separator ≠ []
  | .boolean t f => t ≠ [] ∧ f ≠ []
  | .nonPrimitive _ => False

/-- Integer and string parsers. -/
def Ungrouped : TextParser → Prop
  | .string _ => True
  | .integer _ => True
  | _ => False

/-- The parameters of the placeholders exist and have these parsers. -/
def ParsersOf (output : OutputApi) : List (List Char × List Char) → List TextParser → Prop
  | [], [] => True
  | p :: placeholders, parser :: parsers =>
    output.hasParameter (String.ofList p.1) = true ∧ output.parameterParser (String.ofList p.1) = .ok parser ∧
      ParsersOf output placeholders parsers
  | _, _ => False

/-- Each text is one that a placeholder with the parser at the same place stands for. -/
def PlaceholderTexts : List TextParser → List (List Char) → Prop
  | [], [] => True
  | parser :: parsers, text :: texts => PlaceholderText parser text ∧ PlaceholderTexts parsers texts
  | _, _ => False

/-- A route path made of texts without special meaning and of named placeholders. -/
structure GoodTemplate (first : List Char) (placeholders : List (List Char × List Char)) : Prop where
  first : PlainText first
  texts : ∀ p ∈ placeholders, PlainText p.2
  names : ∀ p ∈ placeholders, p.1 ≠ [] ∧ '}' ∉ p.1

/-- The text given to the parameter `name` by the placeholders: the one of the last placeholder of that name. -/
def placeholderValue (names : List String) (texts : List (List Char)) (name : String) : Option (List Char) :=
  ((names.zip texts).reverse.find? (fun p => p.1 = name)).map (·.2)

/-- The first value given to the parameter `name` by the query string. -/
def queryValue (query : GoMap (List Bytes)) (name : String) : Option Bytes := (mapGet query name).bind List.head?

/-- The query string as `net/url` gives it: every name once, with at least one value. -/
def GoodQuery (query : GoMap (List Bytes)) : Prop := (query.map (·.1)).Nodup ∧ ∀ q ∈ query, q.2 ≠ []

/-- The parameters of a request as a map: those of the placeholders, the last one first, then the first values of the query string. -/
def requestParameters (names : List String) (texts : List (List Char)) (query : GoMap (List Bytes)) : GoMap Bytes :=
  (names.zip (texts.map utf8)).reverse ++ query.filterMap (fun q => q.2.head?.map (fun v => (q.1, v)))

/-! ### Requests -/

/-- The path of the request matches the pattern of the route. -/
def PathMatches (route : Route) (path : List Char) : Prop :=
  ∃ before s after captures, path = before ++ s ++ after ∧ Matches route.regexp before s after captures

/-- The route is meant for the request: method, content type and path. -/
def Suits (route : Route) (request : Request) : Prop :=
  ((request.method = "GET" ∧ route.output.payloadType = none) ∨
    (request.method = "POST" ∧ route.output.payloadType = some request.contentType)) ∧
  PathMatches route request.path

/-- The first route of the list that suits the request. -/
def FirstSuiting (routes : List Route) (request : Request) (route : Route) : Prop :=
  ∃ before after, routes = before ++ route :: after ∧ Suits route request ∧ ∀ r ∈ before, ¬ Suits r request

/-! ### Responses -/

/-- The status that stands for the answer of an output: 200 for data, 404 for "record not found", 500 for any other error; none when
the program panics or never ends. -/
def statusFor : Answer → Option Nat
  | .data _ => some 200
  | .notFound => some 404
  | .error (.err _) => some 500
  | .error _ => none

/-- How many times a handler sets the status. -/
def statusesSent (events : List Event) : Nat := (events.filter (fun e => match e with | .status _ => true | _ => false)).length

/-- Somewhere in the value there is a number that JSON cannot write: NaN or an infinity. -/
inductive HasNonFinite : Value → Prop where
  | nan : HasNonFinite (.float .nan)
  | ninf : HasNonFinite (.float .ninf)
  | pinf : HasNonFinite (.float .pinf)
  | arr {l : List Value} {v : Value} : v ∈ l → HasNonFinite v → HasNonFinite (.arr l)
  | obj {m : GoMap Value} {k : String} {v : Value} : (k, v) ∈ m → HasNonFinite v → HasNonFinite (.obj m)

/-- What Go's JSON encoder promises: it writes a non-empty text for any value, and fails exactly on those with a number that JSON cannot write. -/
def EncoderContract (encode : Value → Res Bytes) : Prop :=
  ∀ v, (HasNonFinite v → ∃ m, encode v = .error (.err m)) ∧ (¬ HasNonFinite v → ∃ text, encode v = .ok text ∧ text ≠ [])

/-- The request is of a route whose patterns have a group for each parameter. -/
def EnoughGroups (route : Route) : Prop := route.parameters.length ≤ route.regexp.groups

/-- A text with a placeholder opened before it: a name and a closing brace. -/
def ClosesName (rest : List Char) : Prop := ∃ name after, name ≠ [] ∧ '}' ∉ name ∧ rest = name ++ '}' :: after

/-- Any route path, and the text of the regular expression in which its placeholders, from left to right, are replaced by the patterns of the parsers in parentheses; with their names. A brace that
does not open a placeholder is a character like others. The placeholders must be parameters of the output, with parsers of primitive values. -/
inductive Substituted (output : OutputApi) : List Char → List Char → List String → Prop where
  | done : Substituted output [] [] []
  | text {c : Char} {rest t : List Char} {names : List String} : (c = '{' → ¬ ClosesName rest) → Substituted output rest t names → Substituted output (c :: rest) (c :: t) names
  | placeholder {name after t : List Char} {names : List String} {parser : TextParser} : name ≠ [] → '}' ∉ name → output.hasParameter (String.ofList name) = true →
      output.parameterParser (String.ofList name) = .ok parser → parser.config.primitive = true → Substituted output after t names →
      Substituted output ('{' :: name ++ '}' :: after) ('(' :: parser.pattern ++ ')' :: t) (String.ofList name :: names)

end Rodb.Spec
