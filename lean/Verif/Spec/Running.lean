import Verif.Spec.WellFormed
import Verif.Spec.Records
import Verif.Spec.Output
/-
  Specification vocabulary: what the running program is made of, in terms of the configuration file.
-/
namespace Rodb.Spec

/-- The running form of a declared parser. -/
def RunsParser (lib : StartLib) (x : ParserDecl) (t : TextParser) : Prop :=
  match x.kind with
  | .string charset => (charset = "" ∧ t = .string none) ∨ (charset ≠ "" ∧ ∃ convert, lib.charset charset = .ok convert ∧ t = .string (some convert))
  | .integer ignore => t = .integer ignore.toList
  | .float separator ignore => t = .float separator.toList ignore.toList
  | .boolean yes no => t = .boolean (yes.map String.toList) (no.map String.toList)
  | .json => t = .nonPrimitive .json
  | .split delimiter isRegexp parser => ∃ d, delimiter = some d ∧
      ((isRegexp = some true ∧ t = .nonPrimitive (.split (.regexp (lib.regexpSplit d)) parser)) ∨
       (isRegexp ≠ some true ∧ t = .nonPrimitive (.split (.literal (utf8 d.toList)) parser)))

/-- The type of a declared parser. -/
def typeOfParser (x : ParserDecl) : ParserType :=
  match x.kind with
  | .string _ => .string
  | .integer _ => .integer
  | .float _ _ => .float
  | .boolean _ _ => .boolean
  | .json => .other
  | .split _ _ _ => .other

/-- The types of the parsers by their names: those that are declared come before those that need not be. -/
def declaredTypes (p : ParsedConfig) (name : String) : Option ParserType := ((p.parsers ++ builtinParsers).find? (fun x => x.name = name)).map typeOfParser

/-- The declaration of an input with the columns of the first row, as texts, if they are to be found there. -/
def WithColumns (lib : StartLib) : InputDecl → InputDecl → Prop
  | .csv d, e => if d.autodetectColumns = true
      then ∃ row, lib.firstRow d = .ok row ∧ GoodNames row ∧ e = .csv { d with columns := row.map (fun name => { name := name, parser := "string" }) }
      else e = .csv d
  | d, e => e = d

/-- The running form of a declared index. -/
def RunsIndex (lib : StartLib) (inputs : GoMap Input) (x : IndexDecl) (index : IndexFn) : Prop :=
  match x with
  | .map d => ∃ input m, mapGet inputs d.input = some input ∧ newMap { properties := d.properties } input = .ok m ∧
      index = fun input filters => m.getRecordPositions input.name filters
  | .noop _ => index = noopGetRecordPositions
  | x => ∃ name input, inputOfIndex x = some name ∧ mapGet inputs name = some input ∧ lib.index x input = .ok index

/-- The running form of a declared output. -/
def RunsOutput (env : OutputEnv) (texts : GoMap TextParser) : OutputDecl → OutputApi → Prop
  | .graphql _, _ => False
  | .array _ d, api => api = arrayApi env d texts
  | .object _ d, api => api = objectApi env d texts

/-- The routes of a service are those of its declaration, in the same order. -/
def RunsRoutes (outputs : GoMap OutputApi) (declared : List RouteDecl) (routes : List Route) : Prop :=
  routes.length = declared.length ∧ ∀ k (h : k < declared.length) (h' : k < routes.length),
    ∃ output, mapGet outputs declared[k].output = some output ∧ routes[k].output = output ∧ createRoute outputs declared[k].output declared[k].path.toList = .ok routes[k]

/-- The program that runs for a configuration file: `texts` are the parsers, `env` the inputs, indexes and parsing functions that the outputs use, `apis` the outputs
and `running` the services with the type of their errors and their routes. -/
structure Running (config : ConfigLib) (lib : StartLib) (p : ParsedConfig) (texts : GoMap TextParser) (env : OutputEnv) (apis : GoMap OutputApi)
    (running : GoMap (String × List Route)) : Prop where
  parsers : ∀ n x, IsParser p n x → ∃ t, mapGet texts n = some t ∧ RunsParser lib (completedParser x) t
  functions : env.parsers = parseFunctions lib texts
  inputs : ∀ x ∈ p.inputs, ∃ d input, WithColumns lib (completedInput x) d ∧ lib.input d (declaredTypes p) env.parsers = .ok input ∧ mapGet env.inputs x.name = some input
  /-- The names of the running inputs are those of the declared ones. -/
  inputNames : ∀ n input, mapGet env.inputs n = some input → InputName p n
  indexes : ∀ n x, IsIndex p n x → ∃ index, mapGet env.indexes n = some index ∧ RunsIndex lib env.inputs (completedIndex config x) index
  /-- The names of the running indexes are those of the declared ones and "default". -/
  indexNames : ∀ n index, mapGet env.indexes n = some index → ∃ x, IsIndex p n x
  defaultIndex : mapGet env.indexes "default" = some env.defaultIndex
  sort : env.sort = lib.sort
  visit : ∀ (path : List Nat) (α : Type) (l : List α), env.visit path l = lib.visit path l
  outputs : ∀ x ∈ p.outputs, ∃ api, mapGet apis x.name = some api ∧ RunsOutput env texts (completedOutput x) api
  services : ∀ x ∈ p.services, ∃ routes, mapGet running x.name = some ("application/json", routes) ∧ RunsRoutes apis x.routes routes
  serviceNames : ∀ n s, mapGet running n = some s → ∃ x ∈ p.services, x.name = n

/-- The placeholders of a path are parameters, and `parsers` are the running parsers of these parameters. -/
def PlaceholderParsers (lib : StartLib) (p : ParsedConfig) (parameters : GoMap ParamConfig) : List (List Char × List Char) → List TextParser → Prop
  | [], [] => True
  | q :: placeholders, t :: parsers =>
    (∃ param x, mapGet parameters (String.ofList q.1) = some param ∧ IsParser p (orText param.parser "string") x ∧ RunsParser lib (completedParser x) t) ∧
      PlaceholderParsers lib p parameters placeholders parsers
  | _, _ => False

/-- The properties that these parameters filter. -/
def filteredBy (parameters : GoMap ParamConfig) : List String := parameters.map (fun e => e.2.property)

/-- The index of that name is a full-text index: its filter is not on a property of the records. -/
def isFullText (p : ParsedConfig) (n : String) : Bool := p.indexes.any (fun i => match i with | .fts5 d => d.name = n | _ => false)

/-- The properties whose values these parameters filter: all but the expressions of full-text indexes. -/
def filteredValues (p : ParsedConfig) (parameters : GoMap ParamConfig) : List String :=
  (parameters.filter (fun e => !isFullText p (orText e.2.index "default"))).map (fun e => e.2.property)

/-- The data behind the input `x`, when it is asked for these properties: the records can be read in order and fetched again, and they have the properties
that are indexed or asked for. -/
structure RecordsOf (lib : StartLib) (p : ParsedConfig) (functions : GoMap (Bytes → Res Value)) (x : InputDecl) (asked : List String) (records : List Rec) : Prop where
  rows : ∀ e input, WithColumns lib (completedInput x) e → lib.input e (declaredTypes p) functions = .ok input →
    RecordTable input records ∧ ∀ r ∈ records, input.fetch r.position = .ok r
  indexed : ∀ m, .map m ∈ p.indexes → m.input = x.name → ScalarIn records m.properties
  filtered : ∀ q ∈ asked, ∀ r ∈ records, ∃ v, r.get q = .ok v

/-- Full scans and map indexes find the records with an equal value. -/
def FindsEqual (i : IndexDecl) : Prop := (∃ m, i = .map m) ∨ ∃ n, i = .noop n

/-- What the indexes of the input `x` find: `sat n q v r` says that the record `r` satisfies the filter `v` on the property `q` for the index called `n`, and `acceptable`
which filters can be asked. For the full scans and map indexes this is equality; the other indexes find exactly the records that satisfy acceptable filters. -/
structure IndexesFind (config : ConfigLib) (lib : StartLib) (p : ParsedConfig) (functions : GoMap (Bytes → Res Value)) (x : InputDecl) (records : List Rec)
    (sat : String → String → Value → Rec → Bool) (acceptable : String → String → Value → Prop) : Prop where
  equality : ∀ n i, IsIndex p n i → FindsEqual i → ∀ q v r, sat n q v r = propEquals r q v
  others : ∀ i ∈ p.indexes, ¬ FindsEqual i → inputOfIndex i = some x.name → ∀ e input index, WithColumns lib (completedInput x) e → lib.input e (declaredTypes p) functions = .ok input →
    lib.index (completedIndex config i) input = .ok index → Serves index input records (sat i.name) (acceptable i.name)

/-- The default index is the full scan. -/
def PlainDefault (p : ParsedConfig) : Prop := ∀ i, IsIndex p "default" i → ∃ n, i = .noop n

end Rodb.Spec
