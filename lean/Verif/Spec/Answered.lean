import Verif.Spec.StoredFiles
import Verif.Spec.Refused
/-
  Specification vocabulary: routes all of whose requests can be answered.
-/
namespace Rodb.Spec

/-- Whatever the parsers of the parameters read can be asked of their indexes. -/
def AlwaysAskable (config : ConfigLib) (st : Storage) (p : ParsedConfig) (parsers : GoMap (Bytes → Res Value)) (parameters : GoMap ParamConfig) : Prop :=
  ∀ name q, (name, q) ∈ parameters → ∀ parse text v, mapGet parsers (orText q.parser "string") = some parse → parse text = .ok v →
    Askable config st p (orText q.index "default") q.property v

/-- The path of a route to an output with these parameters is a text with placeholders for parameters. -/
def GoodPath (lib : StartLib) (p : ParsedConfig) (parameters : GoMap ParamConfig) (path : String) : Prop :=
  ∃ first placeholders parsers, path.toList = template first placeholders ∧ GoodTemplate first placeholders ∧ PlaceholderParsers lib p parameters placeholders parsers ∧
    (∀ t ∈ parsers, RouteParser t) ∧ ∀ t ∈ parsers.dropLast, Ungrouped t

/-- A route to a list or an object whose parameters and relationships can always be asked of the indexes. -/
inductive AnswerableRoute (config : ConfigLib) (lib : StartLib) (st : Storage) (p : ParsedConfig) (parsers : GoMap (Bytes → Res Value)) (asked : String → List String)
    (tables : String → List (GoMap Value)) (route : RouteDecl) : Prop
  | list (d : ArrayConfig) : .array route.output d ∈ p.outputs → GoodPath lib p d.parameters route.path → AlwaysAskable config st p parsers d.parameters →
      (∀ q ∈ filteredValues p d.parameters, q ∈ asked d.input) → FitsObjects p (Askable config st p) asked tables (depthOf d.relationships) d.input d.relationships →
      orNumber d.limit.max 1000 < 2^63 → AnswerableRoute config lib st p parsers asked tables route
  | object (d : ObjectConfig) : .object route.output d ∈ p.outputs → GoodPath lib p d.parameters route.path → AlwaysAskable config st p parsers d.parameters →
      (∀ q ∈ filteredValues p d.parameters, q ∈ asked d.input) → FitsObjects p (Askable config st p) asked tables (depthOf d.relationships) d.input d.relationships →
      AnswerableRoute config lib st p parsers asked tables route

/-- A request that the output behind a route refuses: a parameter that its parser cannot read, or, for lists, a page that makes no sense. -/
def Refused (p : ParsedConfig) (parsers : GoMap (Bytes → Res Value)) (output : String) (params : GoMap Bytes) : Prop :=
  (∃ d, .array output d ∈ p.outputs ∧ (BadPaging (orText d.limit.parameter "limit") (orText d.offsetParameter "offset") params ∨
    Unreadable parsers (givenParameters (d.parameters.map (fun e => (e.1, completedParameter e.2))) params))) ∨
  ∃ d, .object output d ∈ p.outputs ∧ Unreadable parsers (allParameters (d.parameters.map (fun e => (e.1, completedParameter e.2))) params)

end Rodb.Spec
