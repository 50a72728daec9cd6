import Verif.Model.Url
/-
  Specification vocabulary: outputs whose indexes and inputs can fail while a request is answered.
-/
namespace Rodb.Spec

/-- What a search gives that can fail, compared with `full`, the result of one that does not: the same, or an error, or the same positions up to a point where an error comes instead. -/
def SearchMayFail (full r : Res PIter) : Prop :=
  r = full ∨ (∃ m, r = .error (.err m)) ∨ ∃ it n m, full = .ok it ∧ r = .ok (it.take n ++ [.error (.err m)])

/-- An input from which any record may not be readable; whether it exists does not change. -/
def InputMayFail : Option Input → Option Input → Prop
  | none, none => True
  | some input, some input' => ∀ position, input'.fetch position = input.fetch position ∨ ∃ m, input'.fetch position = .error (.err m)
  | _, _ => False

/-- An index any search of which may fail, in any of the inputs. -/
def IndexMayFail (inputs inputs' : GoMap Input) : Option IndexFn → Option IndexFn → Prop
  | none, none => True
  | some index, some index' => ∀ n input input', mapGet inputs n = some input → mapGet inputs' n = some input' → ∀ filters, SearchMayFail (index input filters) (index' input' filters)
  | _, _ => False

/-- The same parsers, sorting and order of maps, with inputs and indexes that can fail. -/
structure MayFail (env env' : OutputEnv) : Prop where
  inputs : ∀ n, InputMayFail (mapGet env.inputs n) (mapGet env'.inputs n)
  indexes : ∀ n, IndexMayFail env.inputs env'.inputs (mapGet env.indexes n) (mapGet env'.indexes n)
  defaultIndex : IndexMayFail env.inputs env'.inputs (some env.defaultIndex) (some env'.defaultIndex)
  parsers : env'.parsers = env.parsers
  sort : env'.sort = env.sort
  visit : ∀ path (α : Type) (l : List α), env'.visit path l = env.visit path l

/-- The second answer is the first one, or an error. -/
def SameOrError (right answer : Answer) : Prop := answer = right ∨ ∃ m, answer = .error (.err m)

/-- The routes have the same paths and parameters, and outputs that differ only in what they answer: the output of the second one answers every request as that of the first one, or with an error. -/
structure RouteMayFail (route route' : Route) : Prop where
  path : route'.path = route.path
  regexp : route'.regexp = route.regexp
  parameters : route'.parameters = route.parameters
  payloadType : route'.output.payloadType = route.output.payloadType
  responseType : route'.output.responseType = route.output.responseType
  handle : ∀ params payload, SameOrError (route.output.handle params payload) (route'.output.handle params payload)

/-- Likewise for all the routes of a service. -/
def RoutesMayFail : List Route → List Route → Prop
  | [], [] => True
  | route :: rest, route' :: rest' => RouteMayFail route route' ∧ RoutesMayFail rest rest'
  | _, _ => False

/-- What the client gets is the right response, or has the status 500 (Internal Server Error). -/
def RightOr500 (right response : Option Response) : Prop := response = right ∨ ∃ r, response = some r ∧ r.status = 500

/-- Two programs have services with the same names and types of error responses, and every response of the second one is that of the first one, or has the status 500. -/
def AnswersRightOr500 (service : ServiceLib) (right running : GoMap (String × List Route)) : Prop := ∀ name,
  (mapGet right name = none ∧ mapGet running name = none) ∨ ∃ errorsType routes routes', mapGet right name = some (errorsType, routes) ∧ mapGet running name = some (errorsType, routes') ∧
    ∀ old visit method contentType target body,
      RightOr500 (serveTarget service errorsType routes old visit method contentType target body) (serveTarget service errorsType routes' old visit method contentType target body)

end Rodb.Spec
