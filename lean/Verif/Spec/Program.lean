import Verif.Spec.Url
import Verif.Spec.SameFilter
import Verif.Spec.StoredFiles
import Verif.Model.Url
/-
  Specification vocabulary: how a running program answers requests, given by their URLs, from the objects in its files.
-/
namespace Rodb.Spec

/-- A GET request with a URL that writes, in any way, the path of a route to a list output (which no earlier route matches) and some parameters, is answered with status 200 and the JSON text of the array of
exactly the objects that the asked indexes find, in the order of the file, from the asked offset on, at most the asked limit of them, each with its relationships. Of several parameters on one property
of one index, one counts. -/
def ListsAnswered (config : ConfigLib) (lib : StartLib) (files : Files) (st : Storage) (p : ParsedConfig) (env : OutputEnv) (running : GoMap (String × List Route)) (service : ServiceLib)
    (formatFloat : Int → Bytes) (asked : String → List String) (tables : String → List (GoMap Value)) : Prop :=
  ∀ s ∈ p.services, ∀ (k : Nat) (hk : k < s.routes.length) (d : ArrayConfig), .array s.routes[k].output d ∈ p.outputs →
  ∀ (first : List Char) (placeholders : List (List Char × List Char)), s.routes[k].path.toList = template first placeholders → GoodTemplate first placeholders →
  ∀ parsers : List TextParser, PlaceholderParsers (lib.onFiles files) p d.parameters placeholders parsers → (∀ p ∈ parsers, RouteParser p) → (∀ p ∈ parsers.dropLast, Ungrouped p) →
  (∀ q ∈ filteredValues p d.parameters, q ∈ asked d.input) → FitsObjects p (Askable config st p) asked tables (depthOf d.relationships) d.input d.relationships →
  ∃ routes, mapGet running s.name = some ("application/json", routes) ∧ ∃ h : k < routes.length,
    ∀ (old : Bool) (visit : GoMap (List Bytes) → GoMap (List Bytes)), (∀ m, (visit m).Perm m) →
    ∀ (urlPath : List Char) (pairs : List (String × Bytes)) (target : Bytes), TargetText urlPath pairs target → target.head? = some 47 →
    (∃ given, PlaceholderTexts parsers given ∧ urlPath = filled first placeholders given) → (∀ (j : Nat) (hj : j < k), ¬ PathMatches (routes[j]'(Nat.lt_trans hj h)) urlPath) →
    ∀ (contentType : String) (body : Res Bytes), ∃ given, PlaceholderTexts parsers given ∧ urlPath = filled first placeholders given ∧
      ∀ params : GoMap Bytes,
        (∀ name, mapGet params name = ((placeholderValue (placeholders.map (fun p => String.ofList p.1)) given name).map utf8).or (pairs.lookup name)) →
      ∀ (conditions : List Condition) (limit offset : Nat),
        Reads env (givenParameters (d.parameters.map (fun e => (e.1, completedParameter e.2))) params) conditions →
        (∀ c ∈ conditions, Askable config st p c.index c.property c.value) →
        AskedLimit ⟨orNumber d.limit.default 100, orNumber d.limit.max 1000, orText d.limit.parameter "limit"⟩ params limit →
        AskedOffset (orText d.offsetParameter "offset") params offset → min limit (orNumber d.limit.max 1000) < 2^63 →
        ∃ kept, OneForEach conditions kept ∧
        let window := (((tables d.input).filter (fun o => kept.all (fun c => foundIn config st p c.index c.property c.value o))).drop offset).take
          (min limit (orNumber d.limit.max 1000))
        ∃ response, serveTarget service "application/json" routes old visit "GET" contentType target body = some response ∧ response.status = 200 ∧
          mapGet response.headers "Content-Type" = some "application/json; charset=UTF-8" ∧
          ∃ rows : List (GoMap Value), encodeJson formatFloat (.arr (rows.map .obj)) = .ok response.body ∧ rows.length = window.length ∧
            ∀ k (h : k < window.length) (h' : k < rows.length), ShownWith (foundIn config st p) tables (depthOf d.relationships) window[k] d.relationships rows[k]

/-- Likewise for object outputs: status 200 and the JSON text of the first object that all the asked indexes find, with its relationships, or status 404 if there is none. -/
def ObjectsAnswered (config : ConfigLib) (lib : StartLib) (files : Files) (st : Storage) (p : ParsedConfig) (env : OutputEnv) (running : GoMap (String × List Route)) (service : ServiceLib)
    (formatFloat : Int → Bytes) (asked : String → List String) (tables : String → List (GoMap Value)) : Prop :=
  ∀ s ∈ p.services, ∀ (k : Nat) (hk : k < s.routes.length) (d : ObjectConfig), .object s.routes[k].output d ∈ p.outputs →
  ∀ (first : List Char) (placeholders : List (List Char × List Char)), s.routes[k].path.toList = template first placeholders → GoodTemplate first placeholders →
  ∀ parsers : List TextParser, PlaceholderParsers (lib.onFiles files) p d.parameters placeholders parsers → (∀ p ∈ parsers, RouteParser p) → (∀ p ∈ parsers.dropLast, Ungrouped p) →
  (∀ q ∈ filteredValues p d.parameters, q ∈ asked d.input) → FitsObjects p (Askable config st p) asked tables (depthOf d.relationships) d.input d.relationships →
  ∃ routes, mapGet running s.name = some ("application/json", routes) ∧ ∃ h : k < routes.length,
    ∀ (old : Bool) (visit : GoMap (List Bytes) → GoMap (List Bytes)), (∀ m, (visit m).Perm m) →
    ∀ (urlPath : List Char) (pairs : List (String × Bytes)) (target : Bytes), TargetText urlPath pairs target → target.head? = some 47 →
    (∃ given, PlaceholderTexts parsers given ∧ urlPath = filled first placeholders given) → (∀ (j : Nat) (hj : j < k), ¬ PathMatches (routes[j]'(Nat.lt_trans hj h)) urlPath) →
    ∀ (contentType : String) (body : Res Bytes), ∃ given, PlaceholderTexts parsers given ∧ urlPath = filled first placeholders given ∧
      ∀ params : GoMap Bytes,
        (∀ name, mapGet params name = ((placeholderValue (placeholders.map (fun p => String.ofList p.1)) given name).map utf8).or (pairs.lookup name)) →
      ∀ conditions : List Condition, Reads env (allParameters (d.parameters.map (fun e => (e.1, completedParameter e.2))) params) conditions →
        (∀ c ∈ conditions, Askable config st p c.index c.property c.value) →
        ∃ kept, OneForEach conditions kept ∧ ∃ response, serveTarget service "application/json" routes old visit "GET" contentType target body = some response ∧
          match (tables d.input).find? (fun o => kept.all (fun c => foundIn config st p c.index c.property c.value o)) with
          | none => response.status = 404
          | some o => response.status = 200 ∧ mapGet response.headers "Content-Type" = some "application/json; charset=UTF-8" ∧
              ∃ shown, encodeJson formatFloat (.obj shown) = .ok response.body ∧ ShownWith (foundIn config st p) tables (depthOf d.relationships) o d.relationships shown

end Rodb.Spec
