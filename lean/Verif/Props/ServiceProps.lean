import Verif.Proofs.Service
import Verif.Model.Shutdown
import Verif.Props.RelationshipProps
/-
  Properties of the HTTP service: C50 to C56.
-/
namespace Rodb
open Spec

/-! ### Routes -/

/-- **C53** (partial) A route path made of plain texts and placeholders is accepted at startup. It matches exactly the request paths obtained by
writing, in place of each placeholder, a text that its parser's placeholders stand for. The parameters of a request are then: for each placeholder
name, the text at its place; for any other name, the first value of the query string. (Two placeholders of the same name: the last one
counts. If a path can be read in several ways, one of them is used.)

Missing: a boolean or float placeholder before another placeholder (`C53_false`), hyphens among ignored characters, characters with a special
meaning in the route path (`C54_false`). -/
theorem C53_placeholders_partial (lib : ServiceLib) (hlib : RegexpContract lib.find) (outputs : GoMap OutputApi) (name : String) (output : OutputApi)
    (ho : mapGet outputs name = some output) (first : List Char) (placeholders : List (List Char × List Char)) (hg : GoodTemplate first placeholders)
    (parsers : List TextParser) (hp : ParsersOf output placeholders parsers) (hr : ∀ p ∈ parsers, RouteParser p)
    (hu : ∀ p ∈ parsers.dropLast, Ungrouped p) :
    ∃ route, createRoute outputs name (template first placeholders) = .ok route ∧ route.output = output ∧
      (∀ path, PathMatches route path ↔ ∃ texts, PlaceholderTexts parsers texts ∧ path = filled first placeholders texts) ∧
      ∀ request : Request, PathMatches route request.path → GoodQuery request.query →
        ∃ params texts, getParams lib route request = .ok params ∧
          PlaceholderTexts parsers texts ∧ request.path = filled first placeholders texts ∧
          ∀ n, mapGet params n =
            ((placeholderValue (placeholders.map (fun p => String.ofList p.1)) texts n).map utf8).or (queryValue request.query n) := by
  obtain ⟨rs, hrs⟩ := expressions_exist parsers hr
  have hl := parsersOf_length output placeholders parsers hp
  refine ⟨_, route_created ho hg hp hr hrs, rfl, ?_, ?_⟩
  · intro path
    constructor
    · rintro ⟨before, s, after, caps, rfl, h⟩
      obtain ⟨texts, rest, h1, h2, h3⟩ := matches_path hl hrs hu h
      exact ⟨texts, h1, h2⟩
    · rintro ⟨texts, h1, rfl⟩
      obtain ⟨caps, h⟩ := path_matches (first := first) hl hrs h1
      exact ⟨[], _, [], caps, by simp, h⟩
  · rintro request ⟨before, s, after, caps, hpath, h⟩ hq
    have hsome := hlib.complete _ before s after caps h
    rw [← hpath] at hsome
    obtain ⟨found, hfound⟩ := Option.isSome_iff_exists.1 hsome
    obtain ⟨before', s', after', hpath', h'⟩ := hlib.sound _ _ _ hfound
    obtain ⟨texts, rest, h1, h2, rfl⟩ := matches_path hl hrs hu h'
    obtain ⟨qp, hq1, hq2⟩ := queryParams_get request.query [] hq
    obtain ⟨result, hr1, hr2⟩ := pathParams_get (placeholders.map (fun p => String.ofList p.1)) texts rest qp
      (by rw [List.length_map, hl, placeholderTexts_length _ _ h1])
    refine ⟨result, texts, ?_, h1, by rw [hpath', h2], ?_⟩
    · simp only [getParams, hq1, hfound, Option.getD_some, hr1]
    · intro n
      rw [hr2, hq2]
      simp [mapGet]

/-- **C54** (partial) A route path of plain text matches exactly the request path equal to it. Missing: characters with a special meaning
(`C54_false`). -/
theorem C54_literal_partial (outputs : GoMap OutputApi) (name : String) (output : OutputApi) (ho : mapGet outputs name = some output)
    (path : List Char) (hp : PlainText path) :
    ∃ route, createRoute outputs name path = .ok route ∧ route.output = output ∧ ∀ requested, PathMatches route requested ↔ requested = path := by
  have hg : GoodTemplate path [] := ⟨hp, by simp, by simp⟩
  have h := route_created ho hg (parsers := []) trivial (by simp) (rs := []) trivial
  rw [show template path [] = path by simp [template]] at h
  refine ⟨_, h, rfl, fun requested => ?_⟩
  constructor
  · rintro ⟨before, s, after, caps, rfl, h⟩
    obtain ⟨texts, rest, h1, h2, h3⟩ := matches_path (parsers := []) (rs := []) rfl trivial (by simp) h
    rw [h2]; simp [filled]
  · rintro rfl
    obtain ⟨caps, h⟩ := path_matches (first := requested) (placeholders := []) (parsers := []) (rs := []) rfl trivial (texts := []) trivial
    exact ⟨[], requested, [], caps, by simp, by simpa [filled] using h⟩

namespace ServiceExample
/-- An output with an integer parameter "id", a string parameter "name" and a boolean parameter "flag". -/
def output : OutputApi where
  payloadType := none
  responseType := "application/json"
  hasParameter n := n = "id" ∨ n = "name" ∨ n = "flag"
  parameterParser n :=
    if n = "id" then .ok (.integer [',']) else if n = "name" then .ok (.string none)
    else if n = "flag" then .ok (.boolean ["true".toList] ["false".toList]) else .error (.err "Parameter does not exist")
  handle params _ := .data (.obj (params.map (fun p => (p.1, .str p.2))))
end ServiceExample

/-- /items/{id}/{name} with an integer and a string. -/
example : GoodTemplate "/items/".toList [("id".toList, "/".toList), ("name".toList, [])] ∧
    ParsersOf ServiceExample.output [("id".toList, "/".toList), ("name".toList, [])] [.integer [','], .string none] ∧
    (∀ p ∈ [TextParser.integer [','], .string none], RouteParser p) ∧ (∀ p ∈ [TextParser.integer [','], .string none].dropLast, Ungrouped p) ∧
    filled "/items/".toList [("id".toList, "/".toList), ("name".toList, [])] ["-1,000".toList, "a/b".toList] = "/items/-1,000/a/b".toList ∧
    PlaceholderTexts [.integer [','], .string none] ["-1,000".toList, "a/b".toList] := by
  refine ⟨⟨by unfold PlainText; decide, by unfold PlainText; decide, by decide⟩, ⟨by decide, rfl, by decide, rfl, trivial⟩, ?_, ?_, by decide, ?_⟩
  · intro p hp
    simp only [List.mem_cons, List.not_mem_nil, or_false] at hp
    rcases hp with rfl | rfl
    · show '-' ∉ [',']; decide
    · trivial
  · intro p hp
    simp only [List.dropLast, List.mem_cons, List.not_mem_nil, or_false] at hp
    subst hp; trivial
  · refine ⟨⟨[], ['-'], "1,000".toList, by decide, by simp, .inr rfl, by decide, ?_⟩, ⟨by decide, by decide⟩, trivial⟩
    unfold isDigitChar; decide

namespace ServiceExample
/-- The part of a boolean pattern inside of its parentheses. -/
def trueFalse : Regex := .alt (catList ("true".toList.map .chr)) (catList ("false".toList.map .chr))
/-- /{flag}/{name} -/
def flagRoute : Route where
  path := "/{flag}/{name}".toList
  regexp := catList [.bol, .chr '/', .group (catList [.group trueFalse]), .chr '/', .group (catList [.plus .any]), .eol]
  parameters := ["flag", "name"]
  output := output
def flagPlaceholders : List (List Char × List Char) := [("flag".toList, "/".toList), ("name".toList, [])]
def flagParsers : List TextParser := [.boolean ["true".toList] ["false".toList], .string none]
def flagRequest : Request := { method := "GET", contentType := "", path := "/true/x".toList, query := [], body := .ok [] }

theorem flag_captures {before s after : List Char} {caps} (h : Matches flagRoute.regexp before s after caps)
    (hp : before ++ s ++ after = "/true/x".toList) : caps = [some "true".toList, some "true".toList, some "x".toList] := by
  obtain ⟨_, _, _, _, rfl, rfl, h1, h2⟩ := matches_cons.1 h
  obtain ⟨s', rfl, h3⟩ := matches_literal (lit := ['/']).1 h2
  obtain ⟨t, s'', ca, cb, rfl, rfl, h4, h5⟩ := matches_group.1 h3
  obtain ⟨s3, rfl, h6⟩ := matches_literal (lit := ['/']).1 h5
  obtain ⟨u, s4, cc, cd, rfl, rfl, h7, h8⟩ := matches_group.1 h6
  obtain ⟨_, _, _, _, rfl, rfl, h9, h10⟩ := matches_cons.1 h8
  obtain ⟨_, _, ce, cf, rfl, rfl, h11, h12⟩ := matches_group.1 h4
  cases h12
  cases h10
  generalize hx : [] ++ after = x at h9
  cases h9
  cases h1
  have hc : cc = [] := List.length_eq_zero_iff.1 h7.captures
  have he : ce = [] := List.length_eq_zero_iff.1 h11.captures
  have ht := accepts_alt.1 ⟨_, h11.elsewhere (by simp [trueFalse, catList, NoAnchors]) [] []⟩
  rw [accepts_chars, accepts_chars] at ht
  have hx' : after = [] := by simpa using hx
  rcases ht with rfl | rfl
  · have hu : u = "x".toList := by simpa [hx'] using hp
    simp [hc, he, hu]
  · simp [hx'] at hp
end ServiceExample

/-- **C53 is false** of boolean and float placeholders before other placeholders: their patterns have a group of their own, and the next placeholders
get the text of a wrong group. Whatever the library finds for the path /true/x with the route /{flag}/{name}, "name" gets the text "true",
although the only way to read the path gives it the text "x". -/
theorem C53_false (lib : ServiceLib) (hlib : RegexpContract lib.find) :
    ∃ (outputs : GoMap OutputApi) (output : OutputApi) (route : Route) (first : List Char) (placeholders : List (List Char × List Char))
      (parsers : List TextParser) (request : Request),
      mapGet outputs "out" = some output ∧ GoodTemplate first placeholders ∧ ParsersOf output placeholders parsers ∧ (∀ p ∈ parsers, RouteParser p) ∧
      createRoute outputs "out" (template first placeholders) = .ok route ∧
      (∃ texts, PlaceholderTexts parsers texts ∧ request.path = filled first placeholders texts) ∧ GoodQuery request.query ∧
      ∃ params, getParams lib route request = .ok params ∧
        ∀ texts, PlaceholderTexts parsers texts → request.path = filled first placeholders texts →
          mapGet params "name" ≠ (placeholderValue ["flag", "name"] texts "name").map utf8 := by
  refine ⟨[("out", ServiceExample.output)], ServiceExample.output, ServiceExample.flagRoute, "/".toList, ServiceExample.flagPlaceholders,
    ServiceExample.flagParsers, ServiceExample.flagRequest, rfl, ⟨by unfold PlainText; decide, by unfold PlainText; decide, by decide⟩,
    ⟨by decide, rfl, by decide, rfl, trivial⟩, ?_, rfl, ?_, ⟨by decide, by decide⟩, ?_⟩
  · intro p hp
    simp only [ServiceExample.flagParsers, List.mem_cons, List.not_mem_nil, or_false] at hp
    rcases hp with rfl | rfl
    · exact ⟨by simp, by simp⟩
    · trivial
  · exact ⟨["true".toList, "x".toList], ⟨.inl (by simp), ⟨by decide, by decide⟩, trivial⟩, by decide⟩
  · have hm : ∃ caps, Matches ServiceExample.flagRoute.regexp [] "/true/x".toList [] caps := by
      obtain ⟨r1, h1⟩ : ∃ caps, Matches ServiceExample.trueFalse ([] ++ [] ++ ['/']) "true".toList ("/x".toList ++ []) caps :=
        (matches_accepts (by simp [ServiceExample.trueFalse, catList, NoAnchors])).2
          (accepts_alt.2 (.inl (accepts_chars.2 rfl)))
      refine ⟨_, matches_cons.2 ⟨[], "/true/x".toList, [], _, rfl, rfl, .bol, matches_literal (lit := ['/']).2 ⟨"true/x".toList, rfl,
        matches_group.2 ⟨"true".toList, "/x".toList, some "true".toList :: r1, _, rfl, rfl, ?_, matches_literal (lit := ['/']).2 ⟨"x".toList, rfl,
          matches_group.2 ⟨"x".toList, [], [], _, rfl, rfl, ?_, matches_cons.2 ⟨[], [], [], [], rfl, rfl, .eol, .empty⟩⟩⟩⟩⟩⟩⟩
      · exact matches_group.2 ⟨"true".toList, [], r1, [], rfl, by simp, h1, .empty⟩
      · exact matches_cons.2 ⟨"x".toList, [], [], [], rfl, rfl, .plus (s := "x".toList) (t := []) (ca := []) (.any (by decide)) .starNone, .empty⟩
    obtain ⟨caps, hm⟩ := hm
    have hsome := hlib.complete _ _ _ _ _ hm
    rw [List.nil_append, List.append_nil] at hsome
    obtain ⟨found, hfound⟩ := Option.isSome_iff_exists.1 hsome
    obtain ⟨before, s, after, hpath, h'⟩ := hlib.sound _ _ _ hfound
    have hc := ServiceExample.flag_captures h' hpath.symm
    rw [hc] at hfound
    refine ⟨[("flag", utf8 "true".toList), ("name", utf8 "true".toList)], ?_, ?_⟩
    · simp only [getParams, ServiceExample.flagRequest, queryParams, hfound, Option.getD_some]
      rfl
    · intro texts ht hfill
      match texts, ht with
      | [t, u], ⟨h1, h2, _⟩ =>
        have : u = "x".toList := by
          rcases h1 with h1 | h1
          · have : t = "true".toList := by simpa using h1
            subst this
            simpa [ServiceExample.flagRequest, filled, ServiceExample.flagPlaceholders, eq_comm] using hfill
          · have : t = "false".toList := by simpa using h1
            subst this
            simp [ServiceExample.flagRequest, filled, ServiceExample.flagPlaceholders] at hfill
        subst this
        simp [mapGet, placeholderValue, utf8]
        decide

/-- **C54 is false** of characters with a special meaning: the route /a.b matches the request path /axb. -/
theorem C54_false (outputs : GoMap OutputApi) (name : String) (output : OutputApi) (ho : mapGet outputs name = some output) :
    ∃ route, createRoute outputs name "/a.b".toList = .ok route ∧ PathMatches route "/axb".toList := by
  refine ⟨{ path := "/a.b".toList, regexp := catList [.bol, .chr '/', .chr 'a', .any, .chr 'b', .eol], parameters := [], output := output }, ?_, ?_⟩
  · simp only [createRoute, ho]
    rfl
  · refine ⟨[], "/axb".toList, [], [], by simp, matches_cons.2 ⟨[], "/axb".toList, [], [], rfl, rfl, .bol, ?_⟩⟩
    refine matches_literal (lit := ['/', 'a']).2 ⟨"xb".toList, rfl, matches_cons.2 ⟨"x".toList, "b".toList, [], [], rfl, rfl, .any (by decide), ?_⟩⟩
    exact matches_literal (lit := ['b']).2 ⟨[], rfl, matches_cons.2 ⟨[], [], [], [], rfl, rfl, .eol, .empty⟩⟩

/-! ### Requests -/

theorem routeMatches_iff {lib : ServiceLib} (hlib : RegexpContract lib.find) (request : Request) (route : Route) :
    routeMatches lib request route = true ↔ Suits route request := by
  have hf : (lib.find route.regexp request.path).isSome = true ↔ PathMatches route request.path := by
    constructor
    · intro h
      obtain ⟨found, hfound⟩ := Option.isSome_iff_exists.1 h
      obtain ⟨before, s, after, hp, hm⟩ := hlib.sound _ _ _ hfound
      exact ⟨before, s, after, found, hp, hm⟩
    · rintro ⟨before, s, after, caps, hp, hm⟩
      rw [hp]
      exact hlib.complete _ _ _ _ _ hm
  simp only [routeMatches, Bool.and_eq_true, decide_eq_true_eq, hf, Suits]

theorem getMatchingRoute_first {lib : ServiceLib} (hlib : RegexpContract lib.find) {routes : List Route} {request : Request} {route : Route}
    (h : FirstSuiting routes request route) : getMatchingRoute lib request routes = some route := by
  obtain ⟨before, after, rfl, h1, h2⟩ := h
  induction before with
  | nil => simp [getMatchingRoute, (routeMatches_iff hlib request route).2 h1]
  | cons r before ih =>
    have : routeMatches lib request r = false := by
      rw [← Bool.not_eq_true, routeMatches_iff hlib]
      exact h2 r (by simp)
    simp only [List.cons_append, getMatchingRoute, this]
    exact ih (fun q hq => h2 q (by simp [hq]))

theorem getMatchingRoute_none {lib : ServiceLib} (hlib : RegexpContract lib.find) {routes : List Route} {request : Request}
    (h : ∀ r ∈ routes, ¬ Suits r request) : getMatchingRoute lib request routes = none := by
  induction routes with
  | nil => rfl
  | cons r routes ih =>
    have : routeMatches lib request r = false := by
      rw [← Bool.not_eq_true, routeMatches_iff hlib]
      exact h r (by simp)
    simp only [getMatchingRoute, this]
    exact ih (fun q hq => h q (by simp [hq]))

theorem first_or_none (routes : List Route) (request : Request) :
    (∃ route, FirstSuiting routes request route) ∨ ∀ r ∈ routes, ¬ Suits r request := by
  induction routes with
  | nil => exact .inr (by simp)
  | cons r routes ih =>
    by_cases h : Suits r request
    · exact .inl ⟨r, [], routes, rfl, h, by simp⟩
    · rcases ih with ⟨route, before, after, rfl, h1, h2⟩ | h'
      · exact .inl ⟨route, r :: before, after, rfl, h1, fun q hq => by
          rcases List.mem_cons.1 hq with rfl | hq
          · exact h
          · exact h2 q hq⟩
      · exact .inr (fun q hq => by
          rcases List.mem_cons.1 hq with rfl | hq
          · exact h
          · exact h' q hq)

/-- **C52** A request is answered exactly as by a service that has only the first suiting route, and as by a service without routes if none
suits; one of the two is the case. -/
theorem C52_first_route (lib : ServiceLib) (hlib : RegexpContract lib.find) (errorsType : String) (routes : List Route) (request : Request) :
    (∀ route, FirstSuiting routes request route → handleRequest lib errorsType routes request = handleRequest lib errorsType [route] request) ∧
    ((∀ r ∈ routes, ¬ Suits r request) → handleRequest lib errorsType routes request = handleRequest lib errorsType [] request) ∧
    ((∃ route, FirstSuiting routes request route) ∨ ∀ r ∈ routes, ¬ Suits r request) := by
  refine ⟨?_, ?_, first_or_none routes request⟩
  · intro route h
    have h' : FirstSuiting [route] request route := by
      obtain ⟨_, _, _, h1, _⟩ := h
      exact ⟨[], [], rfl, h1, by simp⟩
    simp only [handleRequest, getMatchingRoute_first hlib h, getMatchingRoute_first hlib h']
  · intro h
    simp only [handleRequest, getMatchingRoute_none hlib h, getMatchingRoute]

/-! ### Responses -/

theorem pathParams_ok : ∀ (names : List String) (caps : List (Option (List Char))) (params : GoMap Bytes), names.length ≤ caps.length →
    ∃ result, pathParams names caps params = .ok result
  | [], _, params, _ => ⟨params, rfl⟩
  | _ :: _, [], _, h => by simp at h
  | n :: names, c :: caps, params, h => by
    obtain ⟨result, hr⟩ := pathParams_ok names caps (mapSet params n (utf8 (c.getD []))) (by simpa using h)
    exact ⟨result, by simpa [pathParams] using hr⟩

theorem getParams_ok {lib : ServiceLib} (hlib : RegexpContract lib.find) {route : Route} {request : Request} (hg : EnoughGroups route)
    (hs : PathMatches route request.path) (hq : GoodQuery request.query) : ∃ params, getParams lib route request = .ok params := by
  obtain ⟨before, s, after, caps, hp, hm⟩ := hs
  have hsome := hlib.complete _ _ _ _ _ hm
  rw [← hp] at hsome
  obtain ⟨found, hfound⟩ := Option.isSome_iff_exists.1 hsome
  obtain ⟨_, _, _, _, hm'⟩ := hlib.sound _ _ _ hfound
  obtain ⟨qp, hq1, _⟩ := queryParams_get request.query [] hq
  obtain ⟨result, hr⟩ := pathParams_ok route.parameters found qp (by rw [hm'.captures]; exact hg)
  exact ⟨result, by simp only [getParams, hq1, hfound, Option.getD_some, hr]⟩

/-- **C51** (partial) A service with the only supported type of error messages: a request without suiting route gets 404; with a route whose output
needs a body that cannot be read, 500; otherwise the status that stands for the answer of the output to the parameters of the request. In all
these cases the status is set once. Missing: a panic while answering gives no status at all (`C51_false`), and routes whose path hides the groups of
its placeholders, like /[{id}]. -/
theorem C51_statuses_partial (lib : ServiceLib) (hlib : RegexpContract lib.find) (routes : List Route) (request : Request)
    (hg : ∀ r ∈ routes, EnoughGroups r) (hq : GoodQuery request.query) :
    let outcome := handleRequest lib "application/json" routes request
    ((∀ r ∈ routes, ¬ Suits r request) → (∃ response, clientGets outcome = some response ∧ response.status = 404) ∧ statusesSent outcome.1 = 1) ∧
    (∀ route, FirstSuiting routes request route →
      (∀ m, route.output.payloadType ≠ none → request.body = .error (.err m) →
        (∃ response, clientGets outcome = some response ∧ response.status = 500) ∧ statusesSent outcome.1 = 1) ∧
      (∀ payload, (route.output.payloadType = none ∧ payload = []) ∨ (route.output.payloadType ≠ none ∧ request.body = .ok payload) →
        ∃ params, getParams lib route request = .ok params ∧
          (clientGets outcome).map Response.status = statusFor (route.output.handle params payload) ∧
          (statusFor (route.output.handle params payload) ≠ none → statusesSent outcome.1 = 1))) := by
  refine ⟨?_, ?_⟩
  · intro h
    simp only [handleRequest, getMatchingRoute_none hlib h]
    exact ⟨⟨_, rfl, rfl⟩, rfl⟩
  · intro route hf
    have hm := getMatchingRoute_first hlib hf
    obtain ⟨before, after, rfl, hs, _⟩ := hf
    refine ⟨?_, ?_⟩
    · intro m h1 h2
      simp only [handleRequest, hm, serveRoute, getPayload, if_pos h1, h2, sendFailure]
      exact ⟨⟨_, rfl, rfl⟩, rfl⟩
    · intro payload hp
      obtain ⟨params, hpar⟩ := getParams_ok hlib (hg route (by simp)) hs.2 hq
      have hpay : getPayload route request = .ok payload := by
        rcases hp with ⟨h1, rfl⟩ | ⟨h1, h2⟩
        · simp [getPayload, h1]
        · simp [getPayload, h1, h2]
      refine ⟨params, hpar, ?_⟩
      simp only [handleRequest, hm, serveRoute, hpay, hpar]
      cases route.output.handle params payload with
      | data v =>
        simp only [sendAnswer]
        cases lib.encode v <;> exact ⟨rfl, fun _ => rfl⟩
      | notFound => exact ⟨rfl, fun _ => rfl⟩
      | error e =>
        cases e with
        | err m => exact ⟨rfl, fun _ => rfl⟩
        | panic m => exact ⟨rfl, fun h => absurd rfl h⟩
        | diverge => exact ⟨rfl, fun h => absurd rfl h⟩

/-- Every route made from plain texts and placeholders has enough groups. -/
theorem C51_groups (outputs : GoMap OutputApi) (name : String) (output : OutputApi) (ho : mapGet outputs name = some output) (first : List Char)
    (placeholders : List (List Char × List Char)) (hg : GoodTemplate first placeholders) (parsers : List TextParser)
    (hp : ParsersOf output placeholders parsers) (hr : ∀ p ∈ parsers, RouteParser p) :
    ∃ route, createRoute outputs name (template first placeholders) = .ok route ∧ EnoughGroups route := by
  obtain ⟨rs, hrs⟩ := expressions_exist parsers hr
  refine ⟨_, route_created ho hg hp hr hrs, ?_⟩
  have hl := parsersOf_length output placeholders parsers hp
  have key : ∀ (placeholders : List (List Char × List Char)) (parsers : List TextParser) (rs : List Regex), placeholders.length = parsers.length →
      Expressions parsers rs → placeholders.length ≤ (catList (pathItems placeholders rs)).groups := by
    intro placeholders
    induction placeholders with
    | nil => intros; simp
    | cons p ps ih =>
      intro parsers rs hl hrs
      match parsers, rs, hrs with
      | q :: qs, r :: rs, ⟨_, hrs⟩ =>
        have := ih qs rs (by simpa using hl) hrs
        simp only [pathItems, catList, Regex.groups, List.length_cons]
        rw [catList_groups, List.map_append, List.sum_append]
        rw [catList_groups] at this
        omega
  have := key placeholders parsers rs hl hrs
  simp only [EnoughGroups, List.length_map, catList, Regex.groups]
  rw [catList_groups, List.map_append, List.sum_append]
  rw [catList_groups] at this
  omega

/-! The contracts of the libraries can be met. -/

theorem regexp_contract_satisfiable : ∃ find, RegexpContract find := by
  classical
  refine ⟨fun r text => if h : ∃ captures, ∃ before s after, text = before ++ s ++ after ∧ Matches r before s after captures
    then some h.choose else none, ?_, ?_⟩
  · intro r text captures h
    split at h
    · next hex => cases h; exact hex.choose_spec
    · cases h
  · intro r before s after captures h
    have hex : ∃ captures, ∃ b x a, before ++ s ++ after = b ++ x ++ a ∧ Matches r b x a captures := ⟨captures, before, s, after, rfl, h⟩
    show Option.isSome (dite _ _ _) = true
    rw [dif_pos hex]
    rfl

theorem encoder_contract_satisfiable : ∃ encode, EncoderContract encode := by
  classical
  refine ⟨fun v => if HasNonFinite v then .error (.err "json: unsupported value") else .ok [10], fun v => ⟨fun h => ⟨_, if_pos h⟩, fun h => ⟨_, if_neg h, by simp⟩⟩⟩

namespace ServiceExample
/-- Records with a list of tags, and the records with the same tags as relationship. -/
def tagged : List Rec := [RelExample.mkRec 0 [("tags", .arr [])]]
def tagEnv : OutputEnv :=
  { inputs := [("in", RelExample.mkInput "in" tagged)], defaultIndex := noopGetRecordPositions, indexes := [("default", noopGetRecordPositions)],
    parsers := [], sort := goInsertionSort, visit := fun _ _ l => l }
def sameTags : List (String × Relationship) :=
  [("same", .mk "in" true 0 [] [{ parentProperty := "tags", childProperty := "tags", childIndex := "default" }] [])]
def tagArray (relationships : List (String × Relationship)) : ArrayConfig :=
  { input := "in", limit := { default := 100, max := 1000, parameter := "limit" }, offsetParameter := "offset", parameters := [],
    relationships := relationships }
/-- A route with the path /all. -/
def allRoute (output : OutputApi) : Route :=
  { path := "/all".toList, regexp := catList [.bol, .chr '/', .chr 'a', .chr 'l', .chr 'l', .eol], parameters := [], output := output }
def allRequest : Request := { method := "GET", contentType := "", path := "/all".toList, query := [], body := .ok [] }
theorem all_route (output : OutputApi) : createRoute [("out", output)] "out" "/all".toList = .ok (allRoute output) := rfl
theorem all_suits (output : OutputApi) (h : output.payloadType = none) : FirstSuiting [allRoute output] allRequest (allRoute output) := by
  refine ⟨[], [], rfl, ⟨.inl ⟨rfl, h⟩, [], "/all".toList, [], [], by rw [List.append_nil]; rfl, ?_⟩, by simp⟩
  refine matches_cons.2 ⟨[], "/all".toList, [], [], rfl, rfl, .bol, ?_⟩
  exact matches_literal (lit := "/all".toList).2 ⟨[], by simp, matches_cons.2 ⟨[], [], [], [], rfl, rfl, .eol, .empty⟩⟩
/-- A record with the number NaN. -/
def nanEnv : OutputEnv := { tagEnv with inputs := [("in", RelExample.mkInput "in" [RelExample.mkRec 0 [("n", .float .nan)]])] }
end ServiceExample

/-- A route and a request that meet the hypotheses of C51 and C52. -/
example : FirstSuiting [ServiceExample.allRoute ServiceExample.output] ServiceExample.allRequest (ServiceExample.allRoute ServiceExample.output) ∧
    EnoughGroups (ServiceExample.allRoute ServiceExample.output) ∧ GoodQuery ServiceExample.allRequest.query :=
  ⟨ServiceExample.all_suits _ rfl, Nat.zero_le _, by decide, by decide⟩

/-- A service whose output answers data, and the same service asked for an unknown path. -/
example (lib : ServiceLib) (hlib : RegexpContract lib.find) :
    (clientGets (handleRequest lib "application/json" [ServiceExample.allRoute ServiceExample.output] ServiceExample.allRequest)).map Response.status
      = some 200 := by
  have h := (C51_statuses_partial lib hlib [ServiceExample.allRoute ServiceExample.output] ServiceExample.allRequest
    (fun r hr => by rw [List.mem_singleton.1 hr]; exact Nat.zero_le _) ⟨by decide, by decide⟩).2 _ (ServiceExample.all_suits _ rfl)
  obtain ⟨params, h1, h2, _⟩ := h.2 [] (.inl ⟨rfl, rfl⟩)
  rw [h2]
  rfl

/-- **C51 is false** of requests that make the program panic: here a relationship on a property that is a list. No route is missing and there is no
data, but the client gets no status at all. -/
theorem C51_false (lib : ServiceLib) (hlib : RegexpContract lib.find) :
    ∃ (c : ArrayConfig) (route : Route) (request : Request) (m : String),
      createRoute [("out", arrayApi ServiceExample.tagEnv c [])] "out" route.path = .ok route ∧ FirstSuiting [route] request route ∧
      (∀ params, (∀ n, mapGet params n = none) → handleArray ServiceExample.tagEnv c params = .error (.panic m)) ∧
      clientGets (handleRequest lib "application/json" [route] request) = none := by
  refine ⟨ServiceExample.tagArray ServiceExample.sameTags, ServiceExample.allRoute _, ServiceExample.allRequest,
    "comparing uncomparable type []interface {}", rfl, ServiceExample.all_suits _ rfl, ?_, ?_⟩
  · intro params h
    have h1 : getLimit (ServiceExample.tagArray ServiceExample.sameTags).limit params = .ok 100 := by
      simp [getLimit, h, ServiceExample.tagArray]
    have h2 : getOffset (ServiceExample.tagArray ServiceExample.sameTags).offsetParameter params = .ok 0 := by
      simp [getOffset, h]
    simp only [handleArray, h1, h2]
    rfl
  · have hm := getMatchingRoute_first hlib (ServiceExample.all_suits (arrayApi ServiceExample.tagEnv (ServiceExample.tagArray ServiceExample.sameTags) []) rfl)
    simp only [handleRequest, hm]
    rfl

/-- **C50** (partial) A response with status 200 has the JSON text of the data that the output answers as body, and says that it is JSON, if the
data has no NaN and no infinity. -/
theorem C50_json_body_partial (lib : ServiceLib) (hlib : RegexpContract lib.find) (hjson : EncoderContract lib.encode) (routes : List Route)
    (request : Request) (hg : ∀ r ∈ routes, EnoughGroups r) (hq : GoodQuery request.query) (response : Response)
    (hresp : clientGets (handleRequest lib "application/json" routes request) = some response) (hs : response.status = 200) :
    ∃ route params payload data, FirstSuiting routes request route ∧ getParams lib route request = .ok params ∧
      route.output.handle params payload = .data data ∧
      mapGet response.headers "Content-Type" = some (route.output.responseType ++ "; charset=UTF-8") ∧
      (¬ HasNonFinite data → lib.encode data = .ok response.body ∧ response.body ≠ []) := by
  have key := C51_statuses_partial lib hlib routes request hg hq
  dsimp only at key
  rcases first_or_none routes request with ⟨route, hf⟩ | hn
  · obtain ⟨k1, k2⟩ := key.2 route hf
    have hm := getMatchingRoute_first hlib hf
    have hpay : (∃ payload, (route.output.payloadType = none ∧ payload = []) ∨ (route.output.payloadType ≠ none ∧ request.body = .ok payload)) ∨
        (route.output.payloadType ≠ none ∧ ∃ e, request.body = .error e) := by
      by_cases h : route.output.payloadType = none
      · exact .inl ⟨[], .inl ⟨h, rfl⟩⟩
      · cases hb : request.body with
        | ok b => exact .inl ⟨b, .inr ⟨h, rfl⟩⟩
        | error e => exact .inr ⟨h, e, rfl⟩
    rcases hpay with ⟨payload, hp⟩ | ⟨hp, e, he⟩
    · obtain ⟨params, h1, h2, _⟩ := k2 payload hp
      rw [hresp] at h2
      have hpl : getPayload route request = .ok payload := by
        rcases hp with ⟨h1, rfl⟩ | ⟨h1, h2⟩
        · simp [getPayload, h1]
        · simp [getPayload, h1, h2]
      cases ha : route.output.handle params payload with
      | data v =>
        simp only [handleRequest, hm, serveRoute, hpl, h1, ha, sendAnswer] at hresp
        refine ⟨route, params, payload, v, hf, h1, ha, ?_, ?_⟩
        · cases hv : lib.encode v with
          | ok text => rw [hv] at hresp; cases hresp; rfl
          | error e => rw [hv] at hresp; cases hresp; rfl
        · intro hfin
          obtain ⟨text, ht, hne⟩ := (hjson v).2 hfin
          rw [ht] at hresp
          cases hresp
          exact ⟨by simpa [writeResponse] using ht, by simpa [writeResponse] using hne⟩
      | notFound => rw [ha] at h2; simp [statusFor, hs] at h2
      | error e => rw [ha] at h2; cases e <;> simp [statusFor, hs] at h2
    · simp only [handleRequest, hm, serveRoute, getPayload, if_pos hp, he] at hresp
      cases e with
      | err m =>
        cases hresp
        have h5 : (500 : Nat) = 200 := hs
        omega
      | panic m => cases hresp
      | diverge => cases hresp
  · obtain ⟨⟨r, h1, h2⟩, _⟩ := key.1 hn
    rw [hresp] at h1
    cases h1
    omega

/-- **C50 is false** of data with a NaN (which the float parser accepts): the status is 200 and the body is empty. -/
theorem C50_false (lib : ServiceLib) (hlib : RegexpContract lib.find) (hjson : EncoderContract lib.encode) :
    ∃ (route : Route) (request : Request) (response : Response),
      createRoute [("out", arrayApi ServiceExample.nanEnv (ServiceExample.tagArray []) [])] "out" route.path = .ok route ∧
      clientGets (handleRequest lib "application/json" [route] request) = some response ∧ response.status = 200 ∧ response.body = [] := by
  have hm := getMatchingRoute_first hlib (ServiceExample.all_suits (arrayApi ServiceExample.nanEnv (ServiceExample.tagArray []) []) rfl)
  obtain ⟨m, hv⟩ := (hjson (.arr [.obj [("n", .float .nan)]])).1 (.arr (List.mem_singleton.2 rfl) (.obj (List.mem_singleton.2 rfl) .nan))
  have hh : handleArray ServiceExample.nanEnv (ServiceExample.tagArray []) [] = .data (.arr [.obj [("n", .float .nan)]]) := rfl
  have hs : serveRoute lib "application/json" ServiceExample.allRequest
      (ServiceExample.allRoute (arrayApi ServiceExample.nanEnv (ServiceExample.tagArray []) [])) =
      ([.header "Content-Type" "application/json; charset=UTF-8", .status 200], .returned) := by
    have hp : getParams lib (ServiceExample.allRoute (arrayApi ServiceExample.nanEnv (ServiceExample.tagArray []) [])) ServiceExample.allRequest = .ok [] := by
      simp [getParams, ServiceExample.allRequest, queryParams, ServiceExample.allRoute, pathParams]
    simp only [serveRoute, hp]
    show sendAnswer lib "application/json" "application/json" (handleArray ServiceExample.nanEnv (ServiceExample.tagArray []) []) = _
    rw [hh]
    simp only [sendAnswer, hv]
    rfl
  refine ⟨ServiceExample.allRoute _, ServiceExample.allRequest,
    { status := 200, headers := [("X-Powered-By", "RODB (https://rodb-io.github.io/rodb/)"), ("Content-Type", "application/json; charset=UTF-8")],
      body := [] }, rfl, ?_, rfl, rfl⟩
  simp only [handleRequest, hm, hs]
  rfl

/-! ### Shutdown -/

/-- What holds at any time: the servers told to stop are the first ones, `main` goes on when all are, and all but the last of those told to stop
have no request left. -/
structure ShutdownInvariant (n : Nat) (p : Program) (k : Nat) : Prop where
  length : p.servers.length = n
  bound : k ≤ n
  serving : ∀ j s, p.servers[j]? = some s → (s.serving = true ↔ k ≤ j)
  drained : ∀ j s, p.servers[j]? = some s → j + 1 < k → s.inFlight = 0
  closer : (p.closer = .idle ∧ k = 0) ∨ p.closer = .shutting (k - 1) ∧ (k = 0 → n = 0) ∨ (p.closer = .done ∧ k = n)
  main : p.main ≠ .waiting → k = n

theorem update_get (p : Program) (i : Nat) (f : ServerState → ServerState) (j : Nat) :
    (p.update i f).servers[j]? = if i = j then (p.servers[j]?).map f else p.servers[j]? := by
  simp only [Program.update, List.getElem?_modify]
  split
  · rfl
  · simp

theorem shutdown_invariant {n : Nat} {p : Program} (h : Program.Reachable n p) : ∃ k, ShutdownInvariant n p k := by
  induction h with
  | start =>
    refine ⟨0, by simp [Program.started], Nat.zero_le _, ?_, ?_, .inl ⟨rfl, rfl⟩, fun h => absurd rfl h⟩
    · intro j s hj
      simp only [Program.started, List.getElem?_replicate] at hj
      split at hj
      · cases hj; simp
      · cases hj
    · intro j s _ h; omega
  | @step p q _ hs ih =>
    obtain ⟨k, hk⟩ := ih
    cases hs with
    | @accept i s hm hi hsv =>
      refine ⟨k, by simp [Program.update, hk.length], hk.bound, ?_, ?_, hk.closer, hk.main⟩
      · intro j t hj
        rw [update_get] at hj
        by_cases hij : i = j
        · subst hij
          simp only [hi, if_true, Option.map_some, Option.some.injEq] at hj
          subst hj
          exact hk.serving i s hi
        · exact hk.serving j t (by simpa [hij] using hj)
      · intro j t hj hjk
        rw [update_get] at hj
        by_cases hij : i = j
        · subst hij
          have := (hk.serving i s hi).1 hsv
          omega
        · exact hk.drained j t (by simpa [hij] using hj) hjk
    | @finish i s hm hi hne =>
      refine ⟨k, by simp [Program.update, hk.length], hk.bound, ?_, ?_, hk.closer, hk.main⟩
      · intro j t hj
        rw [update_get] at hj
        by_cases hij : i = j
        · subst hij
          simp only [hi, if_true, Option.map_some, Option.some.injEq] at hj
          subst hj
          exact hk.serving i s hi
        · exact hk.serving j t (by simpa [hij] using hj)
      · intro j t hj hjk
        rw [update_get] at hj
        by_cases hij : i = j
        · subst hij
          exact absurd (hk.drained i s hi hjk) hne
        · exact hk.drained j t (by simpa [hij] using hj) hjk
    | @signal hm hc =>
      have h0 : k = 0 := by
        rcases hk.closer with h | h | h
        · exact h.2
        · rw [hc] at h; simp at h
        · rw [hc] at h; simp at h
      subst h0
      refine ⟨min 1 n, by simp [Program.update, hk.length], Nat.min_le_right _ _, ?_, ?_, .inr (.inl ⟨?_, ?_⟩), ?_⟩
      · intro j t hj
        have hlt : j < n := by
          have := (List.getElem?_eq_some_iff.1 hj).1
          simpa [Program.update, hk.length] using this
        rw [update_get] at hj
        by_cases hij : 0 = j
        · subst hij
          rw [if_pos rfl] at hj
          obtain ⟨s, hs, rfl⟩ := Option.map_eq_some_iff.1 hj
          simp
          omega
        · have := hk.serving j t (by simpa [hij] using hj)
          rw [this]
          omega
      · intro j t _ h
        omega
      · simp; omega
      · omega
      · intro h
        have := hk.main h
        omega
    | @next i s t hm hc hi h0 hi' =>
      have hlt : i + 1 < n := by
        have := (List.getElem?_eq_some_iff.1 hi').1
        rwa [hk.length] at this
      have hki : k = i + 1 := by
        rcases hk.closer with h | h | h
        · rw [hc] at h; simp at h
        · rw [hc] at h
          have := h.1
          simp at this
          have := h.2
          omega
        · rw [hc] at h; simp at h
      subst hki
      refine ⟨i + 2, by simp [Program.update, hk.length], hlt, ?_, ?_, .inr (.inl ⟨rfl, by omega⟩), ?_⟩
      · intro j u hj
        rw [update_get] at hj
        by_cases hij : i + 1 = j
        · subst hij
          rw [if_pos rfl] at hj
          obtain ⟨s, hs, rfl⟩ := Option.map_eq_some_iff.1 hj
          simp
        · have := hk.serving j u (by simpa [hij] using hj)
          rw [this]
          omega
      · intro j u hj hjk
        rw [update_get] at hj
        have hij : i + 1 ≠ j := by omega
        have hj' : p.servers[j]? = some u := by simpa [hij] using hj
        by_cases hji : j = i
        · subst hji
          rw [hi] at hj'
          cases hj'
          exact h0
        · exact hk.drained j u hj' (by omega)
      · intro h
        have := hk.main h
        omega
    | @last i s hm hc hi h0 hi' =>
      have hge : n ≤ i + 1 := by
        have := List.getElem?_eq_none_iff.1 hi'
        rwa [hk.length] at this
      have hlt : i < n := by
        have := (List.getElem?_eq_some_iff.1 hi).1
        rwa [hk.length] at this
      have hki : k = n := by
        rcases hk.closer with h | h | h
        · rw [hc] at h; simp at h
        · rw [hc] at h
          have h1 := h.1
          simp at h1
          have := h.2
          have := hk.bound
          omega
        · rw [hc] at h; simp at h
      exact ⟨k, hk.length, hk.bound, hk.serving, hk.drained, .inr (.inr ⟨rfl, hki⟩), hk.main⟩
    | @wake hm hall =>
      refine ⟨k, hk.length, hk.bound, hk.serving, hk.drained, hk.closer, fun _ => ?_⟩
      have hb := hk.bound
      by_cases hlt : k < n
      · have hlt' : k < p.servers.length := by rw [hk.length]; exact hlt
        have h1 := (hk.serving k p.servers[k] (List.getElem?_eq_getElem hlt')).2 (Nat.le_refl _)
        rw [hall _ (List.getElem_mem hlt')] at h1
        cases h1
      · omega
    | @exit hm =>
      exact ⟨k, hk.length, hk.bound, hk.serving, hk.drained, hk.closer, fun _ => hk.main (by rw [hm]; simp)⟩

/-- **C55** (partial) When `main` closes the outputs, indexes, inputs and parsers, or is gone, no server accepts requests any more, and all servers
except the one told to stop last have answered all their requests. Missing: the last one (`C55_false`); with one server, nothing is proved about
its requests. -/
theorem C55_drained_partial {n : Nat} {p : Program} (h : Program.Reachable n p) (hm : p.main ≠ .waiting) :
    (∀ s ∈ p.servers, s.serving = false) ∧ ∀ s ∈ p.servers.dropLast, s.inFlight = 0 := by
  obtain ⟨k, hk⟩ := shutdown_invariant h
  have hkn := hk.main hm
  constructor
  · intro s hs
    obtain ⟨j, hj⟩ := List.getElem?_of_mem hs
    have hlt := (List.getElem?_eq_some_iff.1 hj).1
    rw [hk.length] at hlt
    have := hk.serving j s hj
    cases hb : s.serving with
    | false => rfl
    | true => have := this.1 hb; omega
  · intro s hs
    obtain ⟨j, hj⟩ := List.getElem?_of_mem hs
    have hlt := (List.getElem?_eq_some_iff.1 hj).1
    rw [List.length_dropLast, hk.length] at hlt
    rw [List.getElem?_dropLast] at hj
    split at hj
    · exact hk.drained j s hj (by omega)
    · cases hj

/-- The program can come to its end with requests answered before: two servers, one request each. -/
example : ∃ p, Program.Reachable 2 p ∧ p.main = .exited ∧ ∀ s ∈ p.servers, s.inFlight = 0 :=
  ⟨_, .step (.step (.step (.step (.step (.step .start (.accept (i := 0) (by decide) rfl rfl)) (.finish (i := 0) (by decide) rfl (by decide)))
    (.signal (by decide) rfl)) (.next (i := 0) (by decide) rfl rfl rfl rfl)) (.wake rfl (by decide))) (.exit rfl), rfl, by decide⟩

/-- **C55 is false**: with one server, a request that is being answered when the signal arrives may be cut off by the end of the program. -/
theorem C55_false : ∃ p, Program.Reachable 1 p ∧ p.main = .exited ∧ ∃ s ∈ p.servers, s.inFlight ≠ 0 :=
  ⟨_, .step (.step (.step (.step .start (.accept (i := 0) (by decide) rfl rfl)) (.signal (by decide) rfl)) (.wake rfl (by decide))) (.exit rfl),
    rfl, { serving := false, inFlight := 1 }, by decide, by decide⟩

/-! ### Addresses -/

theorem perm_pair {α : Type} {l : List α} {a b : α} (h : l.Perm [a, b]) : l = [a, b] ∨ l = [b, a] := by
  match l, h.length_eq, h with
  | [x, y], _, h =>
    have hx : x ∈ [a, b] := h.subset (by simp)
    have ha : a ∈ [x, y] := h.symm.subset (by simp)
    have hb : b ∈ [x, y] := h.symm.subset (by simp)
    have hy : y ∈ [a, b] := h.subset (by simp)
    simp only [List.mem_cons, List.not_mem_nil, or_false] at hx hy ha hb
    rcases hx with rfl | rfl
    · rcases hy with rfl | rfl
      · rcases hb with rfl | rfl <;> exact .inl rfl
      · exact .inl rfl
    · rcases hy with rfl | rfl
      · exact .inr rfl
      · rcases ha with rfl | rfl <;> exact .inl rfl

theorem afterPrefix_append (p rest : List Char) : afterPrefix p (p ++ rest) = some rest := by
  have : p.isPrefixOf (p ++ rest) = true := List.isPrefixOf_iff_prefix.2 (List.prefix_append _ _)
  simp [afterPrefix, this]

theorem afterPrefix_none {p s : List Char} (h : ¬ p <+: s) : afterPrefix p s = none := by
  simp only [afterPrefix]
  rw [if_neg (fun h' => h (List.isPrefixOf_iff_prefix.1 h'))]

/-- **C56** In any order of the replacements: a listener bound to all addresses is shown with the local address and the same port, any other one as
it is. -/
theorem C56_address (order : List (List Char × List Char)) (ho : order.Perm addressReplacements) :
    (∀ port, getAddress order ("[::]:".toList ++ port) = "127.0.0.1:".toList ++ port) ∧
    (∀ port, getAddress order ("0.0.0.0:".toList ++ port) = "127.0.0.1:".toList ++ port) ∧
    (∀ address, ¬ "[::]:".toList <+: address → ¬ "0.0.0.0:".toList <+: address → getAddress order address = address) := by
  have e1 : ∀ port, afterPrefix "[::]:".toList ("127.0.0.1:".toList ++ port) = none := fun _ => rfl
  have e2 : ∀ port, afterPrefix "0.0.0.0:".toList ("127.0.0.1:".toList ++ port) = none := fun _ => rfl
  have e3 : ∀ port, afterPrefix "[::]:".toList ("0.0.0.0:".toList ++ port) = none := fun _ => rfl
  have e4 : ∀ port, afterPrefix "0.0.0.0:".toList ("[::]:".toList ++ port) = none := fun _ => rfl
  rcases perm_pair ho with rfl | rfl
  · refine ⟨fun port => ?_, fun port => ?_, fun a h1 h2 => ?_⟩
    · simp only [getAddress, List.foldl, afterPrefix_append, e2]
    · simp only [getAddress, List.foldl, afterPrefix_append, e3]
    · simp only [getAddress, List.foldl, afterPrefix_none h1, afterPrefix_none h2]
  · refine ⟨fun port => ?_, fun port => ?_, fun a h1 h2 => ?_⟩
    · simp only [getAddress, List.foldl, afterPrefix_append, e4]
    · simp only [getAddress, List.foldl, afterPrefix_append, e1]
    · simp only [getAddress, List.foldl, afterPrefix_none h1, afterPrefix_none h2]

example : getAddress addressReplacements "[::]:3000".toList = "127.0.0.1:3000".toList ∧
    getAddress addressReplacements "10.0.0.7:3000".toList = "10.0.0.7:3000".toList := by decide

end Rodb
