import Verif.Spec.OtherParameters
import Verif.Props.UrlProps
import Verif.Props.FilesProps
/-
  Property C128: what else is in the query string, and in which order, does not matter.
-/
namespace Rodb
open Spec

/-! ### The outputs -/

theorem arrayFilters_readings {env : OutputEnv} {params params' : GoMap Bytes} : ∀ {l : GoMap ParamConfig} {filters : GoMap (GoMap Value)},
    (∀ e ∈ l, mapGet params' e.1 = mapGet params e.1) → arrayFilters env params' l filters = arrayFilters env params l filters
  | [], _, _ => rfl
  | (name, p) :: rest, filters, h => by
    have ih : ∀ filters, arrayFilters env params' rest filters = arrayFilters env params rest filters := fun _ => arrayFilters_readings (fun e he => h e (.tail _ he))
    have hn : mapGet params' name = mapGet params name := h (name, p) (.head _)
    simp only [arrayFilters, hn, ih]

theorem objectFilters_readings {env : OutputEnv} {params params' : GoMap Bytes} : ∀ {l : GoMap ParamConfig} {filters : GoMap (GoMap Value)},
    (∀ e ∈ l, mapGet params' e.1 = mapGet params e.1) → objectFilters env params' l filters = objectFilters env params l filters
  | [], _, _ => rfl
  | (name, p) :: rest, filters, h => by
    have ih : ∀ filters, objectFilters env params' rest filters = objectFilters env params rest filters := fun _ => objectFilters_readings (fun e he => h e (.tail _ he))
    have hn : mapGet params' name = mapGet params name := h (name, p) (.head _)
    simp only [objectFilters, hn, ih]

theorem handle_readings {env : OutputEnv} (hvisit : ∀ path (α : Type) (l : List α), (env.visit path l).Perm l) {texts : GoMap TextParser} {o : OutputDecl} {api : OutputApi}
    (h : RunsOutput env texts (completedOutput o) api) {params params' : GoMap Bytes} (hp : ∀ q, AsksFor o q → mapGet params' q = mapGet params q) (payload : Bytes) :
    api.handle params' payload = api.handle params payload := by
  have members : ∀ {l : GoMap ParamConfig}, (∀ q parameter, (q, parameter) ∈ l → mapGet params' q = mapGet params q) →
      ∀ e ∈ env.visit [0] (l.map (fun e => (e.1, completedParameter e.2))), mapGet params' e.1 = mapGet params e.1 := by
    intro l hl e he
    obtain ⟨a, ha, rfl⟩ := List.mem_map.1 ((hvisit _ _ _).mem_iff.1 he)
    exact hl a.1 a.2 ha
  cases o with
  | graphql name => exact h.elim
  | array name d =>
    cases h
    have h1 := hp _ (.inr (.inl rfl))
    have h2 := hp _ (.inr (.inr rfl))
    have h3 := members (l := d.parameters) (fun q parameter hm => hp q (.inl ⟨parameter, hm⟩))
    simp only [arrayApi, handleArray, getLimit, getOffset, h1, h2, arrayFilters_readings h3]
  | object name d =>
    cases h
    have h3 := members (l := d.parameters) (fun q parameter hm => hp q ⟨parameter, hm⟩)
    simp only [objectApi, handleObject, objectFilters_readings h3]

/-! ### The requests -/

theorem pathParams_readings : ∀ (names : List String) (found : List (Option (List Char))) {params params' : GoMap Bytes} {Q : String → Prop}, (∀ q, Q q → mapGet params' q = mapGet params q) →
    (∃ e, pathParams names found params' = .error e ∧ pathParams names found params = .error e) ∨
      ∃ r r', pathParams names found params' = .ok r' ∧ pathParams names found params = .ok r ∧ ∀ q, Q q → mapGet r' q = mapGet r q
  | [], _, _, _, _, h => .inr ⟨_, _, rfl, rfl, h⟩
  | _ :: _, [], _, _, _, _ => .inl ⟨_, rfl, rfl⟩
  | name :: names, m :: ms, params, params', Q, h => by
    refine pathParams_readings names ms (params := mapSet params name (utf8 (m.getD []))) (params' := mapSet params' name (utf8 (m.getD []))) (Q := Q) (fun q hq => ?_)
    rw [mapGet_mapSet, mapGet_mapSet, h q hq]

theorem matchingRoute_among {lib : ServiceLib} {request : Request} {route : Route} : ∀ {routes : List Route}, getMatchingRoute lib request routes = some route → route ∈ routes
  | [], h => by cases h
  | r :: rest, h => by
    rw [getMatchingRoute] at h
    split at h
    · cases h; exact .head _
    · exact .tail _ (matchingRoute_among h)

theorem matchingRoute_readings {lib : ServiceLib} {request request' : Request} (hm : request'.method = request.method) (hc : request'.contentType = request.contentType) (hp : request'.path = request.path) :
    ∀ routes : List Route, getMatchingRoute lib request' routes = getMatchingRoute lib request routes
  | [] => rfl
  | r :: rest => by
    have : routeMatches lib request' r = routeMatches lib request r := by simp only [routeMatches, hm, hc, hp]
    rw [getMatchingRoute, getMatchingRoute, this, matchingRoute_readings hm hc hp rest]

theorem handleRequest_readings {lib : ServiceLib} {errorsType : String} {routes : List Route} {request request' : Request} (hm : request'.method = request.method)
    (hc : request'.contentType = request.contentType) (hp : request'.path = request.path) (hb : request'.body = request.body) (hq : GoodQuery request.query) (hq' : GoodQuery request'.query)
    {Q : String → Prop} (hsame : ∀ q, Q q → queryValue request'.query q = queryValue request.query q)
    (hroutes : ∀ route ∈ routes, ∀ params params' payload, (∀ q, Q q → mapGet params' q = mapGet params q) → route.output.handle params' payload = route.output.handle params payload) :
    handleRequest lib errorsType routes request' = handleRequest lib errorsType routes request := by
  rw [handleRequest, handleRequest, matchingRoute_readings hm hc hp]
  cases hr : getMatchingRoute lib request routes with
  | none => rfl
  | some route =>
    have hh := hroutes route (matchingRoute_among hr)
    have : serveRoute lib errorsType request' route = serveRoute lib errorsType request route := by
      obtain ⟨r, h1, h2⟩ := queryParams_get request.query [] hq
      obtain ⟨r', h1', h2'⟩ := queryParams_get request'.query [] hq'
      have hget : ∀ q, Q q → mapGet r' q = mapGet r q := fun q hQ => by rw [h2, h2', hsame q hQ]
      simp only [serveRoute, getPayload, hb, getParams, h1, h1', hp]
      rcases pathParams_readings route.parameters ((lib.find route.regexp request.path).getD []) hget with ⟨e, e1, e2⟩ | ⟨s, s', e1, e2, e3⟩
      · rw [e1, e2]
      · rw [e1, e2]
        simp only [hh s s' _ e3]
    simp only [this]

/-! ### The property -/

/-- **C128** A running service answers two requests in the same way if their paths are the same and the parameters that the outputs of the service look at have the same first values: other
parameters, further values, the order of the parameters and the way all of this is written do not matter, and neither does the order in which the program goes through the parameters. -/
theorem C128_same_parameters (config : ConfigLib) (p : ParsedConfig) (c : Config) (hc : loadConfig config p = .ok c) (d : Config) (ho : Reordered c d) (lib : StartLib)
    (hlib : ∀ path (α : Type) (l : List α), (lib.visit path l).Perm l) (running : GoMap (String × List Route)) (hstart : start lib d = .ok running)
    (name errorsType : String) (routes : List Route) (hservice : mapGet running name = some (errorsType, routes))
    (service : ServiceLib) (old : Bool) (visit visit' : GoMap (List Bytes) → GoMap (List Bytes)) (hvisit : ∀ m, (visit m).Perm m) (hvisit' : ∀ m, (visit' m).Perm m)
    (method contentType : String) (body : Res Bytes) (path : List Char) (pairs pairs' : List (String × Bytes)) (target target' : Bytes)
    (htarget : TargetText path pairs target) (htarget' : TargetText path pairs' target') (hslash : target.head? = some 47) (hslash' : target'.head? = some 47)
    (hsame : ∀ q, ServiceAsksFor p name q → pairs'.lookup q = pairs.lookup q) :
    serveTarget service errorsType routes old visit' method contentType target' body = serveTarget service errorsType routes old visit method contentType target body := by
  obtain ⟨texts, env, apis, hrun⟩ := C78_running config lib p c d hc ho running hstart
  have hw := (C76_accepted config p).1 ⟨c, hc⟩
  obtain ⟨s, hs, hname⟩ := hrun.serviceNames _ _ hservice
  obtain ⟨routes', hget, hroutes⟩ := hrun.services s hs
  rw [hname, hservice] at hget
  cases hget
  obtain ⟨request, h1, m1, c1, b1, p1, g1, q1⟩ := C106_url_written service "application/json" routes old visit hvisit method contentType body path pairs target htarget hslash
  obtain ⟨request', h2, m2, c2, b2, p2, g2, q2⟩ := C106_url_written service "application/json" routes old visit' hvisit' method contentType body path pairs' target' htarget' hslash'
  rw [h1, h2, handleRequest_readings (m2.trans m1.symm) (c2.trans c1.symm) (p2.trans p1.symm) (b2.trans b1.symm) g1 g2 (Q := ServiceAsksFor p name) (fun q hq => by rw [q1, q2, hsame q hq])]
  intro route hroute params params' payload hparams
  obtain ⟨k, hk, rfl⟩ := List.getElem_of_mem hroute
  have hk' : k < s.routes.length := hroutes.1 ▸ hk
  obtain ⟨api, ha, hapi, _⟩ := hroutes.2 k hk' hk
  obtain ⟨o, ho, hon⟩ := ((hw.services s hs).2.2.2.2.2 _ (List.getElem_mem hk')).2
  obtain ⟨api', ha', hrunso⟩ := hrun.outputs o ho
  rw [hon, ha] at ha'
  cases ha'
  rw [hapi]
  exact handle_readings (fun path α l => hrun.visit path α l ▸ hlib path α l) hrunso
    (fun q hq => hparams q ⟨s, hs, hname, _, List.getElem_mem hk', o, ho, hon, hq⟩) payload

theorem Spec.Rewritten.lookup {asked : String → Prop} {pairs pairs' : List (String × Bytes)} (h : Rewritten asked pairs pairs') {q : String} (hq : asked q) : pairs'.lookup q = pairs.lookup q := by
  induction h with
  | same => rfl
  | other before after name value hn =>
    have : (q == name) = false := by simpa using fun e : q = name => hn (e ▸ hq)
    simp only [List.lookup_append, List.lookup_cons, this]
  | further before after name first value hm =>
    by_cases e : q = name
    · subst e
      have : ∃ v, before.lookup q = some v := by
        cases hl : before.lookup q with
        | some v => exact ⟨v, rfl⟩
        | none => simpa using List.lookup_eq_none_iff.1 hl _ hm
      obtain ⟨v, hv⟩ := this
      simp only [List.lookup_append, hv, Option.some_or]
    · have : (q == name) = false := by simpa using e
      simp only [List.lookup_append, List.lookup_cons, this]
  | swapped before after one two hne =>
    obtain ⟨one, a⟩ := one
    obtain ⟨two, b⟩ := two
    by_cases e : q = one
    · have h1 : (q == one) = true := by simpa using e
      have h2 : (q == two) = false := by simpa using fun e' : q = two => hne (e ▸ e')
      simp only [List.lookup_append, List.lookup_cons, h1, h2]
    · have h1 : (q == one) = false := by simpa using e
      simp only [List.lookup_append, List.lookup_cons, h1]
  | back _ ih => exact ih.symm
  | more _ _ ih ih' => exact ih'.trans ih

/-- **C128** Parameters that no output of a service looks at, further values of a parameter, and the order of different parameters do not change what the service answers. -/
theorem C128_rewritten (config : ConfigLib) (p : ParsedConfig) (c : Config) (hc : loadConfig config p = .ok c) (d : Config) (ho : Reordered c d) (lib : StartLib)
    (hlib : ∀ path (α : Type) (l : List α), (lib.visit path l).Perm l) (running : GoMap (String × List Route)) (hstart : start lib d = .ok running)
    (name errorsType : String) (routes : List Route) (hservice : mapGet running name = some (errorsType, routes))
    (service : ServiceLib) (old : Bool) (visit visit' : GoMap (List Bytes) → GoMap (List Bytes)) (hvisit : ∀ m, (visit m).Perm m) (hvisit' : ∀ m, (visit' m).Perm m)
    (method contentType : String) (body : Res Bytes) (path : List Char) (pairs pairs' : List (String × Bytes)) (target target' : Bytes)
    (htarget : TargetText path pairs target) (htarget' : TargetText path pairs' target') (hslash : target.head? = some 47) (hslash' : target'.head? = some 47)
    (hrewritten : Rewritten (ServiceAsksFor p name) pairs pairs') :
    serveTarget service errorsType routes old visit' method contentType target' body = serveTarget service errorsType routes old visit method contentType target body :=
  C128_same_parameters config p c hc d ho lib hlib running hstart name errorsType routes hservice service old visit visit' hvisit hvisit' method contentType body path pairs pairs' target target'
    htarget htarget' hslash hslash' (fun _ hq => hrewritten.lookup hq)

/-! ### Example -/

/-- The service of the example answers `/one/1?letter=a` and `/one/1?x=1&letter=a&letter=b` in the same way. -/
example : ∃ c running routes, loadConfig ConfigExample.lib RunningExample.parsed = .ok c ∧ start ((ConfigExample.startLib FilesExample.noParsers).onFiles FilesExample.machine) c = .ok running ∧
    mapGet running "web" = some ("application/json", routes) ∧ ∀ (service : ServiceLib),
      serveTarget service "application/json" routes false id "GET" "" "/one/1?x=1&letter=a&letter=b".toUTF8.toList (.ok []) =
        serveTarget service "application/json" routes false id "GET" "" "/one/1?letter=a".toUTF8.toList (.ok []) := by
  obtain ⟨c, hc, running, hs⟩ := FilesExample.starts
  have hre : Reordered c c := ⟨.refl _, .refl _, .refl _, .refl _, .refl _⟩
  obtain ⟨texts, env, apis, hrun⟩ := C78_running _ _ _ _ _ hc hre running hs
  obtain ⟨routes, hr, _⟩ := hrun.services RunningExample.web (by simp [RunningExample.parsed])
  refine ⟨c, running, routes, hc, hs, hr, fun service => ?_⟩
  have plain : ∀ {plus : Bool} {special : Bytes} (text : Bytes), (∀ b ∈ text, 32 < b.toNat ∧ b.toNat ≠ 127 ∧ b ≠ 37 ∧ b ∉ special) → UrlText plus special text text := by
    intro plus special text
    induction text with
    | nil => exact fun _ => .done
    | cons b text ih => exact fun h => .plain (h b (.head _)).1 (h b (.head _)).2.1 (h b (.head _)).2.2.1 (h b (.head _)).2.2.2 (ih (fun a ha => h a (.tail _ ha)))
  have hpath : PathText "/one/1".toList "/one/1".toUTF8.toList := by
    rw [show "/one/1".toUTF8.toList = utf8 "/one/1".toList by decide +kernel]
    exact plain _ (by decide +kernel)
  have hletter : ∀ v : Bytes, v = [97] ∨ v = [98] → PairText "letter" v (utf8 "letter".toList ++ 61 :: v) := by
    rintro v (rfl | rfl) <;> exact .value (plain _ (by decide +kernel)) (plain _ (by decide +kernel))
  have hx : PairText "x" [49] (utf8 "x".toList ++ 61 :: [49]) := .value (plain _ (by decide +kernel)) (plain _ (by decide +kernel))
  refine C128_rewritten ConfigExample.lib RunningExample.parsed c hc c hre _ ?_ running hs "web" _ routes hr service false id id (fun _ => .refl _) (fun _ => .refl _) "GET" "" (.ok [])
    "/one/1".toList [("letter", [97])] [("x", [49]), ("letter", [97]), ("letter", [98])] _ _ ?_ ?_ (by decide +kernel) (by decide +kernel) ?_
  · intro path α l; exact .refl _
  · have e : "/one/1?letter=a".toUTF8.toList = "/one/1".toUTF8.toList ++ 63 :: (utf8 "letter".toList ++ 61 :: [97]) := by decide +kernel
    rw [e]
    exact .query hpath (.last (hletter _ (.inl rfl)))
  · have e : "/one/1?x=1&letter=a&letter=b".toUTF8.toList =
        "/one/1".toUTF8.toList ++ 63 :: ((utf8 "x".toList ++ 61 :: [49]) ++ 38 :: ((utf8 "letter".toList ++ 61 :: [97]) ++ 38 :: (utf8 "letter".toList ++ 61 :: [98]))) := by decide +kernel
    rw [e]
    exact .query hpath (.more hx (.more (hletter _ (.inl rfl)) (.last (hletter _ (.inr rfl)))))
  · refine .more (.other [] [("letter", [97])] "x" [49] ?_) (.further [("x", [49]), ("letter", [97])] [] "letter" [97] [98] (by simp))
    rintro ⟨s, hs, -, r, hr, o, ho, hn, ha⟩
    simp only [RunningExample.parsed, List.mem_cons, List.not_mem_nil, or_false] at ho
    rcases ho with rfl | rfl
    · rcases ha with ⟨parameter, h⟩ | h | h
      · simp [RunningExample.list, RunningExample.parameters] at h
      · revert h; decide +kernel
      · revert h; decide +kernel
    · obtain ⟨parameter, h⟩ := ha
      simp [RunningExample.one, RunningExample.parameters] at h

end Rodb
