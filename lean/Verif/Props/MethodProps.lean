import Verif.Props.OtherParametersProps
/-
  Property C129: only GET requests are served, and nothing but their URL matters.
-/
namespace Rodb
open Spec

/-- No output of the program takes a payload. -/
theorem running_payload {config : ConfigLib} {lib : StartLib} {p : ParsedConfig} (hw : WellFormed config p) {texts : GoMap TextParser} {env : OutputEnv} {apis : GoMap OutputApi}
    {running : GoMap (String × List Route)} (hrun : Running config lib p texts env apis running) {name errorsType : String} {routes : List Route}
    (hservice : mapGet running name = some (errorsType, routes)) : errorsType = "application/json" ∧ ∀ route ∈ routes, route.output.payloadType = none := by
  obtain ⟨s, hs, hname⟩ := hrun.serviceNames _ _ hservice
  obtain ⟨routes', hget, hroutes⟩ := hrun.services s hs
  rw [hname, hservice] at hget
  cases hget
  refine ⟨rfl, fun route hroute => ?_⟩
  obtain ⟨k, hk, rfl⟩ := List.getElem_of_mem hroute
  have hk' : k < s.routes.length := hroutes.1 ▸ hk
  obtain ⟨api, ha, hapi, _⟩ := hroutes.2 k hk' hk
  obtain ⟨o, ho, hon⟩ := ((hw.services s hs).2.2.2.2.2 _ (List.getElem_mem hk')).2
  obtain ⟨api', ha', hrunso⟩ := hrun.outputs o ho
  rw [hon, ha] at ha'
  cases ha'
  rw [hapi]
  cases o with
  | graphql name => exact hrunso.elim
  | array name d => cases hrunso; rfl
  | object name d => cases hrunso; rfl

theorem noRoute_method {lib : ServiceLib} {request : Request} (h : request.method ≠ "GET") : ∀ {routes : List Route}, (∀ route ∈ routes, route.output.payloadType = none) →
    getMatchingRoute lib request routes = none
  | [], _ => rfl
  | r :: rest, hr => by
    have h1 : routeMatches lib request r = false := by simp [routeMatches, h, hr r (.head _)]
    rw [getMatchingRoute, if_neg (by rw [h1]; decide)]
    exact noRoute_method h (fun route hm => hr route (.tail _ hm))

/-- **C129** A request to a running service with another method than GET (HEAD, POST, PUT, DELETE and so on) is answered with the status 404, whatever its URL, and with the error that no route was found
(which `net/http` does not send if the method is HEAD). -/
theorem C129_other_methods (config : ConfigLib) (p : ParsedConfig) (c : Config) (hc : loadConfig config p = .ok c) (d : Config) (ho : Reordered c d) (lib : StartLib)
    (running : GoMap (String × List Route)) (hstart : start lib d = .ok running) (name errorsType : String) (routes : List Route) (hservice : mapGet running name = some (errorsType, routes))
    (service : ServiceLib) (old : Bool) (visit : GoMap (List Bytes) → GoMap (List Bytes)) (method contentType : String) (hmethod : method ≠ "GET") (body : Res Bytes)
    (path : List Char) (pairs : List (String × Bytes)) (target : Bytes) (htarget : TargetText path pairs target) (hslash : target.head? = some 47) :
    ∃ response, serveTarget service errorsType routes old visit method contentType target body = some response ∧ response.status = 404 ∧
      mapGet response.headers "Content-Type" = some "application/json; charset=UTF-8" ∧ (method ≠ "HEAD" → response.body = service.errorText "No matching route was found") := by
  obtain ⟨texts, env, apis, hrun⟩ := C78_running config lib p c d hc ho running hstart
  obtain ⟨rfl, hpayload⟩ := running_payload ((C76_accepted config p).1 ⟨c, hc⟩) hrun hservice
  have hread := readTarget_text htarget hslash old
  rw [serveTarget, hread]
  simp only [handleRequest, noRoute_method (lib := service) (request := { method := method, contentType := contentType, path := path, query := visit _, body := body }) hmethod hpayload]
  exact ⟨_, rfl, rfl, by simp [writeResponse, sendErrorResponse, mapSet, mapGet], fun _ => by simp [writeResponse, sendErrorResponse]⟩

theorem handleRequest_rest {lib : ServiceLib} {errorsType : String} {routes : List Route} (hpayload : ∀ route ∈ routes, route.output.payloadType = none) (path : List Char)
    (query : GoMap (List Bytes)) (contentType contentType' : String) (body body' : Res Bytes) :
    handleRequest lib errorsType routes { method := "GET", contentType := contentType', path := path, query := query, body := body' } =
      handleRequest lib errorsType routes { method := "GET", contentType := contentType, path := path, query := query, body := body } := by
  have hmatch : ∀ {l : List Route}, (∀ route ∈ l, route.output.payloadType = none) →
      getMatchingRoute lib { method := "GET", contentType := contentType', path := path, query := query, body := body' } l =
        getMatchingRoute lib { method := "GET", contentType := contentType, path := path, query := query, body := body } l := by
    intro l hl
    induction l with
    | nil => rfl
    | cons r rest ih =>
      rw [getMatchingRoute, getMatchingRoute, ih (fun route hm => hl route (.tail _ hm))]
      simp only [routeMatches, hl r (.head _)]
      rfl
  rw [handleRequest, handleRequest, hmatch hpayload]
  cases hr : getMatchingRoute lib { method := "GET", contentType := contentType, path := path, query := query, body := body } routes with
  | none => rfl
  | some route =>
    have h := hpayload route (matchingRoute_among hr)
    simp only [serveRoute, getPayload, h, ne_eq, not_true_eq_false, if_false, getParams]

/-- **C129** What a running service answers to a GET request depends on its URL only: neither the content type nor the body, which is not even read, matter. -/
theorem C129_only_url (config : ConfigLib) (p : ParsedConfig) (c : Config) (hc : loadConfig config p = .ok c) (d : Config) (ho : Reordered c d) (lib : StartLib)
    (running : GoMap (String × List Route)) (hstart : start lib d = .ok running) (name errorsType : String) (routes : List Route) (hservice : mapGet running name = some (errorsType, routes))
    (service : ServiceLib) (old : Bool) (visit : GoMap (List Bytes) → GoMap (List Bytes)) (contentType contentType' : String) (body body' : Res Bytes) (target : Bytes) :
    serveTarget service errorsType routes old visit "GET" contentType' target body' = serveTarget service errorsType routes old visit "GET" contentType target body := by
  obtain ⟨texts, env, apis, hrun⟩ := C78_running config lib p c d hc ho running hstart
  obtain ⟨rfl, hpayload⟩ := running_payload ((C76_accepted config p).1 ⟨c, hc⟩) hrun hservice
  rw [serveTarget, serveTarget]
  cases readTarget old target with
  | bad => rfl
  | unmodelled => rfl
  | read path query => simp only [handleRequest_rest hpayload path (visit query) contentType contentType' body body']

/-- The service of the example refuses to delete what it serves at `/one/1`. -/
example : ∃ c running routes, loadConfig ConfigExample.lib RunningExample.parsed = .ok c ∧ start ((ConfigExample.startLib FilesExample.noParsers).onFiles FilesExample.machine) c = .ok running ∧
    mapGet running "web" = some ("application/json", routes) ∧ ∀ (service : ServiceLib), ∃ response,
      serveTarget service "application/json" routes false id "DELETE" "" "/one/1".toUTF8.toList (.ok []) = some response ∧ response.status = 404 := by
  obtain ⟨c, hc, running, hs⟩ := FilesExample.starts
  have hre : Reordered c c := ⟨.refl _, .refl _, .refl _, .refl _, .refl _⟩
  obtain ⟨texts, env, apis, hrun⟩ := C78_running _ _ _ _ _ hc hre running hs
  obtain ⟨routes, hr, _⟩ := hrun.services RunningExample.web (by simp [RunningExample.parsed])
  refine ⟨c, running, routes, hc, hs, hr, fun service => ?_⟩
  have plain : ∀ {plus : Bool} {special : Bytes} (text : Bytes), (∀ b ∈ text, 32 < b.toNat ∧ b.toNat ≠ 127 ∧ b ≠ 37 ∧ b ∉ special) → UrlText plus special text text := by
    intro plus special text
    induction text with
    | nil => exact fun _ => .done
    | cons b text ih => exact fun h => .plain (h b (.head _)).1 (h b (.head _)).2.1 (h b (.head _)).2.2.1 (h b (.head _)).2.2.2 (ih (fun a ha => h a (.tail _ ha)))
  have hpath : PathText "/one/1".toList "/one/1".toUTF8.toList := by
    rw [show "/one/1".toUTF8.toList = utf8 "/one/1".toList by decide +kernel]
    exact plain _ (by decide +kernel)
  obtain ⟨response, h1, h2, _⟩ := C129_other_methods ConfigExample.lib RunningExample.parsed c hc c hre _ running hs "web" _ routes hr service false id "DELETE" "" (by decide) (.ok []) _ [] _
    (.path hpath) (by decide +kernel)
  exact ⟨response, h1, h2⟩

end Rodb
