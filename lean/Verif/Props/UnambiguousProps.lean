import Verif.Proofs.Unambiguous
import Verif.Props.JsonTextProps
import Verif.Props.JsonFilesProps
import Verif.Props.MethodProps
/-
  Property C130: no object in a response has two members with the same name.
-/
namespace Rodb
open Spec

theorem running_unambiguous {config : ConfigLib} {lib : StartLib} {files : Files} {p : ParsedConfig} (hw : WellFormed config p)
    {readFloat readFloat' : Bytes → Res GoFloat} (hparser : lib.parserLib.unmarshal = unmarshalJson readFloat) (hjson : files.decodeJson = jsonDecoder readFloat')
    (hperm : ∀ less l, (lib.sort less l).Perm l) {texts : GoMap TextParser} {env : OutputEnv} {apis : GoMap OutputApi} {running : GoMap (String × List Route)}
    (hrun : Running config (lib.onFiles files) p texts env apis running) {name errorsType : String} {routes : List Route}
    (hservice : mapGet running name = some (errorsType, routes)) {route : Route} (hroute : route ∈ routes) {params : GoMap Bytes} {payload : Bytes} {v : Value}
    (h : route.output.handle params payload = .data v) : DistinctKeys v := by
  have hfun : DistinctParsers env.parsers := by
    rw [hrun.functions]
    exact parseFunctions_distinct (fun s v hv => by
      rw [show (lib.onFiles files).parserLib.unmarshal = unmarshalJson readFloat from hparser] at hv
      exact unmarshalJson_distinct hv) texts
  have hin : ∀ name input, mapGet env.inputs name = some input → UnambiguousInput input := by
    intro name input hget
    obtain ⟨x, hx, rfl⟩ := hrun.inputNames name input hget
    obtain ⟨d, input', _, hopen, hget'⟩ := hrun.inputs x hx
    rw [hget] at hget'
    cases hget'
    exact openInput_unambiguous hjson hfun hopen
  have hsort : ∀ less l, (env.sort less l).Perm l := by rw [hrun.sort]; exact hperm
  obtain ⟨s, hs, hname⟩ := hrun.serviceNames _ _ hservice
  obtain ⟨routes', hget, hroutes⟩ := hrun.services s hs
  rw [hname, hservice] at hget
  cases hget
  obtain ⟨k, hk, rfl⟩ := List.getElem_of_mem hroute
  have hk' : k < s.routes.length := hroutes.1 ▸ hk
  obtain ⟨api, ha, hapi, _⟩ := hroutes.2 k hk' hk
  obtain ⟨o, ho, hon⟩ := ((hw.services s hs).2.2.2.2.2 _ (List.getElem_mem hk')).2
  obtain ⟨api', ha', hrunso⟩ := hrun.outputs o ho
  rw [hon, ha] at ha'
  cases ha'
  rw [hapi] at h
  cases o with
  | graphql name => exact hrunso.elim
  | array name d => cases hrunso; exact handleArray_distinct hin hsort h
  | object name d => cases hrunso; exact handleObject_distinct hin hsort h

/-- **C130** Whatever the data files hold, even JSON documents with the same name twice, columns with the same name, or relationships named like properties: every response of a running service with a
body is a JSON text in which no object has two members with the same name. If its status is 200 the text stands for the data that the output gives, as long as its texts are valid UTF-8. -/
theorem C130_distinct_names (config : ConfigLib) (p : ParsedConfig) (c : Config) (hc : loadConfig config p = .ok c) (d : Config) (ho : Reordered c d) (lib : StartLib) (files : Files)
    (readFloat readFloat' : Bytes → Res GoFloat) (hparser : lib.parserLib.unmarshal = unmarshalJson readFloat) (hjson : files.decodeJson = jsonDecoder readFloat')
    (hperm : ∀ less l, (lib.sort less l).Perm l) (running : GoMap (String × List Route)) (hstart : start (lib.onFiles files) d = .ok running)
    (name errorsType : String) (routes : List Route) (hservice : mapGet running name = some (errorsType, routes)) (formatFloat : Int → Bytes) (hfmt : FormatContract formatFloat)
    (find : Regex → List Char → Option (List (Option (List Char)))) (request : Request) (response : Response)
    (h : clientGets (handleRequest ⟨find, encodeJson formatFloat, errorJson⟩ errorsType routes request) = some response) :
    response.body = [] ∨ ∃ v text, (response.body = text ++ [10] ∨ response.body = text) ∧ JsonText JsonChar (WrittenNumber formatFloat) v text ∧ DistinctKeys v ∧
      (response.status = 200 → ∃ route ∈ routes, ∃ params payload data, route.output.handle params payload = .data data ∧ (ValidTexts data → SameJson data v)) := by
  obtain ⟨texts, env, apis, hrun⟩ := C78_running config _ p c d hc ho running hstart
  have hw := (C76_accepted config p).1 ⟨c, hc⟩
  obtain ⟨rfl, _⟩ := running_payload hw hrun hservice
  rcases C84_every_response formatFloat hfmt find routes request response h with ⟨h200, route, hroute, params, payload, data, hdata, hbody⟩ | ⟨hstatus, message, htext⟩
  · rcases hbody with ⟨v, text, hb, htext, hd⟩ | ⟨hb, _⟩
    · obtain ⟨h1, h2⟩ := hd (running_unambiguous hw hparser hjson hperm hrun hservice hroute hdata)
      exact .inr ⟨v, text, .inl hb, htext, h1, fun _ => ⟨route, hroute, params, payload, data, hdata, h2⟩⟩
    · exact .inl hb
  · refine .inr ⟨_, response.body, .inr rfl, htext, .obj (by simp) ?_, ?_⟩
    · intro k v hm
      rcases List.mem_cons.1 hm with hm | hm
      · cases hm; exact .str
      · cases hm
    · intro h200
      rcases hstatus with hs | hs <;> rw [h200] at hs <;> cases hs

namespace UnambiguousExample
/-- The file in.json: {"o":{"s":"a"},"o":{"s":"b","s":"c"}}. -/
def machine : Files :=
  { JsonFilesExample.machine with
    content := fun path => if path = "in.json" then some (utf8 "{\"o\":{\"s\":\"a\"},\"o\":{\"s\":\"b\",\"s\":\"c\"}}".toList) else none }
def parserLib : ParserLib := { FilesExample.noParsers with unmarshal := unmarshalJson JsonExample.parse }
end UnambiguousExample

open UnambiguousExample in
/-- The program of the example of C86 on a file with the same names twice: it starts, and the output of its first route gives [{"o":{"s":"c"}}]. -/
example : ∃ c running routes, loadConfig ConfigExample.lib JsonFilesExample.parsed = .ok c ∧ start ((ConfigExample.startLib parserLib).onFiles machine) c = .ok running ∧
    mapGet running "web" = some ("application/json", routes) ∧ (∃ route ∈ routes, ∃ v, route.output.handle [] [] = .data v ∧
      encodeJson JsonExample.format v = .ok (utf8 "[{\"o\":{\"s\":\"c\"}}]\n".toList)) ∧
    ∀ find request response, clientGets (handleRequest ⟨find, encodeJson JsonExample.format, errorJson⟩ "application/json" routes request) = some response →
      response.body = [] ∨ ∃ v text, (response.body = text ++ [10] ∨ response.body = text) ∧ JsonText JsonChar (WrittenNumber JsonExample.format) v text ∧ DistinctKeys v := by
  have h : (match loadConfig ConfigExample.lib JsonFilesExample.parsed with
      | .ok c => (match start ((ConfigExample.startLib parserLib).onFiles machine) c with
        | .ok running => (match mapGet running "web" with
          | some (type, route :: _) => type = "application/json" && (match route.output.handle [] [] with
            | .data v => (match encodeJson JsonExample.format v with | .ok body => body = utf8 "[{\"o\":{\"s\":\"c\"}}]\n".toList | .error _ => false)
            | _ => false)
          | _ => false)
        | .error _ => false)
      | .error _ => false) = true := by decide +kernel
  split at h
  · rename_i c hc
    split at h
    · rename_i running hs
      split at h
      · rename_i type route rest hget
        simp only [Bool.and_eq_true, decide_eq_true_eq] at h
        obtain ⟨rfl, h⟩ := h
        split at h
        · rename_i v hv
          split at h
          · rename_i body hbody
            simp only [decide_eq_true_eq] at h
            refine ⟨c, running, _, hc, hs, hget, ⟨route, .head _, v, hv, by rw [hbody, h]⟩, fun find request response hr => ?_⟩
            rcases C130_distinct_names _ _ c hc c ⟨.refl _, .refl _, .refl _, .refl _, .refl _⟩ (ConfigExample.startLib parserLib) machine JsonExample.parse JsonExample.parse rfl rfl
              (fun _ _ => .refl _) running hs "web" _ _ hget JsonExample.format JsonExample.format_contract find request response hr with h | ⟨v, text, h1, h2, h3, _⟩
            · exact .inl h
            · exact .inr ⟨v, text, h1, h2, h3⟩
          · cases h
        · cases h
      · cases h
    · cases h
  · cases h

end Rodb
