import Verif.Spec.Answered
import Verif.Props.ProgramProps
import Verif.Props.RefusedProps
/-
  C109: every request is answered.
-/
namespace Rodb
open Spec

theorem askable_reads {config : ConfigLib} {st : Storage} {p : ParsedConfig} {env : OutputEnv} {parameters : GoMap ParamConfig} (h : AlwaysAskable config st p env.parsers parameters) :
    ∀ {l : List (ParamConfig × Bytes)} {conditions : List Condition}, (∀ e ∈ l, ∃ name q, (name, q) ∈ parameters ∧ e.1 = completedParameter q) → Reads env l conditions →
      ∀ c ∈ conditions, Askable config st p c.index c.property c.value
  | [], [], _, _ => by simp
  | e :: l, c :: conditions, hl, hr => by
    obtain ⟨h1, h2, ⟨parse, h3, h4⟩, h5⟩ := hr
    intro c' hc'
    rcases List.mem_cons.1 hc' with rfl | hc'
    · obtain ⟨name, q, hq, he⟩ := hl e (.head _)
      rw [h1, h2, he]
      rw [he] at h3
      exact h name q hq parse _ _ h3 h4
    · exact askable_reads h (fun e he => hl e (.tail _ he)) h5 c' hc'

/-- The first suiting route by its number. -/
theorem firstSuiting_index {routes : List Route} {request : Request} {route : Route} (h : FirstSuiting routes request route) :
    ∃ (k : Nat) (hk : k < routes.length), route = routes[k] := by
  obtain ⟨before, after, rfl, _⟩ := h
  exact ⟨before.length, by simp, by simp⟩

theorem goodQuery_perm {a b : GoMap (List Bytes)} (h : a.Perm b) (hb : GoodQuery b) : GoodQuery a :=
  ⟨(h.map _).nodup_iff.2 hb.1, fun q hq => hb.2 q (h.mem_iff.1 hq)⟩

/-- A target that is read has a query as http.go expects it. -/
theorem readTarget_good {old : Bool} {target : Bytes} {path : List Char} {query : GoMap (List Bytes)} (h : readTarget old target = .read path query) : GoodQuery query := by
  unfold readTarget at h
  split at h
  · cases h
  · split at h
    · cases h
    · split at h
      · cases h
      · split at h
        · cases h
        · cases h
          exact parseQuery_good _ _

/-- Outputs have different names. -/
theorem output_unique {config : ConfigLib} {p : ParsedConfig} (hw : WellFormed config p) {a b : OutputDecl} (ha : a ∈ p.outputs) (hb : b ∈ p.outputs) (h : a.name = b.name) : a = b := by
  have key : ∀ l : List OutputDecl, (l.map OutputDecl.name).Nodup → a ∈ l → b ∈ l → a = b := by
    intro l
    induction l with
    | nil => simp
    | cons x l ih =>
      intro hnd ha hb
      simp only [List.map_cons, List.nodup_cons, List.mem_map, not_exists, not_and] at hnd
      rcases List.mem_cons.1 ha with ha' | ha' <;> rcases List.mem_cons.1 hb with hb' | hb'
      · rw [ha', hb']
      · exact (hnd.1 b hb' (by rw [← h, ha'])).elim
      · exact (hnd.1 a ha' (by rw [h, hb'])).elim
      · exact ih hnd.2 ha' hb'
  exact key _ hw.outputNames.1 ha hb

/-- **C109** Every request is answered: in a running program over files that hold the objects of `tables`, whose index files and databases do not exist yet or were left by earlier starts, take a
service all of whose routes are to lists and objects whose parameters can always be asked of their indexes. Then every request, with any method, target, content type and body, gets a response. It has the
status 400 exactly if the target cannot be read as a URL. Otherwise it has the status 404 if no route suits, and if a route suits, the status 500 exactly if a parameter of the first such route cannot be
read by its parser or the asked page makes no sense, else 200 or, for objects, 404. In particular no request makes the program fail on its own data.
Missing for the full C109: outputs that can panic (C51_false) and parameters that an index cannot answer, as the empty text for a wildcard index; targets that the model of URLs leaves out. -/
theorem C109_answered_partial (service : ServiceLib) (hlib : RegexpContract service.find) (formatFloat : Int → Bytes) (hencode : service.encode = encodeJson formatFloat) (config : ConfigLib)
    (lib : StartLib) (hsort : SortContract lib.sort) (hret : ParsersReturn lib) (files : Files) (p : ParsedConfig) (texts : GoMap TextParser) (env : OutputEnv) (apis : GoMap OutputApi)
    (running : GoMap (String × List Route)) (hrun : Running config (lib.onFiles files) p texts env apis running) (hw : WellFormed config p) (hdef : PlainDefault p)
    (hvisit : ∀ (path : List Nat) (α : Type) (l : List α), (lib.visit path l).Perm l)
    (parseFloat : Bytes → Res GoFloat) (asked : String → List String) (tables : String → List (GoMap Value)) (st : Storage) (hst : lib.index = openIndex st)
    (hdata : ∀ x ∈ p.inputs, FileContent files parseFloat p env.parsers x (asked x.name) (tables x.name))
    (hstored : ∀ x ∈ p.inputs, StoredOn config lib files st p env.parsers x (asked x.name) (tables x.name))
    (s : ServiceDecl) (hs : s ∈ p.services) (hroutes : ∀ r ∈ s.routes, AnswerableRoute config (lib.onFiles files) st p env.parsers asked tables r) :
    ∃ routes, mapGet running s.name = some ("application/json", routes) ∧ routes.length = s.routes.length ∧
      ∀ (old : Bool) (visit : GoMap (List Bytes) → GoMap (List Bytes)), (∀ m, (visit m).Perm m) →
      ∀ (method contentType : String) (target : Bytes) (body : Res Bytes), readTarget old target ≠ .unmodelled →
        ∃ response, serveTarget service "application/json" routes old visit method contentType target body = some response ∧
          match readTarget old target with
          | .read path query =>
            let request : Request := { method := method, contentType := contentType, path := path, query := visit query, body := body }
            ((∀ r ∈ routes, ¬ Suits r request) ∧ response.status = 404) ∨
            ∃ (k : Nat) (hk : k < routes.length) (hk' : k < s.routes.length), FirstSuiting routes request routes[k] ∧ method = "GET" ∧
              ∃ (first : List Char) (placeholders : List (List Char × List Char)) (given : List (List Char)),
                s.routes[k].path.toList = template first placeholders ∧ path = filled first placeholders given ∧
                let params := requestParameters (placeholders.map (fun p => String.ofList p.1)) given (visit query)
                (Refused p env.parsers s.routes[k].output params ∧ ErrorResponse service.errorText 500 response) ∨
                (¬ Refused p env.parsers s.routes[k].output params ∧
                  (response.status = 200 ∨ response.status = 404 ∧ ∃ d, .object s.routes[k].output d ∈ p.outputs))
          | _ => response.status = 400 := by
  obtain ⟨routes, r1, r2, r3⟩ := hrun.services s hs
  refine ⟨routes, r1, r2, ?_⟩
  intro old visit hv method contentType target body hmod
  unfold serveTarget
  cases ht : readTarget old target with
  | bad => exact ⟨_, rfl, rfl⟩
  | unmodelled => exact absurd ht hmod
  | read path query =>
    have hq : GoodQuery (visit query) := goodQuery_perm (hv _) (readTarget_good ht)
    simp only
    generalize hreq : ({ method := method, contentType := contentType, path := path, query := visit query, body := body } : Request) = request
    have e1 : request.path = path := by rw [← hreq]
    have e2 : request.query = visit query := by rw [← hreq]
    have e3 : request.method = method := by rw [← hreq]
    rw [← e2] at hq
    rcases first_or_none routes request with ⟨route, hf⟩ | hnone
    · obtain ⟨k, hk, rfl⟩ := firstSuiting_index hf
      have hk' : k < s.routes.length := r2 ▸ hk
      obtain ⟨api, q1, q2, _⟩ := r3 k hk' hk
      have hparams : ∀ {placeholders : List (List Char × List Char)} {given : List (List Char)}, SeenAs service routes[k] request placeholders given →
          ∃ actual, getParams service routes[k] request = .ok actual ∧ ∀ n, mapGet actual n = mapGet (requestParameters (placeholders.map (fun p => String.ofList p.1)) given (visit query)) n := by
        intro placeholders given h
        rw [← e2]
        exact h
      cases hroutes _ (List.getElem_mem hk') with
      | list d ho hpath haskable hasked hfits hmax =>
        have houtput : RunsOutput env texts (completedOutput (.array s.routes[k].output d)) api := by
          obtain ⟨api', o1, o2⟩ := hrun.outputs _ ho
          rw [show mapGet apis (OutputDecl.name (.array s.routes[k].output d)) = _ from q1] at o1
          cases o1
          exact o2
        simp only [completedOutput, RunsOutput] at houtput
        obtain ⟨first, placeholders, parsers, g1, g2, g3, g4, g5⟩ := hpath
        obtain ⟨routes', a1, ha, a2, a3⟩ := list_from_tables service hlib formatFloat hencode config lib hsort files p texts env apis running hrun hw hdef hvisit s hs k hk' d ho first placeholders
          g1 g2 parsers g3 g4 g5 asked tables _ _ (foundIn config st p) (Askable config st p) (fun _ i _ _ hi hne h => (h i hi).resolve_left hne)
          (fun x hx => Spec.FileContent.hold hrun hw hx (hdata x hx) hst (hstored x hx)) hasked hfits
        rw [r1] at a1
        cases a1
        obtain ⟨given, t1, t2, hseen, t3⟩ := a3 request hf hq
        obtain ⟨hmethod, _⟩ := (a2 request).1 (by obtain ⟨_, _, _, h, _⟩ := hf; exact h)
        obtain ⟨actual, hget, hsame⟩ := hparams hseen
        generalize hp : requestParameters (placeholders.map (fun p => String.ofList p.1)) given (visit query) = params at hsame
        have hrefused : Refused p env.parsers s.routes[k].output params ↔ BadPaging (orText d.limit.parameter "limit") (orText d.offsetParameter "offset") params ∨
            Unreadable env.parsers (givenParameters (d.parameters.map (fun e => (e.1, completedParameter e.2))) params) := by
          constructor
          · rintro (⟨d', hd', h⟩ | ⟨d', hd', _⟩)
            · cases output_unique hw ho hd' rfl
              exact h
            · cases output_unique hw ho hd' rfl
          · exact fun h => .inl ⟨d, ho, h⟩
        by_cases hbad : Refused p env.parsers s.routes[k].output params
        · obtain ⟨m, hm⟩ := handleArray_refuses hrun hw ⟨hret.float, hret.charset⟩ hvisit ho (actual := actual) (relationships := completedRelationships d.relationships) (by
            rw [givenParameters_congr _ hsame]
            simpa only [BadPaging, hsame] using hrefused.1 hbad)
          obtain ⟨response, h1, h2⟩ := served_error hlib hf (by rw [q2, houtput]; rfl) hget (m := m) (by rw [q2, houtput]; exact hm)
          exact ⟨response, h1, .inr ⟨k, hk, hk', hf, e3.symm.trans hmethod, first, placeholders, given, g1, e1.symm.trans t2, .inl ⟨by rw [hp]; exact hbad, h2⟩⟩⟩
        · obtain ⟨conditions, limit, offset, c1, _, c3, c4⟩ := C90_others_are_read config (lib.onFiles files) p texts env apis running hrun hw _ d ho params (fun h => hbad (hrefused.2 h))
          obtain ⟨_, _, response, h1, h2, _⟩ := t3 params (by rw [e2]; exact hp.symm) conditions limit offset c1 (askable_reads haskable (by
            intro e he
            simp only [givenParameters, List.filterMap_map, List.mem_filterMap, Function.comp_def, Option.map_eq_some_iff] at he
            obtain ⟨⟨n, q⟩, hq, t, _, rfl⟩ := he
            exact ⟨n, q, hq, rfl⟩) c1) c3 c4 (by omega)
          exact ⟨response, h1, .inr ⟨k, hk, hk', hf, e3.symm.trans hmethod, first, placeholders, given, g1, e1.symm.trans t2, .inr ⟨by rw [hp]; exact hbad, .inl h2⟩⟩⟩
      | object d ho hpath haskable hasked hfits =>
        have houtput : RunsOutput env texts (completedOutput (.object s.routes[k].output d)) api := by
          obtain ⟨api', o1, o2⟩ := hrun.outputs _ ho
          rw [show mapGet apis (OutputDecl.name (.object s.routes[k].output d)) = _ from q1] at o1
          cases o1
          exact o2
        simp only [completedOutput, RunsOutput] at houtput
        obtain ⟨first, placeholders, parsers, g1, g2, g3, g4, g5⟩ := hpath
        obtain ⟨routes', a1, ha, a2, a3⟩ := object_from_tables service hlib formatFloat hencode config lib hsort files p texts env apis running hrun hw hdef hvisit s hs k hk' d ho first placeholders
          g1 g2 parsers g3 g4 g5 asked tables _ _ (foundIn config st p) (Askable config st p) (fun _ i _ _ hi hne h => (h i hi).resolve_left hne)
          (fun x hx => Spec.FileContent.hold hrun hw hx (hdata x hx) hst (hstored x hx)) hasked hfits
        rw [r1] at a1
        cases a1
        obtain ⟨given, t1, t2, hseen, t3⟩ := a3 request hf hq
        obtain ⟨hmethod, _⟩ := (a2 request).1 (by obtain ⟨_, _, _, h, _⟩ := hf; exact h)
        obtain ⟨actual, hget, hsame⟩ := hparams hseen
        generalize hp : requestParameters (placeholders.map (fun p => String.ofList p.1)) given (visit query) = params at hsame
        have hrefused : Refused p env.parsers s.routes[k].output params ↔
            Unreadable env.parsers (allParameters (d.parameters.map (fun e => (e.1, completedParameter e.2))) params) := by
          constructor
          · rintro (⟨d', hd', _⟩ | ⟨d', hd', h⟩)
            · cases output_unique hw ho hd' rfl
            · cases output_unique hw ho hd' rfl
              exact h
          · exact fun h => .inr ⟨d, ho, h⟩
        have hd := hw.outputs _ ho
        by_cases hbad : Refused p env.parsers s.routes[k].output params
        · obtain ⟨m, hm⟩ := handleObject_refuses hrun hw ⟨hret.float, hret.charset⟩ hvisit ho (actual := actual) (relationships := completedRelationships d.relationships) (by
            rw [allParameters_congr _ hsame]
            exact hrefused.1 hbad)
          obtain ⟨response, h1, h2⟩ := served_error hlib hf (by rw [q2, houtput]; rfl) hget (m := m) (by rw [q2, houtput]; exact hm)
          exact ⟨response, h1, .inr ⟨k, hk, hk', hf, e3.symm.trans hmethod, first, placeholders, given, g1, e1.symm.trans t2, .inl ⟨by rw [hp]; exact hbad, h2⟩⟩⟩
        · obtain ⟨conditions, c1, _⟩ := reads_of_readable (env := env) (l := allParameters (d.parameters.map (fun e => (e.1, completedParameter e.2))) params) (by
            intro e he
            simp only [allParameters, List.map_map, List.mem_map, Function.comp_def] at he
            obtain ⟨⟨n, q⟩, hq, rfl⟩ := he
            obtain ⟨_, _, x, hx, _⟩ := hd.2.2.2.1 n q hq
            obtain ⟨t, ht, _⟩ := hrun.parsers _ _ hx
            refine ⟨parse (lib.onFiles files).parserLib (texts.map (fun q => (q.1, q.2.config))) texts.length t.config, ?_⟩
            rw [hrun.functions, parseFunctions, mapGet_mapValues (fun q : TextParser => parse (lib.onFiles files).parserLib (texts.map (fun q => (q.1, q.2.config))) texts.length q.config)]
            exact congrArg (Option.map _) ht) (fun h => hbad (hrefused.2 h))
          obtain ⟨_, _, response, h1, h2⟩ := t3 params (by rw [e2]; exact hp.symm) conditions c1 (askable_reads haskable (by
            intro e he
            simp only [allParameters, List.map_map, List.mem_map, Function.comp_def] at he
            obtain ⟨⟨n, q⟩, hq, rfl⟩ := he
            exact ⟨n, q, hq, rfl⟩) c1)
          refine ⟨response, h1, .inr ⟨k, hk, hk', hf, e3.symm.trans hmethod, first, placeholders, given, g1, e1.symm.trans t2, .inr ⟨by rw [hp]; exact hbad, ?_⟩⟩⟩
          split at h2
          · exact .inr ⟨h2, d, ho⟩
          · exact .inl h2.1
    · have hresult : handleRequest service "application/json" routes request = (.header "X-Powered-By" "RODB (https://rodb-io.github.io/rodb/)" ::
          sendErrorResponse service "application/json" 404 "No matching route was found", .returned) := by
        simp only [handleRequest, getMatchingRoute_none hlib hnone]
      exact ⟨_, by rw [hresult]; rfl, .inl ⟨hnone, rfl⟩⟩

namespace AnsweredExample
theorem answerable {env : OutputEnv} (p1 : mapGet env.parsers "integer" = some (integerParse [])) (p2 : mapGet env.parsers "string" = some (fun cell => .ok (.str cell))) :
    ∀ r ∈ StoredFilesExample.api.routes, AnswerableRoute ConfigExample.lib ((StoredFilesExample.startLib FilesExample.noParsers).onFiles FilesExample.machine) StoredFilesExample.storage
      StoredFilesExample.parsed env.parsers StoredFilesExample.asked StoredFilesExample.tables r := by
  intro r hr
  simp only [StoredFilesExample.api, List.mem_cons, List.not_mem_nil, or_false] at hr
  rcases hr with rfl | rfl
  · refine .object StoredFilesExample.one (.tail _ (.head _)) ⟨"/one".toList, [], [], rfl, JsonFilesExample.good _ (by unfold PlainText; decide), trivial, by simp, by simp⟩ ?_
      (by decide) StoredFilesExample.fits
    intro name q hq parse text v hparse hv
    cases List.mem_singleton.1 hq
    rw [show orText "string" "string" = "string" from rfl, p2] at hparse
    cases hparse
    cases hv
    exact StoredFilesExample.askable_f _
  · refine .list StoredFilesExample.numbers (.tail _ (.tail _ (.head _))) ⟨"/by/".toList, EndToEndExample.placeholders, [.integer []], rfl, EndToEndExample.good,
      ⟨⟨_, ⟨"integer", .integer ""⟩, rfl, .inr ⟨by simp [StoredFilesExample.parsed], by simp [builtinParsers], rfl⟩, rfl⟩, trivial⟩, EndToEndExample.integer_route, by simp⟩ ?_
      (by decide) StoredFilesExample.fits (by decide)
    intro name q hq parse text v hparse hv
    cases List.mem_singleton.1 hq
    rw [show orText "integer" "string" = "integer" from rfl, p1] at hparse
    cases hparse
    unfold integerParse at hv
    split at hv
    · cases hv
      exact StoredFilesExample.askable_q _ _ (.int _)
    · cases hv
end AnsweredExample

/-- The second service of the example answers every request whatever its URL. -/
example (service : ServiceLib) (hlib : RegexpContract service.find) (hencode : service.encode = encodeJson JsonExample.format) : ∃ c running,
    loadConfigFile ProgramExample.file ConfigExample.lib "rodb.yaml" = .ok c ∧
    start ((StoredFilesExample.startLib FilesExample.noParsers).onFiles FilesExample.machine) c = .ok running ∧
    ∃ routes, mapGet running "api" = some ("application/json", routes) ∧ routes.length = 2 ∧
      ∀ (old : Bool) (method contentType : String) (target : Bytes) (body : Res Bytes), readTarget old target ≠ .unmodelled → ∃ response,
        serveTarget service "application/json" routes old id method contentType target body = some response ∧ response.status ∈ [200, 400, 404, 500] := by
  obtain ⟨hd, c, hload, hc⟩ := ProgramExample.loads
  obtain ⟨c', hc', running, hstart⟩ := StoredFilesExample.starts
  rw [hc] at hc'
  cases hc'
  refine ⟨c, running, hload, hstart, ?_⟩
  obtain ⟨texts, env, apis, hrun⟩ := C78_running _ _ _ _ _ hc ⟨.refl _, .refl _, .refl _, .refl _, .refl _⟩ running hstart
  have hw := (C76_accepted _ _).1 ⟨_, hc⟩
  obtain ⟨p1, p2⟩ := StoredFilesExample.parser hrun
  obtain ⟨routes, h1, h2, h3⟩ := C109_answered_partial service hlib _ hencode ConfigExample.lib (StoredFilesExample.startLib FilesExample.noParsers) goInsertionSort_contract
    ⟨fun _ => .inr ⟨_, rfl⟩, fun _ _ h => by cases h⟩ FilesExample.machine _ texts env apis running hrun hw StoredFilesExample.plain_default (fun _ _ _ => .refl _) JsonExample.parse
    StoredFilesExample.asked StoredFilesExample.tables StoredFilesExample.storage rfl (StoredFilesExample.data p1 p2) (StoredFilesExample.stored p1 p2) StoredFilesExample.api (.tail _ (.head _))
    (AnsweredExample.answerable p1 p2)
  refine ⟨routes, h1, h2, ?_⟩
  intro old method contentType target body hmod
  obtain ⟨response, g1, g2⟩ := h3 old id (fun _ => .refl _) method contentType target body hmod
  refine ⟨response, g1, ?_⟩
  split at g2
  · rcases g2 with ⟨_, h⟩ | ⟨_, _, _, _, _, _, _, _, _, _, ⟨_, h, _⟩ | ⟨_, h | ⟨h, _⟩⟩⟩ <;> simp [h]
  · simp [g2]

end Rodb
