import Verif.Props.ServiceProps
import Verif.Props.OutputProps
import Verif.Props.SameFilterProps
/-
  Properties of whole requests, from the HTTP request to the response: C68 and C69.
-/
namespace Rodb
open Spec

theorem mapGet_append {α : Type} (a b : GoMap α) (n : String) : mapGet (a ++ b) n = (mapGet a n).or (mapGet b n) := by
  induction a with
  | nil => simp [mapGet]
  | cons x a ih =>
    obtain ⟨k, v⟩ := x
    simp only [List.cons_append, mapGet]
    split
    · rfl
    · exact ih

theorem mapGet_find {α : Type} (a : GoMap α) (n : String) : mapGet a n = (a.find? (fun p => p.1 = n)).map (·.2) := by
  induction a with
  | nil => rfl
  | cons x a ih =>
    obtain ⟨k, v⟩ := x
    simp only [mapGet, List.find?_cons]
    by_cases h : k = n <;> simp [h, ih]

/-- The parameters of C53 as one map. -/
theorem requestParameters_get (names : List String) (texts : List (List Char)) (query : GoMap (List Bytes)) (hq : GoodQuery query) (n : String) :
    mapGet (requestParameters names texts query) n = ((placeholderValue names texts n).map utf8).or (queryValue query n) := by
  have h1 : mapGet ((names.zip (texts.map utf8)).reverse) n = (placeholderValue names texts n).map utf8 := by
    rw [mapGet_find, placeholderValue, List.zip_map_right, ← List.map_reverse, List.find?_map]
    simp only [Option.map_map]
    rfl
  have h2 : mapGet (query.filterMap (fun q => q.2.head?.map (fun v => (q.1, v)))) n = queryValue query n := by
    clear h1
    induction query with
    | nil => rfl
    | cons x query ih =>
      obtain ⟨k, vs⟩ := x
      match vs, hq, hq.2 (k, vs) (by simp) with
      | v :: vs, hq0, _ =>
        simp only [List.filterMap_cons, List.head?_cons, Option.map_some, mapGet, queryValue]
        split
        · rfl
        · exact ih ⟨(List.nodup_cons.1 hq0.1).2, fun q hq' => hq0.2 q (List.mem_cons_of_mem _ hq')⟩
  rw [requestParameters, mapGet_append, h1, h2]

theorem givenParameters_congr (parameters : GoMap ParamConfig) {a b : GoMap Bytes} (h : ∀ n, mapGet a n = mapGet b n) :
    givenParameters parameters a = givenParameters parameters b := by simp only [givenParameters, h]

theorem allParameters_congr (parameters : GoMap ParamConfig) {a b : GoMap Bytes} (h : ∀ n, mapGet a n = mapGet b n) :
    allParameters parameters a = allParameters parameters b := by simp only [allParameters, h]

/-- The response to a request whose output answers data. -/
theorem served_data {lib : ServiceLib} (hlib : RegexpContract lib.find) (hjson : EncoderContract lib.encode) {routes : List Route} {request : Request}
    {route : Route} (hf : FirstSuiting routes request route) (hnone : route.output.payloadType = none) {params : GoMap Bytes}
    (hp : getParams lib route request = .ok params) {v : Value} (hv : route.output.handle params [] = .data v) (hfin : ¬ HasNonFinite v) :
    ∃ text, lib.encode v = .ok text ∧ clientGets (handleRequest lib "application/json" routes request) = some
      { status := 200, headers := [("X-Powered-By", "RODB (https://rodb-io.github.io/rodb/)"),
          ("Content-Type", route.output.responseType ++ "; charset=UTF-8")], body := text } := by
  obtain ⟨text, ht, _⟩ := (hjson v).2 hfin
  refine ⟨text, ht, ?_⟩
  have hm := getMatchingRoute_first hlib hf
  have hpay : getPayload route request = .ok [] := by simp [getPayload, hnone]
  simp only [handleRequest, hm, serveRoute, hpay, hp, hv, sendAnswer, ht]
  rfl

/-- **C68** A GET request to a list output without relationships, through a route path made of plain texts and placeholders, from the request to the
response: if the parameters read from the path and the query string mean the conditions, the limit and the offset, the response has status 200
and the JSON text of the array of exactly the records that satisfy all the conditions, in order, after `offset` and at most `limit` of them.
(A path that can be read in several ways is read in one of them.)
Of several conditions on one property of one index, one counts (`kept`, see C45). -/
theorem C68_list_request (lib : ServiceLib) (hlib : RegexpContract lib.find) (hjson : EncoderContract lib.encode) (env : OutputEnv) (c : ArrayConfig)
    (textParsers : GoMap TextParser) (outputs : GoMap OutputApi) (name : String) (ho : mapGet outputs name = some (arrayApi env c textParsers))
    (first : List Char) (placeholders : List (List Char × List Char)) (hg : GoodTemplate first placeholders) (parsers : List TextParser)
    (hp : ParsersOf (arrayApi env c textParsers) placeholders parsers) (hr : ∀ p ∈ parsers, RouteParser p)
    (hu : ∀ p ∈ parsers.dropLast, Ungrouped p) (input : Input) (records : List Rec)
    (sat : String → String → Value → Rec → Bool) (acceptable : String → String → Value → Prop)
    (hin : mapGet env.inputs c.input = some input) (hdata : OutputData env input records sat acceptable) (hrel : c.relationships = [])
    (shown : Rec → GoMap Value) (hall : ∀ r ∈ records, r.all = .ok (shown r)) (hfin : ∀ r ∈ records, ¬ HasNonFinite (.obj (shown r))) :
    ∃ route, createRoute outputs name (template first placeholders) = .ok route ∧
      ∀ (routes : List Route) (request : Request), FirstSuiting routes request route → GoodQuery request.query →
        ∃ texts, PlaceholderTexts parsers texts ∧ request.path = filled first placeholders texts ∧
          ∀ (params : GoMap Bytes), params = requestParameters (placeholders.map (fun p => String.ofList p.1)) texts request.query →
          ∀ (conditions : List Condition) (limit offset : Nat), Reads env (givenParameters c.parameters params) conditions →
          (∀ c ∈ conditions, ∃ index, mapGet env.indexes c.index = some index) →
          (∀ c ∈ conditions, acceptable c.index c.property c.value) → AskedLimit c.limit params limit → AskedOffset c.offsetParameter params offset →
          min limit c.limit.max < 2^63 →
          ∃ kept, OneForEach conditions kept ∧ ∃ response text, clientGets (handleRequest lib "application/json" routes request) = some response ∧ response.status = 200 ∧
            mapGet response.headers "Content-Type" = some "application/json; charset=UTF-8" ∧ response.body = text ∧
            lib.encode (.arr ((((records.filter (fun r => kept.all (fun c => sat c.index c.property c.value r))).drop offset).take
              (min limit c.limit.max)).map (fun r => .obj (shown r)))) = .ok text := by
  obtain ⟨route, h1, h2, _, h4⟩ := C53_placeholders_partial lib hlib outputs name _ ho first placeholders hg parsers hp hr hu
  refine ⟨route, h1, fun routes request hf hq => ?_⟩
  obtain ⟨before, after, hroutes, hs, hbefore⟩ := hf
  obtain ⟨actual, texts, h5, h6, h7, h8⟩ := h4 request hs.2 hq
  refine ⟨texts, h6, h7, ?_⟩
  rintro params rfl conditions limit offset hreads hindex hacc hlimit hoffset hsmall
  have hcongr : ∀ n, mapGet actual n = mapGet (requestParameters (placeholders.map (fun p => String.ofList p.1)) texts request.query) n := by
    intro n; rw [h8, requestParameters_get _ _ _ hq]
  obtain ⟨kept, hkept, hlists⟩ := C45_one_for_each env c actual input records sat acceptable hin hdata conditions
    (by rw [givenParameters_congr _ hcongr]; exact hreads) hindex hacc limit offset (by simpa only [AskedLimit, hcongr] using hlimit)
    (by simpa only [AskedOffset, hcongr] using hoffset) hsmall
  rw [hrel] at hlists
  have hwin := lists_plain hlists shown (fun r hr => hall r (List.mem_filter.mp (List.mem_of_mem_drop (List.mem_of_mem_take hr))).1)
  have hhandle : route.output.handle actual [] = handleArray env c actual := by rw [h2]; rfl
  obtain ⟨text, ht, hresp⟩ := served_data hlib hjson ⟨before, after, hroutes, hs, hbefore⟩ (by rw [h2]; rfl) h5 (hhandle.trans hwin) (by
    intro h
    cases h with
    | arr hmem hbad =>
      obtain ⟨r, hr', rfl⟩ := List.mem_map.1 hmem
      exact hfin r (List.mem_filter.1 (List.mem_of_mem_drop (List.mem_of_mem_take hr'))).1 hbad)
  exact ⟨kept, hkept, _, text, hresp, rfl, by rw [h2]; rfl, rfl, ht⟩

namespace EndToEndExample
open OutputExample
def textParsers : GoMap TextParser := [("digit", .integer []), ("text", .string none)]
/-- /by/{number} -/
def placeholders : List (List Char × List Char) := [("number".toList, [])]
theorem good : GoodTemplate "/by/".toList placeholders :=
  ⟨by unfold PlainText; decide, by unfold PlainText; decide, by decide⟩
theorem integer_route : ∀ p ∈ [TextParser.integer []], RouteParser p := by
  intro p hp
  rw [List.mem_singleton.1 hp]
  exact List.not_mem_nil
def request : Request := { method := "GET", contentType := "", path := "/by/1".toList, query := [("letter", [[98]])], body := .ok [] }
theorem finite : ∀ r ∈ recs, ¬ HasNonFinite (.obj (shown r)) := by
  intro r hr h
  simp only [recs, List.mem_cons, List.not_mem_nil, or_false] at hr
  cases h with
  | obj hmem hbad =>
    rcases hr with rfl | rfl | rfl <;> simp only [shown, rec1, rec2, rec3, List.mem_cons, List.not_mem_nil, or_false, Prod.mk.injEq] at hmem <;>
      rcases hmem with ⟨rfl, rfl⟩ | ⟨rfl, rfl⟩ <;> cases hbad
/-- The only way to read the path. -/
theorem one_reading {first suffix name text : List Char} {texts : List (List Char)} {parser : TextParser} (h : PlaceholderTexts [parser] texts)
    (hp : first ++ text ++ suffix = filled first [(name, suffix)] texts) : texts = [text] := by
  match texts, h with
  | [t], _ =>
    simp only [filled, List.zipWith_cons_cons, List.zipWith_nil_left, List.flatten_cons, List.flatten_nil, List.append_nil] at hp
    rw [List.append_assoc, List.append_cancel_left_eq, List.append_cancel_right_eq] at hp
    rw [hp]
end EndToEndExample

/-- GET /by/1?letter=b on the route /by/{number}: the array with the second record. -/
example (lib : ServiceLib) (hlib : RegexpContract lib.find) (hjson : EncoderContract lib.encode)
    (visit : List Nat → {α : Type} → List α → List α) (hv : ∀ path α (l : List α), (visit path l).Perm l) :
    ∃ m, newMap OutputExample.cfg OutputExample.input = .ok m ∧
      ∃ route, createRoute [("out", arrayApi (OutputExample.env m visit) OutputExample.array EndToEndExample.textParsers)] "out"
          "/by/{number}".toList = .ok route ∧
        ∃ response, clientGets (handleRequest lib "application/json" [route] EndToEndExample.request) = some response ∧ response.status = 200 ∧
          lib.encode (.arr [.obj [("n", .int 1), ("s", .str [98])]]) = .ok response.body := by
  obtain ⟨m, h1, h2⟩ := OutputExample.data
  refine ⟨m, h1, ?_⟩
  have hparsers : ParsersOf (arrayApi (OutputExample.env m visit) OutputExample.array EndToEndExample.textParsers) EndToEndExample.placeholders
      [.integer []] := ⟨rfl, rfl, trivial⟩
  obtain ⟨route, h3, h4⟩ := C68_list_request lib hlib hjson (OutputExample.env m visit) OutputExample.array EndToEndExample.textParsers
    [("out", arrayApi (OutputExample.env m visit) OutputExample.array EndToEndExample.textParsers)] "out" rfl
    "/by/".toList EndToEndExample.placeholders EndToEndExample.good [.integer []] hparsers EndToEndExample.integer_route (by simp)
    OutputExample.input OutputExample.recs _ _ rfl (h2 visit hv) rfl OutputExample.shown OutputExample.shown_all EndToEndExample.finite
  refine ⟨route, h3, ?_⟩
  obtain ⟨route', h5, h6, h7, _⟩ := C53_placeholders_partial lib hlib
    [("out", arrayApi (OutputExample.env m visit) OutputExample.array EndToEndExample.textParsers)] "out" _ rfl "/by/".toList
    EndToEndExample.placeholders EndToEndExample.good [.integer []] hparsers EndToEndExample.integer_route (by simp)
  rw [h3] at h5
  cases h5
  obtain ⟨texts, h8, h9, h10⟩ := h4 [route] EndToEndExample.request
    ⟨[], [], rfl, ⟨.inl ⟨rfl, by rw [h6]; rfl⟩, (h7 _).2 ⟨["1".toList], ⟨⟨[], [], ['1'], rfl, by simp, .inl rfl, by simp, by
      unfold isDigitChar; decide⟩, trivial⟩, rfl⟩⟩, by simp⟩ ⟨by decide, by decide⟩
  have := EndToEndExample.one_reading (first := "/by/".toList) (suffix := []) (name := "number".toList) (text := ['1']) h8 (by
    rw [← show EndToEndExample.request.path = "/by/".toList ++ ['1'] ++ [] from rfl, h9]; rfl)
  subst this
  have hans := OutputExample.letter_answerable m visit 1 [98]
  obtain ⟨kept, hkept, response, text, g1, g2, _, rfl, g4⟩ := h10 _ rfl OutputExample.byBoth 100 0
    ⟨rfl, rfl, ⟨_, rfl, rfl⟩, rfl, rfl, ⟨_, rfl, rfl⟩, trivial⟩ hans.index hans.acceptable (.inl ⟨by decide, rfl⟩)
    (.inl ⟨by decide, rfl⟩) (by decide)
  simp only [hkept.all_eq hans.distinct] at g4
  exact ⟨response, g1, g2, g4⟩

/-- **C69** A GET request to an object output without relationships, through a route path made of plain texts and placeholders: if the parameters
mean the conditions, the response has status 200 and the JSON text of the first record, in order, that satisfies them all, or status 404 if there
is none.
Of several conditions on one property of one index, one counts (`kept`, see C45). -/
theorem C69_object_request (lib : ServiceLib) (hlib : RegexpContract lib.find) (hjson : EncoderContract lib.encode) (env : OutputEnv) (c : ObjectConfig)
    (textParsers : GoMap TextParser) (outputs : GoMap OutputApi) (name : String) (ho : mapGet outputs name = some (objectApi env c textParsers))
    (first : List Char) (placeholders : List (List Char × List Char)) (hg : GoodTemplate first placeholders) (parsers : List TextParser)
    (hp : ParsersOf (objectApi env c textParsers) placeholders parsers) (hr : ∀ p ∈ parsers, RouteParser p)
    (hu : ∀ p ∈ parsers.dropLast, Ungrouped p) (input : Input) (records : List Rec)
    (sat : String → String → Value → Rec → Bool) (acceptable : String → String → Value → Prop)
    (hin : mapGet env.inputs c.input = some input) (hdata : OutputData env input records sat acceptable) (hrel : c.relationships = [])
    (shown : Rec → GoMap Value) (hall : ∀ r ∈ records, r.all = .ok (shown r)) (hfin : ∀ r ∈ records, ¬ HasNonFinite (.obj (shown r))) :
    ∃ route, createRoute outputs name (template first placeholders) = .ok route ∧
      ∀ (routes : List Route) (request : Request), FirstSuiting routes request route → GoodQuery request.query →
        ∃ texts, PlaceholderTexts parsers texts ∧ request.path = filled first placeholders texts ∧
          ∀ (params : GoMap Bytes), params = requestParameters (placeholders.map (fun p => String.ofList p.1)) texts request.query →
          ∀ conditions : List Condition, Reads env (allParameters c.parameters params) conditions → (∀ c ∈ conditions, ∃ index, mapGet env.indexes c.index = some index) →
          (∀ c ∈ conditions, acceptable c.index c.property c.value) →
          ∃ kept, OneForEach conditions kept ∧ ∃ response, clientGets (handleRequest lib "application/json" routes request) = some response ∧
            match records.find? (fun r => kept.all (fun c => sat c.index c.property c.value r)) with
            | none => response.status = 404
            | some r => response.status = 200 ∧ mapGet response.headers "Content-Type" = some "application/json; charset=UTF-8" ∧
                lib.encode (.obj (shown r)) = .ok response.body := by
  obtain ⟨route, h1, h2, _, h4⟩ := C53_placeholders_partial lib hlib outputs name _ ho first placeholders hg parsers hp hr hu
  refine ⟨route, h1, fun routes request hf hq => ?_⟩
  obtain ⟨before, after, hroutes, hs, hbefore⟩ := hf
  obtain ⟨actual, texts, h5, h6, h7, h8⟩ := h4 request hs.2 hq
  refine ⟨texts, h6, h7, ?_⟩
  rintro params rfl conditions hreads hindex hacc
  have hcongr : ∀ n, mapGet actual n = mapGet (requestParameters (placeholders.map (fun p => String.ofList p.1)) texts request.query) n := by
    intro n; rw [h8, requestParameters_get _ _ _ hq]
  obtain ⟨kept, hkept, hfirst⟩ := C45_object_one_for_each env c actual input records sat acceptable hin hdata conditions
    (by rw [allParameters_congr _ hcongr]; exact hreads) hindex hacc
  refine ⟨kept, hkept, ?_⟩
  have hhandle : route.output.handle actual [] = handleObject env c actual := by rw [h2]; rfl
  cases hfind : records.find? (fun r => kept.all (fun c => sat c.index c.property c.value r)) with
  | none =>
    rw [hfind] at hfirst
    have hm := getMatchingRoute_first hlib ⟨before, after, hroutes, hs, hbefore⟩
    have hpay : getPayload route request = .ok [] := by simp [getPayload, h2, objectApi]
    have hres : handleRequest lib "application/json" routes request = (.header "X-Powered-By" "RODB (https://rodb-io.github.io/rodb/)" ::
        sendErrorResponse lib "application/json" 404 "Record not found", .returned) := by
      simp only [handleRequest, hm, serveRoute, hpay, h5, hhandle, show handleObject env c actual = .notFound from hfirst, sendAnswer]
    exact ⟨_, by rw [hres]; rfl, rfl⟩
  | some r =>
    rw [hfind] at hfirst
    have hmem := List.mem_of_find?_eq_some hfind
    have hdat : handleObject env c actual = .data (.obj (shown r)) := by
      simp only [hrel, ShowsRecord] at hfirst
      rcases hfirst with ⟨item, h, hs⟩ | ⟨e, h, hs⟩
      · rcases hs with ⟨e, _, he⟩ | ⟨data, path, hd, he⟩
        · cases he
        · rw [hall r hmem] at hd
          cases hd
          simp only [loadRelationships] at he
          cases he
          exact h
      · rcases hs with ⟨e, hd, he⟩ | ⟨data, path, hd, he⟩
        · rw [hall r hmem] at hd
          cases hd
        · simp only [loadRelationships] at he
          cases he
    obtain ⟨text, ht, hresp⟩ := served_data hlib hjson ⟨before, after, hroutes, hs, hbefore⟩ (by rw [h2]; rfl) h5 (hhandle.trans hdat) (hfin r hmem)
    exact ⟨_, hresp, rfl, by rw [h2]; rfl, ht⟩

/-- GET /by/1?letter=b on the route /by/{number}: the second record. -/
example (lib : ServiceLib) (hlib : RegexpContract lib.find) (hjson : EncoderContract lib.encode)
    (visit : List Nat → {α : Type} → List α → List α) (hv : ∀ path α (l : List α), (visit path l).Perm l) :
    ∃ m, newMap OutputExample.cfg OutputExample.input = .ok m ∧
      ∃ route, createRoute [("out", objectApi (OutputExample.env m visit) OutputExample.object EndToEndExample.textParsers)] "out"
          "/by/{number}".toList = .ok route ∧
        ∃ response, clientGets (handleRequest lib "application/json" [route] EndToEndExample.request) = some response ∧ response.status = 200 ∧
          lib.encode (.obj [("n", .int 1), ("s", .str [98])]) = .ok response.body := by
  obtain ⟨m, h1, h2⟩ := OutputExample.data
  refine ⟨m, h1, ?_⟩
  have hparsers : ParsersOf (objectApi (OutputExample.env m visit) OutputExample.object EndToEndExample.textParsers) EndToEndExample.placeholders
      [.integer []] := ⟨rfl, rfl, trivial⟩
  obtain ⟨route, h3, h4⟩ := C69_object_request lib hlib hjson (OutputExample.env m visit) OutputExample.object EndToEndExample.textParsers
    [("out", objectApi (OutputExample.env m visit) OutputExample.object EndToEndExample.textParsers)] "out" rfl
    "/by/".toList EndToEndExample.placeholders EndToEndExample.good [.integer []] hparsers EndToEndExample.integer_route (by simp)
    OutputExample.input OutputExample.recs _ _ rfl (h2 visit hv) rfl OutputExample.shown OutputExample.shown_all EndToEndExample.finite
  refine ⟨route, h3, ?_⟩
  obtain ⟨route', h5, h6, h7, _⟩ := C53_placeholders_partial lib hlib
    [("out", objectApi (OutputExample.env m visit) OutputExample.object EndToEndExample.textParsers)] "out" _ rfl "/by/".toList
    EndToEndExample.placeholders EndToEndExample.good [.integer []] hparsers EndToEndExample.integer_route (by simp)
  rw [h3] at h5
  cases h5
  obtain ⟨texts, h8, h9, h10⟩ := h4 [route] EndToEndExample.request
    ⟨[], [], rfl, ⟨.inl ⟨rfl, by rw [h6]; rfl⟩, (h7 _).2 ⟨["1".toList], ⟨⟨[], [], ['1'], rfl, by simp, .inl rfl, by simp, by
      unfold isDigitChar; decide⟩, trivial⟩, rfl⟩⟩, by simp⟩ ⟨by decide, by decide⟩
  have := EndToEndExample.one_reading (first := "/by/".toList) (suffix := []) (name := "number".toList) (text := ['1']) h8 (by
    rw [← show EndToEndExample.request.path = "/by/".toList ++ ['1'] ++ [] from rfl, h9]; rfl)
  subst this
  have hans := OutputExample.letter_answerable m visit 1 [98]
  obtain ⟨kept, hkept, response, g1, g2⟩ := h10 _ rfl OutputExample.byBoth
    ⟨rfl, rfl, ⟨_, rfl, rfl⟩, rfl, rfl, ⟨_, rfl, rfl⟩, trivial⟩ hans.index hans.acceptable
  simp only [hkept.all_eq hans.distinct] at g2
  exact ⟨response, g1, g2.1, g2.2.2⟩

end Rodb
