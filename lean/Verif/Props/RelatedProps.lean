import Verif.Spec.RelatedData
import Verif.Props.RunningProps
import Verif.Props.RelationshipProps
/-
  C79 for outputs with relationships: from the configuration file to the responses.
-/
namespace Rodb
open Spec

theorem relationshipsAll_mem {rels : List (String × Relationship)} {name : String} {r : Relationship} (h : (name, r) ∈ rels) :
    ∀ q ∈ relationshipWithNested r, q ∈ relationshipsAll rels := by
  induction rels with
  | nil => cases h
  | cons e rels ih =>
    obtain ⟨n, s⟩ := e
    intro q hq
    simp only [relationshipsAll, List.mem_append]
    rcases List.mem_cons.1 h with h | h
    · cases h; exact .inl hq
    · exact .inr (ih h q hq)

theorem completedRelationships_map (rels : List (String × Relationship)) :
    completedRelationships rels = rels.map (fun e => (e.1, completedRelationship e.2)) := by
  induction rels with
  | nil => rfl
  | cons e rels ih => obtain ⟨n, r⟩ := e; simp only [completedRelationships, List.map_cons, ih]

mutual
theorem depth_completed : ∀ r : Relationship, (completedRelationship r).depth = r.depth
  | .mk _ _ _ _ _ rels => by simp only [completedRelationship, Relationship.depth, depthOf_completed rels]
theorem depthOf_completed : ∀ rels : List (String × Relationship), depthOf (completedRelationships rels) = depthOf rels
  | [] => rfl
  | (_, r) :: rest => by simp only [completedRelationships, depthOf, depth_completed r, depthOf_completed rest]
end

/-- The data, with the filters that can be asked of the indexes of an accepted configuration. -/
def askableWorld (p : ParsedConfig) (asked : String → List String) (w : World) : World :=
  { w with acceptable := fun input => askable p input (asked input) (w.acceptable input) }

theorem loaded_askable {p : ParsedConfig} {asked : String → List String} {w : World} {order : List SortConfig → List Rec → List Rec} :
    ∀ {depth : Nat} {data : GoMap Value} {rels : List (String × Relationship)} {shown : GoMap Value},
    Loaded (askableWorld p asked w) order depth data rels shown → Loaded w order depth data rels shown
  | 0, _, _, _, h => h
  | depth + 1, _, _, _, ⟨h1, h2⟩ => by
    refine ⟨h1, fun name rel hm => ?_⟩
    obtain ⟨v, h3, h4⟩ := h2 name rel hm
    refine ⟨v, h3, ?_⟩
    exact HoldsRelated.imp (w := w) (fun d rels out h => loaded_askable h) (by cases rel; exact h4)

section
variable {config : ConfigLib} {lib : StartLib} {p : ParsedConfig} {texts : GoMap TextParser} {env : OutputEnv} {apis : GoMap OutputApi}
  {running : GoMap (String × List Route)}

theorem Running.behind (hrun : Running config lib p texts env apis running) (hw : WellFormed config p) (hdef : PlainDefault p)
    (hvisit : ∀ (path : List Nat) (α : Type) (l : List α), (lib.visit path l).Perm l) {asked : String → List String} {w : World}
    (hworld : WorldOf config lib p env.parsers asked w) : (askableWorld p asked w).Behind env := by
  intro name input hin
  obtain ⟨x, hx, rfl⟩ := hrun.inputNames name input hin
  obtain ⟨input', h1, h2⟩ := Running.data hrun hw hdef hvisit hx (hworld.records x hx) (hworld.finds x hx)
  rw [hin] at h1
  cases h1
  exact h2

theorem Running.suitable (hrun : Running config lib p texts env apis running) {asked : String → List String} {w : World}
    (hworld : WorldOf config lib p env.parsers asked w) : ∀ {depth : Nat} {parent : String} {rels : List (String × Relationship)},
    (∀ r ∈ relationshipsAll rels, WellFormedRelationship p r) → Fits p asked w depth parent rels →
    Suitable (askableWorld p asked w) env depth parent (completedRelationships rels)
  | 0, parent, rels, _, h => by
    rw [show rels = [] from h]
    rfl
  | depth + 1, parent, rels, hwf, ⟨h1, h2⟩ => by
    have hnames : (completedRelationships rels).map (·.1) = rels.map (·.1) := by rw [completedRelationships_map, List.map_map]; rfl
    refine ⟨by rw [hnames]; exact h1, ?_⟩
    intro name input isArray limit sort ms nested hm
    rw [completedRelationships_map] at hm
    obtain ⟨⟨name', rel⟩, hmem, he⟩ := List.mem_map.1 hm
    obtain ⟨input', isArray', limit', sort', ms', nested'⟩ := rel
    simp only [completedRelationship, Prod.mk.injEq, Relationship.mk.injEq] at he
    obtain ⟨rfl, rfl, rfl, rfl, rfl, rfl, rfl⟩ := he
    obtain ⟨k1, k2, k3, k4, k5⟩ := h2 _ _ _ _ _ _ _ hmem
    obtain ⟨⟨x, hx, hxn⟩, _, _, _, hnd, hsearch⟩ := hwf _ (relationshipsAll_mem hmem _ (.head _))
    obtain ⟨_, i, _, _, hin⟩ := hrun.inputs x hx
    refine ⟨⟨i, hxn ▸ hin⟩, k1, ?_, ?_, ?_, ?_, ?_, ?_⟩
    · intro m hm
      obtain ⟨m, hm', rfl⟩ := List.mem_map.1 hm
      obtain ⟨j, hj, _⟩ := hsearch m hm'
      obtain ⟨index, hi, _⟩ := hrun.indexes _ _ hj
      exact ⟨index, hi⟩
    · rw [List.map_map]
      rw [List.Nodup, List.pairwise_map] at hnd ⊢
      exact hnd.imp (fun h e => h (congrArg Prod.snd e))
    · intro m hm
      obtain ⟨m, hm', rfl⟩ := List.mem_map.1 hm
      rw [hnames]
      exact k2 m hm'
    · intro r hr d hd m hm
      obtain ⟨m, hm', rfl⟩ := List.mem_map.1 hm
      obtain ⟨v, hv, hs, hacc⟩ := k4 r hr d hd m hm'
      obtain ⟨j, hj, hse⟩ := hsearch m hm'
      refine ⟨v, hv, hs, ⟨j, hj, hse, ?_⟩, k3 m hm'⟩
      exact Classical.or_iff_not_imp_left.2 (hacc j hj)
    · intro r hr
      obtain ⟨d, hd, _⟩ := hworld.shown _ r hr
      exact ⟨d, hd⟩
    · exact Running.suitable hrun hworld (fun r hr => hwf r (relationshipsAll_mem hmem _ (.tail _ hr))) k5
end

/-- A request to a route, when the output has an answer. -/
theorem served_route (service : ServiceLib) (hlib : RegexpContract service.find) (hjson : EncoderContract service.encode) {outputs : GoMap OutputApi} {name : String}
    {api : OutputApi} (ho : mapGet outputs name = some api) (hpay : api.payloadType = none) {first : List Char} {placeholders : List (List Char × List Char)}
    (hg : GoodTemplate first placeholders) {parsers : List TextParser} (hp : ParsersOf api placeholders parsers) (hr : ∀ p ∈ parsers, RouteParser p)
    (hu : ∀ p ∈ parsers.dropLast, Ungrouped p) :
    ∃ route, createRoute outputs name (template first placeholders) = .ok route ∧
      (∀ request : Request, Suits route request ↔ request.method = "GET" ∧ ∃ given, PlaceholderTexts parsers given ∧ request.path = filled first placeholders given) ∧
      ∀ (routes : List Route) (request : Request), FirstSuiting routes request route → GoodQuery request.query →
        ∃ given, PlaceholderTexts parsers given ∧ request.path = filled first placeholders given ∧
          ∃ actual, getParams service route request = .ok actual ∧
            (∀ n, mapGet actual n = mapGet (requestParameters (placeholders.map (fun p => String.ofList p.1)) given request.query) n) ∧
            (∀ v, api.handle actual [] = .data v → ¬ HasNonFinite v → ∃ response,
              clientGets (handleRequest service "application/json" routes request) = some response ∧ response.status = 200 ∧
              mapGet response.headers "Content-Type" = some (api.responseType ++ "; charset=UTF-8") ∧ service.encode v = .ok response.body) ∧
            (api.handle actual [] = .notFound → ∃ response,
              clientGets (handleRequest service "application/json" routes request) = some response ∧ response.status = 404) := by
  obtain ⟨route, h1, h2, h3, h4⟩ := C53_placeholders_partial service hlib outputs name _ ho first placeholders hg parsers hp hr hu
  refine ⟨route, h1, fun request => ?_, fun routes request hf hq => ?_⟩
  · simp only [Suits, h3, h2]
    constructor
    · rintro ⟨⟨a, _⟩ | ⟨_, a⟩, b⟩
      · exact ⟨a, b⟩
      · rw [hpay] at a; cases a
    · rintro ⟨a, b⟩
      exact ⟨.inl ⟨a, hpay⟩, b⟩
  obtain ⟨before, after, hroutes, hs, hbefore⟩ := hf
  obtain ⟨actual, given, h5, h6, h7, h8⟩ := h4 request hs.2 hq
  refine ⟨given, h6, h7, actual, h5, fun n => by rw [h8, requestParameters_get _ _ _ hq], fun v hv hfin => ?_, fun hv => ?_⟩
  · obtain ⟨text, ht, hresp⟩ := served_data hlib hjson ⟨before, after, hroutes, hs, hbefore⟩ (by rw [h2]; exact hpay) h5 (by rw [h2]; exact hv) hfin
    exact ⟨_, hresp, rfl, by rw [h2]; rfl, ht⟩
  · have hm := getMatchingRoute_first hlib ⟨before, after, hroutes, hs, hbefore⟩
    have hload : getPayload route request = .ok [] := by simp [getPayload, h2, hpay]
    have hres : handleRequest service "application/json" routes request = (.header "X-Powered-By" "RODB (https://rodb-io.github.io/rodb/)" ::
        sendErrorResponse service "application/json" 404 "Record not found", .returned) := by
      simp only [handleRequest, hm, serveRoute, hload, h5, h2, hv, sendAnswer]
    exact ⟨_, by rw [hres]; rfl, rfl⟩

/-- The parameters that the handler gets: these texts for the placeholders of the path, and the query string. -/
def SeenAs (service : ServiceLib) (route : Route) (request : Request) (placeholders : List (List Char × List Char)) (given : List (List Char)) : Prop :=
  ∃ actual, getParams service route request = .ok actual ∧ ∀ n, mapGet actual n = mapGet (requestParameters (placeholders.map (fun p => String.ofList p.1)) given request.query) n

/-- C79 for lists with relationships, with the parameters that the handler gets. -/
theorem list_related (service : ServiceLib) (hlib : RegexpContract service.find) (hjson : EncoderContract service.encode) (config : ConfigLib)
    (lib : StartLib) (hsort : SortContract lib.sort) (p : ParsedConfig) (texts : GoMap TextParser) (env : OutputEnv) (apis : GoMap OutputApi)
    (running : GoMap (String × List Route)) (hrun : Running config lib p texts env apis running) (hw : WellFormed config p) (hdef : PlainDefault p)
    (hvisit : ∀ (path : List Nat) (α : Type) (l : List α), (lib.visit path l).Perm l)
    (s : ServiceDecl) (hs : s ∈ p.services) (k : Nat) (hk : k < s.routes.length) (d : ArrayConfig) (ho : .array s.routes[k].output d ∈ p.outputs)
    (first : List Char) (placeholders : List (List Char × List Char)) (hpath : s.routes[k].path.toList = template first placeholders)
    (hg : GoodTemplate first placeholders) (parsers : List TextParser) (hp : PlaceholderParsers lib p d.parameters placeholders parsers)
    (hr : ∀ p ∈ parsers, RouteParser p) (hu : ∀ p ∈ parsers.dropLast, Ungrouped p)
    (asked : String → List String) (w : World) (hworld : WorldOf config lib p env.parsers asked w) (hasked : ∀ q ∈ filteredValues p d.parameters, q ∈ asked d.input)
    (hfits : Fits p asked w (depthOf d.relationships) d.input d.relationships) :
    ∃ routes, mapGet running s.name = some ("application/json", routes) ∧ ∃ h : k < routes.length,
      (∀ request : Request, Suits routes[k] request ↔
        request.method = "GET" ∧ ∃ given, PlaceholderTexts parsers given ∧ request.path = filled first placeholders given) ∧
      ∀ request : Request, FirstSuiting routes request routes[k] → GoodQuery request.query →
        ∃ given, PlaceholderTexts parsers given ∧ request.path = filled first placeholders given ∧
          SeenAs service routes[k] request placeholders given ∧ ∀ params : GoMap Bytes, params = requestParameters (placeholders.map (fun p => String.ofList p.1)) given request.query →
          ∀ (conditions : List Condition) (limit offset : Nat),
            Reads env (givenParameters (d.parameters.map (fun e => (e.1, completedParameter e.2))) params) conditions →
            (∀ c ∈ conditions, ∀ i, IsIndex p c.index i → ¬ FindsEqual i → w.acceptable d.input c.index c.property c.value) →
            AskedLimit ⟨orNumber d.limit.default 100, orNumber d.limit.max 1000, orText d.limit.parameter "limit"⟩ params limit →
            AskedOffset (orText d.offsetParameter "offset") params offset → min limit (orNumber d.limit.max 1000) < 2^63 →
            ∃ kept, OneForEach conditions kept ∧
            let window := (((w.records d.input).filter (fun r => kept.all (fun c => w.sat d.input c.index c.property c.value r))).drop offset).take
              (min limit (orNumber d.limit.max 1000))
            ∃ response, clientGets (handleRequest service "application/json" routes request) = some response ∧ response.status = 200 ∧
              mapGet response.headers "Content-Type" = some "application/json; charset=UTF-8" ∧
              ∃ rows : List (GoMap Value), service.encode (.arr (rows.map .obj)) = .ok response.body ∧ rows.length = window.length ∧
                ∀ k (h : k < window.length) (h' : k < rows.length), ∃ data, window[k].all = .ok data ∧
                  Loaded w (sortRecords lib.sort) (depthOf d.relationships) data (completedRelationships d.relationships) rows[k] := by
  obtain ⟨routes, h1, h2, h3⟩ := Running.route hrun hs k hk
  refine ⟨routes, h1, h2, ?_⟩
  obtain ⟨api, h4, h5⟩ := hrun.outputs _ ho
  have hd := hw.outputs _ ho
  obtain ⟨x, hx, hxn⟩ := hd.2.1
  obtain ⟨_, input, _, _, h6⟩ := hrun.inputs x hx
  have hbehind := Running.behind hrun hw hdef hvisit hworld
  have hsuit := Running.suitable hrun hworld hd.2.2.2.2 hfits
  rw [← depthOf_completed] at hsuit
  simp only [completedOutput, RunsOutput] at h5
  rw [h5] at h4
  have hparsers := Running.placeholders hrun (api := api) (parameters := d.parameters) (fun n q hq => by
      rw [h5]; simp only [arrayApi]; rw [mapGet_mapValues, hq]; rfl) (fun n q t hq ht => by
      rw [h5]; simp only [arrayApi]; rw [mapGet_mapValues, hq]; simp only [Option.map_some, completedParameter]; rw [ht]) hp
  rw [h5] at hparsers
  obtain ⟨route, h7, h8, h9⟩ := served_route service hlib hjson (name := s.routes[k].output) h4 rfl hg hparsers hr hu
  rw [hpath, h7] at h3
  have h3 := Except.ok.inj h3
  rw [← h3]
  refine ⟨h8, fun request hf hq => ?_⟩
  obtain ⟨given, g1, g2, actual, g0, g3, g4, _⟩ := h9 routes request hf hq
  refine ⟨given, g1, g2, ⟨actual, g0, g3⟩, ?_⟩
  rintro params rfl conditions limit offset hreads hacc hlimit hoffset hsmall
  have hans := Running.answerable hrun (input := d.input) (parameters := d.parameters) (asked := asked d.input)
    hasked (fun n q hq => (hd.2.2.2.1 n q hq).1) (by
    intro e he
    simp only [givenParameters, List.filterMap_map, List.mem_filterMap, Function.comp_def, Option.map_eq_some_iff] at he
    obtain ⟨⟨n, q⟩, hq, t, _, rfl⟩ := he
    exact ⟨n, q, hq, rfl⟩) hreads hacc
  obtain ⟨kept, hkept, rows, k1, k2, k3⟩ := handleArray_kept env (askableWorld p asked w) hbehind (by rw [hrun.sort]; exact hsort)
    { input := d.input, limit := ⟨orNumber d.limit.default 100, orNumber d.limit.max 1000, orText d.limit.parameter "limit"⟩, offsetParameter := orText d.offsetParameter "offset", parameters := d.parameters.map (fun e => (e.1, completedParameter e.2)), relationships := completedRelationships d.relationships } actual input
    (by rw [hxn] at h6; exact h6) hsuit (fun r hr => let ⟨d, hd, _⟩ := hworld.shown _ r hr; ⟨d, hd⟩) conditions
    (by rw [givenParameters_congr _ g3]; exact hreads) hans.1 hans.2 limit offset (by simpa only [AskedLimit, g3] using hlimit)
    (by simpa only [AskedOffset, g3] using hoffset) hsmall
  refine ⟨kept, hkept, ?_⟩
  intro window
  have hfinite : AllFinite (askableWorld p asked w) := by
    intro name r hr e he
    obtain ⟨d', hd', hf'⟩ := hworld.shown name r hr
    rw [hd'] at he
    cases he
    exact hf'
  obtain ⟨response, l1, l2, l3, l4⟩ := g4 _ k1 (by
    intro hbad
    cases hbad with
    | arr hm hb =>
      obtain ⟨row, hrow, rfl⟩ := List.mem_map.1 hm
      obtain ⟨j, hj, rfl⟩ := List.getElem_of_mem hrow
      obtain ⟨_, _, _, hfin⟩ := k3 j (k2 ▸ hj) hj
      exact hfin hfinite hb)
  refine ⟨response, l1, l2, l3, rows, l4, k2, fun j hj hj' => ?_⟩
  obtain ⟨data, m1, m2, _⟩ := k3 j hj hj'
  rw [hrun.sort, depthOf_completed] at m2
  exact ⟨data, m1, loaded_askable m2⟩

/-- **C79** From the configuration file to the response, for lists with relationships nested to any depth: the response has
status 200 and the JSON text of an array with one object for each record of the asked window, in order: its properties with the relationships loaded.
Of several conditions on one property of one index, one counts (`kept`, see C45). -/
theorem C79_list_related_partial (service : ServiceLib) (hlib : RegexpContract service.find) (hjson : EncoderContract service.encode) (config : ConfigLib)
    (lib : StartLib) (hsort : SortContract lib.sort) (p : ParsedConfig) (texts : GoMap TextParser) (env : OutputEnv) (apis : GoMap OutputApi)
    (running : GoMap (String × List Route)) (hrun : Running config lib p texts env apis running) (hw : WellFormed config p) (hdef : PlainDefault p)
    (hvisit : ∀ (path : List Nat) (α : Type) (l : List α), (lib.visit path l).Perm l)
    (s : ServiceDecl) (hs : s ∈ p.services) (k : Nat) (hk : k < s.routes.length) (d : ArrayConfig) (ho : .array s.routes[k].output d ∈ p.outputs)
    (first : List Char) (placeholders : List (List Char × List Char)) (hpath : s.routes[k].path.toList = template first placeholders)
    (hg : GoodTemplate first placeholders) (parsers : List TextParser) (hp : PlaceholderParsers lib p d.parameters placeholders parsers)
    (hr : ∀ p ∈ parsers, RouteParser p) (hu : ∀ p ∈ parsers.dropLast, Ungrouped p)
    (asked : String → List String) (w : World) (hworld : WorldOf config lib p env.parsers asked w) (hasked : ∀ q ∈ filteredValues p d.parameters, q ∈ asked d.input)
    (hfits : Fits p asked w (depthOf d.relationships) d.input d.relationships) :
    ∃ routes, mapGet running s.name = some ("application/json", routes) ∧ ∃ h : k < routes.length,
      (∀ request : Request, Suits routes[k] request ↔
        request.method = "GET" ∧ ∃ given, PlaceholderTexts parsers given ∧ request.path = filled first placeholders given) ∧
      ∀ request : Request, FirstSuiting routes request routes[k] → GoodQuery request.query →
        ∃ given, PlaceholderTexts parsers given ∧ request.path = filled first placeholders given ∧
          ∀ params : GoMap Bytes, params = requestParameters (placeholders.map (fun p => String.ofList p.1)) given request.query →
          ∀ (conditions : List Condition) (limit offset : Nat),
            Reads env (givenParameters (d.parameters.map (fun e => (e.1, completedParameter e.2))) params) conditions →
            (∀ c ∈ conditions, ∀ i, IsIndex p c.index i → ¬ FindsEqual i → w.acceptable d.input c.index c.property c.value) →
            AskedLimit ⟨orNumber d.limit.default 100, orNumber d.limit.max 1000, orText d.limit.parameter "limit"⟩ params limit →
            AskedOffset (orText d.offsetParameter "offset") params offset → min limit (orNumber d.limit.max 1000) < 2^63 →
            ∃ kept, OneForEach conditions kept ∧
            let window := (((w.records d.input).filter (fun r => kept.all (fun c => w.sat d.input c.index c.property c.value r))).drop offset).take
              (min limit (orNumber d.limit.max 1000))
            ∃ response, clientGets (handleRequest service "application/json" routes request) = some response ∧ response.status = 200 ∧
              mapGet response.headers "Content-Type" = some "application/json; charset=UTF-8" ∧
              ∃ rows : List (GoMap Value), service.encode (.arr (rows.map .obj)) = .ok response.body ∧ rows.length = window.length ∧
                ∀ k (h : k < window.length) (h' : k < rows.length), ∃ data, window[k].all = .ok data ∧
                  Loaded w (sortRecords lib.sort) (depthOf d.relationships) data (completedRelationships d.relationships) rows[k] := by
  obtain ⟨routes, h1, h2, h3, h4⟩ := list_related service hlib hjson config lib hsort p texts env apis running hrun hw hdef hvisit s hs k hk d ho first placeholders hpath hg parsers hp hr hu asked w
    hworld hasked hfits
  refine ⟨routes, h1, h2, h3, fun request hf hq => ?_⟩
  obtain ⟨given, g1, g2, _, g3⟩ := h4 request hf hq
  refine ⟨given, g1, g2, fun params hparams conditions limit offset hreads hacc hlimit hoffset hsmall =>
    g3 params hparams conditions limit offset hreads hacc hlimit hoffset hsmall⟩

/-- C79 for objects with relationships, with the parameters that the handler gets. -/
theorem object_related (service : ServiceLib) (hlib : RegexpContract service.find) (hjson : EncoderContract service.encode) (config : ConfigLib)
    (lib : StartLib) (hsort : SortContract lib.sort) (p : ParsedConfig) (texts : GoMap TextParser) (env : OutputEnv) (apis : GoMap OutputApi)
    (running : GoMap (String × List Route)) (hrun : Running config lib p texts env apis running) (hw : WellFormed config p) (hdef : PlainDefault p)
    (hvisit : ∀ (path : List Nat) (α : Type) (l : List α), (lib.visit path l).Perm l)
    (s : ServiceDecl) (hs : s ∈ p.services) (k : Nat) (hk : k < s.routes.length) (d : ObjectConfig) (ho : .object s.routes[k].output d ∈ p.outputs)
    (first : List Char) (placeholders : List (List Char × List Char)) (hpath : s.routes[k].path.toList = template first placeholders)
    (hg : GoodTemplate first placeholders) (parsers : List TextParser) (hp : PlaceholderParsers lib p d.parameters placeholders parsers)
    (hr : ∀ p ∈ parsers, RouteParser p) (hu : ∀ p ∈ parsers.dropLast, Ungrouped p)
    (asked : String → List String) (w : World) (hworld : WorldOf config lib p env.parsers asked w) (hasked : ∀ q ∈ filteredValues p d.parameters, q ∈ asked d.input)
    (hfits : Fits p asked w (depthOf d.relationships) d.input d.relationships) :
    ∃ routes, mapGet running s.name = some ("application/json", routes) ∧ ∃ h : k < routes.length,
      (∀ request : Request, Suits routes[k] request ↔
        request.method = "GET" ∧ ∃ given, PlaceholderTexts parsers given ∧ request.path = filled first placeholders given) ∧
      ∀ request : Request, FirstSuiting routes request routes[k] → GoodQuery request.query →
        ∃ given, PlaceholderTexts parsers given ∧ request.path = filled first placeholders given ∧
          SeenAs service routes[k] request placeholders given ∧ ∀ params : GoMap Bytes, params = requestParameters (placeholders.map (fun p => String.ofList p.1)) given request.query →
          ∀ conditions : List Condition, Reads env (allParameters (d.parameters.map (fun e => (e.1, completedParameter e.2))) params) conditions →
            (∀ c ∈ conditions, ∀ i, IsIndex p c.index i → ¬ FindsEqual i → w.acceptable d.input c.index c.property c.value) →
            ∃ kept, OneForEach conditions kept ∧ ∃ response, clientGets (handleRequest service "application/json" routes request) = some response ∧
              match (w.records d.input).find? (fun r => kept.all (fun c => w.sat d.input c.index c.property c.value r)) with
              | none => response.status = 404
              | some r => response.status = 200 ∧ mapGet response.headers "Content-Type" = some "application/json; charset=UTF-8" ∧
                  ∃ data shown, r.all = .ok data ∧ service.encode (.obj shown) = .ok response.body ∧
                    Loaded w (sortRecords lib.sort) (depthOf d.relationships) data (completedRelationships d.relationships) shown := by
  obtain ⟨routes, h1, h2, h3⟩ := Running.route hrun hs k hk
  refine ⟨routes, h1, h2, ?_⟩
  obtain ⟨api, h4, h5⟩ := hrun.outputs _ ho
  have hd := hw.outputs _ ho
  obtain ⟨x, hx, hxn⟩ := hd.2.1
  obtain ⟨_, input, _, _, h6⟩ := hrun.inputs x hx
  have hbehind := Running.behind hrun hw hdef hvisit hworld
  have hsuit := Running.suitable hrun hworld hd.2.2.2.2 hfits
  rw [← depthOf_completed] at hsuit
  simp only [completedOutput, RunsOutput] at h5
  rw [h5] at h4
  have hparsers := Running.placeholders hrun (api := api) (parameters := d.parameters) (fun n q hq => by
      rw [h5]; simp only [objectApi]; rw [mapGet_mapValues, hq]; rfl) (fun n q t hq ht => by
      rw [h5]; simp only [objectApi]; rw [mapGet_mapValues, hq]; simp only [Option.map_some, completedParameter]; rw [ht]) hp
  rw [h5] at hparsers
  obtain ⟨route, h7, h8, h9⟩ := served_route service hlib hjson (name := s.routes[k].output) h4 rfl hg hparsers hr hu
  rw [hpath, h7] at h3
  have h3 := Except.ok.inj h3
  rw [← h3]
  refine ⟨h8, fun request hf hq => ?_⟩
  obtain ⟨given, g1, g2, actual, g0, g3, g4, g5⟩ := h9 routes request hf hq
  refine ⟨given, g1, g2, ⟨actual, g0, g3⟩, ?_⟩
  rintro params rfl conditions hreads hacc
  have hans := Running.answerable hrun (input := d.input) (parameters := d.parameters) (asked := asked d.input)
    hasked (fun n q hq => hd.2.2.2.1 n q hq) (by
    intro e he
    simp only [allParameters, List.map_map, List.mem_map, Function.comp_def] at he
    obtain ⟨⟨n, q⟩, hq, rfl⟩ := he
    exact ⟨n, q, hq, rfl⟩) hreads hacc
  obtain ⟨kept, hkept, hobject⟩ := handleObject_kept env (askableWorld p asked w) hbehind (by rw [hrun.sort]; exact hsort)
    { input := d.input, parameters := d.parameters.map (fun e => (e.1, completedParameter e.2)), relationships := completedRelationships d.relationships } actual input
    (by rw [hxn] at h6; exact h6) hsuit (fun r hr => let ⟨d, hd, _⟩ := hworld.shown _ r hr; ⟨d, hd⟩) conditions
    (by rw [allParameters_congr _ g3]; exact hreads) hans.1 hans.2
  refine ⟨kept, hkept, ?_⟩
  have hfinite : AllFinite (askableWorld p asked w) := by
    intro name r hr e he
    obtain ⟨d', hd', hf'⟩ := hworld.shown name r hr
    rw [hd'] at he
    cases he
    exact hf'
  simp only [askableWorld] at hobject
  cases hfind : (w.records d.input).find? (fun r => kept.all (fun c => w.sat d.input c.index c.property c.value r)) with
  | none =>
    rw [hfind] at hobject
    obtain ⟨response, l1, l2⟩ := g5 hobject
    exact ⟨response, l1, l2⟩
  | some r =>
    rw [hfind] at hobject
    obtain ⟨data, shown, k1, k2, k3, k4⟩ := hobject
    obtain ⟨response, l1, l2, l3, l4⟩ := g4 _ k2 (k4 hfinite)
    refine ⟨response, l1, l2, l3, data, shown, k1, l4, ?_⟩
    rw [hrun.sort, depthOf_completed] at k3
    exact loaded_askable k3

/-- **C79** From the configuration file to the response, for objects with relationships nested to any depth: status 200 and the JSON text of the
first record that satisfies what is asked, with its relationships loaded, or status 404 if there is none.
Of several conditions on one property of one index, one counts (`kept`, see C45). -/
theorem C79_object_related_partial (service : ServiceLib) (hlib : RegexpContract service.find) (hjson : EncoderContract service.encode) (config : ConfigLib)
    (lib : StartLib) (hsort : SortContract lib.sort) (p : ParsedConfig) (texts : GoMap TextParser) (env : OutputEnv) (apis : GoMap OutputApi)
    (running : GoMap (String × List Route)) (hrun : Running config lib p texts env apis running) (hw : WellFormed config p) (hdef : PlainDefault p)
    (hvisit : ∀ (path : List Nat) (α : Type) (l : List α), (lib.visit path l).Perm l)
    (s : ServiceDecl) (hs : s ∈ p.services) (k : Nat) (hk : k < s.routes.length) (d : ObjectConfig) (ho : .object s.routes[k].output d ∈ p.outputs)
    (first : List Char) (placeholders : List (List Char × List Char)) (hpath : s.routes[k].path.toList = template first placeholders)
    (hg : GoodTemplate first placeholders) (parsers : List TextParser) (hp : PlaceholderParsers lib p d.parameters placeholders parsers)
    (hr : ∀ p ∈ parsers, RouteParser p) (hu : ∀ p ∈ parsers.dropLast, Ungrouped p)
    (asked : String → List String) (w : World) (hworld : WorldOf config lib p env.parsers asked w) (hasked : ∀ q ∈ filteredValues p d.parameters, q ∈ asked d.input)
    (hfits : Fits p asked w (depthOf d.relationships) d.input d.relationships) :
    ∃ routes, mapGet running s.name = some ("application/json", routes) ∧ ∃ h : k < routes.length,
      (∀ request : Request, Suits routes[k] request ↔
        request.method = "GET" ∧ ∃ given, PlaceholderTexts parsers given ∧ request.path = filled first placeholders given) ∧
      ∀ request : Request, FirstSuiting routes request routes[k] → GoodQuery request.query →
        ∃ given, PlaceholderTexts parsers given ∧ request.path = filled first placeholders given ∧
          ∀ params : GoMap Bytes, params = requestParameters (placeholders.map (fun p => String.ofList p.1)) given request.query →
          ∀ conditions : List Condition, Reads env (allParameters (d.parameters.map (fun e => (e.1, completedParameter e.2))) params) conditions →
            (∀ c ∈ conditions, ∀ i, IsIndex p c.index i → ¬ FindsEqual i → w.acceptable d.input c.index c.property c.value) →
            ∃ kept, OneForEach conditions kept ∧ ∃ response, clientGets (handleRequest service "application/json" routes request) = some response ∧
              match (w.records d.input).find? (fun r => kept.all (fun c => w.sat d.input c.index c.property c.value r)) with
              | none => response.status = 404
              | some r => response.status = 200 ∧ mapGet response.headers "Content-Type" = some "application/json; charset=UTF-8" ∧
                  ∃ data shown, r.all = .ok data ∧ service.encode (.obj shown) = .ok response.body ∧
                    Loaded w (sortRecords lib.sort) (depthOf d.relationships) data (completedRelationships d.relationships) shown := by
  obtain ⟨routes, h1, h2, h3, h4⟩ := object_related service hlib hjson config lib hsort p texts env apis running hrun hw hdef hvisit s hs k hk d ho first placeholders hpath hg parsers hp hr hu asked w
    hworld hasked hfits
  refine ⟨routes, h1, h2, h3, fun request hf hq => ?_⟩
  obtain ⟨given, g1, g2, _, g3⟩ := h4 request hf hq
  refine ⟨given, g1, g2, fun params hparams conditions hreads hacc => g3 params hparams conditions hreads hacc⟩

namespace RelatedExample
open RelExample
/-- Two CSV files, and the route /authors to the authors with their two last books by title, each with its author. -/
def relationships : List (String × Relationship) :=
  [("books", .mk "books" true 2 [{ property := "title", ascending := some false }] [{ parentProperty := "id", childProperty := "author", childIndex := "" }]
    [("by", .mk "authors" false 0 [] [{ parentProperty := "author", childProperty := "id", childIndex := "" }] [])])]
def list : ArrayConfig := { input := "authors", limit := ⟨0, 0, ""⟩, offsetParameter := "", parameters := [], relationships := relationships }
def one : ObjectConfig := { input := "authors", parameters := [("id", { property := "id", index := "", parser := "integer" })], relationships := relationships }
def web : ServiceDecl := { name := "web", http := some "", https := none, errorsType := "", routes := [⟨"list", "/authors"⟩, ⟨"one", "/authors/{id}"⟩] }
def csv (name : String) (columns : List ColumnDecl) : InputDecl :=
  .csv { name := name, path := name, dieOnInputChange := none, ignoreFirstRow := true, autodetectColumns := false, delimiter := "", columns := columns }
def parsed : ParsedConfig where
  parsers := []
  inputs := [csv "authors" [⟨"id", "integer"⟩, ⟨"name", ""⟩], csv "books" [⟨"author", "integer"⟩, ⟨"title", ""⟩]]
  indexes := []
  services := [web]
  outputs := [.array "list" list, .object "one" one]
def startLib (parserLib : ParserLib) : StartLib :=
  { ConfigExample.startLib parserLib with
    input := fun d _ _ => .ok (if d.name = "authors" then mkInput "authors" authors else mkInput "books" books), sort := goInsertionSort }
theorem loads : ∃ c, loadConfig ConfigExample.lib parsed = .ok c ∧ ∀ parserLib, ∃ running, start (startLib parserLib) c = .ok running := ⟨_, rfl, fun _ => ⟨_, rfl⟩⟩
theorem only_scan : ∀ n i, IsIndex parsed n i → ∃ m, i = .noop m := by
  rintro n i (⟨h, _⟩ | ⟨_, h, _⟩)
  · cases h
  · exact ⟨_, List.mem_singleton.1 h⟩
theorem get_some (pos : Int) (props : GoMap Value) (p : String) : ∃ v, (mkRec pos props).get p = .ok v := by
  simp only [mkRec]
  split <;> exact ⟨_, rfl⟩
theorem data (parserLib : ParserLib) (functions : GoMap (Bytes → Res Value)) :
    WorldOf ConfigExample.lib (startLib parserLib) parsed functions (fun _ => ["id", "author"]) world where
  records x hx := by
    simp only [parsed, List.mem_cons, List.not_mem_nil, or_false] at hx
    rcases hx with rfl | rfl
    · refine ⟨fun e i he h => ?_, fun m hm => (by cases hm), fun q _ r hr => ?_⟩
      · have : e = completedInput (csv "authors" [⟨"id", "integer"⟩, ⟨"name", ""⟩]) := he
        subst this
        cases h
        refine ⟨⟨rfl, by decide⟩, fun r hr => ?_⟩
        have hr : r ∈ authors := hr
        simp only [authors, List.mem_cons, List.not_mem_nil, or_false] at hr
        rcases hr with rfl | rfl <;> rfl
      · have hr : r ∈ authors := hr
        simp only [authors, List.mem_cons, List.not_mem_nil, or_false] at hr
        rcases hr with rfl | rfl <;> exact get_some _ _ _
    · refine ⟨fun e i he h => ?_, fun m hm => (by cases hm), fun q _ r hr => ?_⟩
      · have : e = completedInput (csv "books" [⟨"author", "integer"⟩, ⟨"title", ""⟩]) := he
        subst this
        cases h
        refine ⟨⟨rfl, by decide⟩, fun r hr => ?_⟩
        have hr : r ∈ books := hr
        simp only [books, List.mem_cons, List.not_mem_nil, or_false] at hr
        rcases hr with rfl | rfl | rfl | rfl <;> rfl
      · have hr : r ∈ books := hr
        simp only [books, List.mem_cons, List.not_mem_nil, or_false] at hr
        rcases hr with rfl | rfl | rfl | rfl <;> exact get_some _ _ _
  finds x _ := ⟨fun _ _ _ _ _ _ _ => rfl, fun i hi => (by cases hi)⟩
  shown name r hr := by
    have hr : r ∈ if name = "authors" then authors else books := hr
    split at hr
    · obtain ⟨i, s, h⟩ := authors_all r hr
      refine ⟨_, h, fun hbad => ?_⟩
      cases hbad with
      | obj hm hb =>
        simp only [List.mem_cons, Prod.mk.injEq, List.not_mem_nil, or_false] at hm
        rcases hm with ⟨-, rfl⟩ | ⟨-, rfl⟩ <;> cases hb
    · obtain ⟨i, s, h⟩ := books_all r hr
      refine ⟨_, h, fun hbad => ?_⟩
      cases hbad with
      | obj hm hb =>
        simp only [List.mem_cons, Prod.mk.injEq, List.not_mem_nil, or_false] at hm
        rcases hm with ⟨-, rfl⟩ | ⟨-, rfl⟩ <;> cases hb
theorem depth : depthOf relationships = 2 := by simp [depthOf, Relationship.depth, relationships]
theorem fits : Fits parsed (fun _ => ["id", "author"]) world (depthOf relationships) "authors" relationships := by
  rw [depth]
  refine ⟨by simp [relationships], ?_⟩
  intro name input isArray limit sort ms nested hm
  simp only [relationships, List.mem_singleton, Prod.mk.injEq, Relationship.mk.injEq] at hm
  obtain ⟨rfl, rfl, rfl, rfl, rfl, rfl, rfl⟩ := hm
  refine ⟨by decide, ?_, ?_, ?_, by simp, ?_⟩
  · intro m _ other ho hne
    exact absurd (List.mem_singleton.1 ho) hne
  · intro m hm; rw [List.mem_singleton.1 hm]; simp
  · intro r hr d hd m hm
    obtain ⟨i, s, h⟩ := authors_all r hr
    rw [h] at hd
    cases hd
    rw [List.mem_singleton.mp hm]
    exact ⟨.int i, rfl, trivial, fun j hj hn => (hn (.inr (only_scan _ _ hj))).elim⟩
  · intro name input isArray limit sort ms nested hm
    simp only [List.mem_singleton, Prod.mk.injEq, Relationship.mk.injEq] at hm
    obtain ⟨rfl, rfl, rfl, rfl, rfl, rfl, rfl⟩ := hm
    refine ⟨by decide, ?_, ?_, ?_, rfl⟩
    · intro m _ other ho hne
      exact absurd (List.mem_singleton.1 ho) hne
    · intro m hm; rw [List.mem_singleton.1 hm]; simp
    · intro r hr d hd m hm
      obtain ⟨i, s, h⟩ := books_all r hr
      rw [h] at hd
      cases hd
      rw [List.mem_singleton.mp hm]
      exact ⟨.int i, rfl, trivial, fun j hj hn => (hn (.inr (only_scan _ _ hj))).elim⟩
theorem good : GoodTemplate "/authors".toList [] := ⟨by unfold PlainText; decide, by simp, by simp⟩
def request : Request := { method := "GET", contentType := "", path := "/authors".toList, query := [("offset", [[49]])], body := .ok [] }
end RelatedExample

/-- GET /authors?offset=1 in the running program: one row, whose first book has the title "w" and an author with the identifier 2. -/
example (service : ServiceLib) (hlib : RegexpContract service.find) (hjson : EncoderContract service.encode) (parserLib : ParserLib) (c : Config)
    (hload : loadConfig ConfigExample.lib RelatedExample.parsed = .ok c) (running) (hstart : start (RelatedExample.startLib parserLib) c = .ok running) :
    ∃ routes, mapGet running "web" = some ("application/json", routes) ∧ ∃ response,
      clientGets (handleRequest service "application/json" routes RelatedExample.request) = some response ∧ response.status = 200 ∧
        ∃ row, service.encode (.arr [.obj row]) = .ok response.body ∧ look [.inl "books", .inr 0, .inl "title"] (.obj row) = some (.scalar (.str [119])) ∧
          look [.inl "books", .inr 0, .inl "by", .inl "id"] (.obj row) = some (.scalar (.int 2)) := by
  obtain ⟨texts, env, apis, hrun⟩ := C78_running _ _ _ _ _ hload ⟨.refl _, .refl _, .refl _, .refl _, .refl _⟩ running hstart
  have hw := (C76_accepted _ _).1 ⟨_, hload⟩
  obtain ⟨routes, h1, hk, h2, h3⟩ := C79_list_related_partial service hlib hjson _ _ goInsertionSort_contract _ _ _ _ _ hrun hw (RelatedExample.only_scan "default")
    (fun _ _ _ => .refl _) RelatedExample.web (.head _) 0 (by decide) RelatedExample.list (.head _) "/authors".toList [] rfl RelatedExample.good [] trivial (by simp) (by simp)
    (fun _ => ["id", "author"]) RelExample.world (RelatedExample.data parserLib _) (by simp [filteredValues, RelatedExample.list]) RelatedExample.fits
  refine ⟨routes, h1, ?_⟩
  match routes, hk, h2, h3 with
  | route :: rest, hk, h2, h3 =>
    obtain ⟨given, h4, h5, h6⟩ := h3 RelatedExample.request ⟨[], rest, rfl, (h2 _).2 ⟨rfl, [], trivial, rfl⟩, by simp⟩ ⟨by decide, by decide⟩
    match given, h4 with
    | [], _ =>
      obtain ⟨kept, hkept, h7⟩ := h6 _ rfl [] 100 1 trivial (by simp) (.inl ⟨by decide, rfl⟩)
        (.inr ⟨[49], by decide, (atoi_iff [49] 1).mp (by decide)⟩) (by decide)
      simp only [hkept.all_eq .nil] at h7
      obtain ⟨response, g1, g2, _, rows, g4, g5, g6⟩ := h7
      refine ⟨response, g1, g2, ?_⟩
      match rows, g4, g5, g6 with
      | [row], g4, _, g6 =>
        obtain ⟨data, k1, k2⟩ := g6 0 (by decide) (by simp)
        have k1 : data = [("id", .int 2), ("name", .str [98])] := by cases k1; rfl
        subst k1
        obtain ⟨shown, l1, l2⟩ := C48_relationships_partial (RelExample.env (fun _ _ l => l)) RelExample.world
          (RelExample.behind _ (fun _ _ l => List.Perm.refl l)) (fun _ _ _ => .refl _) goInsertionSort_contract "authors" RelExample.ofAuthor (RelExample.suitable _) _
          (.tail _ (.head _)) [("id", .int 2), ("name", .str [98])] rfl []
        cases l1
        refine ⟨row, g4, ?_, ?_⟩
        · exact (loaded_same _ _ _ _ _ _ k2 l2).trans rfl
        · exact (loaded_same _ _ _ _ _ _ k2 l2).trans rfl

/-- GET /authors/2 in the running program: the second author, whose first book has the title "w". -/
example (service : ServiceLib) (hlib : RegexpContract service.find) (hjson : EncoderContract service.encode) (parserLib : ParserLib) (c : Config)
    (hload : loadConfig ConfigExample.lib RelatedExample.parsed = .ok c) (running) (hstart : start (RelatedExample.startLib parserLib) c = .ok running) :
    ∃ routes, mapGet running "web" = some ("application/json", routes) ∧ ∃ h : 1 < routes.length, ∀ request : Request, request.path = "/authors/2".toList →
      request.query = [] → FirstSuiting routes request routes[1] → ∃ response,
      clientGets (handleRequest service "application/json" routes request) = some response ∧ response.status = 200 ∧
        ∃ shown, service.encode (.obj shown) = .ok response.body ∧ look [.inl "books", .inr 0, .inl "title"] (.obj shown) = some (.scalar (.str [119])) := by
  obtain ⟨texts, env, apis, hrun⟩ := C78_running _ _ _ _ _ hload ⟨.refl _, .refl _, .refl _, .refl _, .refl _⟩ running hstart
  have hw := (C76_accepted _ _).1 ⟨_, hload⟩
  have hinteger : IsParser RelatedExample.parsed "integer" ⟨"integer", .integer ""⟩ := .inr ⟨by simp [RelatedExample.parsed], by simp [builtinParsers], rfl⟩
  obtain ⟨routes, h1, hk, h2, h3⟩ := C79_object_related_partial service hlib hjson _ _ goInsertionSort_contract _ _ _ _ _ hrun hw (RelatedExample.only_scan "default")
    (fun _ _ _ => .refl _) RelatedExample.web (.head _) 1 (by decide) RelatedExample.one (.tail _ (.head _)) "/authors/".toList [("id".toList, [])] rfl
    ⟨by unfold PlainText; decide, by unfold PlainText; decide, by decide⟩ [.integer []] ⟨⟨_, _, rfl, hinteger, rfl⟩, trivial⟩ EndToEndExample.integer_route (by simp)
    (fun _ => ["id", "author"]) RelExample.world (RelatedExample.data parserLib _) (by simp [filteredValues, RelatedExample.one]) RelatedExample.fits
  refine ⟨routes, h1, hk, fun request hpath hquery hfirst => ?_⟩
  obtain ⟨given, h4, h5, h6⟩ := h3 request hfirst (by rw [hquery]; exact ⟨by decide, by decide⟩)
  have := EndToEndExample.one_reading (first := "/authors/".toList) (suffix := []) (name := "id".toList) (text := ['2']) h4 (by
    exact (show "/authors/".toList ++ ['2'] ++ [] = "/authors/2".toList from rfl).trans (hpath ▸ h5))
  subst this
  have hread : Reads env [({ property := "id", index := "default", parser := "integer" }, [50])] [⟨"default", "id", .int 2⟩] := by
    obtain ⟨t, ht, hr⟩ := hrun.parsers _ _ hinteger
    have ht' : mapGet env.parsers "integer" = some (parse parserLib (texts.map (fun q => (q.1, q.2.config))) texts.length t.config) := by
      rw [hrun.functions, parseFunctions, mapGet_mapValues (fun q : TextParser => parse (RelatedExample.startLib parserLib).parserLib
        (texts.map (fun q => (q.1, q.2.config))) texts.length q.config), ht]
      rfl
    rw [show t = .integer [] from hr] at ht'
    exact ⟨rfl, rfl, ⟨_, ht', by simp only [TextParser.config, parse]; rfl⟩, trivial⟩
  obtain ⟨kept, hkept, response, g1, g2⟩ := h6 _ rfl [⟨"default", "id", .int 2⟩] (by rw [hquery]; exact hread)
    (fun _ _ i hi hn => (hn (.inr (RelatedExample.only_scan _ _ hi))).elim)
  simp only [hkept.all_eq (show ([(⟨"default", "id", .int 2⟩ : Condition)].map (fun c => (c.index, c.property))).Nodup by decide)] at g2
  have hfind : (RelExample.world.records RelatedExample.one.input).find? (fun r => [(⟨"default", "id", .int 2⟩ : Condition)].all (fun c => RelExample.world.sat RelatedExample.one.input c.index
      c.property c.value r)) = some (RelExample.mkRec 5 [("id", .int 2), ("name", .str [98])]) := rfl
  rw [hfind] at g2
  obtain ⟨g2, _, data, shown, g3, g4, g5⟩ := g2
  refine ⟨response, g1, g2, shown, g4, ?_⟩
  obtain ⟨other, l1, l2⟩ := C48_relationships_partial (RelExample.env (fun _ _ l => l)) RelExample.world
    (RelExample.behind _ (fun _ _ l => List.Perm.refl l)) (fun _ _ _ => .refl _) goInsertionSort_contract "authors" RelExample.ofAuthor (RelExample.suitable _) _
    (.tail _ (.head _)) [("id", .int 2), ("name", .str [98])] rfl []
  cases l1
  cases g3
  exact (loaded_same _ _ _ _ _ _ g5 l2).trans rfl

end Rodb
