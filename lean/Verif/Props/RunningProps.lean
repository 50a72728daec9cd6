import Verif.Proofs.Records
import Verif.Proofs.Running
import Verif.Props.EndToEndProps
/-
  C78, C79: from the configuration file to the responses.
-/
namespace Rodb
open Spec

/-! ### C78: what runs is what is configured -/

/-- **C78** When the program has started with an accepted configuration file, whatever the order of the maps, what runs is what the file says: parsers,
inputs, indexes, outputs and services with their settings, connected by their names, with the routes in their order. -/
theorem C78_running (config : ConfigLib) (lib : StartLib) (p : ParsedConfig) (c c' : Config) (hload : loadConfig config p = .ok c) (hre : Reordered c c')
    (running : GoMap (String × List Route)) (hstart : start lib c' = .ok running) : ∃ texts env apis, Running config lib p texts env apis running :=
  start_running hload hre hstart

/-! ### C79: from the configuration file to the responses -/

theorem RunsParser.unique {lib : StartLib} {x : ParserDecl} {t u : TextParser} (h1 : RunsParser lib x t) (h2 : RunsParser lib x u) : t = u := by
  obtain ⟨name, kind⟩ := x
  cases kind with
  | string charset =>
    rcases h1 with ⟨a, rfl⟩ | ⟨a, f, hf, rfl⟩ <;> rcases h2 with ⟨b, rfl⟩ | ⟨b, g, hg, rfl⟩
    · rfl
    · exact (b a).elim
    · exact (a b).elim
    · rw [hf] at hg; cases hg; rfl
  | integer i | float s i | boolean y n | json => exact (show t = _ from h1).trans (show u = _ from h2).symm
  | split d r q =>
    obtain ⟨e, rfl, h1⟩ := h1
    obtain ⟨e', he, h2⟩ := h2
    cases he
    rcases h1 with ⟨a, rfl⟩ | ⟨a, rfl⟩ <;> rcases h2 with ⟨b, rfl⟩ | ⟨b, rfl⟩
    · rfl
    · exact (b a).elim
    · exact (a b).elim
    · rfl

theorem IsParser.unique {config : ConfigLib} {p : ParsedConfig} (hw : WellFormed config p) {n : String} {x y : ParserDecl} (hx : IsParser p n x) (hy : IsParser p n y) :
    x = y := by
  obtain ⟨c, hc⟩ := (newConfig_ok p).2.2 ⟨hw.parserNames.1, hw.inputNames.1, hw.indexNames.1, hw.serviceNames.1, hw.outputNames.1⟩
  have h1 := ((C57_components p c hc n).1 x).2 hx
  have h2 := ((C57_components p c hc n).1 y).2 hy
  rw [h1] at h2
  exact Option.some.inj h2

theorem IsIndex.unique {config : ConfigLib} {p : ParsedConfig} (hw : WellFormed config p) {n : String} {x y : IndexDecl} (hx : IsIndex p n x) (hy : IsIndex p n y) :
    x = y := by
  obtain ⟨c, hc⟩ := (newConfig_ok p).2.2 ⟨hw.parserNames.1, hw.inputNames.1, hw.indexNames.1, hw.serviceNames.1, hw.outputNames.1⟩
  have h1 := ((C57_components p c hc n).2.2.1 x).2 hx
  have h2 := ((C57_components p c hc n).2.2.1 y).2 hy
  rw [h1] at h2
  exact Option.some.inj h2

section
variable {config : ConfigLib} {lib : StartLib} {p : ParsedConfig} {texts : GoMap TextParser} {env : OutputEnv} {apis : GoMap OutputApi}
  {running : GoMap (String × List Route)}

/-- The parsers of the placeholders, as the output knows them. -/
theorem Running.placeholders (hrun : Running config lib p texts env apis running) {api : OutputApi} {parameters : GoMap ParamConfig}
    (h1 : ∀ n q, mapGet parameters n = some q → api.hasParameter n = true)
    (h2 : ∀ n q t, mapGet parameters n = some q → mapGet texts (orText q.parser "string") = some t → api.parameterParser n = .ok t) :
    ∀ {placeholders : List (List Char × List Char)} {parsers : List TextParser}, PlaceholderParsers lib p parameters placeholders parsers →
      ParsersOf api placeholders parsers
  | [], [], _ => trivial
  | q :: placeholders, t :: parsers, ⟨⟨param, x, ha, hb, hc⟩, h⟩ => by
    obtain ⟨u, hu, hr⟩ := hrun.parsers _ _ hb
    exact ⟨h1 _ _ ha, h2 _ _ _ ha (by rw [hu, RunsParser.unique hr hc]), Running.placeholders hrun h1 h2 h⟩

theorem isFullText_equal {config : ConfigLib} {p : ParsedConfig} (hw : WellFormed config p) {n : String} {i : IndexDecl} (hi : IsIndex p n i) (he : FindsEqual i) :
    ¬ isFullText p n = true := by
  intro h
  obtain ⟨j, hj, hn⟩ := List.any_eq_true.1 h
  cases j with
  | fts5 d =>
    have hn : d.name = n := by simpa using hn
    cases IsIndex.unique hw hi (.inl ⟨hj, hn⟩)
    rcases he with ⟨_, h⟩ | ⟨_, h⟩ <;> cases h
  | map _ | noop _ | wildcard _ | sqlite _ => exact absurd hn (by simp)

theorem filteredValues_or {p : ParsedConfig} {parameters : GoMap ParamConfig} {asked : List String} (hasked : ∀ q ∈ filteredValues p parameters, q ∈ asked) {n : String}
    {q : ParamConfig} (hq : (n, q) ∈ parameters) : isFullText p (orText q.index "default") = true ∨ q.property ∈ asked := by
  by_cases h : isFullText p (orText q.index "default") = true
  · exact .inl h
  · exact .inr (hasked _ (List.mem_map.2 ⟨_, List.mem_filter.2 ⟨hq, by simp [h]⟩, rfl⟩))

theorem filteredValues_filteredBy {p : ParsedConfig} {parameters : GoMap ParamConfig} : ∀ q ∈ filteredValues p parameters, q ∈ filteredBy parameters := by
  intro q hq
  obtain ⟨e, he, rfl⟩ := List.mem_map.1 hq
  exact List.mem_map_of_mem (f := fun e : String × ParamConfig => e.2.property) (List.mem_filter.1 he).1

theorem Spec.RecordsOf.mono {lib : StartLib} {p : ParsedConfig} {functions : GoMap (Bytes → Res Value)} {x : InputDecl} {asked asked' : List String} {records : List Rec}
    (h : RecordsOf lib p functions x asked records) (hsub : ∀ q ∈ asked', q ∈ asked) : RecordsOf lib p functions x asked' records :=
  ⟨h.rows, h.indexed, fun q hq => h.filtered q (hsub q hq)⟩

/-- What a filter on an index can ask. -/
def askable (p : ParsedConfig) (input : String) (asked : List String) (acceptable : String → String → Value → Prop) (index property : String) (v : Value) : Prop :=
  Scalar v ∧ (∃ i, IsIndex p index i ∧ Searches i input property ∧ (FindsEqual i ∨ acceptable index property v)) ∧ (isFullText p index = true ∨ property ∈ asked)

theorem Searches.input {i : IndexDecl} {input property : String} (h : Searches i input property) : (∃ n, i = .noop n) ∨ inputOfIndex i = some input := by
  cases i with
  | noop n => exact .inl ⟨n, rfl⟩
  | map c => exact .inr (congrArg some h.1)
  | wildcard c => exact .inr (congrArg some h.1)
  | sqlite c => exact .inr (congrArg some h.1)
  | fts5 c => exact .inr (congrArg some h.1)

theorem RunsIndex.other {lib : StartLib} {inputs : GoMap Input} {config : ConfigLib} {i : IndexDecl} {index : IndexFn} (hi : ¬ FindsEqual i)
    (h : RunsIndex lib inputs (completedIndex config i) index) :
    ∃ name input, inputOfIndex i = some name ∧ mapGet inputs name = some input ∧ lib.index (completedIndex config i) input = .ok index := by
  cases i with
  | map c => exact (hi (.inl ⟨c, rfl⟩)).elim
  | noop n => exact (hi (.inr ⟨n, rfl⟩)).elim
  | wildcard c => exact h
  | sqlite c => exact h
  | fts5 c => exact h

/-- The data behind an output. -/
theorem Running.data (hrun : Running config lib p texts env apis running) (hw : WellFormed config p) (hdef : PlainDefault p)
    (hvisit : ∀ (path : List Nat) (α : Type) (l : List α), (lib.visit path l).Perm l) {x : InputDecl} (hx : x ∈ p.inputs) {asked : List String}
    {records : List Rec} (hrec : RecordsOf lib p env.parsers x asked records) {sat : String → String → Value → Rec → Bool}
    {acceptable : String → String → Value → Prop} (hfind : IndexesFind config lib p env.parsers x records sat acceptable) :
    ∃ input, mapGet env.inputs x.name = some input ∧
      OutputData env input records sat (askable p x.name asked acceptable) := by
  obtain ⟨d, input, hd, hin, hget⟩ := hrun.inputs x hx
  obtain ⟨htab, hfetch⟩ := hrec.rows d input hd hin
  refine ⟨input, hget, ?_⟩
  constructor
  · intro path α l
    rw [hrun.visit]
    exact hvisit path α l
  · exact htab.increasing
  · exact hfetch
  · obtain ⟨i, hi⟩ := hrun.indexNames _ _ hrun.defaultIndex
    obtain ⟨n, rfl⟩ := hdef i hi
    obtain ⟨f, hf, hr⟩ := hrun.indexes _ _ hi
    rw [hrun.defaultIndex] at hf
    cases hf
    rw [show env.defaultIndex = noopGetRecordPositions from hr]
    exact C44_noop_everything _ _ htab
  · intro name index hindex
    obtain ⟨i, hi⟩ := hrun.indexNames _ _ hindex
    obtain ⟨f, hf, hr⟩ := hrun.indexes _ _ hi
    rw [hindex] at hf
    cases hf
    by_cases hplain : FindsEqual i
    · have hsat : sat name = fun q v r => propEquals r q v := by
        funext q v r
        exact hfind.equality name i hi hplain q v r
      rw [hsat]
      rcases hplain with ⟨m, rfl⟩ | ⟨n, rfl⟩
      · have hmem : .map m ∈ p.indexes := by
          rcases hi with ⟨h1, _⟩ | ⟨_, h1, _⟩
          · exact h1
          · cases List.mem_singleton.1 h1
        obtain ⟨other, built, h1, h2, h3⟩ := hr
        intro filters hne hnd hacc
        have hin' : m.input = x.name := by
          cases filters with
          | nil => exact (hne rfl).elim
          | cons a l =>
            obtain ⟨_, ⟨j, hj, hs, _⟩, _⟩ := hacc a (.head _)
            rw [← IsIndex.unique hw hi hj] at hs
            exact hs.1
        rw [hin', hget] at h1
        cases h1
        have hwf := hw.indexes _ hmem
        obtain ⟨built', hb, hserves⟩ := C44_map_serves { properties := m.properties } input records hwf.2 htab (hrec.indexed m hmem hin')
        have hsame : built' = built := by
          rw [h2] at hb
          exact (Except.ok.inj hb).symm
        subst hsame
        rw [h3]
        refine hserves filters hne hnd (fun a ha => ?_)
        obtain ⟨hs, ⟨j, hj, hsearch, _⟩, _⟩ := hacc a ha
        rw [← IsIndex.unique hw hi hj] at hsearch
        exact ⟨hsearch.2, hs⟩
      · rw [show index = noopGetRecordPositions from hr]
        intro filters hne hnd hacc
        refine C44_noop_serves input records htab filters hne hnd (fun a ha => ?_)
        obtain ⟨hs, _, hq⟩ := hacc a ha
        exact ⟨hs, hrec.filtered _ (hq.resolve_left (isFullText_equal hw hi (.inr ⟨n, rfl⟩)))⟩
    · have hmem : i ∈ p.indexes ∧ i.name = name := by
        rcases hi with ⟨h1, h2⟩ | ⟨_, h1, _⟩
        · exact ⟨h1, h2⟩
        · exact (hplain (.inr ⟨_, List.mem_singleton.1 h1⟩)).elim
      obtain ⟨n, other, h1, h2, h3⟩ := RunsIndex.other hplain hr
      intro filters hne hnd hacc
      have hin' : inputOfIndex i = some x.name := by
        cases filters with
        | nil => exact (hne rfl).elim
        | cons a l =>
          obtain ⟨_, ⟨j, hj, hs, _⟩, _⟩ := hacc a (.head _)
          rw [← IsIndex.unique hw hi hj] at hs
          rcases Searches.input hs with h | h
          · exact (hplain (.inr h)).elim
          · exact h
      rw [hin'] at h1
      cases h1
      rw [hget] at h2
      cases h2
      have hserves := hfind.others i hmem.1 hplain hin' d input index hd hin h3
      rw [hmem.2] at hserves
      refine hserves filters hne hnd (fun a ha => ?_)
      obtain ⟨_, ⟨j, hj, _, hacc'⟩, _⟩ := hacc a ha
      rw [← IsIndex.unique hw hi hj] at hacc'
      exact hacc'.resolve_left hplain

/-- The parsers of parameters read scalar values. -/
theorem Running.scalar (hrun : Running config lib p texts env apis running) {name : String} {x : ParserDecl} (hx : IsParser p name x) (hprim : x.primitive = true)
    {f : Bytes → Res Value} (hf : mapGet env.parsers name = some f) {text : Bytes} {v : Value} (hv : f text = .ok v) : Scalar v := by
  obtain ⟨t, ht, hr⟩ := hrun.parsers _ _ hx
  rw [hrun.functions, parseFunctions, mapGet_mapValues (fun q : TextParser => parse lib.parserLib (texts.map (fun q => (q.1, q.2.config))) texts.length q.config), ht] at hf
  cases hf
  obtain ⟨xn, kind⟩ := x
  cases kind with
  | string charset =>
    rcases hr with ⟨_, rfl⟩ | ⟨_, g, _, rfl⟩
    · simp only [TextParser.config, parse, stringParse] at hv
      cases hv; trivial
    · simp only [TextParser.config, parse, stringParse] at hv
      split at hv
      · cases hv
      · cases hv; trivial
  | integer i =>
    rw [show t = _ from hr] at hv
    simp only [TextParser.config, parse, integerParse] at hv
    split at hv
    · cases hv; trivial
    · cases hv
  | float s i =>
    rw [show t = _ from hr] at hv
    simp only [TextParser.config, parse, floatParse] at hv
    split at hv
    · cases hv; trivial
    · cases hv
  | boolean y n =>
    rw [show t = _ from hr] at hv
    simp only [TextParser.config, parse, booleanParse] at hv
    split at hv
    · cases hv; trivial
    · split at hv
      · cases hv; trivial
      · cases hv
  | json => cases hprim
  | split d r q => cases hprim

/-- The conditions that parameters of an accepted configuration are read as can be answered. -/
theorem Running.answerable (hrun : Running config lib p texts env apis running) {input : String} {parameters : GoMap ParamConfig}
    {acceptable : String → String → Value → Prop} {asked : List String} (hasked : ∀ q ∈ filteredValues p parameters, q ∈ asked)
    (hw : ∀ n q, (n, q) ∈ parameters → WellFormedParameter p input q) : ∀ {l : List (ParamConfig × Bytes)} {conditions : List Condition},
    (∀ e ∈ l, ∃ n q, (n, q) ∈ parameters ∧ e.1 = completedParameter q) → Reads env l conditions →
    (∀ c ∈ conditions, ∀ i, IsIndex p c.index i → ¬ FindsEqual i → acceptable c.index c.property c.value) →
    (∀ c ∈ conditions, ∃ index, mapGet env.indexes c.index = some index) ∧ ∀ c ∈ conditions, askable p input asked acceptable c.index c.property c.value
  | [], [], _, _, _ => by simp
  | (q, text) :: l, c :: conditions, hl, ⟨h1, h2, ⟨parse, h3, h4⟩, h5⟩, hacc => by
    obtain ⟨ih1, ih2⟩ := Running.answerable hrun hasked hw (fun e he => hl e (.tail _ he)) h5 (fun c hc => hacc c (.tail _ hc))
    obtain ⟨n, q', hq, e⟩ := hl (q, text) (.head _)
    obtain ⟨_, ⟨i, hi, hs⟩, x, hx, hprim⟩ := hw n q' hq
    dsimp only at e
    subst e
    refine ⟨fun c' hc => ?_, fun c' hc => ?_⟩
    · rcases List.mem_cons.1 hc with rfl | hc
      · obtain ⟨f, hf, _⟩ := hrun.indexes _ _ hi
        exact ⟨f, by rw [h1]; exact hf⟩
      · exact ih1 c' hc
    · rcases List.mem_cons.1 hc with rfl | hc
      · have ha := hacc _ (.head _) i (by rw [h1]; exact hi)
        rw [h1, h2] at ha ⊢
        exact ⟨Running.scalar hrun hx hprim h3 h4, ⟨i, hi, hs, Classical.or_iff_not_imp_left.2 ha⟩, filteredValues_or hasked hq⟩
      · exact ih2 c' hc

/-- The route of a running service at the place of a declared one. -/
theorem Running.route (hrun : Running config lib p texts env apis running) {s : ServiceDecl} (hs : s ∈ p.services) (k : Nat) (hk : k < s.routes.length) :
    ∃ routes, mapGet running s.name = some ("application/json", routes) ∧ ∃ h : k < routes.length,
      createRoute apis s.routes[k].output s.routes[k].path.toList = .ok routes[k] := by
  obtain ⟨routes, h1, h2, h3⟩ := hrun.services s hs
  obtain ⟨_, _, _, h⟩ := h3 k hk (h2 ▸ hk)
  exact ⟨routes, h1, h2 ▸ hk, h⟩
end

/-- **C79** From the configuration file to the response, for lists: in a running program, a GET request to a
route of a list output without relationships is answered with status 200 and the JSON text of the array of exactly the records of the input
that satisfy what the path or the query string asks of the indexes (`sat`: for map indexes and full scans, to have the given value), in the order
of the file, from the asked offset on, at most the asked limit (or the documented defaults) of them.
Of several conditions on one property of one index, one counts (`kept`, see C45). -/
theorem C79_list_request_partial (service : ServiceLib) (hlib : RegexpContract service.find) (hjson : EncoderContract service.encode) (config : ConfigLib)
    (lib : StartLib) (p : ParsedConfig) (texts : GoMap TextParser) (env : OutputEnv) (apis : GoMap OutputApi) (running : GoMap (String × List Route))
    (hrun : Running config lib p texts env apis running) (hw : WellFormed config p) (hdef : PlainDefault p)
    (hvisit : ∀ (path : List Nat) (α : Type) (l : List α), (lib.visit path l).Perm l)
    (s : ServiceDecl) (hs : s ∈ p.services) (k : Nat) (hk : k < s.routes.length) (d : ArrayConfig) (ho : .array s.routes[k].output d ∈ p.outputs)
    (hrel : d.relationships = []) (x : InputDecl) (hx : x ∈ p.inputs) (hxn : x.name = d.input)
    (first : List Char) (placeholders : List (List Char × List Char)) (hpath : s.routes[k].path.toList = template first placeholders)
    (hg : GoodTemplate first placeholders) (parsers : List TextParser) (hp : PlaceholderParsers lib p d.parameters placeholders parsers)
    (hr : ∀ p ∈ parsers, RouteParser p) (hu : ∀ p ∈ parsers.dropLast, Ungrouped p) (records : List Rec)
    (hrec : RecordsOf lib p env.parsers x (filteredValues p d.parameters) records)
    (sat : String → String → Value → Rec → Bool) (acceptable : String → String → Value → Prop)
    (hfind : IndexesFind config lib p env.parsers x records sat acceptable)
    (shown : Rec → GoMap Value) (hall : ∀ r ∈ records, r.all = .ok (shown r)) (hfin : ∀ r ∈ records, ¬ HasNonFinite (.obj (shown r))) :
    ∃ routes, mapGet running s.name = some ("application/json", routes) ∧ ∃ h : k < routes.length,
      (∀ request : Request, Suits routes[k] request ↔
        request.method = "GET" ∧ ∃ given, PlaceholderTexts parsers given ∧ request.path = filled first placeholders given) ∧
      ∀ request : Request, FirstSuiting routes request routes[k] → GoodQuery request.query →
        ∃ given, PlaceholderTexts parsers given ∧ request.path = filled first placeholders given ∧
          ∀ params : GoMap Bytes, params = requestParameters (placeholders.map (fun p => String.ofList p.1)) given request.query →
          ∀ (conditions : List Condition) (limit offset : Nat),
            Reads env (givenParameters (d.parameters.map (fun e => (e.1, completedParameter e.2))) params) conditions →
            (∀ c ∈ conditions, ∀ i, IsIndex p c.index i → ¬ FindsEqual i → acceptable c.index c.property c.value) →
            AskedLimit ⟨orNumber d.limit.default 100, orNumber d.limit.max 1000, orText d.limit.parameter "limit"⟩ params limit →
            AskedOffset (orText d.offsetParameter "offset") params offset → min limit (orNumber d.limit.max 1000) < 2^63 →
            ∃ kept, OneForEach conditions kept ∧ ∃ response, clientGets (handleRequest service "application/json" routes request) = some response ∧ response.status = 200 ∧
              mapGet response.headers "Content-Type" = some "application/json; charset=UTF-8" ∧
              service.encode (.arr ((((records.filter (fun r => kept.all (fun c => sat c.index c.property c.value r))).drop offset).take
                (min limit (orNumber d.limit.max 1000))).map (fun r => .obj (shown r)))) = .ok response.body := by
  obtain ⟨routes, h1, h2, h3⟩ := Running.route hrun hs k hk
  refine ⟨routes, h1, h2, ?_⟩
  obtain ⟨api, h4, h5⟩ := hrun.outputs _ ho
  obtain ⟨input, h6, hdata⟩ := Running.data hrun hw hdef hvisit hx hrec hfind
  have hd := hw.outputs _ ho
  simp only [completedOutput, RunsOutput, hrel, completedRelationships] at h5
  rw [h5] at h4
  have hparsers := Running.placeholders hrun (api := api) (parameters := d.parameters) (fun n q hq => by
      rw [h5]; simp only [arrayApi]; rw [mapGet_mapValues, hq]; rfl) (fun n q t hq ht => by
      rw [h5]; simp only [arrayApi]; rw [mapGet_mapValues, hq]; simp only [Option.map_some, completedParameter]; rw [ht]) hp
  rw [h5] at hparsers
  obtain ⟨route, h7, h8⟩ := C68_list_request service hlib hjson env _ texts apis s.routes[k].output h4 first placeholders hg parsers hparsers hr hu input records
    sat (askable p x.name (filteredValues p d.parameters) acceptable) (by rw [← hxn]; exact h6) hdata rfl shown hall hfin
  obtain ⟨route', h7', hout, hmatch, _⟩ := C53_placeholders_partial service hlib apis s.routes[k].output _ h4 first placeholders hg parsers hparsers hr hu
  rw [h7] at h7'
  cases h7'
  rw [hpath, h7] at h3
  have h3 := Except.ok.inj h3
  rw [← h3]
  refine ⟨fun request => ?_, fun request hf hq => ?_⟩
  · simp only [Suits, hmatch, hout]
    constructor
    · rintro ⟨⟨a, _⟩ | ⟨_, a⟩, b⟩
      · exact ⟨a, b⟩
      · cases a
    · rintro ⟨a, b⟩
      exact ⟨.inl ⟨a, rfl⟩, b⟩
  obtain ⟨given, h9, h10, h11⟩ := h8 routes request hf hq
  refine ⟨given, h9, h10, fun params hparams conditions limit offset hreads hacc hlimit hoffset hsmall => ?_⟩
  have hans := Running.answerable hrun (input := x.name) (parameters := d.parameters) (asked := filteredValues p d.parameters) (fun _ h => h) (fun n q hq => by rw [hxn]; exact (hd.2.2.2.1 n q hq).1) (by
    intro e he
    simp only [givenParameters, List.filterMap_map, List.mem_filterMap, Function.comp_def, Option.map_eq_some_iff] at he
    obtain ⟨⟨n, q⟩, hq, t, _, rfl⟩ := he
    exact ⟨n, q, hq, rfl⟩) hreads hacc
  obtain ⟨kept, hkept, response, text, h12, h13, h14, h15, h16⟩ := h11 params hparams conditions limit offset hreads hans.1 hans.2 hlimit hoffset hsmall
  exact ⟨kept, hkept, response, h12, h13, h14, by rw [h15]; exact h16⟩

/-- **C79** From the configuration file to the response, for objects: status 200 and the JSON text of the first record of the file that satisfies what
is asked of the indexes, or status 404 if there is none.
Of several conditions on one property of one index, one counts (`kept`, see C45). -/
theorem C79_object_request_partial (service : ServiceLib) (hlib : RegexpContract service.find) (hjson : EncoderContract service.encode) (config : ConfigLib)
    (lib : StartLib) (p : ParsedConfig) (texts : GoMap TextParser) (env : OutputEnv) (apis : GoMap OutputApi) (running : GoMap (String × List Route))
    (hrun : Running config lib p texts env apis running) (hw : WellFormed config p) (hdef : PlainDefault p)
    (hvisit : ∀ (path : List Nat) (α : Type) (l : List α), (lib.visit path l).Perm l)
    (s : ServiceDecl) (hs : s ∈ p.services) (k : Nat) (hk : k < s.routes.length) (d : ObjectConfig) (ho : .object s.routes[k].output d ∈ p.outputs)
    (hrel : d.relationships = []) (x : InputDecl) (hx : x ∈ p.inputs) (hxn : x.name = d.input)
    (first : List Char) (placeholders : List (List Char × List Char)) (hpath : s.routes[k].path.toList = template first placeholders)
    (hg : GoodTemplate first placeholders) (parsers : List TextParser) (hp : PlaceholderParsers lib p d.parameters placeholders parsers)
    (hr : ∀ p ∈ parsers, RouteParser p) (hu : ∀ p ∈ parsers.dropLast, Ungrouped p) (records : List Rec)
    (hrec : RecordsOf lib p env.parsers x (filteredValues p d.parameters) records)
    (sat : String → String → Value → Rec → Bool) (acceptable : String → String → Value → Prop)
    (hfind : IndexesFind config lib p env.parsers x records sat acceptable)
    (shown : Rec → GoMap Value) (hall : ∀ r ∈ records, r.all = .ok (shown r)) (hfin : ∀ r ∈ records, ¬ HasNonFinite (.obj (shown r))) :
    ∃ routes, mapGet running s.name = some ("application/json", routes) ∧ ∃ h : k < routes.length,
      (∀ request : Request, Suits routes[k] request ↔
        request.method = "GET" ∧ ∃ given, PlaceholderTexts parsers given ∧ request.path = filled first placeholders given) ∧
      ∀ request : Request, FirstSuiting routes request routes[k] → GoodQuery request.query →
        ∃ given, PlaceholderTexts parsers given ∧ request.path = filled first placeholders given ∧
          ∀ params : GoMap Bytes, params = requestParameters (placeholders.map (fun p => String.ofList p.1)) given request.query →
          ∀ conditions : List Condition, Reads env (allParameters (d.parameters.map (fun e => (e.1, completedParameter e.2))) params) conditions →
            (∀ c ∈ conditions, ∀ i, IsIndex p c.index i → ¬ FindsEqual i → acceptable c.index c.property c.value) →
            ∃ kept, OneForEach conditions kept ∧ ∃ response, clientGets (handleRequest service "application/json" routes request) = some response ∧
              match records.find? (fun r => kept.all (fun c => sat c.index c.property c.value r)) with
              | none => response.status = 404
              | some r => response.status = 200 ∧ mapGet response.headers "Content-Type" = some "application/json; charset=UTF-8" ∧
                  service.encode (.obj (shown r)) = .ok response.body := by
  obtain ⟨routes, h1, h2, h3⟩ := Running.route hrun hs k hk
  refine ⟨routes, h1, h2, ?_⟩
  obtain ⟨api, h4, h5⟩ := hrun.outputs _ ho
  obtain ⟨input, h6, hdata⟩ := Running.data hrun hw hdef hvisit hx hrec hfind
  have hd := hw.outputs _ ho
  simp only [completedOutput, RunsOutput, hrel, completedRelationships] at h5
  rw [h5] at h4
  have hparsers := Running.placeholders hrun (api := api) (parameters := d.parameters) (fun n q hq => by
      rw [h5]; simp only [objectApi]; rw [mapGet_mapValues, hq]; rfl) (fun n q t hq ht => by
      rw [h5]; simp only [objectApi]; rw [mapGet_mapValues, hq]; simp only [Option.map_some, completedParameter]; rw [ht]) hp
  rw [h5] at hparsers
  obtain ⟨route, h7, h8⟩ := C69_object_request service hlib hjson env _ texts apis s.routes[k].output h4 first placeholders hg parsers hparsers hr hu input records
    sat (askable p x.name (filteredValues p d.parameters) acceptable) (by rw [← hxn]; exact h6) hdata rfl shown hall hfin
  obtain ⟨route', h7', hout, hmatch, _⟩ := C53_placeholders_partial service hlib apis s.routes[k].output _ h4 first placeholders hg parsers hparsers hr hu
  rw [h7] at h7'
  cases h7'
  rw [hpath, h7] at h3
  have h3 := Except.ok.inj h3
  rw [← h3]
  refine ⟨fun request => ?_, fun request hf hq => ?_⟩
  · simp only [Suits, hmatch, hout]
    constructor
    · rintro ⟨⟨a, _⟩ | ⟨_, a⟩, b⟩
      · exact ⟨a, b⟩
      · cases a
    · rintro ⟨a, b⟩
      exact ⟨.inl ⟨a, rfl⟩, b⟩
  obtain ⟨given, h9, h10, h11⟩ := h8 routes request hf hq
  refine ⟨given, h9, h10, fun params hparams conditions hreads hacc => ?_⟩
  have hans := Running.answerable hrun (input := x.name) (parameters := d.parameters) (asked := filteredValues p d.parameters) (fun _ h => h) (fun n q hq => by rw [hxn]; exact hd.2.2.2.1 n q hq) (by
    intro e he
    simp only [allParameters, List.map_map, List.mem_map, Function.comp_def] at he
    obtain ⟨⟨n, q⟩, hq, rfl⟩ := he
    exact ⟨n, q, hq, rfl⟩) hreads hacc
  exact h11 params hparams conditions hreads hans.1 hans.2

namespace RunningExample
open OutputExample
/-- A CSV file with a map index, and the routes /by/{number} to a list and /one/{number} to an object, with the parameters number and letter. -/
def parameters : GoMap ParamConfig := [("number", { property := "n", index := "map", parser := "integer" }), ("letter", { property := "s", index := "", parser := "" })]
def list : ArrayConfig := { input := "in", limit := ⟨0, 0, ""⟩, offsetParameter := "", parameters := parameters, relationships := [] }
def one : ObjectConfig := { input := "in", parameters := parameters, relationships := [] }
def web : ServiceDecl := { name := "web", http := some "", https := none, errorsType := "", routes := [⟨"list", "/by/{number}"⟩, ⟨"one", "/one/{number}"⟩] }
def csv : InputDecl := .csv { name := "in", path := "in.csv", dieOnInputChange := none, ignoreFirstRow := true, autodetectColumns := false, delimiter := "",
                              columns := [⟨"n", "integer"⟩, ⟨"s", ""⟩] }
def parsed : ParsedConfig where
  parsers := []
  inputs := [csv]
  indexes := [.map { name := "map", input := "in", properties := ["n"] }]
  services := [web]
  outputs := [.array "list" list, .object "one" one]
/-- The input gives the three records (1, "a"), (1, "b"), (2, "a"). -/
def startLib (parserLib : ParserLib) : StartLib := { ConfigExample.startLib parserLib with input := fun _ _ _ => .ok input }
theorem loads : ∃ c, loadConfig ConfigExample.lib parsed = .ok c ∧ ∀ parserLib, ∃ running, start (startLib parserLib) c = .ok running := ⟨_, rfl, fun _ => ⟨_, rfl⟩⟩
theorem records (parserLib : ParserLib) (functions : GoMap (Bytes → Res Value)) : RecordsOf (startLib parserLib) parsed functions csv (filteredValues parsed parameters) recs where
  rows e i _ h := by
    cases h
    refine ⟨table, fun r hr => ?_⟩
    simp only [recs, List.mem_cons, List.not_mem_nil, or_false] at hr
    rcases hr with rfl | rfl | rfl <;> rfl
  indexed m _ _ r hr q _ := have_properties r hr q
  filtered q _ r hr := ⟨_, (have_properties r hr q).choose_spec.1⟩
theorem integer_parser : IsParser parsed "integer" ⟨"integer", .integer ""⟩ :=
  .inr ⟨by simp [parsed], by simp [builtinParsers], rfl⟩
theorem string_parser : IsParser parsed "string" ⟨"string", .string ""⟩ :=
  .inr ⟨by simp [parsed], by simp [builtinParsers], rfl⟩
theorem placeholders (parserLib : ParserLib) :
    PlaceholderParsers (startLib parserLib) parsed parameters EndToEndExample.placeholders [.integer []] :=
  ⟨⟨_, _, rfl, integer_parser, rfl⟩, trivial⟩
/-- All the indexes find equal values. -/
theorem finds_equal : ∀ n i, IsIndex parsed n i → FindsEqual i := by
  rintro n i (⟨h, _⟩ | ⟨_, h, _⟩)
  · exact .inl ⟨_, List.mem_singleton.1 h⟩
  · exact .inr ⟨_, List.mem_singleton.1 h⟩
theorem finds (parserLib : ParserLib) (functions : GoMap (Bytes → Res Value)) :
    IndexesFind ConfigExample.lib (startLib parserLib) parsed functions csv recs (fun _ q v r => propEquals r q v) (fun _ _ _ => True) where
  equality _ _ _ _ _ _ _ := rfl
  others i hi hn := by
    rw [List.mem_singleton.1 hi] at hn
    exact (hn (.inl ⟨_, rfl⟩)).elim
theorem plain_default : PlainDefault parsed := by
  intro i hi
  rcases hi with ⟨h, e⟩ | ⟨_, h, _⟩
  · rw [List.mem_singleton.1 h] at e
    exact absurd e (by decide)
  · exact ⟨_, List.mem_singleton.1 h⟩
/-- number=1&letter=b means n = 1 and s = "b". -/
theorem reads {parserLib : ParserLib} {texts : GoMap TextParser} {env : OutputEnv} {apis : GoMap OutputApi} {running : GoMap (String × List Route)}
    (hrun : Running ConfigExample.lib (startLib parserLib) parsed texts env apis running) :
    Reads env [({ property := "n", index := "map", parser := "integer" }, [49]), ({ property := "s", index := "default", parser := "string" }, [98])]
      [⟨"map", "n", .int 1⟩, ⟨"default", "s", .str [98]⟩] := by
  have key : ∀ {n x}, IsParser parsed n x → ∃ t, RunsParser (startLib parserLib) (completedParser x) t ∧ mapGet env.parsers n =
      some (parse parserLib (texts.map (fun q => (q.1, q.2.config))) texts.length t.config) := by
    intro n x hx
    obtain ⟨t, ht, hr⟩ := hrun.parsers _ _ hx
    refine ⟨t, hr, ?_⟩
    rw [hrun.functions, parseFunctions, mapGet_mapValues (fun q : TextParser => parse (startLib parserLib).parserLib
      (texts.map (fun q => (q.1, q.2.config))) texts.length q.config), ht]
    rfl
  obtain ⟨t, ht, h⟩ := key integer_parser
  obtain ⟨u, hu, g⟩ := key string_parser
  rw [show t = .integer [] from ht] at h
  rcases hu with ⟨_, rfl⟩ | ⟨hc, _⟩
  · exact ⟨rfl, rfl, ⟨_, h, by simp only [TextParser.config, parse]; rfl⟩, rfl, rfl, ⟨_, g, by simp only [TextParser.config, parse, stringParse]⟩, trivial⟩
  · exact (hc rfl).elim
end RunningExample

/-- GET /by/1?letter=b in the running program: the array with the second record. -/
example (service : ServiceLib) (hlib : RegexpContract service.find) (hjson : EncoderContract service.encode) (parserLib : ParserLib) (c : Config)
    (hload : loadConfig ConfigExample.lib RunningExample.parsed = .ok c) (running) (hstart : start (RunningExample.startLib parserLib) c = .ok running) :
    ∃ routes, mapGet running "web" = some ("application/json", routes) ∧ ∃ response,
      clientGets (handleRequest service "application/json" routes EndToEndExample.request) = some response ∧ response.status = 200 ∧
        service.encode (.arr [.obj [("n", .int 1), ("s", .str [98])]]) = .ok response.body := by
  obtain ⟨texts, env, apis, hrun⟩ := C78_running _ _ _ _ _ hload ⟨.refl _, .refl _, .refl _, .refl _, .refl _⟩ running hstart
  have hw := (C76_accepted _ _).1 ⟨_, hload⟩
  obtain ⟨routes, h1, hk, h2, h3⟩ := C79_list_request_partial service hlib hjson _ _ _ _ _ _ _ hrun hw RunningExample.plain_default (fun _ _ _ => .refl _)
    RunningExample.web (.head _) 0 (by decide) RunningExample.list (.head _) rfl RunningExample.csv (.head _) rfl "/by/".toList EndToEndExample.placeholders rfl
    EndToEndExample.good [.integer []] (RunningExample.placeholders parserLib) EndToEndExample.integer_route (by simp) OutputExample.recs
    (RunningExample.records parserLib _) _ _ (RunningExample.finds parserLib _) OutputExample.shown OutputExample.shown_all EndToEndExample.finite
  refine ⟨routes, h1, ?_⟩
  match routes, hk, h2, h3 with
  | route :: rest, hk, h2, h3 =>
    obtain ⟨given, h4, h5, h6⟩ := h3 EndToEndExample.request ⟨[], rest, rfl, (h2 _).2 ⟨rfl, ["1".toList], ⟨⟨[], [], ['1'], rfl, by simp, .inl rfl, by simp, by
      unfold isDigitChar; decide⟩, trivial⟩, rfl⟩, by simp⟩ ⟨by decide, by decide⟩
    have := EndToEndExample.one_reading (first := "/by/".toList) (suffix := []) (name := "number".toList) (text := ['1']) h4 (by
      rw [← show EndToEndExample.request.path = "/by/".toList ++ ['1'] ++ [] from rfl, h5]; rfl)
    subst this
    obtain ⟨kept, hkept, response, g1, g2, _, g4⟩ := h6 _ rfl _ 100 0 (RunningExample.reads hrun) (fun _ _ i hi hn => (hn (RunningExample.finds_equal _ _ hi)).elim) (.inl ⟨by decide, rfl⟩) (.inl ⟨by decide, rfl⟩) (by decide)
    simp only [hkept.all_eq (by decide)] at g4
    exact ⟨response, g1, g2, g4⟩

/-- GET /one/1?letter=b in the running program: the second record. -/
example (service : ServiceLib) (hlib : RegexpContract service.find) (hjson : EncoderContract service.encode) (parserLib : ParserLib) (c : Config)
    (hload : loadConfig ConfigExample.lib RunningExample.parsed = .ok c) (running) (hstart : start (RunningExample.startLib parserLib) c = .ok running) :
    ∃ routes, mapGet running "web" = some ("application/json", routes) ∧ ∃ response,
      clientGets (handleRequest service "application/json" routes { EndToEndExample.request with path := "/one/1".toList }) = some response ∧ response.status = 200 ∧
        service.encode (.obj [("n", .int 1), ("s", .str [98])]) = .ok response.body := by
  obtain ⟨texts, env, apis, hrun⟩ := C78_running _ _ _ _ _ hload ⟨.refl _, .refl _, .refl _, .refl _, .refl _⟩ running hstart
  have hw := (C76_accepted _ _).1 ⟨_, hload⟩
  have hgood : GoodTemplate "/one/".toList EndToEndExample.placeholders := ⟨by unfold PlainText; decide, by unfold PlainText; decide, by decide⟩
  obtain ⟨routes, h1, hk, h2, h3⟩ := C79_object_request_partial service hlib hjson _ _ _ _ _ _ _ hrun hw RunningExample.plain_default
    (fun _ _ _ => .refl _) RunningExample.web (.head _) 1 (by decide) RunningExample.one (.tail _ (.head _)) rfl RunningExample.csv (.head _) rfl "/one/".toList
    EndToEndExample.placeholders rfl hgood [.integer []] (RunningExample.placeholders parserLib) EndToEndExample.integer_route (by simp) OutputExample.recs
    (RunningExample.records parserLib _) _ _ (RunningExample.finds parserLib _) OutputExample.shown OutputExample.shown_all EndToEndExample.finite
  obtain ⟨routes', h1', hk', h2', _⟩ := C79_list_request_partial service hlib hjson _ _ _ _ _ _ _ hrun hw RunningExample.plain_default (fun _ _ _ => .refl _)
    RunningExample.web (.head _) 0 (by decide) RunningExample.list (.head _) rfl RunningExample.csv (.head _) rfl "/by/".toList EndToEndExample.placeholders rfl
    EndToEndExample.good [.integer []] (RunningExample.placeholders parserLib) EndToEndExample.integer_route (by simp) OutputExample.recs
    (RunningExample.records parserLib _) _ _ (RunningExample.finds parserLib _) OutputExample.shown OutputExample.shown_all EndToEndExample.finite
  rw [h1] at h1'
  cases h1'
  refine ⟨routes, h1, ?_⟩
  match routes, hk, h2, h3, hk', h2' with
  | other :: route :: rest, hk, h2, h3, hk', h2' =>
    obtain ⟨given, h4, h5, h6⟩ := h3 { EndToEndExample.request with path := "/one/1".toList } ⟨[other], rest, rfl, (h2 _).2 ⟨rfl, ["1".toList],
      ⟨⟨[], [], ['1'], rfl, by simp, .inl rfl, by simp, by unfold isDigitChar; decide⟩, trivial⟩, rfl⟩, by
        intro r hr
        rw [List.mem_singleton.1 hr]
        intro h
        obtain ⟨_, given, _, h⟩ := (h2' _).1 h
        exact absurd h (by simp [filled])⟩ ⟨by decide, by decide⟩
    have := EndToEndExample.one_reading (first := "/one/".toList) (suffix := []) (name := "number".toList) (text := ['1']) h4 (by
      exact (show "/one/".toList ++ ['1'] ++ [] = "/one/1".toList from rfl).trans h5)
    subst this
    obtain ⟨kept, hkept, response, g1, g2⟩ := h6 _ rfl _ (RunningExample.reads hrun) (fun _ _ i hi hn => (hn (RunningExample.finds_equal _ _ hi)).elim)
    simp only [hkept.all_eq (by decide)] at g2
    exact ⟨response, g1, g2.1, g2.2.2⟩

end Rodb
