import Verif.Spec.Refused
import Verif.Props.StoredFilesProps
/-
  Requests whose parameters cannot be read are refused.
-/
namespace Rodb
open Spec

section
variable {config : ConfigLib} {lib : StartLib} {p : ParsedConfig} {texts : GoMap TextParser} {env : OutputEnv} {apis : GoMap OutputApi}
    {running : GoMap (String × List Route)}

/-- The parsers of parameters give a value or an error. -/
theorem Running.returned (hrun : Running config lib p texts env apis running) (hret : ParsersReturn lib) {name : String} {x : ParserDecl} (hx : IsParser p name x)
    (hprim : x.primitive = true) : ∃ f, mapGet env.parsers name = some f ∧ ∀ text, Returned (f text) := by
  obtain ⟨t, ht, hr⟩ := hrun.parsers _ _ hx
  refine ⟨_, by rw [hrun.functions, parseFunctions, mapGet_mapValues (fun q : TextParser => parse lib.parserLib (texts.map (fun q => (q.1, q.2.config))) texts.length q.config), ht]; rfl,
    fun text => ?_⟩
  obtain ⟨xn, kind⟩ := x
  cases kind with
  | string charset =>
    rcases hr with ⟨_, rfl⟩ | ⟨_, g, hg, rfl⟩
    · exact .inl ⟨.str text, by simp only [TextParser.config, parse, stringParse]⟩
    · simp only [TextParser.config, parse, stringParse]
      rcases hret.charset _ _ hg text with ⟨v, hv⟩ | ⟨m, hv⟩
      · exact .inl ⟨_, by rw [hv]⟩
      · exact .inr ⟨_, by rw [hv]⟩
  | integer i =>
    rw [show t = _ from hr]
    simp only [TextParser.config, parse, integerParse]
    split
    · exact .inl ⟨_, rfl⟩
    · exact .inr ⟨_, rfl⟩
  | float s i =>
    rw [show t = _ from hr]
    simp only [TextParser.config, parse, floatParse]
    split
    · exact .inl ⟨_, rfl⟩
    · rename_i e he
      rcases hret.float _ with ⟨v, hv⟩ | ⟨m, hv⟩
      · rw [hv] at he; cases he
      · rw [hv] at he; cases he; exact .inr ⟨_, rfl⟩
  | boolean y n =>
    rw [show t = _ from hr]
    simp only [TextParser.config, parse, booleanParse]
    split
    · exact .inl ⟨_, rfl⟩
    · split
      · exact .inl ⟨_, rfl⟩
      · exact .inr ⟨_, rfl⟩
  | json => cases hprim
  | split d r q => cases hprim
end

/-- A limit that is read, or an error. -/
theorem getLimit_returned (c : LimitConfig) (params : GoMap Bytes) : Returned (getLimit c params) := by
  unfold getLimit
  split
  · rename_i e he
    split at he
    · cases he
    · split at he
      · cases he; exact .inr ⟨_, rfl⟩
      · split at he
        · cases he; exact .inr ⟨_, rfl⟩
        · cases he
  · exact .inl ⟨_, rfl⟩

/-- An offset that is read, or an error. -/
theorem getOffset_returned (name : String) (params : GoMap Bytes) : Returned (getOffset name params) := by
  unfold getOffset
  split
  · exact .inl ⟨_, rfl⟩
  · split
    · exact .inr ⟨_, rfl⟩
    · split
      · exact .inr ⟨_, rfl⟩
      · exact .inl ⟨_, rfl⟩

/-- The filters of a list request with an unreadable parameter. -/
theorem arrayFilters_unreadable (env : OutputEnv) (params : GoMap Bytes) : ∀ (l : GoMap ParamConfig) (filters : GoMap (GoMap Value)),
    (∀ e ∈ givenParameters l params, ∀ parse, mapGet env.parsers e.1.parser = some parse → ∀ text, Returned (parse text)) →
    Unreadable env.parsers (givenParameters l params) → ∃ m, arrayFilters env params l filters = .error (.err m)
  | [], _, _, ⟨e, he, _⟩ => by simp [givenParameters] at he
  | (name, q) :: rest, filters, hret, h => by
    simp only [arrayFilters]
    cases hn : mapGet params name with
    | none =>
      have hg : givenParameters ((name, q) :: rest) params = givenParameters rest params := by simp [givenParameters, hn]
      rw [hg] at hret h
      exact arrayFilters_unreadable env params rest filters hret h
    | some text =>
      have hg : givenParameters ((name, q) :: rest) params = (q, text) :: givenParameters rest params := by simp [givenParameters, hn]
      rw [hg] at hret h
      dsimp only
      cases hp : mapGet env.parsers q.parser with
      | none => exact ⟨_, rfl⟩
      | some parse =>
        dsimp only
        rcases hret (q, text) (.head _) parse hp text with ⟨v, hv⟩ | ⟨m, hv⟩
        · rw [hv]
          dsimp only
          refine arrayFilters_unreadable env params rest _ (fun e he => hret e (.tail _ he)) ?_
          obtain ⟨e, he, parse', h1, h2⟩ := h
          rcases List.mem_cons.1 he with rfl | he
          · rw [hp] at h1
            cases h1
            exact absurd hv (h2 v)
          · exact ⟨e, he, parse', h1, h2⟩
        · rw [hv]; exact ⟨_, rfl⟩

/-- The filters of an object request with an unreadable parameter. -/
theorem objectFilters_unreadable (env : OutputEnv) (params : GoMap Bytes) : ∀ (l : GoMap ParamConfig) (filters : GoMap (GoMap Value)),
    (∀ e ∈ allParameters l params, ∀ parse, mapGet env.parsers e.1.parser = some parse → ∀ text, Returned (parse text)) →
    Unreadable env.parsers (allParameters l params) → ∃ m, objectFilters env params l filters = .error (.err m)
  | [], _, _, ⟨e, he, _⟩ => by simp [allParameters] at he
  | (name, q) :: rest, filters, hret, h => by
    simp only [objectFilters]
    have hg : allParameters ((name, q) :: rest) params = (q, (mapGet params name).getD []) :: allParameters rest params := rfl
    rw [hg] at hret h
    cases hp : mapGet env.parsers q.parser with
    | none => exact ⟨_, rfl⟩
    | some parse =>
      dsimp only
      rcases hret (q, (mapGet params name).getD []) (.head _) parse hp ((mapGet params name).getD []) with ⟨v, hv⟩ | ⟨m, hv⟩
      · rw [hv]
        dsimp only
        refine objectFilters_unreadable env params rest _ (fun e he => hret e (.tail _ he)) ?_
        obtain ⟨e, he, parse', h1, h2⟩ := h
        rcases List.mem_cons.1 he with rfl | he
        · rw [hp] at h1
          cases h1
          exact absurd hv (h2 v)
        · exact ⟨e, he, parse', h1, h2⟩
      · rw [hv]; exact ⟨_, rfl⟩

/-- Whether parameters can be read does not depend on their order. -/
theorem Spec.Unreadable.perm {parsers : GoMap (Bytes → Res Value)} {a b : List (ParamConfig × Bytes)} (hp : a.Perm b) : Unreadable parsers a → Unreadable parsers b
  | ⟨e, he, h⟩ => ⟨e, hp.mem_iff.1 he, h⟩

/-- The response to a request whose output answers an error. -/
theorem served_error {service : ServiceLib} (hlib : RegexpContract service.find) {routes : List Route} {request : Request}
    {route : Route} (hf : FirstSuiting routes request route) (hnone : route.output.payloadType = none) {params : GoMap Bytes}
    (hp : getParams service route request = .ok params) {m : String} (hv : route.output.handle params [] = .error (.err m)) :
    ∃ response, clientGets (handleRequest service "application/json" routes request) = some response ∧ ErrorResponse service.errorText 500 response := by
  have hm := getMatchingRoute_first hlib hf
  have hpay : getPayload route request = .ok [] := by simp [getPayload, hnone]
  simp only [handleRequest, hm, serveRoute, hpay, hp, hv, sendAnswer, sendFailure, sendErrorResponse, if_true]
  exact ⟨_, rfl, rfl, rfl, _, rfl⟩

/-- What a list output refuses. -/
theorem handleArray_refuses
    {config : ConfigLib} {lib : StartLib} {p : ParsedConfig} {texts : GoMap TextParser} {env : OutputEnv} {apis : GoMap OutputApi} {running : GoMap (String × List Route)}
    (hrun : Running config lib p texts env apis running) (hw : WellFormed config p) (hret : ParsersReturn lib)
    (hvisit : ∀ (path : List Nat) (α : Type) (l : List α), (lib.visit path l).Perm l) {name : String} {d : ArrayConfig}
    (ho : .array name d ∈ p.outputs) {actual : GoMap Bytes} (hbad : BadPaging (orText d.limit.parameter "limit") (orText d.offsetParameter "offset") actual ∨
      Unreadable env.parsers (givenParameters (d.parameters.map (fun e => (e.1, completedParameter e.2))) actual)) {relationships : GoMap Relationship} :
    ∃ m, handleArray env { input := d.input, limit := ⟨orNumber d.limit.default 100, orNumber d.limit.max 1000, orText d.limit.parameter "limit"⟩, offsetParameter := orText d.offsetParameter "offset", parameters := d.parameters.map (fun e => (e.1, completedParameter e.2)), relationships := relationships } actual = .error (.err m) := by
  have hd := hw.outputs _ ho
  rcases hbad with hbad | hbad
  · exact C42_refuses_bad_paging env _ actual hbad
  · simp only [handleArray]
    rcases getLimit_returned ⟨orNumber d.limit.default 100, orNumber d.limit.max 1000, orText d.limit.parameter "limit"⟩ actual with ⟨l, hl⟩ | ⟨m, hl⟩
    · rcases getOffset_returned (orText d.offsetParameter "offset") actual with ⟨o, ho'⟩ | ⟨m, ho'⟩
      · have hperm : (env.visit [0] (d.parameters.map (fun e => (e.1, completedParameter e.2)))).Perm (d.parameters.map (fun e => (e.1, completedParameter e.2))) := by
          rw [hrun.visit]; exact hvisit _ _ _
        obtain ⟨m, hm⟩ := arrayFilters_unreadable env actual (env.visit [0] (d.parameters.map (fun e => (e.1, completedParameter e.2)))) [] (by
          intro e he parse hparse
          simp only [givenParameters, List.mem_filterMap, Option.map_eq_some_iff] at he
          obtain ⟨⟨n, q⟩, hq, t, _, rfl⟩ := he
          obtain ⟨⟨n', q'⟩, hq', e⟩ := List.mem_map.1 (hperm.mem_iff.1 hq)
          cases e
          obtain ⟨_, _, x, hx, hprim⟩ := (hd.2.2.2.1 _ _ hq').1
          obtain ⟨f, hf, hf'⟩ := Running.returned hrun hret hx hprim
          replace hparse := hf.symm.trans hparse
          cases hparse
          exact hf') (hbad.perm (hperm.symm.filterMap _))
        exact ⟨m, by rw [hl]; dsimp only; rw [ho']; dsimp only; rw [hm]⟩
      · exact ⟨m, by rw [hl]; dsimp only; rw [ho']⟩
    · exact ⟨m, by rw [hl]⟩

/-- What an object output refuses. -/
theorem handleObject_refuses
    {config : ConfigLib} {lib : StartLib} {p : ParsedConfig} {texts : GoMap TextParser} {env : OutputEnv} {apis : GoMap OutputApi} {running : GoMap (String × List Route)}
    (hrun : Running config lib p texts env apis running) (hw : WellFormed config p) (hret : ParsersReturn lib)
    (hvisit : ∀ (path : List Nat) (α : Type) (l : List α), (lib.visit path l).Perm l) {name : String} {d : ObjectConfig}
    (ho : .object name d ∈ p.outputs) {actual : GoMap Bytes} (hbad : Unreadable env.parsers (allParameters (d.parameters.map (fun e => (e.1, completedParameter e.2))) actual))
    {relationships : GoMap Relationship} :
    ∃ m, handleObject env { input := d.input, parameters := d.parameters.map (fun e => (e.1, completedParameter e.2)), relationships := relationships } actual = .error (.err m) := by
  have hd := hw.outputs _ ho
  simp only [handleObject]
  have hperm : (env.visit [0] (d.parameters.map (fun e => (e.1, completedParameter e.2)))).Perm (d.parameters.map (fun e => (e.1, completedParameter e.2))) := by
    rw [hrun.visit]; exact hvisit _ _ _
  obtain ⟨m, hm⟩ := objectFilters_unreadable env actual (env.visit [0] (d.parameters.map (fun e => (e.1, completedParameter e.2)))) [] (by
    intro e he parse hparse
    simp only [allParameters, List.mem_map] at he
    obtain ⟨⟨n, q⟩, hq, rfl⟩ := he
    obtain ⟨⟨n', q'⟩, hq', e⟩ := List.mem_map.1 (hperm.mem_iff.1 hq)
    cases e
    obtain ⟨_, _, x, hx, hprim⟩ := hd.2.2.2.1 _ _ hq'
    obtain ⟨f, hf, hf'⟩ := Running.returned hrun hret hx hprim
    replace hparse := hf.symm.trans hparse
    cases hparse
    exact hf') (hbad.perm (hperm.symm.map _))
  exact ⟨m, by rw [hm]⟩

/-- **C90** In a running program, a request to a route of a list output whose limit is not a positive number, whose offset is not a number from 0 on, or with a parameter, in the
path or in the query string, that its parser cannot read, is answered with status 500 and a JSON error, whatever the data. -/
theorem C90_list_refused (service : ServiceLib) (hlib : RegexpContract service.find) (config : ConfigLib)
    (lib : StartLib) (p : ParsedConfig) (texts : GoMap TextParser) (env : OutputEnv) (apis : GoMap OutputApi) (running : GoMap (String × List Route))
    (hrun : Running config lib p texts env apis running) (hw : WellFormed config p) (hret : ParsersReturn lib)
    (hvisit : ∀ (path : List Nat) (α : Type) (l : List α), (lib.visit path l).Perm l)
    (s : ServiceDecl) (hs : s ∈ p.services) (k : Nat) (hk : k < s.routes.length) (d : ArrayConfig) (ho : .array s.routes[k].output d ∈ p.outputs)
    (first : List Char) (placeholders : List (List Char × List Char)) (hpath : s.routes[k].path.toList = template first placeholders)
    (hg : GoodTemplate first placeholders) (parsers : List TextParser) (hp : PlaceholderParsers lib p d.parameters placeholders parsers)
    (hr : ∀ p ∈ parsers, RouteParser p) (hu : ∀ p ∈ parsers.dropLast, Ungrouped p) :
    ∃ routes, mapGet running s.name = some ("application/json", routes) ∧ ∃ h : k < routes.length,
      ∀ request : Request, FirstSuiting routes request routes[k] → GoodQuery request.query →
        ∃ given, PlaceholderTexts parsers given ∧ request.path = filled first placeholders given ∧
          ∀ params : GoMap Bytes, params = requestParameters (placeholders.map (fun p => String.ofList p.1)) given request.query →
            BadPaging (orText d.limit.parameter "limit") (orText d.offsetParameter "offset") params ∨
              Unreadable env.parsers (givenParameters (d.parameters.map (fun e => (e.1, completedParameter e.2))) params) →
            ∃ response, clientGets (handleRequest service "application/json" routes request) = some response ∧ ErrorResponse service.errorText 500 response := by
  obtain ⟨routes, h1, h2, h3⟩ := Running.route hrun hs k hk
  refine ⟨routes, h1, h2, ?_⟩
  obtain ⟨api, h4, h5⟩ := hrun.outputs _ ho
  have hd := hw.outputs _ ho
  simp only [completedOutput, RunsOutput] at h5
  rw [h5] at h4
  have hparsers := Running.placeholders hrun (api := api) (parameters := d.parameters) (fun n q hq => by
      rw [h5]; simp only [arrayApi]; rw [mapGet_mapValues, hq]; rfl) (fun n q t hq ht => by
      rw [h5]; simp only [arrayApi]; rw [mapGet_mapValues, hq]; simp only [Option.map_some, completedParameter]; rw [ht]) hp
  rw [h5] at hparsers
  obtain ⟨route, h7, hout, hmatch, h8⟩ := C53_placeholders_partial service hlib apis s.routes[k].output _ h4 first placeholders hg parsers hparsers hr hu
  rw [hpath, h7] at h3
  have h3 := Except.ok.inj h3
  rw [← h3]
  intro request hf hq
  obtain ⟨actual, given, h9, h10, h11, h12⟩ := h8 request (by obtain ⟨_, _, _, h, _⟩ := hf; exact h.2) hq
  refine ⟨given, h10, h11, ?_⟩
  rintro params rfl hbad
  have hcongr : ∀ n, mapGet actual n = mapGet (requestParameters (placeholders.map (fun p => String.ofList p.1)) given request.query) n := by
    intro n; rw [h12, requestParameters_get _ _ _ hq]
  refine (?_ : ∃ m, route.output.handle actual [] = .error (.err m)).elim fun m hm => served_error hlib hf (by rw [hout]; rfl) h9 hm
  rw [hout]
  exact handleArray_refuses hrun hw hret hvisit ho (by
    rw [givenParameters_congr _ hcongr]
    simpa only [BadPaging, hcongr] using hbad)

/-- **C90** In a running program, a request to a route of an object output with a parameter that its parser cannot read is answered with status 500 and a JSON error, whatever the
data. A parameter that is not given is the empty text. -/
theorem C90_object_refused (service : ServiceLib) (hlib : RegexpContract service.find) (config : ConfigLib)
    (lib : StartLib) (p : ParsedConfig) (texts : GoMap TextParser) (env : OutputEnv) (apis : GoMap OutputApi) (running : GoMap (String × List Route))
    (hrun : Running config lib p texts env apis running) (hw : WellFormed config p) (hret : ParsersReturn lib)
    (hvisit : ∀ (path : List Nat) (α : Type) (l : List α), (lib.visit path l).Perm l)
    (s : ServiceDecl) (hs : s ∈ p.services) (k : Nat) (hk : k < s.routes.length) (d : ObjectConfig) (ho : .object s.routes[k].output d ∈ p.outputs)
    (first : List Char) (placeholders : List (List Char × List Char)) (hpath : s.routes[k].path.toList = template first placeholders)
    (hg : GoodTemplate first placeholders) (parsers : List TextParser) (hp : PlaceholderParsers lib p d.parameters placeholders parsers)
    (hr : ∀ p ∈ parsers, RouteParser p) (hu : ∀ p ∈ parsers.dropLast, Ungrouped p) :
    ∃ routes, mapGet running s.name = some ("application/json", routes) ∧ ∃ h : k < routes.length,
      ∀ request : Request, FirstSuiting routes request routes[k] → GoodQuery request.query →
        ∃ given, PlaceholderTexts parsers given ∧ request.path = filled first placeholders given ∧
          ∀ params : GoMap Bytes, params = requestParameters (placeholders.map (fun p => String.ofList p.1)) given request.query →
            Unreadable env.parsers (allParameters (d.parameters.map (fun e => (e.1, completedParameter e.2))) params) →
            ∃ response, clientGets (handleRequest service "application/json" routes request) = some response ∧ ErrorResponse service.errorText 500 response := by
  obtain ⟨routes, h1, h2, h3⟩ := Running.route hrun hs k hk
  refine ⟨routes, h1, h2, ?_⟩
  obtain ⟨api, h4, h5⟩ := hrun.outputs _ ho
  have hd := hw.outputs _ ho
  simp only [completedOutput, RunsOutput] at h5
  rw [h5] at h4
  have hparsers := Running.placeholders hrun (api := api) (parameters := d.parameters) (fun n q hq => by
      rw [h5]; simp only [objectApi]; rw [mapGet_mapValues, hq]; rfl) (fun n q t hq ht => by
      rw [h5]; simp only [objectApi]; rw [mapGet_mapValues, hq]; simp only [Option.map_some, completedParameter]; rw [ht]) hp
  rw [h5] at hparsers
  obtain ⟨route, h7, hout, hmatch, h8⟩ := C53_placeholders_partial service hlib apis s.routes[k].output _ h4 first placeholders hg parsers hparsers hr hu
  rw [hpath, h7] at h3
  have h3 := Except.ok.inj h3
  rw [← h3]
  intro request hf hq
  obtain ⟨actual, given, h9, h10, h11, h12⟩ := h8 request (by obtain ⟨_, _, _, h, _⟩ := hf; exact h.2) hq
  refine ⟨given, h10, h11, ?_⟩
  rintro params rfl hbad
  have hcongr : ∀ n, mapGet actual n = mapGet (requestParameters (placeholders.map (fun p => String.ofList p.1)) given request.query) n := by
    intro n; rw [h12, requestParameters_get _ _ _ hq]
  refine (?_ : ∃ m, route.output.handle actual [] = .error (.err m)).elim fun m hm => served_error hlib hf (by rw [hout]; rfl) h9 hm
  rw [hout]
  exact handleObject_refuses hrun hw hret hvisit ho (by rw [allParameters_congr _ hcongr]; exact hbad)

/-- Parameters that can all be read mean conditions. -/
theorem reads_of_readable {env : OutputEnv} : ∀ {l : List (ParamConfig × Bytes)}, (∀ e ∈ l, ∃ parse, mapGet env.parsers e.1.parser = some parse) →
    ¬ Unreadable env.parsers l → ∃ conditions, Reads env l conditions ∧ conditions.map (fun c => (c.index, c.property)) = l.map (fun e => (e.1.index, e.1.property))
  | [], _, _ => ⟨[], trivial, rfl⟩
  | e :: l, hl, h => by
    obtain ⟨conditions, h1, h2⟩ := reads_of_readable (l := l) (fun e he => hl e (.tail _ he)) (fun ⟨e, he, h'⟩ => h ⟨e, .tail _ he, h'⟩)
    obtain ⟨parse, hp⟩ := hl e (.head _)
    cases hv : parse e.2 with
    | error x => exact absurd ⟨e, .head _, parse, hp, fun v hv' => by rw [hv] at hv'; cases hv'⟩ h
    | ok v => exact ⟨⟨e.1.index, e.1.property, v⟩ :: conditions, ⟨rfl, rfl, ⟨parse, hp, hv⟩, h1⟩, by simp [h2]⟩

/-- A page that makes sense is asked. -/
theorem paging_of_good {c : LimitConfig} {offset : String} {params : GoMap Bytes} (h : ¬ BadPaging c.parameter offset params) :
    (∃ n, AskedLimit c params n) ∧ ∃ n, AskedOffset offset params n := by
  constructor
  · cases ht : mapGet params c.parameter with
    | none => exact ⟨_, .inl ⟨ht, rfl⟩⟩
    | some text =>
      by_cases hn : ∀ n : Int, 0 < n → ¬ IntegerText text n
      · exact absurd (.inl ⟨text, ht, hn⟩) h
      · simp only [Classical.not_forall, Classical.not_not] at hn
        obtain ⟨n, h1, h2⟩ := hn
        exact ⟨n.toNat, .inr ⟨text, ht, by rw [Int.toNat_of_nonneg (by omega)]; exact h2, by omega⟩⟩
  · cases ht : mapGet params offset with
    | none => exact ⟨_, .inl ⟨ht, rfl⟩⟩
    | some text =>
      by_cases hn : ∀ n : Int, 0 ≤ n → ¬ IntegerText text n
      · exact absurd (.inr ⟨text, ht, hn⟩) h
      · simp only [Classical.not_forall, Classical.not_not] at hn
        obtain ⟨n, h1, h2⟩ := hn
        exact ⟨n.toNat, .inr ⟨text, ht, by rw [Int.toNat_of_nonneg (by omega)]; exact h2⟩⟩

/-- **C90** All the other list requests have a meaning: the parameters mean conditions, a limit and an offset, as the theorems on responses (C87, C89) suppose. If no two parameters
of the configuration are on the same property of the same index, neither are two conditions. -/
theorem C90_others_are_read (config : ConfigLib) (lib : StartLib) (p : ParsedConfig) (texts : GoMap TextParser) (env : OutputEnv) (apis : GoMap OutputApi)
    (running : GoMap (String × List Route)) (hrun : Running config lib p texts env apis running) (hw : WellFormed config p) (name : String) (d : ArrayConfig)
    (ho : .array name d ∈ p.outputs) (params : GoMap Bytes)
    (hgood : ¬ (BadPaging (orText d.limit.parameter "limit") (orText d.offsetParameter "offset") params ∨
      Unreadable env.parsers (givenParameters (d.parameters.map (fun e => (e.1, completedParameter e.2))) params))) :
    ∃ (conditions : List Condition) (limit offset : Nat),
      Reads env (givenParameters (d.parameters.map (fun e => (e.1, completedParameter e.2))) params) conditions ∧
      ((d.parameters.map (fun e => (orText e.2.index "default", e.2.property))).Nodup → (conditions.map (fun c => (c.index, c.property))).Nodup) ∧
      AskedLimit ⟨orNumber d.limit.default 100, orNumber d.limit.max 1000, orText d.limit.parameter "limit"⟩ params limit ∧
      AskedOffset (orText d.offsetParameter "offset") params offset := by
  have hd := hw.outputs _ ho
  obtain ⟨⟨limit, h1⟩, offset, h2⟩ := paging_of_good (c := ⟨orNumber d.limit.default 100, orNumber d.limit.max 1000, orText d.limit.parameter "limit"⟩) (fun h => hgood (.inl h))
  obtain ⟨conditions, h3, h4⟩ := reads_of_readable (env := env) (l := givenParameters (d.parameters.map (fun e => (e.1, completedParameter e.2))) params) (by
    intro e he
    simp only [givenParameters, List.filterMap_map, List.mem_filterMap, Function.comp_def, Option.map_eq_some_iff] at he
    obtain ⟨⟨n, q⟩, hq, t, _, rfl⟩ := he
    obtain ⟨_, _, x, hx, _⟩ := (hd.2.2.2.1 n q hq).1
    obtain ⟨t, ht, _⟩ := hrun.parsers _ _ hx
    refine ⟨parse lib.parserLib (texts.map (fun q => (q.1, q.2.config))) texts.length t.config, ?_⟩
    rw [hrun.functions, parseFunctions, mapGet_mapValues (fun q : TextParser => parse lib.parserLib (texts.map (fun q => (q.1, q.2.config))) texts.length q.config)]
    exact congrArg (Option.map _) ht) (fun h => hgood (.inr h))
  refine ⟨conditions, limit, offset, h3, fun hnd => ?_, h1, h2⟩
  rw [h4]
  have hsub : ∀ l : GoMap ParamConfig, ((givenParameters (l.map (fun e => (e.1, completedParameter e.2))) params).map (fun e => (e.1.index, e.1.property))).Sublist
      (l.map (fun e => (orText e.2.index "default", e.2.property))) := by
    intro l
    induction l with
    | nil => exact .slnil
    | cons e l ih =>
      simp only [givenParameters, List.map_cons, List.filterMap_cons] at ih ⊢
      cases mapGet params e.1 with
      | none => exact ih.cons _
      | some t => exact ih.cons_cons _
  exact hnd.sublist (hsub _)

/-- GET /all?limit=0 in the program started on the two files of `RelatedFilesExample`. -/
example (service : ServiceLib) (hlib : RegexpContract service.find) (parserLib : ParserLib) (hfloat : ∀ text, Returned (parserLib.parseFloat text)) (c : Config)
    (hload : loadConfig ConfigExample.lib RelatedFilesExample.parsed = .ok c) (running)
    (hstart : start ((RelatedExample.startLib parserLib).onFiles RelatedFilesExample.machine) c = .ok running) :
    ∃ routes, mapGet running "web" = some ("application/json", routes) ∧ ∃ h : 0 < routes.length,
      FirstSuiting routes (RelatedFilesExample.request "/all" [("limit", [[48]])]) routes[0] → ∃ response,
      clientGets (handleRequest service "application/json" routes (RelatedFilesExample.request "/all" [("limit", [[48]])])) = some response ∧
        ErrorResponse service.errorText 500 response := by
  obtain ⟨texts, env, apis, hrun⟩ := C78_running _ _ _ _ _ hload ⟨.refl _, .refl _, .refl _, .refl _, .refl _⟩ running hstart
  have hw := (C76_accepted _ _).1 ⟨_, hload⟩
  obtain ⟨routes, h1, hk, h3⟩ := C90_list_refused service hlib _ _ _ _ _ _ _ hrun hw ⟨hfloat, fun _ _ h => by cases h⟩ (fun _ _ _ => .refl _)
    RelatedFilesExample.web (.head _) 0 (by decide) RelatedFilesExample.list (.head _) "/all".toList [] rfl
    (JsonFilesExample.good _ (by unfold PlainText; decide)) [] trivial (by simp) (by simp)
  refine ⟨routes, h1, hk, fun hfirst => ?_⟩
  obtain ⟨given, h4, h5, h6⟩ := h3 _ hfirst ⟨by decide, by decide⟩
  match given, h4 with
  | [], _ =>
    refine h6 _ rfl (.inl (.inl ⟨[48], by decide, fun n hn hi => ?_⟩))
    have h1 := (atoi_iff _ _).mpr hi
    have h2 : atoi [48] = some 0 := by decide
    rw [h2] at h1
    cases h1
    omega

/-- GET /one without the parameter n, whose parser is the one of integers: the empty text cannot be read. -/
example (service : ServiceLib) (hlib : RegexpContract service.find) (parserLib : ParserLib) (hfloat : ∀ text, Returned (parserLib.parseFloat text)) (c : Config)
    (hload : loadConfig ConfigExample.lib RelatedFilesExample.parsed = .ok c) (running)
    (hstart : start ((RelatedExample.startLib parserLib).onFiles RelatedFilesExample.machine) c = .ok running) :
    ∃ routes, mapGet running "web" = some ("application/json", routes) ∧ ∃ h : 1 < routes.length,
      FirstSuiting routes (RelatedFilesExample.request "/one" []) routes[1] → ∃ response,
      clientGets (handleRequest service "application/json" routes (RelatedFilesExample.request "/one" [])) = some response ∧
        ErrorResponse service.errorText 500 response := by
  obtain ⟨texts, env, apis, hrun⟩ := C78_running _ _ _ _ _ hload ⟨.refl _, .refl _, .refl _, .refl _, .refl _⟩ running hstart
  have hw := (C76_accepted _ _).1 ⟨_, hload⟩
  obtain ⟨routes, h1, hk, h3⟩ := C90_object_refused service hlib _ _ _ _ _ _ _ hrun hw ⟨hfloat, fun _ _ h => by cases h⟩ (fun _ _ _ => .refl _)
    RelatedFilesExample.web (.head _) 1 (by decide) RelatedFilesExample.one (.tail _ (.head _)) "/one".toList [] rfl
    (JsonFilesExample.good _ (by unfold PlainText; decide)) [] trivial (by simp) (by simp)
  refine ⟨routes, h1, hk, fun hfirst => ?_⟩
  obtain ⟨given, h4, h5, h6⟩ := h3 _ hfirst ⟨by decide, by decide⟩
  match given, h4 with
  | [], _ =>
    refine h6 _ rfl ⟨_, .head _, _, (RelatedFilesExample.parser hrun).1, fun v hv => ?_⟩
    simp only [Rodb.parse] at hv
    cases hv

end Rodb
