import Verif.Proofs.Twins
import Verif.Spec.ClearRequest
import Verif.Props.SameBytesProps
import Verif.Props.RelatedFilesProps
import Verif.Props.RefusedProps
/-
  Property C131, for the running program: the same request gets the same response, in whatever order Go visits the maps.
-/
namespace Rodb
open Spec

theorem running_inputs_unambiguous {config : ConfigLib} {lib : StartLib} {files : Files} {p : ParsedConfig}
    {readFloat readFloat' : Bytes → Res GoFloat} (hparser : lib.parserLib.unmarshal = unmarshalJson readFloat) (hjson : files.decodeJson = jsonDecoder readFloat')
    {texts : GoMap TextParser} {env : OutputEnv} {apis : GoMap OutputApi} {running : GoMap (String × List Route)}
    (hrun : Running config (lib.onFiles files) p texts env apis running) (name : String) (input : Input) (hget : mapGet env.inputs name = some input) : UnambiguousInput input := by
  have hfun : DistinctParsers env.parsers := by
    rw [hrun.functions]
    exact parseFunctions_distinct (fun s v hv => by
      rw [show (lib.onFiles files).parserLib.unmarshal = unmarshalJson readFloat from hparser] at hv
      exact unmarshalJson_distinct hv) texts
  obtain ⟨x, hx, rfl⟩ := hrun.inputNames name input hget
  obtain ⟨d, input', _, hopen, hget'⟩ := hrun.inputs x hx
  rw [hget] at hget'
  cases hget'
  exact openInput_unambiguous hjson hfun hopen

theorem arrayFilters_onlyError {env : OutputEnv} {params : GoMap Bytes} {e : Fail} : ∀ {l : GoMap ParamConfig} {filters : GoMap (GoMap Value)},
    OnlyError env.parsers (givenParameters l params) e → arrayFilters env params l filters = .error e
  | [], _, ⟨⟨x, hx, _⟩, _⟩ => by simp [givenParameters] at hx
  | (name, q) :: rest, filters, h => by
    simp only [arrayFilters]
    cases hn : mapGet params name with
    | none =>
      have hg : givenParameters ((name, q) :: rest) params = givenParameters rest params := by simp [givenParameters, hn]
      rw [hg] at h
      exact arrayFilters_onlyError h
    | some text =>
      have hg : givenParameters ((name, q) :: rest) params = (q, text) :: givenParameters rest params := by simp [givenParameters, hn]
      rw [hg] at h
      obtain ⟨⟨x, hx, parse, h1, h2⟩, h3⟩ := h
      obtain ⟨parse', k1, k2⟩ := h3 _ (.head _)
      simp only at k1 k2
      simp only [k1]
      rcases k2 with ⟨v, k2⟩ | k2
      · simp only [k2]
        refine arrayFilters_onlyError ⟨⟨x, ?_, parse, h1, h2⟩, fun x hx => h3 x (.tail _ hx)⟩
        rcases List.mem_cons.1 hx with rfl | hx
        · rw [k1] at h1; cases h1; rw [k2] at h2; cases h2
        · exact hx
      · simp only [k2]

theorem objectFilters_onlyError {env : OutputEnv} {params : GoMap Bytes} {e : Fail} : ∀ {l : GoMap ParamConfig} {filters : GoMap (GoMap Value)},
    OnlyError env.parsers (allParameters l params) e → objectFilters env params l filters = .error e
  | [], _, ⟨⟨x, hx, _⟩, _⟩ => by simp [allParameters] at hx
  | (name, q) :: rest, filters, h => by
    have hg : allParameters ((name, q) :: rest) params = (q, (mapGet params name).getD []) :: allParameters rest params := rfl
    rw [hg] at h
    simp only [objectFilters]
    obtain ⟨⟨x, hx, parse, h1, h2⟩, h3⟩ := h
    obtain ⟨parse', k1, k2⟩ := h3 _ (.head _)
    simp only at k1 k2
    simp only [k1]
    rcases k2 with ⟨v, k2⟩ | k2
    · simp only [k2]
      refine objectFilters_onlyError ⟨⟨x, ?_, parse, h1, h2⟩, fun x hx => h3 x (.tail _ hx)⟩
      rcases List.mem_cons.1 hx with rfl | hx
      · rw [k1] at h1; cases h1; rw [k2] at h2; cases h2
      · exact hx
    · simp only [k2]

theorem onlyError_same {parsers parsers' : GoMap (Bytes → Res Value)} (h : ∀ n, mapGet parsers' n = mapGet parsers n) {a b : List (ParamConfig × Bytes)} (hp : a.Perm b) {e : Fail}
    (ho : OnlyError parsers a e) : OnlyError parsers' b e := by
  simp only [OnlyError, h]
  exact ⟨let ⟨x, hx, hr⟩ := ho.1; ⟨x, hp.mem_iff.1 hx, hr⟩, fun x hx => ho.2 x (hp.mem_iff.2 hx)⟩

/-- A list request that asks for a page that makes no sense gets an error that does not depend on anything else. -/
theorem handleArray_badPaging (env env' : OutputEnv) {c : ArrayConfig} {params : GoMap Bytes} (h : BadPaging c.limit.parameter c.offsetParameter params) :
    handleArray env' c params = handleArray env c params := by
  simp only [handleArray]
  cases hl : getLimit c.limit params with
  | error e => rfl
  | ok limit =>
    cases ho : getOffset c.offsetParameter params with
    | error e => rfl
    | ok offset =>
      exfalso
      rcases h with ⟨text, h1, h2⟩ | ⟨text, h1, h2⟩
      · simp only [getLimit, h1] at hl
        cases ha : atoi text with
        | none => rw [ha] at hl; cases hl
        | some n =>
          have hn : n ≤ 0 := Int.not_lt.1 (fun hp => h2 n hp ((atoi_iff text n).mp ha))
          simp only [ha, if_pos hn] at hl
          cases hl
      · simp only [getOffset, h1] at ho
        cases ha : atoi text with
        | none => rw [ha] at ho; cases ho
        | some n =>
          have hn : n < 0 := Int.not_le.1 (fun hp => h2 n hp ((atoi_iff text n).mp ha))
          simp only [ha, if_pos hn] at ho
          cases ho

/-- **C131** A list request with one thing wrong gets the same error in whatever order maps are visited. Missing: several different errors (`C131_errors_false`). -/
theorem C131_same_list_error_partial (env env' : OutputEnv) (c : ArrayConfig) (params : GoMap Bytes) (hsame : ∀ n, mapGet env'.parsers n = mapGet env.parsers n)
    (hvisit : ∀ (path : List Nat) (α : Type) (l : List α), (env.visit path l).Perm l) (hvisit' : ∀ (path : List Nat) (α : Type) (l : List α), (env'.visit path l).Perm l)
    (h : BadPaging c.limit.parameter c.offsetParameter params ∨ ∃ e, OnlyError env.parsers (givenParameters c.parameters params) e) :
    handleArray env' c params = handleArray env c params ∧ ∃ e, handleArray env c params = .error e := by
  rcases h with h | ⟨e, h⟩
  · exact ⟨handleArray_badPaging env env' h, let ⟨m, hm⟩ := C42_refuses_bad_paging env c params h; ⟨_, hm⟩⟩
  · have h1 := arrayFilters_onlyError (filters := []) (l := env.visit [0] c.parameters) (onlyError_same (fun _ => rfl) (((hvisit [0] _ c.parameters).symm).filterMap _) h)
    have h2 := arrayFilters_onlyError (env := env') (filters := []) (l := env'.visit [0] c.parameters) (onlyError_same hsame (((hvisit' [0] _ c.parameters).symm).filterMap _) h)
    simp only [handleArray, h1, h2]
    cases getLimit c.limit params with
    | error e => exact ⟨trivial, e, rfl⟩
    | ok limit =>
      cases getOffset c.offsetParameter params with
      | error e => exact ⟨trivial, e, rfl⟩
      | ok offset => exact ⟨trivial, e, rfl⟩

/-- **C131** A list request with any number of errors in its parameters gets an error in whatever order maps are visited: the order can only decide which one (`C131_errors_false`). -/
theorem C131_list_refused_always (env env' : OutputEnv) (c : ArrayConfig) (params : GoMap Bytes) (hsame : ∀ n, mapGet env'.parsers n = mapGet env.parsers n)
    (hvisit : ∀ (path : List Nat) (α : Type) (l : List α), (env.visit path l).Perm l) (hvisit' : ∀ (path : List Nat) (α : Type) (l : List α), (env'.visit path l).Perm l)
    (hreturn : ∀ e ∈ givenParameters c.parameters params, ∀ parse, mapGet env.parsers e.1.parser = some parse → ∀ text, Returned (parse text))
    (h : Unreadable env.parsers (givenParameters c.parameters params)) :
    ∃ m m', handleArray env c params = .error (.err m) ∧ handleArray env' c params = .error (.err m') := by
  have key : ∀ env'' : OutputEnv, (∀ n, mapGet env''.parsers n = mapGet env.parsers n) → (∀ (path : List Nat) (α : Type) (l : List α), (env''.visit path l).Perm l) →
      ∃ m, handleArray env'' c params = .error (.err m) := by
    intro env'' hs hv
    have hp : (givenParameters (env''.visit [0] c.parameters) params).Perm (givenParameters c.parameters params) := (hv [0] _ c.parameters).filterMap _
    obtain ⟨m, hm⟩ := arrayFilters_unreadable env'' params (env''.visit [0] c.parameters) [] (fun e he parse hparse => hreturn e (hp.mem_iff.1 he) parse (by rw [← hs]; exact hparse))
      (by
        obtain ⟨e, he, parse, h1, h2⟩ := h
        exact ⟨e, hp.mem_iff.2 he, parse, by rw [hs]; exact h1, h2⟩)
    simp only [handleArray, hm]
    rcases getLimit_returned c.limit params with ⟨l, hl⟩ | ⟨m', hl⟩
    · rcases getOffset_returned c.offsetParameter params with ⟨o, ho⟩ | ⟨m', ho⟩
      · exact ⟨m, by rw [hl]; dsimp only; rw [ho]⟩
      · exact ⟨m', by rw [hl]; dsimp only; rw [ho]⟩
    · exact ⟨m', by rw [hl]⟩
  obtain ⟨m, hm⟩ := key env (fun _ => rfl) hvisit
  obtain ⟨m', hm'⟩ := key env' hsame hvisit'
  exact ⟨m, m', hm, hm'⟩

/-- **C131** The same for requests for one object. -/
theorem C131_object_refused_always (env env' : OutputEnv) (c : ObjectConfig) (params : GoMap Bytes) (hsame : ∀ n, mapGet env'.parsers n = mapGet env.parsers n)
    (hvisit : ∀ (path : List Nat) (α : Type) (l : List α), (env.visit path l).Perm l) (hvisit' : ∀ (path : List Nat) (α : Type) (l : List α), (env'.visit path l).Perm l)
    (hreturn : ∀ e ∈ allParameters c.parameters params, ∀ parse, mapGet env.parsers e.1.parser = some parse → ∀ text, Returned (parse text))
    (h : Unreadable env.parsers (allParameters c.parameters params)) :
    ∃ m m', handleObject env c params = .error (.err m) ∧ handleObject env' c params = .error (.err m') := by
  have key : ∀ env'' : OutputEnv, (∀ n, mapGet env''.parsers n = mapGet env.parsers n) → (∀ (path : List Nat) (α : Type) (l : List α), (env''.visit path l).Perm l) →
      ∃ m, handleObject env'' c params = .error (.err m) := by
    intro env'' hs hv
    have hp : (allParameters (env''.visit [0] c.parameters) params).Perm (allParameters c.parameters params) := (hv [0] _ c.parameters).map _
    obtain ⟨m, hm⟩ := objectFilters_unreadable env'' params (env''.visit [0] c.parameters) [] (fun e he parse hparse => hreturn e (hp.mem_iff.1 he) parse (by rw [← hs]; exact hparse))
      (by
        obtain ⟨e, he, parse, h1, h2⟩ := h
        exact ⟨e, hp.mem_iff.2 he, parse, by rw [hs]; exact h1, h2⟩)
    exact ⟨m, by simp only [handleObject, hm]⟩
  obtain ⟨m, hm⟩ := key env (fun _ => rfl) hvisit
  obtain ⟨m', hm'⟩ := key env' hsame hvisit'
  exact ⟨m, m', hm, hm'⟩

/-- **C131** A request for one object with one error in its parameters gets the same error in whatever order maps are visited. Missing: several different errors, as for lists. -/
theorem C131_same_object_error_partial (env env' : OutputEnv) (c : ObjectConfig) (params : GoMap Bytes) (hsame : ∀ n, mapGet env'.parsers n = mapGet env.parsers n)
    (hvisit : ∀ (path : List Nat) (α : Type) (l : List α), (env.visit path l).Perm l) (hvisit' : ∀ (path : List Nat) (α : Type) (l : List α), (env'.visit path l).Perm l)
    (e : Fail) (h : OnlyError env.parsers (allParameters c.parameters params) e) :
    handleObject env c params = .error e ∧ handleObject env' c params = .error e := by
  have h1 := objectFilters_onlyError (filters := []) (l := env.visit [0] c.parameters) (onlyError_same (fun _ => rfl) (((hvisit [0] _ c.parameters).symm).map _) h)
  have h2 := objectFilters_onlyError (env := env') (filters := []) (l := env'.visit [0] c.parameters) (onlyError_same hsame (((hvisit' [0] _ c.parameters).symm).map _) h)
  exact ⟨by simp only [handleObject, h1], by simp only [handleObject, h2]⟩

/-- Two outputs for one declaration, in environments that differ in the order of visit, give the same text to a clear request. -/
theorem twins_answer {config : ConfigLib} {lib : StartLib} {p : ParsedConfig} {texts : GoMap TextParser} {env env' : OutputEnv} {apis : GoMap OutputApi} {running : GoMap (String × List Route)}
    (hrun : Running config lib p texts env apis running) (hw : WellFormed config p) (hdef : PlainDefault p) (hsort : SortContract lib.sort)
    (hvisit : ∀ (path : List Nat) (α : Type) (l : List α), (lib.visit path l).Perm l) (hvisit' : ∀ (path : List Nat) (α : Type) (l : List α), (env'.visit path l).Perm l)
    (hsame : SameParts env env')
    (hnames : ∀ name input, mapGet env.inputs name = some input → ∀ position r d, input.fetch position = .ok r → r.all = .ok d → DistinctKeys (.obj d))
    {asked : String → List String} {w : World} (hworld : WorldOf config lib p env.parsers asked w) {x : OutputDecl} (hx : x ∈ p.outputs) {api api' : OutputApi}
    (ha : RunsOutput env texts (completedOutput x) api) {texts' : GoMap TextParser} (ha' : RunsOutput env' texts' (completedOutput x) api') {params : GoMap Bytes} (payload : Bytes)
    (hclear : ClearRequest p env asked w params x) (formatFloat : Int → Bytes) :
    api'.handle params payload = api.handle params payload ∨
      ∃ a b, api.handle params payload = .data a ∧ api'.handle params payload = .data b ∧ encodeJson formatFloat a = encodeJson formatFloat b := by
  have hbehind := Running.behind hrun hw hdef hvisit hworld
  have hbehind' : (askableWorld p asked w).Behind env' := by
    intro name input hin
    rw [hsame.inputs] at hin
    have h := hbehind name input hin
    exact ⟨hvisit', h.increasing, h.fetch, by rw [hsame.defaultIndex]; exact h.everything, by simp only [hsame.indexes]; exact h.serves⟩
  have hd := hw.outputs _ hx
  have hsort' : SortContract env.sort := by rw [hrun.sort]; exact hsort
  cases x with
  | graphql n => exact ha.elim
  | array n d =>
    obtain ⟨hasked, hfits, conditions, limit, offset, hreads, hnodup, hacc, hlimit, hoffset, hsmall⟩ := hclear
    obtain ⟨y, hy, hyn⟩ := hd.2.1
    obtain ⟨_, input, _, _, h6⟩ := hrun.inputs y hy
    rw [hyn] at h6
    have hsuit := Running.suitable hrun hworld hd.2.2.2.2 hfits
    rw [← depthOf_completed] at hsuit
    have hans := Running.answerable hrun (input := d.input) (parameters := d.parameters) (asked := asked d.input)
      hasked (fun n q hq => (hd.2.2.2.1 n q hq).1) (by
      intro e he
      simp only [givenParameters, List.filterMap_map, List.mem_filterMap, Function.comp_def, Option.map_eq_some_iff] at he
      obtain ⟨⟨n, q⟩, hq, t, _, rfl⟩ := he
      exact ⟨n, q, hq, rfl⟩) hreads hacc
    cases ha
    cases ha'
    exact .inr (C131_same_list_partial env env' (askableWorld p asked w) hbehind hbehind' hsort' ⟨hsame.sort, hsame.inputs, hsame.indexes, hsame.parsers⟩ hnames
      { input := d.input, limit := ⟨orNumber d.limit.default 100, orNumber d.limit.max 1000, orText d.limit.parameter "limit"⟩, offsetParameter := orText d.offsetParameter "offset", parameters := d.parameters.map (fun e => (e.1, completedParameter e.2)), relationships := completedRelationships d.relationships }
      params input h6 hsuit (fun r hr => let ⟨d, hd, _⟩ := hworld.shown _ r hr; ⟨d, hd⟩) conditions hreads ⟨hans.1, hans.2, hnodup⟩ limit offset hlimit hoffset hsmall formatFloat)
  | object n d =>
    obtain ⟨hasked, hfits, conditions, hreads, hnodup, hacc⟩ := hclear
    obtain ⟨y, hy, hyn⟩ := hd.2.1
    obtain ⟨_, input, _, _, h6⟩ := hrun.inputs y hy
    rw [hyn] at h6
    have hsuit := Running.suitable hrun hworld hd.2.2.2.2 hfits
    rw [← depthOf_completed] at hsuit
    have hans := Running.answerable hrun (input := d.input) (parameters := d.parameters) (asked := asked d.input)
      hasked (fun n q hq => hd.2.2.2.1 n q hq) (by
      intro e he
      simp only [allParameters, List.map_map, List.mem_map, Function.comp_def] at he
      obtain ⟨⟨n, q⟩, hq, rfl⟩ := he
      exact ⟨n, q, hq, rfl⟩) hreads hacc
    cases ha
    cases ha'
    rcases C131_same_object_partial env env' (askableWorld p asked w) hbehind hbehind' hsort' ⟨hsame.sort, hsame.inputs, hsame.indexes, hsame.parsers⟩ hnames
      { input := d.input, parameters := d.parameters.map (fun e => (e.1, completedParameter e.2)), relationships := completedRelationships d.relationships } params input h6 hsuit
      (fun r hr => let ⟨d, hd, _⟩ := hworld.shown _ r hr; ⟨d, hd⟩) conditions hreads ⟨hans.1, hans.2, hnodup⟩ formatFloat with ⟨h1, h2⟩ | h
    · exact .inl (h2.trans h1.symm)
    · exact .inr h

/-- **C131** The program, started twice with the same configuration on the same files, once visiting maps in one order and once in another, at the start as well as for requests: it starts both times or neither, with the same services, and
every request is answered with the same response, byte for byte, if no route of the service takes it, if its parameters cannot be read from it, or if it is clear (`ClearRequest`) or has one thing
wrong (`WrongRequest`) for the output of its route. Missing: several parameters on the same property of the same index (`C131_false`), relationships that are matched by what a sibling overwrites
(`C49_false`), and requests with several errors, where the order can decide which one is told (`C131_errors_false`). -/
theorem C131_same_response_partial (config : ConfigLib) (p : ParsedConfig) (c : Config) (hc : loadConfig config p = .ok c) (d d' : Config) (ho : Reordered c d) (ho' : Reordered c d') (hdef : PlainDefault p)
    (lib : StartLib) (files : Files) (readFloat readFloat' : Bytes → Res GoFloat) (hparser : lib.parserLib.unmarshal = unmarshalJson readFloat)
    (hjson : files.decodeJson = jsonDecoder readFloat') (hsort : SortContract lib.sort) (hvisit : ∀ (path : List Nat) (α : Type) (l : List α), (lib.visit path l).Perm l)
    (visit' : List Nat → {α : Type} → List α → List α) (hvisit' : ∀ (path : List Nat) (α : Type) (l : List α), (visit' path l).Perm l)
    (running : GoMap (String × List Route)) (hstart : start (lib.onFiles files) d = .ok running) :
    ∃ running' texts env apis, start (({ lib with visit := visit' } : StartLib).onFiles files) d' = .ok running' ∧ Running config (lib.onFiles files) p texts env apis running ∧
      ∀ name, (mapGet running name = none ∧ mapGet running' name = none) ∨
        ∃ errorsType routes routes', mapGet running name = some (errorsType, routes) ∧ mapGet running' name = some (errorsType, routes') ∧
          ∀ (asked : String → List String) (w : World), WorldOf config (lib.onFiles files) p env.parsers asked w →
          ∀ (find : Regex → List Char → Option (List (Option (List Char)))) (formatFloat : Int → Bytes) (request : Request),
            (∀ route params, getMatchingRoute ⟨find, encodeJson formatFloat, errorJson⟩ request routes = some route →
              getParams ⟨find, encodeJson formatFloat, errorJson⟩ route request = .ok params →
              ∀ x ∈ p.outputs, RunsOutput env texts (completedOutput x) route.output → ClearRequest p env asked w params x ∨ WrongRequest env params x) →
            handleRequest ⟨find, encodeJson formatFloat, errorJson⟩ errorsType routes request = handleRequest ⟨find, encodeJson formatFloat, errorJson⟩ errorsType routes' request := by
  obtain ⟨texts, inputs, indexes, index, apis, h1, h2, h3, hindex, h4, h5, hrun⟩ := start_parts hc ho hstart
  obtain ⟨_, ⟨q1, _⟩, ⟨q2, _⟩, ⟨q3, _⟩, ⟨q4, _⟩, ⟨q5, _⟩, _, _⟩ := loadConfig_ok hc
  obtain ⟨running', env', h6, hsame, hv, h7⟩ := start_twin (visit' := visit') (ho.symm.trans ho') ((ho.parsers.map _).nodup_iff.1 q1) ((ho.inputs.map _).nodup_iff.1 q2)
    ((ho.indexes.map _).nodup_iff.1 q3) ((ho.services.map _).nodup_iff.1 q4) ((ho.outputs.map _).nodup_iff.1 q5) h1 h2 h3 hindex h4 h5
  have hw := (C76_accepted config p).1 ⟨c, hc⟩
  refine ⟨running', texts, _, apis, h6, hrun, fun name => ?_⟩
  rcases h7 name with h | ⟨⟨e, routes⟩, ⟨e', routes'⟩, g1, g2, he, hal⟩
  · exact .inl h
  simp only at he hal
  subst he
  refine .inr ⟨e, routes, routes', g1, g2, fun asked w hworld find formatFloat request hclear => ?_⟩
  refine handleRequest_twin _ e request hal (fun route params payload hroute hparams api' ht => ?_)
  obtain ⟨o, _, ⟨n, hmem⟩, _, ha, ha'⟩ := ht
  have hget := mapGet_nodup_mem ((ho.outputs.map _).nodup_iff.1 q5) hmem
  rw [← mapGet_perm ho.outputs q5] at hget
  obtain ⟨x, hx, _, rfl⟩ := ((C77_defaults config p c hc n).2.2.2.2 _).1 hget
  have hv' : ∀ (path : List Nat) (α : Type) (l : List α), (env'.visit path l).Perm l := fun path α l => by rw [hv]; exact hvisit' path α l
  rcases hclear route params hroute hparams x hx ha with hclear | hwrong
  · exact twins_answer hrun hw hdef hsort hvisit hv' hsame (running_inputs_unambiguous hparser hjson hrun) hworld hx ha ha' payload hclear formatFloat
  · refine .inl ?_
    cases x with
    | graphql n => exact ha.elim
    | array n d =>
      rw [show route.output = _ from ha, show api' = _ from ha']
      exact (C131_same_list_error_partial _ env' { input := d.input, limit := ⟨orNumber d.limit.default 100, orNumber d.limit.max 1000, orText d.limit.parameter "limit"⟩, offsetParameter := orText d.offsetParameter "offset", parameters := d.parameters.map (fun e => (e.1, completedParameter e.2)), relationships := completedRelationships d.relationships }
        params hsame.parsers hvisit hv' hwrong).1
    | object n d =>
      rw [show route.output = _ from ha, show api' = _ from ha']
      obtain ⟨e, hwrong⟩ := hwrong
      obtain ⟨h1, h2⟩ := C131_same_object_error_partial _ env' { input := d.input, parameters := d.parameters.map (fun e => (e.1, completedParameter e.2)), relationships := completedRelationships d.relationships } params hsame.parsers hvisit hv' e hwrong
      exact h2.trans h1.symm

/-- **C131** Whether the program starts on some files does not depend on the orders in which maps are visited, nor on the orders in which its parts are created. -/
theorem C131_same_start (config : ConfigLib) (p : ParsedConfig) (c : Config) (hc : loadConfig config p = .ok c) (d d' : Config) (ho : Reordered c d) (ho' : Reordered c d')
    (lib : StartLib) (files : Files) (visit' : List Nat → {α : Type} → List α → List α) :
    (∃ running, start (lib.onFiles files) d = .ok running) ↔ ∃ running', start (({ lib with visit := visit' } : StartLib).onFiles files) d' = .ok running' := by
  have key : ∀ (lib : StartLib) (visit' : List Nat → {α : Type} → List α → List α) (d d' : Config), Reordered c d → Reordered c d' → (∃ running, start (lib.onFiles files) d = .ok running) →
      ∃ running', start (({ lib with visit := visit' } : StartLib).onFiles files) d' = .ok running' := by
    rintro lib visit' d d' ho ho' ⟨running, hstart⟩
    obtain ⟨texts, inputs, indexes, index, apis, h1, h2, h3, hindex, h4, h5, _⟩ := start_parts hc ho hstart
    obtain ⟨_, ⟨q1, _⟩, ⟨q2, _⟩, ⟨q3, _⟩, ⟨q4, _⟩, ⟨q5, _⟩, _, _⟩ := loadConfig_ok hc
    obtain ⟨running', _, h6, _⟩ := start_twin (visit' := visit') (ho.symm.trans ho') ((ho.parsers.map _).nodup_iff.1 q1) ((ho.inputs.map _).nodup_iff.1 q2)
      ((ho.indexes.map _).nodup_iff.1 q3) ((ho.services.map _).nodup_iff.1 q4) ((ho.outputs.map _).nodup_iff.1 q5) h1 h2 h3 hindex h4 h5
    exact ⟨running', h6⟩
  exact ⟨key lib visit' d d' ho ho', key { lib with visit := visit' } lib.visit d' d ho' ho⟩

namespace TwoErrorsExample
/-- A list with an integer and a boolean parameter. -/
def env (visit : List Nat → {α : Type} → List α → List α) : OutputEnv :=
  { inputs := [("in", OutputExample.input)], defaultIndex := noopGetRecordPositions, indexes := [("default", noopGetRecordPositions)], sort := fun _ l => l, visit := visit,
    parsers := [("integer", integerParse []), ("boolean", booleanParse [[121]] [[110]])] }
def list : ArrayConfig :=
  { OutputExample.array with parameters := [("a", { property := "n", index := "default", parser := "integer" }), ("b", { property := "s", index := "default", parser := "boolean" })] }
end TwoErrorsExample

/-- **C131** is false for requests with two parameters that cannot be read (`?a=x&b=x`): they are refused in any order (C90), but the error of the first one that Go visits is told. -/
theorem C131_errors_false : ∃ (c : ArrayConfig) (params : GoMap Bytes) (m m' : String), m ≠ m' ∧
    handleArray (TwoErrorsExample.env (fun _ _ l => l)) c params = .error (.err m) ∧ handleArray (TwoErrorsExample.env (fun _ _ l => l.reverse)) c params = .error (.err m') :=
  ⟨TwoErrorsExample.list, [("a", [120]), ("b", [120])], _, _, by decide, rfl, rfl⟩

/-- `?a=x&b=x`: an error for any order of visit, for the list and for the object. -/
example (visit : List Nat → {α : Type} → List α → List α) (hv : ∀ path α (l : List α), (visit path l).Perm l) :
    (∃ m, handleArray (TwoErrorsExample.env visit) TwoErrorsExample.list [("a", [120]), ("b", [120])] = .error (.err m)) ∧
    ∃ m, handleObject (TwoErrorsExample.env visit) { input := "in", parameters := TwoErrorsExample.list.parameters, relationships := [] } [("a", [120]), ("b", [120])] = .error (.err m) := by
  have hreturn : ∀ e ∈ givenParameters TwoErrorsExample.list.parameters [("a", [120]), ("b", [120])], ∀ parse,
      mapGet (TwoErrorsExample.env (fun _ _ l => l)).parsers e.1.parser = some parse → ∀ text, Returned (parse text) := by
    intro e he parse hparse text
    have he : e ∈ [(({ property := "n", index := "default", parser := "integer" } : ParamConfig), ([120] : Bytes)), ({ property := "s", index := "default", parser := "boolean" }, [120])] := he
    simp only [List.mem_cons, List.not_mem_nil, or_false] at he
    rcases he with rfl | rfl
    · cases hparse
      unfold integerParse
      split
      · exact .inl ⟨_, rfl⟩
      · exact .inr ⟨_, rfl⟩
    · cases hparse
      unfold booleanParse
      split
      · exact .inl ⟨_, rfl⟩
      · split
        · exact .inl ⟨_, rfl⟩
        · exact .inr ⟨_, rfl⟩
  have hbad : Unreadable (TwoErrorsExample.env (fun _ _ l => l)).parsers (givenParameters TwoErrorsExample.list.parameters [("a", [120]), ("b", [120])]) :=
    ⟨({ property := "n", index := "default", parser := "integer" }, [120]), .head _, _, rfl, fun v hv => by cases hv⟩
  obtain ⟨_, m, _, h1⟩ := C131_list_refused_always (TwoErrorsExample.env (fun _ _ l => l)) (TwoErrorsExample.env visit) TwoErrorsExample.list [("a", [120]), ("b", [120])] (fun _ => rfl)
    (fun _ _ _ => .refl _) hv hreturn hbad
  obtain ⟨_, m', _, h2⟩ := C131_object_refused_always (TwoErrorsExample.env (fun _ _ l => l)) (TwoErrorsExample.env visit)
    { input := "in", parameters := TwoErrorsExample.list.parameters, relationships := [] } [("a", [120]), ("b", [120])] (fun _ => rfl) (fun _ _ _ => .refl _) hv hreturn hbad
  exact ⟨⟨m, h1⟩, m', h2⟩

/-- `?a=x&b=y`: only the integer cannot be read. -/
theorem TwoErrorsExample.one : OnlyError (TwoErrorsExample.env (fun _ _ l => l)).parsers [({ property := "n", index := "default", parser := "integer" }, [120]), ({ property := "s", index := "default", parser := "boolean" }, [121])]
    (.err "strconv.Atoi: invalid syntax or value out of range") := by
  refine ⟨⟨_, .head _, _, rfl, by rfl⟩, fun x hx => ?_⟩
  simp only [List.mem_cons, List.not_mem_nil, or_false] at hx
  rcases hx with rfl | rfl
  · exact ⟨_, rfl, .inr (by rfl)⟩
  · exact ⟨_, rfl, .inl ⟨_, rfl⟩⟩

/-- The list and the object get the same error for any order of visit. -/
example (visit : List Nat → {α : Type} → List α → List α) (hv : ∀ path α (l : List α), (visit path l).Perm l) :
    handleArray (TwoErrorsExample.env visit) TwoErrorsExample.list [("a", [120]), ("b", [121])] = .error (.err "strconv.Atoi: invalid syntax or value out of range") ∧
    handleObject (TwoErrorsExample.env visit) { input := "in", parameters := TwoErrorsExample.list.parameters, relationships := [] } [("a", [120]), ("b", [121])] = .error (.err "strconv.Atoi: invalid syntax or value out of range") :=
  ⟨(C131_same_list_error_partial (TwoErrorsExample.env (fun _ _ l => l)) (TwoErrorsExample.env visit) TwoErrorsExample.list [("a", [120]), ("b", [121])] (fun _ => rfl) (fun _ _ _ => .refl _) hv (.inr ⟨_, TwoErrorsExample.one⟩)).1.trans rfl,
    (C131_same_object_error_partial (TwoErrorsExample.env (fun _ _ l => l)) (TwoErrorsExample.env visit) { input := "in", parameters := TwoErrorsExample.list.parameters, relationships := [] } [("a", [120]), ("b", [121])] (fun _ => rfl)
      (fun _ _ _ => .refl _) hv _ TwoErrorsExample.one).2⟩

namespace SameResponseExample
open RelatedFilesExample
def startLib : StartLib := RelatedExample.startLib UnambiguousExample.parserLib
theorem both_files : ∃ c, loadConfig ConfigExample.lib parsed = .ok c ∧ ∃ running, start (startLib.onFiles machine) c = .ok running := by
  have h : (match loadConfig ConfigExample.lib parsed with
      | .ok c => (match start (startLib.onFiles machine) c with | .ok _ => true | .error _ => false)
      | .error _ => false) = true := by decide +kernel
  cases hc : loadConfig ConfigExample.lib parsed with
  | error e => rw [hc] at h; cases h
  | ok c =>
    rw [hc] at h
    simp only at h
    refine ⟨c, rfl, ?_⟩
    cases hs : start (startLib.onFiles machine) c with
    | error e => rw [hs] at h; cases h
    | ok running => exact ⟨running, rfl⟩
/-- The same configuration, with all its maps in the opposite order. -/
def reversed (c : Config) : Config :=
  { parsers := c.parsers.reverse, inputs := c.inputs.reverse, indexes := c.indexes.reverse, services := c.services.reverse, outputs := c.outputs.reverse }
end SameResponseExample

open RelatedFilesExample SameResponseExample in
/-- The program of the example of C87 starts when everything is created in the opposite order. -/
example (visit' : List Nat → {α : Type} → List α → List α) : ∃ c, loadConfig ConfigExample.lib parsed = .ok c ∧ c.inputs.length = 2 ∧
    ∃ running', start (({ startLib with visit := visit' } : StartLib).onFiles machine) (reversed c) = .ok running' := by
  obtain ⟨c, hc, running, hstart⟩ := both_files
  refine ⟨c, hc, ?_, (C131_same_start ConfigExample.lib parsed c hc c (reversed c) ⟨.refl _, .refl _, .refl _, .refl _, .refl _⟩
    ⟨(List.reverse_perm _).symm, (List.reverse_perm _).symm, (List.reverse_perm _).symm, (List.reverse_perm _).symm, (List.reverse_perm _).symm⟩ startLib machine visit').1 ⟨running, hstart⟩⟩
  have h : (match loadConfig ConfigExample.lib parsed with | .ok c => c.inputs.length | .error _ => 0) = 2 := by decide +kernel
  rw [hc] at h
  exact h

open RelatedFilesExample SameResponseExample in
/-- GET /all?offset=1&limit=1 for the program of the example of C87, on a CSV file and a JSON file: the same response for any order of visit, also when everything is created in the opposite order. -/
example (find : Regex → List Char → Option (List (Option (List Char)))) (hlib : RegexpContract find)
    (visit' : List Nat → {α : Type} → List α → List α) (hvisit' : ∀ (path : List Nat) (α : Type) (l : List α), (visit' path l).Perm l) :
    ∃ c running running' routes routes', loadConfig ConfigExample.lib parsed = .ok c ∧ start (startLib.onFiles machine) c = .ok running ∧
      start (({ startLib with visit := visit' } : StartLib).onFiles machine) (reversed c) = .ok running' ∧ mapGet running "web" = some ("application/json", routes) ∧
      mapGet running' "web" = some ("application/json", routes') ∧
      handleRequest ⟨find, encodeJson JsonExample.format, errorJson⟩ "application/json" routes (request "/all" [("offset", [[49]]), ("limit", [[49]])]) =
        handleRequest ⟨find, encodeJson JsonExample.format, errorJson⟩ "application/json" routes' (request "/all" [("offset", [[49]]), ("limit", [[49]])]) := by
  obtain ⟨c, hc, running, hstart⟩ := both_files
  have hw := (C76_accepted _ _).1 ⟨_, hc⟩
  obtain ⟨running', texts, env, apis, h1, hrun, h2⟩ := C131_same_response_partial ConfigExample.lib parsed c hc c (reversed c) ⟨.refl _, .refl _, .refl _, .refl _, .refl _⟩
    ⟨(List.reverse_perm _).symm, (List.reverse_perm _).symm, (List.reverse_perm _).symm, (List.reverse_perm _).symm, (List.reverse_perm _).symm⟩ plain_default startLib machine
    JsonExample.parse JsonExample.parse rfl rfl goInsertionSort_contract (fun _ _ _ => .refl _) visit' hvisit' running hstart
  obtain ⟨records, hrec, hnone⟩ := all_records hw (fun x hx => (data hrun x hx).records hrun hw hx)
  have hshows := RecordsHold.shows hrec
  have hd := hw.outputs (.array "list" list) (.head _)
  have hworld := RecordsHold.world hrec hnone
  have hfits := Spec.FitsObjects.fits (accepts := fun _ _ _ => True) (fun _ _ _ _ _ _ _ => trivial) hshows (by decide) (relationships_inputs hd.2.2.2.2) fits
  obtain ⟨routes, g1, hk, g2, g3⟩ := list_related ⟨find, encodeJson JsonExample.format, errorJson⟩ hlib (C84_encoder_contract JsonExample.format) _ _ goInsertionSort_contract _ _ _ _ _ hrun hw
    plain_default (fun _ _ _ => .refl _) web (.head _) 0 (by decide) list (.head _) "/all".toList [] rfl (JsonFilesExample.good _ (by unfold PlainText; decide)) [] trivial (by simp) (by simp)
    asked _ hworld (by simp [filteredValues, list]) hfits
  rcases h2 "web" with ⟨h, _⟩ | ⟨e, routes1, routes', h3, h4, h5⟩
  · rw [show web.name = "web" from rfl, h] at g1; cases g1
  rw [show web.name = "web" from rfl, h3] at g1
  cases g1
  refine ⟨c, running, running', routes, routes', hc, hstart, h1, h3, h4, h5 asked _ hworld find JsonExample.format _ ?_⟩
  match routes, hk, g2, g3 with
  | first :: rest, hk, g2, g3 =>
    have hfirst : FirstSuiting (first :: rest) (request "/all" [("offset", [[49]]), ("limit", [[49]])]) first := ⟨[], rest, rfl, (g2 _).2 ⟨rfl, [], trivial, rfl⟩, by simp⟩
    obtain ⟨given, g4, _, ⟨actual, g5, g6⟩, _⟩ := g3 _ hfirst ⟨by decide, by decide⟩
    intro route params hroute hparams x hx hruns
    rw [getMatchingRoute_first hlib hfirst] at hroute
    cases hroute
    have hactual : actual = params := by
      have := g5.symm.trans hparams
      cases this
      rfl
    subst hactual
    match given, g4 with
    | [], _ =>
      simp only [parsed, List.mem_cons, List.not_mem_nil, or_false] at hx
      rcases hx with rfl | rfl
      · refine .inl ⟨by simp [filteredValues, list], hfits, [], 1, 1, trivial, by simp, by simp, .inr ⟨[49], by rw [g6]; decide, (atoi_iff [49] 1).mp (by decide), by decide⟩,
          .inr ⟨[49], by rw [g6]; decide, (atoi_iff [49] 1).mp (by decide)⟩, by decide⟩
      · exfalso
        obtain ⟨routes2, k1, k2, k3⟩ := Running.route hrun (s := web) (.head _) 0 (by decide)
        rw [show web.name = "web" from rfl, h3] at k1
        cases k1
        obtain ⟨api, k4, k5⟩ := hrun.outputs (.array "list" list) (.head _)
        have k6 : first.output = api := by
          obtain ⟨routes3, l1, l2, l3⟩ := hrun.services web (.head _)
          rw [show web.name = "web" from rfl, h3] at l1
          cases l1
          obtain ⟨api', l4, l5, _⟩ := l3 0 (by decide) (by simp)
          have l4 : mapGet apis "list" = some api' := l4
          have k4 : mapGet apis "list" = some api := k4
          rw [k4] at l4
          cases l4
          exact l5
        rw [k6] at hruns
        have hboth := congrArg (fun a : OutputApi => a.hasParameter "n") ((show api = _ from k5).symm.trans hruns)
        cases hboth

open RelatedFilesExample SameResponseExample in
/-- GET /all?limit=x for the program of the example of C87, on a CSV file and a JSON file: the same response for any order of visit, also when everything is created in the opposite order. -/
example (find : Regex → List Char → Option (List (Option (List Char)))) (hlib : RegexpContract find)
    (visit' : List Nat → {α : Type} → List α → List α) (hvisit' : ∀ (path : List Nat) (α : Type) (l : List α), (visit' path l).Perm l) :
    ∃ c running running' routes routes', loadConfig ConfigExample.lib parsed = .ok c ∧ start (startLib.onFiles machine) c = .ok running ∧
      start (({ startLib with visit := visit' } : StartLib).onFiles machine) (reversed c) = .ok running' ∧ mapGet running "web" = some ("application/json", routes) ∧
      mapGet running' "web" = some ("application/json", routes') ∧
      handleRequest ⟨find, encodeJson JsonExample.format, errorJson⟩ "application/json" routes (request "/all" [("limit", [[120]])]) =
        handleRequest ⟨find, encodeJson JsonExample.format, errorJson⟩ "application/json" routes' (request "/all" [("limit", [[120]])]) := by
  obtain ⟨c, hc, running, hstart⟩ := both_files
  have hw := (C76_accepted _ _).1 ⟨_, hc⟩
  obtain ⟨running', texts, env, apis, h1, hrun, h2⟩ := C131_same_response_partial ConfigExample.lib parsed c hc c (reversed c) ⟨.refl _, .refl _, .refl _, .refl _, .refl _⟩
    ⟨(List.reverse_perm _).symm, (List.reverse_perm _).symm, (List.reverse_perm _).symm, (List.reverse_perm _).symm, (List.reverse_perm _).symm⟩ plain_default startLib machine
    JsonExample.parse JsonExample.parse rfl rfl goInsertionSort_contract (fun _ _ _ => .refl _) visit' hvisit' running hstart
  obtain ⟨records, hrec, hnone⟩ := all_records hw (fun x hx => (data hrun x hx).records hrun hw hx)
  have hshows := RecordsHold.shows hrec
  have hd := hw.outputs (.array "list" list) (.head _)
  have hworld := RecordsHold.world hrec hnone
  have hfits := Spec.FitsObjects.fits (accepts := fun _ _ _ => True) (fun _ _ _ _ _ _ _ => trivial) hshows (by decide) (relationships_inputs hd.2.2.2.2) fits
  obtain ⟨routes, g1, hk, g2, g3⟩ := list_related ⟨find, encodeJson JsonExample.format, errorJson⟩ hlib (C84_encoder_contract JsonExample.format) _ _ goInsertionSort_contract _ _ _ _ _ hrun hw
    plain_default (fun _ _ _ => .refl _) web (.head _) 0 (by decide) list (.head _) "/all".toList [] rfl (JsonFilesExample.good _ (by unfold PlainText; decide)) [] trivial (by simp) (by simp)
    asked _ hworld (by simp [filteredValues, list]) hfits
  rcases h2 "web" with ⟨h, _⟩ | ⟨e, routes1, routes', h3, h4, h5⟩
  · rw [show web.name = "web" from rfl, h] at g1; cases g1
  rw [show web.name = "web" from rfl, h3] at g1
  cases g1
  refine ⟨c, running, running', routes, routes', hc, hstart, h1, h3, h4, h5 asked _ hworld find JsonExample.format _ ?_⟩
  match routes, hk, g2, g3 with
  | first :: rest, hk, g2, g3 =>
    have hfirst : FirstSuiting (first :: rest) (request "/all" [("limit", [[120]])]) first := ⟨[], rest, rfl, (g2 _).2 ⟨rfl, [], trivial, rfl⟩, by simp⟩
    obtain ⟨given, g4, _, ⟨actual, g5, g6⟩, _⟩ := g3 _ hfirst ⟨by decide, by decide⟩
    intro route params hroute hparams x hx hruns
    rw [getMatchingRoute_first hlib hfirst] at hroute
    cases hroute
    have hactual : actual = params := by
      have := g5.symm.trans hparams
      cases this
      rfl
    subst hactual
    match given, g4 with
    | [], _ =>
      simp only [parsed, List.mem_cons, List.not_mem_nil, or_false] at hx
      rcases hx with rfl | rfl
      · refine .inr (.inl (.inl ⟨[120], by rw [g6]; decide, fun n _ hn => ?_⟩))
        have := (atoi_iff [120] n).mpr hn
        cases this
      · exfalso
        obtain ⟨routes2, k1, k2, k3⟩ := Running.route hrun (s := web) (.head _) 0 (by decide)
        rw [show web.name = "web" from rfl, h3] at k1
        cases k1
        obtain ⟨api, k4, k5⟩ := hrun.outputs (.array "list" list) (.head _)
        have k6 : first.output = api := by
          obtain ⟨routes3, l1, l2, l3⟩ := hrun.services web (.head _)
          rw [show web.name = "web" from rfl, h3] at l1
          cases l1
          obtain ⟨api', l4, l5, _⟩ := l3 0 (by decide) (by simp)
          have l4 : mapGet apis "list" = some api' := l4
          have k4 : mapGet apis "list" = some api := k4
          rw [k4] at l4
          cases l4
          exact l5
        rw [k6] at hruns
        have hboth := congrArg (fun a : OutputApi => a.hasParameter "n") ((show api = _ from k5).symm.trans hruns)
        cases hboth

end Rodb
