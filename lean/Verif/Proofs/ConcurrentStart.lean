import Verif.Proofs.ConcurrentAsks
import Verif.Proofs.Config
import Verif.Proofs.Parser
/-
  Lemmas about programs that differ in what `Get` returns.
-/
namespace Rodb
open Spec

theorem instantiateMap_uniform {α β γ δ : Type} {f : γ → α → Res β} {g : γ → δ → β} {G : δ → Prop} (m : GoMap α)
    (h : ∀ e ∈ m, ∃ r : Res δ, (∀ c, f c e.2 = r.map (g c)) ∧ ∀ y, r = .ok y → G y) :
    ∃ r : Res (GoMap δ), (∀ c, instantiateMap (f c) m = r.map (fun l => l.map (fun e => (e.1, g c e.2)))) ∧ ∀ l, r = .ok l → ∀ e ∈ l, G e.2 := by
  induction m with
  | nil => exact ⟨.ok [], fun _ => rfl, fun l hl e he => by cases hl; cases he⟩
  | cons e m ih =>
    obtain ⟨k, x⟩ := e
    obtain ⟨r, hr, hg⟩ := h _ (.head _)
    obtain ⟨r', hr', hg'⟩ := ih (fun e he => h e (.tail _ he))
    cases r with
    | error e =>
      refine ⟨.error e, fun c => ?_, fun l hl => by cases hl⟩
      have := hr c
      simp only [Except.map] at this
      simp only [instantiateMap, this]
      rfl
    | ok y =>
      cases r' with
      | error e =>
        refine ⟨.error e, fun c => ?_, fun l hl => by cases hl⟩
        have h1 := hr c
        have h2 := hr' c
        simp only [Except.map] at h1 h2
        simp only [instantiateMap, h1, h2]
        rfl
      | ok l =>
        refine ⟨.ok ((k, y) :: l), fun c => ?_, fun l' hl e he => ?_⟩
        · have h1 := hr c
          have h2 := hr' c
          simp only [Except.map] at h1 h2
          simp only [instantiateMap, h1, h2]
          rfl
        · cases hl
          rcases List.mem_cons.1 he with rfl | he
          · exact hg y rfl
          · exact hg' l rfl e he

theorem instantiateMap_map {α β γ : Type} {f : α → Res β} {f' : α → Res γ} {g : β → γ} (m : GoMap α) (h : ∀ e ∈ m, f' e.2 = (f e.2).map g) :
    instantiateMap f' m = (instantiateMap f m).map (fun l => l.map (fun e => (e.1, g e.2))) := by
  induction m with
  | nil => rfl
  | cons e m ih =>
    obtain ⟨k, x⟩ := e
    simp only [instantiateMap, ih (fun e he => h e (.tail _ he)), h _ (.head _)]
    cases f x with
    | error e => rfl
    | ok y =>
      cases instantiateMap f m <;> rfl

theorem instantiateMap_congr {α β : Type} {f f' : α → Res β} (m : GoMap α) (h : ∀ e ∈ m, f' e.2 = f e.2) : instantiateMap f' m = instantiateMap f m := by
  induction m with
  | nil => rfl
  | cons e m ih =>
    obtain ⟨k, x⟩ := e
    simp only [instantiateMap, ih (fun e he => h e (.tail _ he)), h _ (.head _)]

/-- The inputs with other results of `Get`. -/
def withFetches (fetch : String → Int → Res Rec) (inputs : GoMap Input) : GoMap Input := inputs.map (fun e => (e.1, e.2.withFetch fetch))

theorem inputInstantiate_withFetch (lib : StartLib) (fetch : String → Int → Res Rec) (parsers : GoMap TextParser) (d : InputDecl) :
    InputDecl.instantiate (lib.withFetch fetch) parsers d = (InputDecl.instantiate lib parsers d).map (Input.withFetch fetch) := by
  cases d with
  | csv c =>
    simp only [InputDecl.instantiate, CsvDecl.instantiate]
    show (do lib.openCsv c; let columns ← c.findColumns lib; _) = _
    cases lib.openCsv c with
    | error e => rfl
    | ok u =>
      show (do let columns ← c.findColumns lib; _) = Except.map _ (do let columns ← c.findColumns lib; _)
      cases c.findColumns lib with
      | error e => rfl
      | ok columns =>
        show (do require _ _; _) = Except.map _ (do require _ _; _)
        cases require (columns.all (fun column => (mapGet parsers column.parser).isSome)) "Parser does not exist" with
        | error e => rfl
        | ok u => rfl
  | xml c => rfl
  | json c => rfl

theorem inputs_withFetch (lib : StartLib) (fetch : String → Int → Res Rec) (parsers : GoMap TextParser) (m : GoMap InputDecl) :
    instantiateMap (InputDecl.instantiate (lib.withFetch fetch) parsers) m = (instantiateMap (InputDecl.instantiate lib parsers) m).map (withFetches fetch) :=
  instantiateMap_map m (fun e _ => inputInstantiate_withFetch lib fetch parsers e.2)

/-- The indexes of a library do not fetch, neither when they are built nor when they are used. -/
structure IndexesFetchFree (lib : StartLib) : Prop where
  build : ∀ d input fetch, lib.index d (Input.withFetch fetch input) = lib.index d input
  use : ∀ d input index, lib.index d input = .ok index → FetchFree index

theorem openIndex_fetchFree {lib : StartLib} {st : Storage} (h : lib.index = openIndex st) : IndexesFetchFree lib := by
  constructor
  · intro d input fetch
    rw [h]
    cases d <;> rfl
  · intro d input index hi
    rw [h] at hi
    cases d with
    | map d => cases hi
    | noop d => cases hi
    | wildcard d =>
      simp only [openIndex] at hi
      cases hw : (newWildcard st.lower d.settings input (st.file d.path)).1 with
      | error e => rw [hw] at hi; cases hi
      | ok w =>
        rw [hw] at hi
        cases hi
        exact fun _ _ _ => rfl
    | sqlite d =>
      simp only [openIndex, sqliteIndex] at hi
      split at hi
      · cases hi
        exact fun _ _ _ => rfl
      · cases hi
    | fts5 d =>
      simp only [openIndex, fts5Index] at hi
      split at hi
      · cases hi
        exact fun _ _ _ => rfl
      · cases hi

theorem findInput_withFetch (fetch : String → Int → Res Rec) (inputs : GoMap Input) (name : String) :
    findInput (withFetches fetch inputs) name = (findInput inputs name).map (Input.withFetch fetch) := by
  unfold findInput withFetches
  rw [mapGet_map]
  cases mapGet inputs name <;> rfl

theorem indexInstantiate_withFetch {lib : StartLib} (hlib : IndexesFetchFree lib) (fetch : String → Int → Res Rec) (inputs : GoMap Input) (d : IndexDecl) :
    IndexDecl.instantiate (lib.withFetch fetch) (withFetches fetch inputs) d = IndexDecl.instantiate lib inputs d := by
  cases d with
  | noop d => rfl
  | map d =>
    simp only [IndexDecl.instantiate, findInput_withFetch]
    cases findInput inputs d.input <;> rfl
  | wildcard d =>
    simp only [IndexDecl.instantiate, findInput_withFetch]
    cases findInput inputs d.input with
    | error e => rfl
    | ok input => exact hlib.build _ _ _
  | sqlite d =>
    simp only [IndexDecl.instantiate, findInput_withFetch]
    cases findInput inputs d.input with
    | error e => rfl
    | ok input => exact hlib.build _ _ _
  | fts5 d =>
    simp only [IndexDecl.instantiate, findInput_withFetch]
    cases findInput inputs d.input with
    | error e => rfl
    | ok input => exact hlib.build _ _ _

theorem noop_fetchFree : FetchFree noopGetRecordPositions := fun _ _ _ => rfl

theorem indexInstantiate_fetchFree {lib : StartLib} (hlib : IndexesFetchFree lib) (inputs : GoMap Input) (d : IndexDecl) (index : IndexFn)
    (h : IndexDecl.instantiate lib inputs d = .ok index) : FetchFree index := by
  cases d with
  | noop d =>
    cases h
    exact noop_fetchFree
  | map d =>
    simp only [IndexDecl.instantiate] at h
    cases hf : findInput inputs d.input with
    | error e => rw [hf] at h; cases h
    | ok input =>
      rw [hf] at h
      replace h : (do let index ← newMap { properties := d.properties } input; .ok (fun input filters => index.getRecordPositions input.name filters) : Res IndexFn) = .ok index := h
      cases hm : newMap { properties := d.properties } input with
      | error e => rw [hm] at h; cases h
      | ok m =>
        rw [hm] at h
        cases h
        exact fun _ _ _ => rfl
  | wildcard d =>
    simp only [IndexDecl.instantiate] at h
    cases hf : findInput inputs d.input with
    | error e => rw [hf] at h; cases h
    | ok input => rw [hf] at h; exact hlib.use _ _ _ h
  | sqlite d =>
    simp only [IndexDecl.instantiate] at h
    cases hf : findInput inputs d.input with
    | error e => rw [hf] at h; cases h
    | ok input => rw [hf] at h; exact hlib.use _ _ _ h
  | fts5 d =>
    simp only [IndexDecl.instantiate] at h
    cases hf : findInput inputs d.input with
    | error e => rw [hf] at h; cases h
    | ok input => rw [hf] at h; exact hlib.use _ _ _ h

theorem instantiateMap_all {α β : Type} {f : α → Res β} {P : β → Prop} (h : ∀ x y, f x = .ok y → P y) :
    ∀ (m : GoMap α) (r : GoMap β), instantiateMap f m = .ok r → ∀ k y, mapGet r k = some y → P y := by
  intro m
  induction m with
  | nil =>
    intro r hr k y hy
    cases hr
    cases hy
  | cons e m ih =>
    intro r hr k y hy
    obtain ⟨n, x⟩ := e
    simp only [instantiateMap] at hr
    cases hx : f x with
    | error e => rw [hx] at hr; cases hr
    | ok z =>
      rw [hx] at hr
      replace hr : (do let rest ← instantiateMap f m; .ok ((n, z) :: rest) : Res (GoMap β)) = .ok r := hr
      cases hm : instantiateMap f m with
      | error e => rw [hm] at hr; cases hr
      | ok l =>
        rw [hm] at hr
        cases hr
        simp only [mapGet] at hy
        split at hy
        · cases hy
          exact h _ _ hx
        · exact ih l hm k y hy

/-! ### Outputs and services -/

/-- An output with the calls of `Get` its handler makes. -/
structure StepApi where
  api : OutputApi
  steps : GoMap Bytes → Asking Answer

/-- The handler asks for such positions only. -/
def StepApi.Asks (Asked : String → Int → Prop) (s : StepApi) : Prop := ∀ params, AsksOnly Asked (s.steps params)

/-- The output when `Get` returns this. -/
def StepApi.at (fetch : String → Int → Res Rec) (s : StepApi) : OutputApi := { s.api with handle := fun params _ => (s.steps params).run fetch }

mutual
theorem checkRelationship_withFetch (fetch : String → Int → Res Rec) (inputs : GoMap Input) : (r : Relationship) →
    checkRelationship (withFetches fetch inputs) r = checkRelationship inputs r
  | .mk _ _ _ _ _ relationships => by
    rw [checkRelationship, checkRelationship]
    exact checkNested_withFetch fetch inputs relationships
theorem checkNested_withFetch (fetch : String → Int → Res Rec) (inputs : GoMap Input) : (rs : List (String × Relationship)) →
    checkNested (withFetches fetch inputs) rs = checkNested inputs rs
  | [] => by rw [checkNested, checkNested]
  | (_, .mk inputName isArray limit sort matching relationships) :: rest => by
    rw [checkNested, checkNested, checkRelationship_withFetch fetch inputs (.mk inputName isArray limit sort matching relationships), checkNested_withFetch fetch inputs rest,
      withFetches, mapGet_map, Option.isSome_map]
end

theorem checkRelationships_withFetch (fetch : String → Int → Res Rec) (inputs : GoMap Input) (rs : List (String × Relationship)) :
    checkRelationships (withFetches fetch inputs) rs = checkRelationships inputs rs := by
  induction rs with
  | nil => rfl
  | cons r rs ih =>
    obtain ⟨n, r⟩ := r
    simp only [checkRelationships, checkRelationship_withFetch, ih]

theorem outputInstantiate_uniform {Asked : String → Int → Prop} (lib : StartLib) (inputs : GoMap Input) (indexes : GoMap IndexFn) (parsers : GoMap TextParser)
    (hfree : ∀ name index, mapGet indexes name = some index → FetchFree index)
    (hgives : ∀ name index, mapGet indexes name = some index → GivesAsked Asked inputs index) (o : OutputDecl) :
    ∃ r : Res StepApi, (∀ fetch, OutputDecl.instantiate (lib.withFetch fetch) (withFetches fetch inputs) indexes parsers o = r.map (StepApi.at fetch)) ∧ ∀ api, r = .ok api → api.Asks Asked := by
  cases hd : mapGet indexes "default" with
  | none => exact ⟨.error (.err "Index 'default' not found in indexes list."), (fun fetch => by rw [OutputDecl.instantiate, hd]; rfl), fun api h => by cases h⟩
  | some defaultIndex =>
    have henv : (outputEnv lib inputs indexes defaultIndex parsers).FetchFree := ⟨hfree, hfree _ _ hd⟩
    have hgive : (outputEnv lib inputs indexes defaultIndex parsers).GivesOnly Asked := ⟨hgives, hgives _ _ hd⟩
    have hsome : ∀ fetch name, (mapGet (withFetches fetch inputs) name).isSome = (mapGet inputs name).isSome := by
      intro fetch name
      rw [withFetches, mapGet_map, Option.isSome_map]
    cases o with
    | graphql n => exact ⟨.error (.err "Unknown output config type"), (fun fetch => by rw [OutputDecl.instantiate, hd]; rfl), fun api h => by cases h⟩
    | array n c =>
      refine ⟨(do
        require (mapGet inputs c.input).isSome "Input not found in inputs list."
        checkRelationships inputs c.relationships
        .ok ⟨arrayApi (outputEnv lib inputs indexes defaultIndex parsers) c parsers, arraySteps (outputEnv lib inputs indexes defaultIndex parsers) c⟩), fun fetch => ?_, fun api h => ?_⟩
      rotate_left
      · simp only [bind_ok, ok_inj] at h
        obtain ⟨_, _, _, _, rfl⟩ := h
        exact arraySteps_asks hgive c
      rw [OutputDecl.instantiate, hd]
      simp only [hsome, checkRelationships_withFetch]
      cases require (mapGet inputs c.input).isSome "Input not found in inputs list." with
      | error e => rfl
      | ok u =>
        show (do checkRelationships inputs c.relationships; _) = Except.map _ (do checkRelationships inputs c.relationships; _)
        cases checkRelationships inputs c.relationships with
        | error e => rfl
        | ok u =>
          show Except.ok _ = Except.ok _
          congr 1
          simp only [StepApi.at, arraySteps_run _ henv]
          rfl
    | object n c =>
      refine ⟨(do
        require (c.parameters.all (fun p => (mapGet parsers p.2.parser).isSome)) "Parser does not exist"
        require (mapGet inputs c.input).isSome "There is no such input"
        checkRelationships inputs c.relationships
        .ok ⟨objectApi (outputEnv lib inputs indexes defaultIndex parsers) c parsers, objectSteps (outputEnv lib inputs indexes defaultIndex parsers) c⟩), fun fetch => ?_, fun api h => ?_⟩
      rotate_left
      · simp only [bind_ok, ok_inj] at h
        obtain ⟨_, _, _, _, _, _, rfl⟩ := h
        exact objectSteps_asks hgive c
      rw [OutputDecl.instantiate, hd]
      simp only [hsome, checkRelationships_withFetch]
      cases require (c.parameters.all (fun p => (mapGet parsers p.2.parser).isSome)) "Parser does not exist" with
      | error e => rfl
      | ok u =>
        show (do require _ _; _) = Except.map _ (do require _ _; _)
        cases require (mapGet inputs c.input).isSome "There is no such input" with
        | error e => rfl
        | ok u =>
          show (do checkRelationships inputs c.relationships; _) = Except.map _ (do checkRelationships inputs c.relationships; _)
          cases checkRelationships inputs c.relationships with
          | error e => rfl
          | ok u =>
            show Except.ok _ = Except.ok _
            congr 1
            simp only [StepApi.at, objectSteps_run _ henv]
            rfl

/-- A route with the calls of `Get` its handler makes. -/
structure StepRoute where
  path : List Char
  regexp : Regex
  parameters : List String
  output : StepApi

/-- The route when `Get` returns this. -/
def StepRoute.at (fetch : String → Int → Res Rec) (s : StepRoute) : Route := { path := s.path, regexp := s.regexp, parameters := s.parameters, output := s.output.at fetch }

theorem pathPattern_at (fetch : String → Int → Res Rec) (s : StepApi) : ∀ l, pathPattern (s.at fetch) l = pathPattern s.api l := by
  intro l
  induction l with
  | nil => rfl
  | cons p l ih =>
    obtain ⟨name, literal⟩ := p
    simp only [pathPattern, ih]
    rfl

theorem createPathRegexp_at (fetch : String → Int → Res Rec) (s : StepApi) (path : List Char) : createPathRegexp path (s.at fetch) = createPathRegexp path s.api := by
  simp only [createPathRegexp, pathPattern_at]

theorem createRoute_uniform {Asked : String → Int → Prop} (outputs : GoMap StepApi) (hasks : ∀ e ∈ outputs, e.2.Asks Asked) (output : String) (path : List Char) :
    ∃ r : Res StepRoute, (∀ fetch, createRoute (outputs.map (fun e => (e.1, e.2.at fetch))) output path = r.map (StepRoute.at fetch)) ∧ ∀ s, r = .ok s → s.output.Asks Asked := by
  simp only [createRoute, mapGet_map]
  cases ho : mapGet outputs output with
  | none => exact ⟨.error (.err "Output not found in outputs list."), fun _ => rfl, fun s h => by cases h⟩
  | some api =>
    simp only [Option.map_some, createPathRegexp_at]
    cases createPathRegexp path api.api with
    | error e => exact ⟨.error e, fun _ => rfl, fun s h => by cases h⟩
    | ok p =>
      obtain ⟨regexp, parameters⟩ := p
      cases hp : parameters.all api.api.hasParameter with
      | false =>
        refine ⟨.error (.err "Output does not have such a parameter."), fun fetch => ?_, fun s h => by cases h⟩
        simp only
        rw [show (api.at fetch).hasParameter = api.api.hasParameter from rfl, hp]
        rfl
      | true =>
        refine ⟨.ok { path := path, regexp := regexp, parameters := parameters, output := api }, fun fetch => ?_, fun s h => ?_⟩
        rotate_left
        · cases h
          exact hasks _ (mapGet_mem ho)
        simp only
        rw [show (api.at fetch).hasParameter = api.api.hasParameter from rfl, hp]
        rfl

theorem createRoutes_uniform {Asked : String → Int → Prop} (outputs : GoMap StepApi) (hasks : ∀ e ∈ outputs, e.2.Asks Asked) : ∀ l : List (String × List Char),
    ∃ r : Res (List StepRoute), (∀ fetch, createRoutes (outputs.map (fun e => (e.1, e.2.at fetch))) l = r.map (List.map (StepRoute.at fetch))) ∧
      ∀ routes, r = .ok routes → ∀ s ∈ routes, s.output.Asks Asked := by
  intro l
  induction l with
  | nil => exact ⟨.ok [], fun _ => rfl, fun routes h s hs => by cases h; cases hs⟩
  | cons x l ih =>
    obtain ⟨output, path⟩ := x
    obtain ⟨r, hr, hs⟩ := createRoute_uniform outputs hasks output path
    obtain ⟨r', hr', hs'⟩ := ih
    simp only [createRoutes, hr, hr']
    cases r with
    | error e => exact ⟨.error e, fun _ => rfl, fun routes h => by cases h⟩
    | ok route =>
      cases r' with
      | error e => exact ⟨.error e, fun _ => rfl, fun routes h => by cases h⟩
      | ok routes =>
        refine ⟨.ok (route :: routes), fun _ => rfl, fun routes' h s hm => ?_⟩
        cases h
        rcases List.mem_cons.1 hm with rfl | hm
        · exact hs _ rfl
        · exact hs' _ rfl s hm

/-- A service when `Get` returns this. -/
def serviceAt (fetch : String → Int → Res Rec) (s : String × List StepRoute) : String × List Route := (s.1, s.2.map (StepRoute.at fetch))

theorem serviceInstantiate_uniform {Asked : String → Int → Prop} (lib : StartLib) (outputs : GoMap StepApi) (hasks : ∀ e ∈ outputs, e.2.Asks Asked) (d : ServiceDecl) :
    ∃ r : Res (String × List StepRoute), (∀ fetch, ServiceDecl.instantiate (lib.withFetch fetch) (outputs.map (fun e => (e.1, e.2.at fetch))) d = r.map (serviceAt fetch)) ∧
      ∀ service, r = .ok service → ∀ s ∈ service.2, s.output.Asks Asked := by
  obtain ⟨r, hr, hs⟩ := createRoutes_uniform outputs hasks (d.routes.map (fun r => (r.output, r.path.toList)))
  simp only [ServiceDecl.instantiate, hr]
  cases r with
  | error e => exact ⟨.error e, fun _ => rfl, fun service h => by cases h⟩
  | ok routes =>
    cases hl : lib.listen d with
    | error e =>
      refine ⟨.error e, fun fetch => ?_, fun service h => by cases h⟩
      show (do lib.listen d; _) = _
      rw [hl]
      rfl
    | ok u =>
      refine ⟨.ok (d.errorsType, routes), fun fetch => ?_, fun service h => by cases h; exact hs _ rfl⟩
      show (do lib.listen d; _) = _
      rw [hl]
      rfl

/-- The indexes of the program give such positions only. -/
def IndexesGive (lib : StartLib) (c : Config) (Asked : String → Int → Prop) : Prop :=
  ∀ parsers inputs indexes, instantiateMap (ParserDecl.instantiate lib) c.parsers = .ok parsers → instantiateMap (InputDecl.instantiate lib parsers) c.inputs = .ok inputs →
    instantiateMap (IndexDecl.instantiate lib inputs) c.indexes = .ok indexes → ∀ name index, mapGet indexes name = some index → GivesAsked Asked inputs index

/-- The services of the program, with the calls of `Get` that the handlers make. -/
theorem start_uniform {Asked : String → Int → Prop} {lib : StartLib} (hlib : IndexesFetchFree lib) (c : Config) (hgives : IndexesGive lib c Asked) :
    ∃ r : Res (GoMap (String × List StepRoute)), (∀ fetch, start (lib.withFetch fetch) c = r.map (fun m => m.map (fun e => (e.1, serviceAt fetch e.2)))) ∧
      ∀ services, r = .ok services → ∀ e ∈ services, ∀ s ∈ e.2.2, s.output.Asks Asked := by
  have hparsers : ∀ fetch, instantiateMap (ParserDecl.instantiate (lib.withFetch fetch)) c.parsers = instantiateMap (ParserDecl.instantiate lib) c.parsers := fun _ => rfl
  simp only [start, hparsers]
  cases hp : instantiateMap (ParserDecl.instantiate lib) c.parsers with
  | error e => exact ⟨.error e, fun _ => rfl, fun services h => by cases h⟩
  | ok parsers =>
    simp only [bind, Except.bind, inputs_withFetch]
    cases hin : instantiateMap (InputDecl.instantiate lib parsers) c.inputs with
    | error e => exact ⟨.error e, fun _ => rfl, fun services h => by cases h⟩
    | ok inputs =>
      simp only [Except.map]
      have hindexes : ∀ fetch, instantiateMap (IndexDecl.instantiate (lib.withFetch fetch) (withFetches fetch inputs)) c.indexes =
          instantiateMap (IndexDecl.instantiate lib inputs) c.indexes := fun fetch => instantiateMap_congr _ (fun e _ => indexInstantiate_withFetch hlib fetch inputs e.2)
      simp only [hindexes]
      cases hi : instantiateMap (IndexDecl.instantiate lib inputs) c.indexes with
      | error e => exact ⟨.error e, fun _ => rfl, fun services h => by cases h⟩
      | ok indexes =>
        have hfree : ∀ name index, mapGet indexes name = some index → FetchFree index :=
          instantiateMap_all (fun d index h => indexInstantiate_fetchFree hlib inputs d index h) c.indexes indexes hi
        obtain ⟨r, hr, hs⟩ := instantiateMap_uniform (f := fun fetch => OutputDecl.instantiate (lib.withFetch fetch) (withFetches fetch inputs) indexes parsers) (g := StepApi.at)
          (G := StepApi.Asks Asked) c.outputs (fun e _ => outputInstantiate_uniform lib inputs indexes parsers hfree (hgives _ _ _ hp hin hi) e.2)
        simp only [hr]
        cases r with
        | error e => exact ⟨.error e, fun _ => rfl, fun services h => by cases h⟩
        | ok outputs =>
          simp only [Except.map]
          exact instantiateMap_uniform (f := fun fetch => ServiceDecl.instantiate (lib.withFetch fetch) (outputs.map (fun e => (e.1, e.2.at fetch)))) (g := serviceAt)
            (G := fun service => ∀ s ∈ service.2, s.output.Asks Asked) c.services (fun e _ => serviceInstantiate_uniform lib outputs (hs _ rfl) e.2)

/-! ### Requests -/

theorem getMatchingRoute_uniform (lib : ServiceLib) (request : Request) (routes : List StepRoute) :
    ∃ r : Option StepRoute, (∀ fetch, getMatchingRoute lib request (routes.map (StepRoute.at fetch)) = r.map (StepRoute.at fetch)) ∧ ∀ s, r = some s → s ∈ routes := by
  induction routes with
  | nil => exact ⟨none, fun _ => rfl, fun s h => by cases h⟩
  | cons s routes ih =>
    obtain ⟨r, hr, hm'⟩ := ih
    have hm : ∀ fetch, routeMatches lib request (s.at fetch) = routeMatches lib request (s.at (fun _ _ => .error .diverge)) := fun _ => rfl
    cases h : routeMatches lib request (s.at (fun _ _ => .error .diverge)) with
    | true =>
      refine ⟨some s, fun fetch => ?_, fun s' h' => by cases h'; exact .head _⟩
      simp only [List.map_cons, getMatchingRoute, hm, h]
      rfl
    | false =>
      refine ⟨r, fun fetch => ?_, fun s' h' => .tail _ (hm' s' h')⟩
      simp only [List.map_cons, getMatchingRoute, hm, h]
      exact hr fetch

/-- The calls of `Get` for a request. -/
theorem serveTarget_steps {Asked : String → Int → Prop} (lib : ServiceLib) (errorsType : String) (routes : List StepRoute) (hasks : ∀ s ∈ routes, s.output.Asks Asked) (q : Incoming) :
    ∃ t : Asking (Option Response), AsksOnly Asked t ∧ ∀ fetch, t.run fetch =
    serveTarget lib errorsType (routes.map (StepRoute.at fetch)) q.old q.visit q.method q.contentType q.target q.body := by
  simp only [serveTarget]
  cases readTarget q.old q.target with
  | bad => exact ⟨.done (some badRequest), .done _, fun _ => rfl⟩
  | unmodelled => exact ⟨.done none, .done _, fun _ => rfl⟩
  | read path query =>
    simp only
    generalize ({ method := q.method, contentType := q.contentType, path := path, query := q.visit query, body := q.body } : Request) = request
    obtain ⟨r, hr, hmem⟩ := getMatchingRoute_uniform lib request routes
    cases r with
    | none =>
      refine ⟨.done (clientGets (.header "X-Powered-By" "RODB (https://rodb-io.github.io/rodb/)" :: sendErrorResponse lib errorsType 404 "No matching route was found", .returned)), .done _, fun fetch => ?_⟩
      rw [handleRequest, hr]
      rfl
    | some s =>
      have hp : ∀ fetch, getPayload (s.at fetch) request = getPayload (s.at (fun _ _ => .error .diverge)) request := fun _ => rfl
      have hq : ∀ fetch, getParams lib (s.at fetch) request = getParams lib (s.at (fun _ _ => .error .diverge)) request := fun _ => rfl
      simp only [handleRequest, hr, Option.map_some, serveRoute, hp, hq]
      cases getPayload (s.at (fun _ _ => .error .diverge)) request with
      | error e =>
        exact ⟨.done (clientGets (.header "X-Powered-By" "RODB (https://rodb-io.github.io/rodb/)" :: (sendFailure lib errorsType e).1, (sendFailure lib errorsType e).2)), .done _, fun fetch => rfl⟩
      | ok payload =>
        simp only
        cases getParams lib (s.at (fun _ _ => .error .diverge)) request with
        | error e =>
          exact ⟨.done (clientGets (.header "X-Powered-By" "RODB (https://rodb-io.github.io/rodb/)" :: (sendFailure lib errorsType e).1, (sendFailure lib errorsType e).2)), .done _, fun fetch => rfl⟩
        | ok params =>
          refine ⟨(s.output.steps params).bind (fun a => .done (clientGets (.header "X-Powered-By" "RODB (https://rodb-io.github.io/rodb/)" ::
            (sendAnswer lib errorsType s.output.api.responseType a).1, (sendAnswer lib errorsType s.output.api.responseType a).2))),
            (hasks s (hmem s rfl) params).bind (fun _ => .done _), fun fetch => ?_⟩
          rw [Asking.run_bind]
          rfl

/-- Every request is handled by some calls of `Get`. -/
theorem respond_steps {Asked : String → Int → Prop} {lib : StartLib} (hlib : IndexesFetchFree lib) (c : Config) (hgives : IndexesGive lib c Asked) (service : ServiceLib) (q : Incoming) :
    ∃ t : Asking (Option Response), AsksOnly Asked t ∧ ∀ fetch, t.run fetch = respond service (start (lib.withFetch fetch) c) q := by
  obtain ⟨r, hr, hs⟩ := start_uniform hlib c hgives
  simp only [hr]
  cases r with
  | error e => exact ⟨.done none, .done _, fun _ => rfl⟩
  | ok services =>
    simp only [Except.map, respond, mapGet_map]
    cases hm : mapGet services q.service with
    | none => exact ⟨.done none, .done _, fun _ => rfl⟩
    | some s => exact serveTarget_steps service s.1 s.2 (hs _ rfl _ (mapGet_mem hm)) q

end Rodb
