import Verif.Proofs.Running
import Verif.Model.Inputs
import Verif.Proofs.Records
/-
  The program started twice on the same files, with maps visited in different orders.
-/
namespace Rodb
open Spec

/-- The running program (as in `start_runs`), with all its parts. -/
theorem start_parts {config : ConfigLib} {lib : StartLib} {p : ParsedConfig} {c c' : Config} (hload : loadConfig config p = .ok c) (hre : Reordered c c')
    {running : GoMap (String × List Route)} (h : start lib c' = .ok running) :
    ∃ texts inputs indexes index apis, instantiateMap (ParserDecl.instantiate lib) c'.parsers = .ok texts ∧ instantiateMap (InputDecl.instantiate lib texts) c'.inputs = .ok inputs ∧
      instantiateMap (IndexDecl.instantiate lib inputs) c'.indexes = .ok indexes ∧ mapGet indexes "default" = some index ∧
      instantiateMap (OutputDecl.instantiate lib inputs indexes texts) c'.outputs = .ok apis ∧ instantiateMap (ServiceDecl.instantiate lib apis) c'.services = .ok running ∧
      Running config lib p texts (outputEnv lib inputs indexes index texts) apis running := by
  obtain ⟨_, ⟨k1, _⟩, ⟨k2, _⟩, ⟨k3, _⟩, ⟨k4, _⟩, ⟨k5, _⟩, _, _⟩ := loadConfig_ok hload
  have e1 := mapGet_perm hre.parsers k1
  have e2 := mapGet_perm hre.inputs k2
  have e3 := mapGet_perm hre.indexes k3
  have e4 := mapGet_perm hre.services k4
  have e5 := mapGet_perm hre.outputs k5
  have hd := C77_defaults config p c hload
  simp only [start, bind_ok] at h
  obtain ⟨texts, h1, inputs, h2, indexes, h3, apis, h4, h5⟩ := h
  obtain ⟨index, hindex⟩ : ∃ index, mapGet indexes "default" = some index := by
    obtain ⟨i, hi⟩ := (loadConfig_ok hload).1.default
    rw [e3] at hi
    obtain ⟨y, hy, _⟩ := instantiateMap_get h3 hi
    exact ⟨y, hy⟩
  refine ⟨texts, inputs, indexes, index, apis, h1, h2, h3, hindex, h4, h5, ?_⟩
  constructor
  · intro n x hx
    have := ((hd n).1 _).2 ⟨x, hx, rfl⟩
    rw [e1] at this
    obtain ⟨t, ht, hf⟩ := instantiateMap_get h1 this
    exact ⟨t, ht, ParserDecl.instantiate_runs hf⟩
  · rfl
  · intro x hx
    have := ((hd x.name).2.1 _).2 ⟨x, hx, rfl, rfl⟩
    rw [e2] at this
    obtain ⟨input, hi, hf⟩ := instantiateMap_get h2 this
    obtain ⟨d, hd', hin⟩ := InputDecl.instantiate_runs hf
    rw [parserTypes_declared hload (fun n => e1 (k := n)) h1] at hin
    exact ⟨d, input, hd', hin, hi⟩
  · intro n input hi
    obtain ⟨x, hx, _⟩ := instantiateMap_name h2 hi
    rw [← e2] at hx
    obtain ⟨y, hy, e, _⟩ := ((hd n).2.1 _).1 hx
    exact ⟨y, hy, e⟩
  · intro n x hx
    have := ((hd n).2.2.1 _).2 ⟨x, hx, rfl⟩
    rw [e3] at this
    obtain ⟨i, hi, hf⟩ := instantiateMap_get h3 this
    exact ⟨i, hi, IndexDecl.instantiate_runs hf⟩
  · intro n i hi
    obtain ⟨x, hx, _⟩ := instantiateMap_name h3 hi
    rw [← e3] at hx
    obtain ⟨y, hy, _⟩ := ((hd n).2.2.1 _).1 hx
    exact ⟨y, hy⟩
  · exact hindex
  · rfl
  · intros; rfl
  · intro x hx
    have := ((hd x.name).2.2.2.2 _).2 ⟨x, hx, rfl, rfl⟩
    rw [e5] at this
    obtain ⟨api, ha, hf⟩ := instantiateMap_get h4 this
    exact ⟨api, ha, OutputDecl.instantiate_runs hindex hf⟩
  · intro x hx
    have := ((hd x.name).2.2.2.1 _).2 ⟨x, hx, rfl, rfl⟩
    rw [e4] at this
    obtain ⟨s, hs, hf⟩ := instantiateMap_get h5 this
    obtain ⟨h6, h7⟩ := ServiceDecl.instantiate_runs hf
    have h8 : (completedService x).errorsType = "application/json" := by
      rcases (((C76_accepted config p).1 ⟨c, hload⟩).services x hx).1 with e | e <;> simp [completedService, orText, e]
    exact ⟨s.2, by rw [hs, ← h8, ← h6], h7⟩
  · intro n s hs
    obtain ⟨x, hx, _⟩ := instantiateMap_name h5 hs
    rw [← e4] at hx
    obtain ⟨y, hy, e, _⟩ := ((hd n).2.2.2.1 _).1 hx
    exact ⟨y, hy, e⟩

/-! ### Parsers and inputs -/

theorem parse_anyOrder {lib : ParserLib} {parsers parsers' : GoMap ParserConfig} (h : ∀ n, mapGet parsers' n = mapGet parsers n) :
    ∀ (fuel : Nat) (p : ParserConfig), parse lib parsers' fuel p = parse lib parsers fuel p
  | fuel, .string _ => by funext v; simp only [parse]
  | fuel, .integer _ => by funext v; simp only [parse]
  | fuel, .float _ _ => by funext v; simp only [parse]
  | fuel, .boolean _ _ => by funext v; simp only [parse]
  | fuel, .json => by funext v; simp only [parse]
  | 0, .split _ _ => by funext v; simp only [parse]
  | fuel + 1, .split _ name => by
    funext v
    simp only [parse, h]
    cases mapGet parsers name with
    | none => rfl
    | some p => simp only [parse_anyOrder h fuel p]

theorem parseFunctions_anyOrder {lib : StartLib} {texts texts' : GoMap TextParser} (h : ∀ n, mapGet texts' n = mapGet texts n) (hlen : texts'.length = texts.length) (n : String) :
    mapGet (parseFunctions lib texts') n = mapGet (parseFunctions lib texts) n := by
  have hc : ∀ m, mapGet (texts'.map (fun q => (q.1, q.2.config))) m = mapGet (texts.map (fun q => (q.1, q.2.config))) m := by
    intro m
    rw [mapGet_mapValues TextParser.config, mapGet_mapValues TextParser.config, h]
  simp only [parseFunctions, parse_anyOrder hc, hlen]
  rw [mapGet_mapValues (fun q : TextParser => parse lib.parserLib _ texts.length q.config), mapGet_mapValues (fun q : TextParser => parse lib.parserLib _ texts.length q.config), h]

section
variable {N : Type} {env env' : XmlEnv} (hs : env'.stringValue = env.stringValue) (hp : env'.primitiveValue = env.primitiveValue)
include hp

mutual
theorem xmlAllValues_env : ∀ p : XmlProp N, xmlAllValues env' p = xmlAllValues env p
  | .array n select items => by funext node; simp only [xmlAllValues, xmlAllValues_env items]
  | .object n select properties => by funext node; simp only [xmlAllValues, xmlObject_env properties]
  | .primitive n eval parser => by funext node; simp only [xmlAllValues, hp]
theorem xmlObject_env : ∀ l : List (XmlProp N), xmlObject env' l = xmlObject env l
  | [] => by funext node values; simp only [xmlObject]
  | p :: rest => by funext node values; simp only [xmlObject, xmlAllValues_env p, xmlObject_env rest]
end

include hs

mutual
theorem xmlSubValue_env : ∀ p : XmlProp N, xmlSubValue env' p = xmlSubValue env p
  | .array n select items => by funext node path; simp only [xmlSubValue, xmlAllValues_env hp items, xmlSubValue_env items]
  | .object n select properties => by funext node path; simp only [xmlSubValue, xmlObject_env hp properties, xmlSubProperty_env properties]
  | .primitive n eval parser => by funext node path; simp only [xmlSubValue, hp, hs]
theorem xmlSubProperty_env : ∀ l : List (XmlProp N), xmlSubProperty env' l = xmlSubProperty env l
  | [] => by funext node key sub absent; simp only [xmlSubProperty]
  | p :: rest => by funext node key sub absent; simp only [xmlSubProperty, xmlSubValue_env p, xmlSubProperty_env rest]
end

theorem xmlRecord_env (l : List (XmlProp N)) : xmlRecord env' l = xmlRecord env l := by
  funext node position
  simp only [xmlRecord, xmlObject_env hp l, xmlSubProperty_env hs hp l]
end

theorem openInput_anyOrder {files : Files} {types : String → Option ParserType} {functions functions' : GoMap (Bytes → Res Value)}
    (h : ∀ n, mapGet functions' n = mapGet functions n) (c : InputDecl) : openInput files c types functions' = openInput files c types functions := by
  cases c with
  | csv c => simp only [openInput, openCsvInput, CsvDecl.csvColumns, h]
  | json c => rfl
  | xml c =>
    have hrec : c.record files.xpath types functions' = c.record files.xpath types functions := by
      funext node position
      have hs : XmlEnv.stringValue { functions := functions', types := types, floatToInt := files.xpath.floatToInt } =
          XmlEnv.stringValue { functions := functions, types := types, floatToInt := files.xpath.floatToInt } := by
        funext parser s
        simp only [XmlEnv.stringValue, h]
      have hp : XmlEnv.primitiveValue { functions := functions', types := types, floatToInt := files.xpath.floatToInt } =
          XmlEnv.primitiveValue { functions := functions, types := types, floatToInt := files.xpath.floatToInt } := by
        funext parser r
        cases r with
        | str s => simp only [XmlEnv.primitiveValue, hs]
        | num f => rfl
        | bool b => rfl
        | nodes x => rfl
        | other => rfl
      simp only [XmlDecl.record, xmlRecord_env hs hp]
    simp only [openInput, openXmlInput, hrec]

/-! ### The program -/

/-- The parts that an output uses are the same, in maps with any order. -/
structure SameParts (env env' : OutputEnv) : Prop where
  sort : env'.sort = env.sort
  inputs : ∀ n, mapGet env'.inputs n = mapGet env.inputs n
  indexes : ∀ n, mapGet env'.indexes n = mapGet env.indexes n
  parsers : ∀ n, mapGet env'.parsers n = mapGet env.parsers n
  defaultIndex : env'.defaultIndex = env.defaultIndex

/-- Two outputs for the same declaration, one of `declared`, in two environments. -/
def Twins (declared : OutputDecl → Prop) (env env' : OutputEnv) (texts : GoMap TextParser) (api api' : OutputApi) : Prop :=
  ∃ o texts', declared o ∧ (∀ n, mapGet texts' n = mapGet texts n) ∧ RunsOutput env texts o api ∧ RunsOutput env' texts' o api'

theorem Spec.Reordered.symm {a b : Config} (h : Reordered a b) : Reordered b a := ⟨h.parsers.symm, h.inputs.symm, h.indexes.symm, h.services.symm, h.outputs.symm⟩
theorem Spec.Reordered.trans {a b c : Config} (h : Reordered a b) (k : Reordered b c) : Reordered a c :=
  ⟨h.parsers.trans k.parsers, h.inputs.trans k.inputs, h.indexes.trans k.indexes, h.services.trans k.services, h.outputs.trans k.outputs⟩

theorem Twins.same {declared : OutputDecl → Prop} {env env' : OutputEnv} {api api' : OutputApi} (h : Twins declared env env' texts api api') :
    api'.payloadType = api.payloadType ∧ api'.responseType = api.responseType ∧ api'.hasParameter = api.hasParameter ∧ api'.parameterParser = api.parameterParser := by
  obtain ⟨o, texts', _, ht, h1, h2⟩ := h
  cases o with
  | graphql n => exact h1.elim
  | array n d =>
    cases h1; cases h2
    exact ⟨rfl, rfl, rfl, by funext name; simp only [arrayApi, ht]⟩
  | object n d =>
    cases h1; cases h2
    exact ⟨rfl, rfl, rfl, by funext name; simp only [objectApi, ht]⟩

structure TwinRoutes (declared : OutputDecl → Prop) (env env' : OutputEnv) (texts : GoMap TextParser) (route route' : Route) : Prop where
  regexp : route'.regexp = route.regexp
  parameters : route'.parameters = route.parameters
  output : Twins declared env env' texts route.output route'.output

/-- Elements at the same place are related. -/
inductive Alike {α : Type} (R : α → α → Prop) : List α → List α → Prop
  | nil : Alike R [] []
  | cons {x y l m} : R x y → Alike R l m → Alike R (x :: l) (y :: m)

/-- The maps have the same keys, with related values. -/
def MapAlike {β : Type} (R : β → β → Prop) (l l' : GoMap β) : Prop :=
  ∀ n, (mapGet l n = none ∧ mapGet l' n = none) ∨ ∃ y y', mapGet l n = some y ∧ mapGet l' n = some y' ∧ R y y'

theorem instantiateMap_alike {α β : Type} {f g : α → Res β} {R : β → β → Prop} {m m' : GoMap α} {l : GoMap β} (hperm : m.Perm m') (hn : (m.map (·.1)).Nodup)
    (hfg : ∀ k x y, (k, x) ∈ m → f x = .ok y → ∃ y', g x = .ok y' ∧ R y y') (h : instantiateMap f m = .ok l) :
    ∃ l', instantiateMap g m' = .ok l' ∧ MapAlike R l l' ∧ l'.length = l.length := by
  obtain ⟨l', h'⟩ := (instantiateMap_ok (f := g) (m := m')).2 (fun k x hx => by
    have hm := hperm.symm.subset hx
    obtain ⟨y, hy⟩ := instantiateMap_ok.1 ⟨l, h⟩ k x hm
    obtain ⟨y', hy', _⟩ := hfg k x y hm hy
    exact ⟨y', hy'⟩)
  refine ⟨l', h', fun n => ?_, ?_⟩
  · have e := mapGet_perm hperm hn n
    cases hx : mapGet m n with
    | none =>
      refine .inl ⟨?_, ?_⟩
      · cases hl : mapGet l n with
        | none => rfl
        | some y => obtain ⟨x, hx', _⟩ := instantiateMap_name h hl; rw [hx] at hx'; cases hx'
      · cases hl : mapGet l' n with
        | none => rfl
        | some y => obtain ⟨x, hx', _⟩ := instantiateMap_name h' hl; rw [← e, hx] at hx'; cases hx'
    | some x =>
      obtain ⟨y, h1, h2⟩ := instantiateMap_get h hx
      obtain ⟨y', h3, h4⟩ := instantiateMap_get h' (e ▸ hx)
      obtain ⟨y2, h5, h6⟩ := hfg n x y (mapGet_mem hx) h2
      rw [h4] at h5
      cases h5
      exact .inr ⟨y, y', h1, h3, h6⟩
  · have k1 := congrArg List.length (instantiateMap_keys h)
    have k2 := congrArg List.length (instantiateMap_keys h')
    simp only [List.length_map] at k1 k2
    rw [k1, k2, hperm.length_eq]

theorem MapAlike.same {β : Type} {l l' : GoMap β} (h : MapAlike (fun a b => b = a) l l') (n : String) : mapGet l' n = mapGet l n := by
  rcases h n with ⟨h1, h2⟩ | ⟨y, y', h1, h2, rfl⟩
  · rw [h1, h2]
  · rw [h1, h2]

theorem pathPattern_same {api api' : OutputApi} (h : api'.parameterParser = api.parameterParser) : ∀ l, pathPattern api' l = pathPattern api l
  | [] => rfl
  | (name, literal) :: rest => by simp only [pathPattern, h, pathPattern_same h rest]

theorem createRoute_twin {declared : OutputDecl → Prop} {env env' : OutputEnv} {apis apis' : GoMap OutputApi}
    (h : MapAlike (Twins declared env env' texts) apis apis') {name : String} {path : List Char} {route : Route} (hr : createRoute apis name path = .ok route) :
    ∃ route', createRoute apis' name path = .ok route' ∧ TwinRoutes declared env env' texts route route' := by
  rcases h name with ⟨h1, _⟩ | ⟨api, api', h1, h2, ht⟩
  · simp only [createRoute, h1] at hr; cases hr
  · obtain ⟨_, _, e3, e4⟩ := ht.same
    have e : createPathRegexp path api' = createPathRegexp path api := by simp only [createPathRegexp, pathPattern_same e4]
    simp only [createRoute, h1] at hr
    simp only [createRoute, h2, e, e3]
    cases hp : createPathRegexp path api with
    | error e => rw [hp] at hr; cases hr
    | ok x =>
      rw [hp] at hr
      simp only at hr ⊢
      by_cases hall : x.2.all api.hasParameter = true
      · rw [if_pos hall] at hr ⊢
        cases hr
        exact ⟨_, rfl, rfl, rfl, ht⟩
      · rw [if_neg hall] at hr; cases hr

theorem createRoutes_twin {declared : OutputDecl → Prop} {env env' : OutputEnv} {apis apis' : GoMap OutputApi}
    (h : MapAlike (Twins declared env env' texts) apis apis') : ∀ {l : List (String × List Char)} {routes : List Route}, createRoutes apis l = .ok routes →
    ∃ routes', createRoutes apis' l = .ok routes' ∧ Alike (TwinRoutes declared env env' texts) routes routes'
  | [], _, hr => by cases hr; exact ⟨[], rfl, .nil⟩
  | (output, path) :: rest, routes, hr => by
    simp only [createRoutes] at hr
    cases h1 : createRoute apis output path with
    | error e => rw [h1] at hr; cases hr
    | ok route =>
      rw [h1] at hr
      cases h2 : createRoutes apis rest with
      | error e => rw [h2] at hr; cases hr
      | ok routes2 =>
        rw [h2] at hr
        cases hr
        obtain ⟨route', h3, h4⟩ := createRoute_twin h h1
        obtain ⟨routes2', h5, h6⟩ := createRoutes_twin h h2
        exact ⟨route' :: routes2', by simp only [createRoutes, h3, h5], .cons h4 h6⟩

theorem checkRelationship_anyOrder {inputs inputs' : GoMap Input} (h : ∀ n, mapGet inputs' n = mapGet inputs n) :
    (∀ r, checkRelationship inputs' r = checkRelationship inputs r) ∧ ∀ l, checkNested inputs' l = checkNested inputs l := by
  have key : ∀ n, (∀ r, sizeOf r < n → checkRelationship inputs' r = checkRelationship inputs r) ∧ ∀ l, sizeOf l < n → checkNested inputs' l = checkNested inputs l := by
    intro n
    induction n with
    | zero => exact ⟨fun _ hh => absurd hh (Nat.not_lt_zero _), fun _ hh => absurd hh (Nat.not_lt_zero _)⟩
    | succ n ih =>
      refine ⟨?_, ?_⟩
      · rintro ⟨a, b, c, d, e, l⟩ hh
        simp only [checkRelationship]
        exact ih.2 l (by simp at hh; omega)
      · intro l hh
        cases l with
        | nil => simp only [checkNested]
        | cons x rest =>
          obtain ⟨name, a, b, c, d, e, nested⟩ := x
          simp only [checkNested, h]
          rw [ih.1 (.mk a b c d e nested) (by simp at hh ⊢; omega), ih.2 rest (by simp at hh ⊢; omega)]
  exact ⟨fun r => (key _).1 r (Nat.lt_succ_self _), fun l => (key _).2 l (Nat.lt_succ_self _)⟩

theorem checkRelationships_anyOrder {inputs inputs' : GoMap Input} (h : ∀ n, mapGet inputs' n = mapGet inputs n) : ∀ l, checkRelationships inputs' l = checkRelationships inputs l
  | [] => rfl
  | (n, r) :: rest => by simp only [checkRelationships, (checkRelationship_anyOrder h).1, checkRelationships_anyOrder h rest]

/-- The program also starts when maps are visited in another order, with the same services and the same routes. -/
theorem start_twin {lib : StartLib} {files : Files} {visit' : List Nat → {α : Type} → List α → List α} {c c' : Config} (hre : Reordered c c')
    (k1 : (c.parsers.map (·.1)).Nodup) (k2 : (c.inputs.map (·.1)).Nodup) (k3 : (c.indexes.map (·.1)).Nodup) (k4 : (c.services.map (·.1)).Nodup) (k5 : (c.outputs.map (·.1)).Nodup)
    {texts : GoMap TextParser} {inputs : GoMap Input} {indexes : GoMap IndexFn}
    {index : IndexFn} {apis : GoMap OutputApi} {running : GoMap (String × List Route)} (h1 : instantiateMap (ParserDecl.instantiate (lib.onFiles files)) c.parsers = .ok texts)
    (h2 : instantiateMap (InputDecl.instantiate (lib.onFiles files) texts) c.inputs = .ok inputs) (h3 : instantiateMap (IndexDecl.instantiate (lib.onFiles files) inputs) c.indexes = .ok indexes)
    (hindex : mapGet indexes "default" = some index)
    (h4 : instantiateMap (OutputDecl.instantiate (lib.onFiles files) inputs indexes texts) c.outputs = .ok apis)
    (h5 : instantiateMap (ServiceDecl.instantiate (lib.onFiles files) apis) c.services = .ok running) :
    ∃ running' env', start (({ lib with visit := visit' } : StartLib).onFiles files) c' = .ok running' ∧ SameParts (outputEnv (lib.onFiles files) inputs indexes index texts) env' ∧
      (∀ (path : List Nat) (α : Type) (l : List α), env'.visit path l = visit' path l) ∧
      MapAlike (fun a b => a.1 = b.1 ∧ Alike (TwinRoutes (fun o => ∃ n, (n, o) ∈ c.outputs) (outputEnv (lib.onFiles files) inputs indexes index texts) env' texts) a.2 b.2) running running' := by
  obtain ⟨texts', g1, a1, l1⟩ := instantiateMap_alike (g := ParserDecl.instantiate (({ lib with visit := visit' } : StartLib).onFiles files)) (R := fun a b => b = a) hre.parsers k1
    (fun k x y _ hx => ⟨y, hx, rfl⟩) h1
  have t1 := a1.same
  have p1 := fun n => parseFunctions_anyOrder (lib := ({ lib with visit := visit' } : StartLib).onFiles files) t1 l1 n
  have types : parserTypes texts' = parserTypes texts := by funext n; simp only [parserTypes, t1]
  obtain ⟨inputs', g2, a2, _⟩ := instantiateMap_alike (g := InputDecl.instantiate (({ lib with visit := visit' } : StartLib).onFiles files) texts') (R := fun a b => b = a) hre.inputs k2
    (fun k x y _ hx => ⟨y, by
      rw [← hx]
      cases x with
      | csv d =>
        simp only [InputDecl.instantiate, CsvDecl.instantiate, t1, types]
        simp only [StartLib.onFiles, CsvDecl.findColumns]
        congr 1; funext _; congr 1; funext columns; congr 1; funext _
        exact openInput_anyOrder p1 _
      | xml d => simp only [InputDecl.instantiate, types]; exact openInput_anyOrder (files := files) (types := parserTypes texts) p1 (.xml d)
      | json d => simp only [InputDecl.instantiate, types]; exact openInput_anyOrder (files := files) (types := parserTypes texts) p1 (.json d), rfl⟩) h2
  have t2 := a2.same
  have f2 : ∀ n, findInput inputs' n = findInput inputs n := by intro n; simp only [findInput, t2]
  obtain ⟨indexes', g3, a3, _⟩ := instantiateMap_alike (g := IndexDecl.instantiate (({ lib with visit := visit' } : StartLib).onFiles files) inputs') (R := fun a b => b = a) hre.indexes k3
    (fun k x y _ hx => ⟨y, by
      rw [← hx]
      cases x <;> simp only [IndexDecl.instantiate, f2] <;> rfl, rfl⟩) h3
  have t3 := a3.same
  have hindex' : mapGet indexes' "default" = some index := by rw [t3]; exact hindex
  refine Exists.elim (instantiateMap_alike (g := OutputDecl.instantiate (({ lib with visit := visit' } : StartLib).onFiles files) inputs' indexes' texts')
    (R := Twins (fun o => ∃ n, (n, o) ∈ c.outputs) (outputEnv (lib.onFiles files) inputs indexes index texts)
      (outputEnv (({ lib with visit := visit' } : StartLib).onFiles files) inputs' indexes' index texts') texts) hre.outputs k5 (by
      intro k o api hm ho
      simp only [OutputDecl.instantiate, hindex, hindex'] at ho ⊢
      cases o with
      | graphql n => cases ho
      | array n d =>
        simp only [bind_ok, ok_inj, t2, checkRelationships_anyOrder t2] at ho ⊢
        obtain ⟨a, ha, b, hb, rfl⟩ := ho
        exact ⟨_, ⟨a, ha, b, hb, rfl⟩, .array n d, texts', ⟨k, hm⟩, t1, rfl, rfl⟩
      | object n d =>
        simp only [bind_ok, ok_inj, t1, t2, checkRelationships_anyOrder t2] at ho ⊢
        obtain ⟨a, ha, b, hb, e, he, rfl⟩ := ho
        exact ⟨_, ⟨a, ha, b, hb, e, he, rfl⟩, .object n d, texts', ⟨k, hm⟩, t1, rfl, rfl⟩) h4) ?_
  rintro apis' ⟨g4, a4, _⟩
  obtain ⟨running', g5, a5, _⟩ := instantiateMap_alike (g := ServiceDecl.instantiate (({ lib with visit := visit' } : StartLib).onFiles files) apis')
    (R := fun a b => a.1 = b.1 ∧ Alike (TwinRoutes (fun o => ∃ n, (n, o) ∈ c.outputs) (outputEnv (lib.onFiles files) inputs indexes index texts)
      (outputEnv (({ lib with visit := visit' } : StartLib).onFiles files) inputs' indexes' index texts') texts) a.2 b.2) hre.services k4 (by
      intro _ s y _ hy
      simp only [ServiceDecl.instantiate, bind_ok, ok_inj] at hy ⊢
      obtain ⟨routes, hr, u, hu, rfl⟩ := hy
      obtain ⟨routes', hr', hal⟩ := createRoutes_twin a4 hr
      exact ⟨_, ⟨routes', hr', u, hu, rfl⟩, rfl, hal⟩) h5
  refine ⟨running', outputEnv (({ lib with visit := visit' } : StartLib).onFiles files) inputs' indexes' index texts', ?_, ⟨rfl, t2, t3, p1, rfl⟩, fun _ _ _ => rfl, a5⟩
  simp only [start, bind_ok]
  exact ⟨texts', g1, inputs', g2, indexes', g3, apis', g4, g5⟩

theorem getMatchingRoute_twin {declared : OutputDecl → Prop} {env env' : OutputEnv} (service : ServiceLib) (request : Request) {routes routes' : List Route}
    (h : Alike (TwinRoutes declared env env' texts) routes routes') :
    (getMatchingRoute service request routes = none ∧ getMatchingRoute service request routes' = none) ∨
    ∃ route route', getMatchingRoute service request routes = some route ∧ getMatchingRoute service request routes' = some route' ∧ TwinRoutes declared env env' texts route route' := by
  induction h with
  | nil => exact .inl ⟨rfl, rfl⟩
  | @cons x y l m hr _ ih =>
    have e : routeMatches service request y = routeMatches service request x := by simp only [routeMatches, hr.output.same.1, hr.regexp]
    simp only [getMatchingRoute, e]
    split
    · exact .inr ⟨_, _, rfl, rfl, hr⟩
    · exact ih

/-- The response is the same if the outputs of the route answer with the same text. -/
theorem handleRequest_twin {declared : OutputDecl → Prop} {env env' : OutputEnv} (service : ServiceLib) (errorsType : String) (request : Request) {routes routes' : List Route}
    (h : Alike (TwinRoutes declared env env' texts) routes routes')
    (hout : ∀ route params payload, getMatchingRoute service request routes = some route → getParams service route request = .ok params →
      ∀ api', Twins declared env env' texts route.output api' → (api'.handle params payload = route.output.handle params payload ∨
        ∃ a b, route.output.handle params payload = .data a ∧ api'.handle params payload = .data b ∧ service.encode a = service.encode b)) :
    handleRequest service errorsType routes request = handleRequest service errorsType routes' request := by
  rcases getMatchingRoute_twin service request h with ⟨h1, h2⟩ | ⟨route, route', h1, h2, ht⟩
  · simp only [handleRequest, h1, h2]
  · have e : serveRoute service errorsType request route = serveRoute service errorsType request route' := by
      have e1 : getPayload route' request = getPayload route request := by simp only [getPayload, ht.output.same.1]
      have e2 : getParams service route' request = getParams service route request := by simp only [getParams, ht.regexp, ht.parameters]
      simp only [serveRoute, e1, e2, ht.output.same.2.1]
      cases getPayload route request with
      | error e => rfl
      | ok payload =>
        simp only
        cases hp : getParams service route request with
        | error e => rfl
        | ok params =>
          simp only
          rcases hout route params payload h1 hp _ ht.output with e | ⟨a, b, ha, hb, e⟩
          · rw [e]
          · rw [ha, hb]; simp only [sendAnswer, e]
    simp only [handleRequest, h1, h2, e]

end Rodb
