import Verif.Props.WellFormedProps
import Verif.Props.RouteProps
import Verif.Spec.Running
/-
  Lemmas about the running program.
-/
namespace Rodb
open Spec

theorem ParserDecl.instantiate_runs {lib : StartLib} {x : ParserDecl} {t : TextParser} (h : x.instantiate lib = .ok t) : RunsParser lib x t := by
  obtain ⟨name, kind⟩ := x
  cases kind with
  | string charset =>
    simp only [ParserDecl.instantiate] at h
    by_cases hc : charset = ""
    · rw [if_neg (by simpa using hc), ok_inj] at h
      exact .inl ⟨hc, h.symm⟩
    · rw [if_pos hc, bind_ok] at h
      obtain ⟨f, hf, h⟩ := h
      cases h
      exact .inr ⟨hc, f, hf, rfl⟩
  | integer i => cases h; exact rfl
  | float s i => cases h; exact rfl
  | boolean yes no => cases h; exact rfl
  | json => cases h; exact rfl
  | split d r q =>
    cases d with
    | none => cases h
    | some d =>
      refine ⟨d, rfl, ?_⟩
      simp only [ParserDecl.instantiate, ok_inj] at h
      by_cases hr : r = some true
      · rw [if_pos hr] at h; exact .inl ⟨hr, h.symm⟩
      · rw [if_neg hr] at h; exact .inr ⟨hr, h.symm⟩

theorem detectColumns_value : ∀ {row seen : List String} {columns : List ColumnDecl}, detectColumns seen row = .ok columns →
    row.Nodup ∧ "" ∉ row ∧ (∀ n ∈ row, n ∉ seen) ∧ columns = row.map (fun name => { name := name, parser := "string" })
  | [], _, _, h => by cases h; simp
  | n :: rest, seen, _, h => by
    simp only [detectColumns, bind_ok, require_ok, exists_const, ok_inj, decide_eq_true_eq] at h
    obtain ⟨h1, h2, l, h3, rfl⟩ := h
    obtain ⟨a, b, c, rfl⟩ := detectColumns_value h3
    simp only [Bool.not_eq_true', List.contains_eq_mem, decide_eq_false_iff_not] at h2
    refine ⟨List.nodup_cons.2 ⟨fun hm => c n hm (.head _), a⟩, ?_, ?_, rfl⟩
    · intro hm
      rcases List.mem_cons.1 hm with e | hm
      · exact h1 e.symm
      · exact b hm
    · intro m hm
      rcases List.mem_cons.1 hm with rfl | hm
      · exact h2
      · exact fun hs => c m hm (.tail _ hs)

theorem InputDecl.instantiate_runs {lib : StartLib} {parsers : GoMap TextParser} {x : InputDecl} {input : Input} (h : x.instantiate lib parsers = .ok input) :
    ∃ d, WithColumns lib x d ∧ lib.input d (parserTypes parsers) (parseFunctions lib parsers) = .ok input := by
  cases x with
  | csv c =>
    simp only [InputDecl.instantiate, CsvDecl.instantiate, bind_ok, require_ok, exists_const] at h
    obtain ⟨_, _, columns, hc, _, h⟩ := h
    refine ⟨_, ?_, h⟩
    simp only [CsvDecl.findColumns] at hc
    simp only [WithColumns]
    by_cases ha : c.autodetectColumns = true
    · rw [if_pos ha, bind_ok] at hc
      rw [if_pos ha]
      obtain ⟨row, h1, h2⟩ := hc
      obtain ⟨a, b, _, e⟩ := detectColumns_value h2
      exact ⟨row, h1, ⟨a, b⟩, by rw [e]⟩
    · rw [if_neg ha, ok_inj] at hc
      rw [if_neg ha, ← hc]
  | xml c => exact ⟨_, rfl, h⟩
  | json c => exact ⟨_, rfl, h⟩

theorem findInput_ok {inputs : GoMap Input} {name : String} {input : Input} : findInput inputs name = .ok input ↔ mapGet inputs name = some input := by
  unfold findInput
  cases mapGet inputs name <;> simp

theorem IndexDecl.instantiate_runs {lib : StartLib} {inputs : GoMap Input} {x : IndexDecl} {index : IndexFn} (h : x.instantiate lib inputs = .ok index) :
    RunsIndex lib inputs x index := by
  cases x with
  | map d =>
    simp only [IndexDecl.instantiate, bind_ok, ok_inj, findInput_ok] at h
    obtain ⟨input, h1, m, h2, rfl⟩ := h
    exact ⟨input, m, h1, h2, rfl⟩
  | noop n => cases h; exact rfl
  | wildcard d | sqlite d | fts5 d =>
    simp only [IndexDecl.instantiate, bind_ok, findInput_ok] at h
    obtain ⟨input, h1, h2⟩ := h
    exact ⟨d.input, input, rfl, h1, h2⟩

theorem OutputDecl.instantiate_runs {lib : StartLib} {inputs : GoMap Input} {indexes : GoMap IndexFn} {parsers : GoMap TextParser} {x : OutputDecl} {api : OutputApi}
    {index : IndexFn} (hd : mapGet indexes "default" = some index) (h : x.instantiate lib inputs indexes parsers = .ok api) :
    RunsOutput (outputEnv lib inputs indexes index parsers) parsers x api := by
  unfold OutputDecl.instantiate at h
  rw [hd] at h
  cases x with
  | graphql n => cases h
  | array n d =>
    simp only [bind_ok, require_ok, exists_const, ok_inj] at h
    obtain ⟨_, _, _, rfl⟩ := h
    exact rfl
  | object n d =>
    simp only [bind_ok, require_ok, exists_const, ok_inj] at h
    obtain ⟨_, _, _, _, rfl⟩ := h
    exact rfl

theorem createRoute_output {outputs : GoMap OutputApi} {name : String} {path : List Char} {route : Route} (h : createRoute outputs name path = .ok route) :
    mapGet outputs name = some route.output := by
  unfold createRoute at h
  cases ho : mapGet outputs name with
  | none => rw [ho] at h; cases h
  | some api =>
    rw [ho] at h
    dsimp only at h
    split at h
    · cases h
    · split at h
      · cases h; rfl
      · cases h

theorem ServiceDecl.instantiate_runs {lib : StartLib} {outputs : GoMap OutputApi} {x : ServiceDecl} {s : String × List Route} (h : x.instantiate lib outputs = .ok s) :
    s.1 = x.errorsType ∧ RunsRoutes outputs x.routes s.2 := by
  simp only [ServiceDecl.instantiate, bind_ok, ok_inj] at h
  obtain ⟨routes, h1, _, _, rfl⟩ := h
  refine ⟨rfl, ?_⟩
  obtain ⟨h2, h3⟩ := ((C52_configured_order outputs _).1 routes).1 h1
  rw [List.length_map] at h2
  refine ⟨h2, fun k hk hk' => ?_⟩
  have h4 := h3 k (by rw [List.length_map]; exact hk) hk'
  rw [List.getElem_map] at h4
  exact ⟨_, createRoute_output h4, rfl, h4⟩

/-- A name of the running map is one of the configuration. -/
theorem instantiateMap_name {α β : Type} {f : α → Res β} {m : GoMap α} {m' : GoMap β} (h : instantiateMap f m = .ok m') {n : String} {y : β} (hy : mapGet m' n = some y) :
    ∃ x, mapGet m n = some x ∧ f x = .ok y := by
  cases hx : mapGet m n with
  | some x =>
    obtain ⟨z, hz, hf⟩ := instantiateMap_get h hx
    rw [hy] at hz; cases hz
    exact ⟨x, rfl, hf⟩
  | none =>
    have h1 := mapGet_mem hy
    have h2 : n ∈ m'.map (·.1) := List.mem_map_of_mem h1
    rw [instantiateMap_keys h] at h2
    exact (mapGet_none_keys hx h2).elim

theorem ParserDecl.instantiate_type {lib : StartLib} {x : ParserDecl} {t : TextParser} (h : x.instantiate lib = .ok t) : t.config.type = typeOfParser x := by
  obtain ⟨name, kind⟩ := x
  cases kind with
  | string charset =>
    simp only [ParserDecl.instantiate] at h
    split at h
    · simp only [bind_ok, ok_inj] at h
      obtain ⟨_, _, rfl⟩ := h; rfl
    · cases h; rfl
  | split d isRegexp parser =>
    cases d with
    | none => cases h
    | some d => cases h; rfl
  | _ => cases h; rfl

theorem typeOfParser_completed (x : ParserDecl) : typeOfParser (completedParser x) = typeOfParser x := by
  obtain ⟨name, kind⟩ := x
  cases kind <;> rfl

theorem find_isParser {p : ParsedConfig} {n : String} {x : ParserDecl} (h : (p.parsers ++ builtinParsers).find? (fun x => x.name = n) = some x) : IsParser p n x := by
  rw [List.find?_append] at h
  cases hd : p.parsers.find? (fun x => x.name = n) with
  | some y =>
    rw [hd] at h
    cases h
    exact .inl ⟨List.mem_of_find?_eq_some hd, by simpa using List.find?_some hd⟩
  | none =>
    rw [hd] at h
    simp only [Option.none_or] at h
    exact .inr ⟨by simpa using hd, List.mem_of_find?_eq_some h, by simpa using List.find?_some h⟩

/-- The types of the running parsers are those of the declared ones. -/
theorem parserTypes_declared {config : ConfigLib} {lib : StartLib} {p : ParsedConfig} {c c' : Config} (hload : loadConfig config p = .ok c)
    (e1 : ∀ n, mapGet c.parsers n = mapGet c'.parsers n) {texts : GoMap TextParser} (h1 : instantiateMap (ParserDecl.instantiate lib) c'.parsers = .ok texts) :
    parserTypes texts = declaredTypes p := by
  funext n
  have hd := ((C77_defaults config p c hload) n).1
  unfold parserTypes declaredTypes
  cases ht : mapGet texts n with
  | none =>
    cases hf : (p.parsers ++ builtinParsers).find? (fun x => x.name = n) with
    | none => rfl
    | some x =>
      have := (hd _).2 ⟨x, find_isParser hf, rfl⟩
      rw [e1] at this
      obtain ⟨t, g, _⟩ := instantiateMap_get h1 this
      rw [ht] at g; cases g
  | some t =>
    obtain ⟨y, hy, hi⟩ := instantiateMap_name h1 ht
    rw [← e1] at hy
    obtain ⟨x, hx, e⟩ := (hd _).1 hy
    cases hf : (p.parsers ++ builtinParsers).find? (fun x => x.name = n) with
    | none =>
      exfalso
      rw [List.find?_eq_none] at hf
      rcases hx with ⟨h, e⟩ | ⟨_, h, e⟩
      · exact hf x (List.mem_append_left _ h) (by simpa using e)
      · exact hf x (List.mem_append_right _ h) (by simpa using e)
    | some x' =>
      have := (hd _).2 ⟨x', find_isParser hf, rfl⟩
      rw [hy] at this
      cases this
      simp only [Option.map_some, ParserDecl.instantiate_type hi, typeOfParser_completed]

/-- The running program, with its parsers. -/
theorem start_runs {config : ConfigLib} {lib : StartLib} {p : ParsedConfig} {c c' : Config} (hload : loadConfig config p = .ok c) (hre : Reordered c c')
    {running : GoMap (String × List Route)} (h : start lib c' = .ok running) :
    ∃ texts env apis, instantiateMap (ParserDecl.instantiate lib) c'.parsers = .ok texts ∧ instantiateMap (InputDecl.instantiate lib texts) c'.inputs = .ok env.inputs ∧
      Running config lib p texts env apis running := by
  obtain ⟨_, ⟨k1, _⟩, ⟨k2, _⟩, ⟨k3, _⟩, ⟨k4, _⟩, ⟨k5, _⟩, _, _⟩ := loadConfig_ok hload
  have e1 := mapGet_perm hre.parsers k1
  have e2 := mapGet_perm hre.inputs k2
  have e3 := mapGet_perm hre.indexes k3
  have e4 := mapGet_perm hre.services k4
  have e5 := mapGet_perm hre.outputs k5
  have hd := C77_defaults config p c hload
  simp only [start, bind_ok] at h
  obtain ⟨texts, h1, inputs, h2, indexes, h3, apis, h4, h5⟩ := h
  obtain ⟨index, hindex⟩ : ∃ index, mapGet indexes "default" = some index := by
    obtain ⟨i, hi⟩ := (loadConfig_ok hload).1.default
    rw [e3] at hi
    obtain ⟨y, hy, _⟩ := instantiateMap_get h3 hi
    exact ⟨y, hy⟩
  refine ⟨texts, outputEnv lib inputs indexes index texts, apis, h1, h2, ?_⟩
  constructor
  · intro n x hx
    have := ((hd n).1 _).2 ⟨x, hx, rfl⟩
    rw [e1] at this
    obtain ⟨t, ht, hf⟩ := instantiateMap_get h1 this
    exact ⟨t, ht, ParserDecl.instantiate_runs hf⟩
  · rfl
  · intro x hx
    have := ((hd x.name).2.1 _).2 ⟨x, hx, rfl, rfl⟩
    rw [e2] at this
    obtain ⟨input, hi, hf⟩ := instantiateMap_get h2 this
    obtain ⟨d, hd', hin⟩ := InputDecl.instantiate_runs hf
    rw [parserTypes_declared hload (fun n => e1 (k := n)) h1] at hin
    exact ⟨d, input, hd', hin, hi⟩
  · intro n input hi
    obtain ⟨x, hx, _⟩ := instantiateMap_name h2 hi
    rw [← e2] at hx
    obtain ⟨y, hy, e, _⟩ := ((hd n).2.1 _).1 hx
    exact ⟨y, hy, e⟩
  · intro n x hx
    have := ((hd n).2.2.1 _).2 ⟨x, hx, rfl⟩
    rw [e3] at this
    obtain ⟨i, hi, hf⟩ := instantiateMap_get h3 this
    exact ⟨i, hi, IndexDecl.instantiate_runs hf⟩
  · intro n i hi
    obtain ⟨x, hx, _⟩ := instantiateMap_name h3 hi
    rw [← e3] at hx
    obtain ⟨y, hy, _⟩ := ((hd n).2.2.1 _).1 hx
    exact ⟨y, hy⟩
  · exact hindex
  · rfl
  · intros; rfl
  · intro x hx
    have := ((hd x.name).2.2.2.2 _).2 ⟨x, hx, rfl, rfl⟩
    rw [e5] at this
    obtain ⟨api, ha, hf⟩ := instantiateMap_get h4 this
    exact ⟨api, ha, OutputDecl.instantiate_runs hindex hf⟩
  · intro x hx
    have := ((hd x.name).2.2.2.1 _).2 ⟨x, hx, rfl, rfl⟩
    rw [e4] at this
    obtain ⟨s, hs, hf⟩ := instantiateMap_get h5 this
    obtain ⟨h6, h7⟩ := ServiceDecl.instantiate_runs hf
    have h8 : (completedService x).errorsType = "application/json" := by
      rcases (((C76_accepted config p).1 ⟨c, hload⟩).services x hx).1 with e | e <;> simp [completedService, orText, e]
    exact ⟨s.2, by rw [hs, ← h8, ← h6], h7⟩
  · intro n s hs
    obtain ⟨x, hx, _⟩ := instantiateMap_name h5 hs
    rw [← e4] at hx
    obtain ⟨y, hy, e, _⟩ := ((hd n).2.2.2.1 _).1 hx
    exact ⟨y, hy, e⟩

theorem start_running {config : ConfigLib} {lib : StartLib} {p : ParsedConfig} {c c' : Config} (hload : loadConfig config p = .ok c) (hre : Reordered c c')
    {running : GoMap (String × List Route)} (h : start lib c' = .ok running) : ∃ texts env apis, Running config lib p texts env apis running := by
  obtain ⟨texts, env, apis, _, _, h⟩ := start_runs hload hre h
  exact ⟨texts, env, apis, h⟩

end Rodb
