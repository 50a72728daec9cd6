import Verif.Proofs.Config
import Verif.Proofs.Service
/-
  Lemmas about starting from a validated configuration.
-/
namespace Rodb
open Spec

/-! ### Other orders -/

theorem Registered.reorder {α : Type} {name : α → String} {a b : GoMap α} (h : a.Perm b) (hr : Registered name a) : Registered name b :=
  ⟨(h.map _).nodup_iff.1 hr.1, fun k x hm => hr.2 k x (h.symm.subset hm)⟩

theorem References.reorder {a b : Config} (h : Reordered a b) (h1 : (a.parsers.map (·.1)).Nodup) (h2 : (a.inputs.map (·.1)).Nodup)
    (h3 : (a.indexes.map (·.1)).Nodup) (h5 : (a.outputs.map (·.1)).Nodup) (hr : References a) : References b := by
  have e1 := mapGet_perm h.parsers h1
  have e2 := mapGet_perm h.inputs h2
  have e3 := mapGet_perm h.indexes h3
  have e5 := mapGet_perm h.outputs h5
  constructor
  · have := hr.default; simpa only [Known, e3] using this
  · intro n p hp; have := hr.split n p (h.parsers.symm.subset hp); simpa only [Known, e1] using this
  · intro n p hp; have := hr.columns n p (h.inputs.symm.subset hp); simpa only [Known, e1] using this
  · intro n p hp; have := hr.properties n p (h.inputs.symm.subset hp); simpa only [Known, e1] using this
  · intro n p hp; have := hr.indexes n p (h.indexes.symm.subset hp); simpa only [Known, e2] using this
  · intro n p hp; have := hr.outputs n p (h.outputs.symm.subset hp); simpa only [Known, e1, e2, e3] using this
  · intro n p hp; have := hr.relationships n p (h.outputs.symm.subset hp); simpa only [Known, e2, e3] using this
  · intro n p hp; have := hr.routes n p (h.services.symm.subset hp); simpa only [Known, e5] using this

theorem Available.reorder {lib : StartLib} {a b : Config} (h : Reordered a b) (ha : Available lib a) : Available lib b where
  charset n p c hp := ha.charset n p c (h.parsers.symm.subset hp)
  openCsv n d hd := ha.openCsv n d (h.inputs.symm.subset hd)
  firstRow n d hd := ha.firstRow n d (h.inputs.symm.subset hd)
  input n d hd := ha.input n d (h.inputs.symm.subset hd)
  map n d hd e he := ha.map n d (h.indexes.symm.subset hd) e (h.inputs.symm.subset he)
  index n i hi := ha.index n i (h.indexes.symm.subset hi)
  listen n s hs := ha.listen n s (h.services.symm.subset hs)

theorem GoodRoute.reorder {a b : Config} (h : Reordered a b) (h1 : (a.parsers.map (·.1)).Nodup) (h5 : (a.outputs.map (·.1)).Nodup) {r : RouteDecl}
    (hr : GoodRoute a r) : GoodRoute b r := by
  have e1 := mapGet_perm h.parsers h1
  have e5 := mapGet_perm h.outputs h5
  simpa only [GoodRoute, e1, e5] using hr

/-! ### The loops -/

theorem instantiateMap_keys {α β : Type} {f : α → Res β} : ∀ {m : GoMap α} {m' : GoMap β}, instantiateMap f m = .ok m' → m'.map (·.1) = m.map (·.1)
  | [], _, h => by cases h; rfl
  | (k, x) :: rest, _, h => by
    simp only [instantiateMap, bind_ok, ok_inj] at h
    obtain ⟨y, _, r, hr, rfl⟩ := h
    simp [instantiateMap_keys hr]

theorem instantiateMap_get {α β : Type} {f : α → Res β} : ∀ {m : GoMap α} {m' : GoMap β}, instantiateMap f m = .ok m' → ∀ {k x}, mapGet m k = some x →
    ∃ y, mapGet m' k = some y ∧ f x = .ok y
  | [], _, h, _, _, hx => by cases hx
  | (k', x') :: rest, _, h, k, x, hx => by
    simp only [instantiateMap, bind_ok, ok_inj] at h
    obtain ⟨y', h1, r, hr, rfl⟩ := h
    by_cases hk : k' = k
    · subst hk
      simp only [mapGet, if_pos] at hx ⊢
      cases hx
      exact ⟨y', rfl, h1⟩
    · simp only [mapGet, if_neg hk] at hx ⊢
      exact instantiateMap_get hr hx

theorem instantiateMap_ok {α β : Type} {f : α → Res β} : ∀ {m : GoMap α}, (∃ m', instantiateMap f m = .ok m') ↔ ∀ k x, (k, x) ∈ m → ∃ y, f x = .ok y
  | [] => ⟨fun _ _ _ h => (by cases h), fun _ => ⟨[], rfl⟩⟩
  | (k', x') :: rest => by
    constructor
    · rintro ⟨m', h⟩ k x hx
      simp only [instantiateMap, bind_ok, ok_inj] at h
      obtain ⟨y', h1, r, hr, _⟩ := h
      rcases List.mem_cons.1 hx with hx | hx
      · cases hx; exact ⟨y', h1⟩
      · exact instantiateMap_ok.1 ⟨r, hr⟩ k x hx
    · intro h
      obtain ⟨y, hy⟩ := h k' x' List.mem_cons_self
      obtain ⟨r, hr⟩ := instantiateMap_ok.2 (fun k x hx => h k x (List.mem_cons_of_mem _ hx))
      exact ⟨(k', y) :: r, by simp [instantiateMap, bind_ok, hy, hr]⟩

theorem known_instantiate {α β : Type} {f : α → Res β} {m : GoMap α} {m' : GoMap β} (h : instantiateMap f m = .ok m') {n : String} (hk : Known m n) :
    (mapGet m' n).isSome = true := by
  obtain ⟨x, hx⟩ := hk
  obtain ⟨y, hy, _⟩ := instantiateMap_get h hx
  rw [hy]; rfl

/-! ### Components -/

theorem detectColumns_ok : ∀ {row seen : List String}, row.Nodup → "" ∉ row → (∀ n ∈ row, n ∉ seen) →
    detectColumns seen row = .ok (row.map (fun n => { name := n, parser := "string" }))
  | [], _, _, _, _ => rfl
  | n :: rest, seen, h1, h2, h3 => by
    simp only [List.nodup_cons] at h1
    have h4 := detectColumns_ok (seen := n :: seen) h1.2 (fun h => h2 (List.mem_cons_of_mem _ h))
      (fun m hm => by
        simp only [List.mem_cons, not_or]
        exact ⟨fun e => h1.1 (e ▸ hm), h3 m (List.mem_cons_of_mem _ hm)⟩)
    simp only [detectColumns, bind_ok, require_ok, exists_const, ok_inj, decide_eq_true_eq]
    refine ⟨fun e => h2 (by rw [e]; exact List.mem_cons_self), ?_, _, h4, rfl⟩
    simpa using h3 n List.mem_cons_self

mutual
theorem checkRelationship_ok {inputs : GoMap Input} : ∀ (r : Relationship), (∀ s ∈ relationshipWithNested r, (mapGet inputs (inputOfRelationship s)).isSome = true) →
    checkRelationship inputs r = .ok ()
  | .mk inputName isArray limit sort matching relationships, h => by
    simp only [checkRelationship]
    exact checkNested_ok relationships (fun s hs => h s (by simp [relationshipWithNested, hs]))
theorem checkNested_ok {inputs : GoMap Input} : ∀ (l : List (String × Relationship)), (∀ s ∈ relationshipsAll l, (mapGet inputs (inputOfRelationship s)).isSome = true) →
    checkNested inputs l = .ok ()
  | [], _ => by simp [checkNested]
  | (name, .mk inputName isArray limit sort matching relationships) :: rest, h => by
    simp only [checkNested, bind_ok, require_ok, exists_const]
    refine ⟨h (.mk inputName isArray limit sort matching relationships) (by simp [relationshipsAll, relationshipWithNested]), (), ?_, ?_⟩
    · have := checkRelationship_ok (inputs := inputs) (.mk inputName isArray limit sort matching relationships)
        (fun s hs => h s (by simp only [relationshipsAll, List.mem_append]; exact .inl hs))
      exact this
    · exact checkNested_ok rest (fun s hs => h s (by simp only [relationshipsAll, List.mem_append]; exact .inr hs))
end

theorem checkRelationships_ok {inputs : GoMap Input} : ∀ (l : List (String × Relationship)), (∀ s ∈ relationshipsAll l, (mapGet inputs (inputOfRelationship s)).isSome = true) →
    checkRelationships inputs l = .ok ()
  | [], _ => rfl
  | (name, r) :: rest, h => by
    simp only [checkRelationships, bind_ok]
    exact ⟨(), checkRelationship_ok r (fun s hs => h s (by simp only [relationshipsAll, List.mem_append]; exact .inl hs)),
      checkRelationships_ok rest (fun s hs => h s (by simp only [relationshipsAll, List.mem_append]; exact .inr hs))⟩

theorem createRoutes_ok {outputs : GoMap OutputApi} : ∀ {l : List (String × List Char)}, (∀ r ∈ l, ∃ route, createRoute outputs r.1 r.2 = .ok route) →
    ∃ routes, createRoutes outputs l = .ok routes
  | [], _ => ⟨[], rfl⟩
  | (o, p) :: rest, h => by
    obtain ⟨route, h1⟩ := h (o, p) List.mem_cons_self
    obtain ⟨routes, h2⟩ := createRoutes_ok (fun r hr => h r (List.mem_cons_of_mem _ hr))
    exact ⟨route :: routes, by simp only [createRoutes]; rw [h1, h2]⟩

/-- The parser of a route parameter after instantiation. -/
theorem instantiate_routeParser {lib : StartLib} {p : ParserDecl} {t : TextParser} (h : p.instantiate lib = .ok t) (hp : p.primitive = true) (hh : HyphenFree p)
    (hb : ∀ t f, p.kind = .boolean t f → t ≠ [] ∧ f ≠ []) (hf : ∀ s i, p.kind = .float s i → s ≠ "") : RouteParser t := by
  obtain ⟨name, kind⟩ := p
  cases kind with
  | string c =>
    simp only [ParserDecl.instantiate] at h
    split at h
    · simp only [bind_ok, ok_inj] at h
      obtain ⟨_, _, rfl⟩ := h; trivial
    · cases h; trivial
  | integer i => cases h; exact hh
  | float s i =>
    cases h
    refine ⟨hh.2, hh.1, fun e => hf s i rfl ?_⟩
    rw [← String.ofList_toList (s := s), e]
  | boolean t f =>
    cases h
    obtain ⟨h1, h2⟩ := hb t f rfl
    exact ⟨by simpa using h1, by simpa using h2⟩
  | json => cases hp
  | split d r q => cases hp

theorem InputDecl.instantiate_file {lib : StartLib} {parsers : GoMap TextParser} {d : InputDecl} {input : Input} (h : d.instantiate lib parsers = .ok input) :
    ∃ d', SameFile d d' ∧ lib.input d' (parserTypes parsers) (parseFunctions lib parsers) = .ok input := by
  cases d with
  | csv c =>
    simp only [InputDecl.instantiate, CsvDecl.instantiate, bind_ok, require_ok, exists_const] at h
    obtain ⟨_, _, columns, _, _, h⟩ := h
    exact ⟨_, ⟨columns, rfl⟩, h⟩
  | xml c => exact ⟨_, rfl, h⟩
  | json c => exact ⟨_, rfl, h⟩

/-- Starting from a configuration whose references are right. -/
theorem start_ok {lib : StartLib} {c : Config} (hr : References c) (hstring : Known c.parsers "string")
    (hk : ∀ n p, (n, p) ∈ c.parsers → (∀ t f, p.kind = .boolean t f → t ≠ [] ∧ f ≠ []) ∧ (∀ s i, p.kind = .float s i → s ≠ "") ∧
      ∀ d r parser, p.kind = .split d r parser → d ≠ none)
    (ha : Available lib c) (hg : ∀ n m, (n, OutputDecl.graphql m) ∉ c.outputs) (hroutes : ∀ n s, (n, s) ∈ c.services → ∀ r ∈ s.routes, GoodRoute c r) :
    ∃ services, start lib c = .ok services := by
  -- parsers
  obtain ⟨parsers, h1⟩ := (instantiateMap_ok (f := ParserDecl.instantiate lib) (m := c.parsers)).2 (by
    intro k p hp
    obtain ⟨name, kind⟩ := p
    cases kind with
    | string charset =>
      by_cases he : charset = ""
      · exact ⟨.string none, by simp [ParserDecl.instantiate, he]⟩
      · obtain ⟨f, hf⟩ := ha.charset k _ charset hp rfl he
        exact ⟨.string (some f), by simp [ParserDecl.instantiate, he, hf, bind_ok]⟩
    | integer i => exact ⟨_, rfl⟩
    | float s i => exact ⟨_, rfl⟩
    | boolean t f => exact ⟨_, rfl⟩
    | json => exact ⟨_, rfl⟩
    | split d r q =>
      cases d with
      | none => exact ((hk k _ hp).2.2 none r q rfl rfl).elim
      | some d => exact ⟨_, rfl⟩)
  -- inputs
  obtain ⟨inputs, h2⟩ := (instantiateMap_ok (f := InputDecl.instantiate lib parsers) (m := c.inputs)).2 (by
    intro k d hd
    cases d with
    | csv d =>
      obtain ⟨columns, h3, h4⟩ : ∃ columns, d.findColumns lib = .ok columns ∧ columns.all (fun column => (mapGet parsers column.parser).isSome) = true := by
        cases hb : d.autodetectColumns with
        | true =>
          obtain ⟨row, h3, h4, h5⟩ := ha.firstRow k d hd hb
          refine ⟨row.map (fun n => { name := n, parser := "string" }), ?_, ?_⟩
          · simp only [CsvDecl.findColumns, hb, if_true, bind_ok]
            exact ⟨row, h3, detectColumns_ok h4 h5 (by simp)⟩
          · simp only [List.all_map, List.all_eq_true, Function.comp_apply]
            exact fun _ _ => known_instantiate h1 hstring
        | false =>
          refine ⟨d.columns, by simp [CsvDecl.findColumns, hb], ?_⟩
          simp only [List.all_eq_true]
          exact fun column hc => known_instantiate h1 (hr.columns k d hd column hc)
      obtain ⟨input, h5⟩ := ha.input k _ hd (.csv { d with columns := columns }) ⟨columns, rfl⟩ (parserTypes parsers) (parseFunctions lib parsers)
      refine ⟨input, ?_⟩
      simp only [InputDecl.instantiate, CsvDecl.instantiate]
      rw [ha.openCsv k d hd, h3]
      simp only [bind_ok, require_ok, exists_const]
      exact ⟨trivial, columns, rfl, h4, h5⟩
    | xml d => exact ha.input k _ hd _ rfl _ _
    | json d => exact ha.input k _ hd _ rfl _ _)
  have found : ∀ n, Known c.inputs n → ∃ input, mapGet inputs n = some input := fun n hn => Option.isSome_iff_exists.1 (known_instantiate h2 hn)
  -- indexes
  obtain ⟨indexes, h3⟩ := (instantiateMap_ok (f := IndexDecl.instantiate lib inputs) (m := c.indexes)).2 (by
    intro k i hi
    cases i with
    | map d =>
      obtain ⟨e, he⟩ := hr.indexes k _ hi d.input rfl
      obtain ⟨input, h4, h5⟩ := instantiateMap_get h2 he
      obtain ⟨e', h6, h7⟩ := InputDecl.instantiate_file h5
      obtain ⟨index, h8⟩ := ha.map k d hi e (mapGet_mem he) e' h6 _ _ input h7
      exact ⟨fun input filters => index.getRecordPositions input.name filters, by
        simp only [IndexDecl.instantiate, findInput, h4, bind_ok, ok_inj]; exact ⟨input, rfl, index, h8, rfl⟩⟩
    | wildcard d =>
      obtain ⟨input, h4⟩ := found _ (hr.indexes k _ hi d.input rfl)
      obtain ⟨index, h5⟩ := ha.index k _ hi input
      exact ⟨index, by simp only [IndexDecl.instantiate, findInput, h4, bind_ok, ok_inj]; exact ⟨input, rfl, h5⟩⟩
    | sqlite d =>
      obtain ⟨input, h4⟩ := found _ (hr.indexes k _ hi d.input rfl)
      obtain ⟨index, h5⟩ := ha.index k _ hi input
      exact ⟨index, by simp only [IndexDecl.instantiate, findInput, h4, bind_ok, ok_inj]; exact ⟨input, rfl, h5⟩⟩
    | fts5 d =>
      obtain ⟨input, h4⟩ := found _ (hr.indexes k _ hi d.input rfl)
      obtain ⟨index, h5⟩ := ha.index k _ hi input
      exact ⟨index, by simp only [IndexDecl.instantiate, findInput, h4, bind_ok, ok_inj]; exact ⟨input, rfl, h5⟩⟩
    | noop n => exact ⟨_, rfl⟩)
  obtain ⟨defaultIndex, hd⟩ := Option.isSome_iff_exists.1 (known_instantiate h3 hr.default)
  -- outputs
  have rels : ∀ n o, (n, o) ∈ c.outputs → checkRelationships inputs (relationshipsOfOutput o) = .ok () := fun n o ho =>
    checkRelationships_ok _ (fun s hs => known_instantiate h2 (hr.relationships n o ho s hs).1)
  obtain ⟨outputs, h4⟩ := (instantiateMap_ok (f := OutputDecl.instantiate lib inputs indexes parsers) (m := c.outputs)).2 (by
    intro k o ho
    cases o with
    | graphql m => exact (hg k m ho).elim
    | array m d =>
      refine ⟨arrayApi (outputEnv lib inputs indexes defaultIndex parsers) d parsers, ?_⟩
      · simp only [OutputDecl.instantiate, hd, bind_ok, require_ok, exists_const]
        exact ⟨known_instantiate h2 (hr.outputs k _ ho d.input rfl).1, (), rels k _ ho, trivial⟩
    | object m d =>
      refine ⟨objectApi (outputEnv lib inputs indexes defaultIndex parsers) d parsers, ?_⟩
      · simp only [OutputDecl.instantiate, hd, bind_ok, require_ok, exists_const, List.all_eq_true]
        refine ⟨fun p hp => ?_, known_instantiate h2 (hr.outputs k _ ho d.input rfl).1, (), rels k _ ho, trivial⟩
        obtain ⟨⟨parser, h5, _⟩, _⟩ := (hr.outputs k _ ho d.input rfl).2 p.1 p.2 hp
        exact known_instantiate h1 ⟨parser, h5⟩)
  -- what an output gives to the service
  have api : ∀ n o, (n, o) ∈ c.outputs → ∀ output, o.instantiate lib inputs indexes parsers = .ok output → ∀ name param,
      mapGet (parametersOfOutput o) name = some param → output.hasParameter name = true ∧
      ∃ decl parser, mapGet c.parsers param.parser = some decl ∧ decl.primitive = true ∧ decl.instantiate lib = .ok parser ∧
        output.parameterParser name = .ok parser := by
    intro n o ho output hout name param hparam
    have hfacts : ∀ input, inputOfOutput o = some input → ∃ decl parser, mapGet c.parsers param.parser = some decl ∧ decl.primitive = true ∧
        mapGet parsers param.parser = some parser ∧ decl.instantiate lib = .ok parser := by
      intro input hin
      obtain ⟨⟨decl, h5, h6⟩, _⟩ := (hr.outputs n o ho input hin).2 name param (mapGet_mem hparam)
      obtain ⟨parser, h7, h8⟩ := instantiateMap_get h1 h5
      exact ⟨decl, parser, h5, h6, h7, h8⟩
    cases o with
    | graphql m => exact (hg n m ho).elim
    | array m d =>
      obtain ⟨decl, parser, h5, h6, h7, h8⟩ := hfacts d.input rfl
      simp only [OutputDecl.instantiate, hd, bind_ok, require_ok, exists_const, ok_inj] at hout
      obtain ⟨_, _, _, rfl⟩ := hout
      simp only [parametersOfOutput] at hparam
      exact ⟨by simp [arrayApi, hparam], decl, parser, h5, h6, h8, by simp [arrayApi, hparam, h7]⟩
    | object m d =>
      obtain ⟨decl, parser, h5, h6, h7, h8⟩ := hfacts d.input rfl
      simp only [OutputDecl.instantiate, hd, bind_ok, require_ok, exists_const, ok_inj] at hout
      obtain ⟨_, _, _, _, rfl⟩ := hout
      simp only [parametersOfOutput] at hparam
      exact ⟨by simp [objectApi, hparam], decl, parser, h5, h6, h8, by simp [objectApi, hparam, h7]⟩
  -- services
  obtain ⟨services, h5⟩ := (instantiateMap_ok (f := ServiceDecl.instantiate lib outputs) (m := c.services)).2 (by
    intro k s hs
    obtain ⟨routes, h6⟩ := createRoutes_ok (outputs := outputs) (l := s.routes.map (fun r => (r.output, r.path.toList))) (by
      intro r' hr'
      obtain ⟨r, hrm, rfl⟩ := List.mem_map.1 hr'
      obtain ⟨o, ho⟩ := hr.routes k s hs r hrm
      obtain ⟨output, h7, h8⟩ := instantiateMap_get h4 ho
      obtain ⟨first, placeholders, h9, h10, h11⟩ := hroutes k s hs r hrm
      have h12 : ∃ textParsers, ParsersOf output placeholders textParsers ∧ ∀ p ∈ textParsers, RouteParser p := by
        have h13 := h11 o ho
        clear h9 h10 h11
        induction placeholders with
        | nil => exact ⟨[], trivial, by simp⟩
        | cons p rest ih =>
          obtain ⟨ps, h14, h15⟩ := ih (fun q hq => h13 q (List.mem_cons_of_mem _ hq))
          obtain ⟨param, h16, h17⟩ := h13 p List.mem_cons_self
          obtain ⟨h18, decl, parser, h19, h20, h21, h22⟩ := api _ o (mapGet_mem ho) output h8 _ param h16
          refine ⟨parser :: ps, ⟨h18, h22, h14⟩, ?_⟩
          intro q hq
          rcases List.mem_cons.1 hq with rfl | hq
          · exact instantiate_routeParser h21 h20 (h17 decl h19) (hk _ _ (mapGet_mem h19)).1 (hk _ _ (mapGet_mem h19)).2.1
          · exact h15 q hq
      obtain ⟨ps, h13, h14⟩ := h12
      obtain ⟨rs, hrs⟩ := expressions_exist ps h14
      exact ⟨_, by rw [h9]; exact route_created h7 h10 h13 h14 hrs⟩)
    exact ⟨(s.errorsType, routes), by simp only [ServiceDecl.instantiate, bind_ok, ok_inj]; exact ⟨routes, h6, (), ha.listen k s hs, rfl⟩⟩)
  exact ⟨services, by simp only [start, bind_ok]; exact ⟨parsers, h1, inputs, h2, indexes, h3, outputs, h4, h5⟩⟩

end Rodb
