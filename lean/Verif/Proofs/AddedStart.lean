import Verif.Proofs.Added
/-
  Adding components to a configuration: the program.
-/
namespace Rodb
open Spec

theorem known_parseFunctions {lib : StartLib} {parsers : GoMap TextParser} {n : String} (h : Known parsers n) : Known (parseFunctions lib parsers) n := by
  obtain ⟨x, hx⟩ := h
  refine ⟨parse lib.parserLib (parsers.map (fun q => (q.1, q.2.config))) parsers.length x.config, ?_⟩
  simp only [parseFunctions]
  rw [mapGet_mapValues (g := fun q : TextParser => parse lib.parserLib (parsers.map (fun q => (q.1, q.2.config))) parsers.length q.config), hx]
  rfl

theorem Spec.InputDecl.instantiate_keeps {lib : StartLib} {files : Files} (hlib : lib.input = openInput files) {parsers parsers' : GoMap TextParser} (hk : Keeps parsers parsers')
    (hf : Keeps (parseFunctions lib parsers) (parseFunctions lib parsers')) (hstring : Known parsers "string")
    {d : InputDecl} (hcsv : ∀ c, d = .csv c → ∀ column ∈ c.columns, Known parsers column.parser)
    (hxml : ∀ c, d = .xml c → xmlAllParsersOk (Known parsers) (xmlProps files.xpath c.properties)) : d.instantiate lib parsers' = d.instantiate lib parsers := by
  have hkn : ∀ n, Known parsers n → Known (parseFunctions lib parsers) n := fun n hn => known_parseFunctions hn
  have hopen : ∀ e : InputDecl, (∀ c, e = .csv c → ∀ column ∈ c.columns, Known parsers column.parser) → (∀ c, e = .xml c → xmlAllParsersOk (Known parsers) (xmlProps files.xpath c.properties)) →
      lib.input e (parserTypes parsers') (parseFunctions lib parsers') = lib.input e (parserTypes parsers) (parseFunctions lib parsers) := by
    intro e h1 h2
    rw [hlib]
    exact openInput_keeps hk hf hkn h1 h2
  cases d with
  | json c =>
    simp only [InputDecl.instantiate]
    exact hopen (.json c) (fun c' hc' => by cases hc') (fun c' hc' => by cases hc')
  | xml c =>
    simp only [InputDecl.instantiate]
    exact hopen (.xml c) hcsv hxml
  | csv c =>
    simp only [InputDecl.instantiate, CsvDecl.instantiate]
    cases hcol : c.findColumns lib with
    | error e => rfl
    | ok columns =>
      have hcol : ∀ column ∈ columns, Known parsers column.parser := by
        simp only [CsvDecl.findColumns] at hcol
        split at hcol
        · simp only [bind_ok] at hcol
          obtain ⟨row, _, hd⟩ := hcol
          intro column hc
          rw [detectColumns_string hd column hc]
          exact hstring
        · cases hcol; exact hcsv c rfl
      have e1 : columns.all (fun column => (mapGet parsers' column.parser).isSome) = columns.all (fun column => (mapGet parsers column.parser).isSome) := by
        rw [Bool.eq_iff_iff, List.all_eq_true, List.all_eq_true]
        exact ⟨fun h e he => by rw [← keeps_known hk (hcol e he)]; exact h e he, fun h e he => by rw [keeps_known hk (hcol e he)]; exact h e he⟩
      have e2 := hopen (.csv { c with columns := columns }) (fun c' hc' => by cases hc'; exact hcol) (fun c' hc' => by cases hc')
      simp only [bind, Except.bind, e1, e2]

/-! ### Indexes, outputs and services -/

theorem Spec.IndexDecl.instantiate_keeps {lib : StartLib} {inputs inputs' : GoMap Input} (hk : Keeps inputs inputs') {x : IndexDecl} (hx : ∀ n, inputOfIndex x = some n → Known inputs n) :
    x.instantiate lib inputs' = x.instantiate lib inputs := by
  have hf : ∀ n, Known inputs n → findInput inputs' n = findInput inputs n := fun n hn => by simp only [findInput, keeps_known hk hn]
  cases x with
  | noop n => rfl
  | map c => simp only [IndexDecl.instantiate, hf _ (hx _ rfl)]
  | wildcard c => simp only [IndexDecl.instantiate, hf _ (hx _ rfl)]
  | sqlite c => simp only [IndexDecl.instantiate, hf _ (hx _ rfl)]
  | fts5 c => simp only [IndexDecl.instantiate, hf _ (hx _ rfl)]

mutual
theorem checkRelationship_keeps {inputs inputs' : GoMap Input} (hk : Keeps inputs inputs') : ∀ (r : Relationship), (∀ q ∈ relationshipWithNested r, Known inputs (inputOfRelationship q)) →
    checkRelationship inputs' r = checkRelationship inputs r
  | .mk input isArray limit sort matching relationships, h => by
    simp only [checkRelationship]
    exact checkNested_keeps hk relationships (fun q hq => h q (by simp only [relationshipWithNested]; exact .tail _ hq))
theorem checkNested_keeps {inputs inputs' : GoMap Input} (hk : Keeps inputs inputs') : ∀ (l : List (String × Relationship)), (∀ q ∈ relationshipsAll l, Known inputs (inputOfRelationship q)) →
    checkNested inputs' l = checkNested inputs l
  | [], _ => rfl
  | (_, .mk input isArray limit sort matching relationships) :: rest, h => by
    have h1 : ∀ q ∈ relationshipWithNested (.mk input isArray limit sort matching relationships), Known inputs (inputOfRelationship q) :=
      fun q hq => h q (by simp only [relationshipsAll, List.mem_append]; exact .inl hq)
    have h0 : Known inputs input := h1 (.mk input isArray limit sort matching relationships) (by simp only [relationshipWithNested]; exact .head _)
    simp only [checkNested, keeps_known hk h0, checkRelationship_keeps hk (.mk input isArray limit sort matching relationships) h1,
      checkNested_keeps hk rest (fun q hq => h q (by simp only [relationshipsAll, List.mem_append]; exact .inr hq))]
end

theorem checkRelationships_keeps {inputs inputs' : GoMap Input} (hk : Keeps inputs inputs') : ∀ (l : List (String × Relationship)), (∀ q ∈ relationshipsAll l, Known inputs (inputOfRelationship q)) →
    checkRelationships inputs' l = checkRelationships inputs l
  | [], _ => rfl
  | (_, r) :: rest, h => by
    simp only [checkRelationships, checkRelationship_keeps hk r (fun q hq => h q (by simp only [relationshipsAll, List.mem_append]; exact .inl hq)),
      checkRelationships_keeps hk rest (fun q hq => h q (by simp only [relationshipsAll, List.mem_append]; exact .inr hq))]

theorem Spec.OutputDecl.instantiate_keeps {lib : StartLib} (hvisit : ∀ path (α : Type) (l : List α), (lib.visit path l).Perm l) {inputs inputs' : GoMap Input} {indexes indexes' : GoMap IndexFn}
    {parsers parsers' : GoMap TextParser} (hi : Keeps inputs inputs') (hx : Keeps indexes indexes') (hp : Keeps parsers parsers') (hf : Keeps (parseFunctions lib parsers) (parseFunctions lib parsers'))
    (hpf : ∀ n, Known parsers n → Known (parseFunctions lib parsers) n) {o : OutputDecl} (hin : ∀ n, inputOfOutput o = some n → Known inputs n)
    (hpar : ∀ e ∈ parametersOfOutput o, Known parsers e.2.parser ∧ Known indexes e.2.index)
    (hrel : ∀ r ∈ relationshipsAll (relationshipsOfOutput o), Known inputs (inputOfRelationship r) ∧ ∀ m ∈ matchesOfRelationship r, Known indexes m.childIndex) (hdef : Known indexes "default") :
    o.instantiate lib inputs' indexes' parsers' = o.instantiate lib inputs indexes parsers := by
  have hchk := checkRelationships_keeps hi (relationshipsOfOutput o) (fun q hq => (hrel q hq).1)
  obtain ⟨defaultIndex, hd⟩ := hdef
  · simp only [OutputDecl.instantiate, hd, hx _ _ hd]
    have henv : EnvKeeps (outputEnv lib inputs indexes defaultIndex parsers) (outputEnv lib inputs' indexes' defaultIndex parsers') :=
      ⟨hi, hx, hf, rfl, rfl, fun _ _ _ => rfl, hvisit⟩
    cases o with
    | graphql n => rfl
    | array n c =>
      simp only [relationshipsOfOutput] at hchk hrel
      simp only [parametersOfOutput] at hpar
      have h0 := hin c.input rfl
      simp only
      rw [hchk, keeps_known hi h0]
      have e : arrayApi (outputEnv lib inputs' indexes' defaultIndex parsers') c parsers' = arrayApi (outputEnv lib inputs indexes defaultIndex parsers) c parsers := by
        simp only [arrayApi, OutputApi.mk.injEq, true_and]
        refine ⟨?_, ?_⟩
        · funext name
          cases hm : mapGet c.parameters name with
          | none => rfl
          | some p => simp only [keeps_known hp (hpar (name, p) (mapGet_mem hm)).1]
        · funext params payload
          exact handleArray_keeps henv c h0 (fun e he => ⟨hpf _ (hpar e he).1, (hpar e he).2⟩) hrel params
      rw [e]
    | object n c =>
      simp only [relationshipsOfOutput] at hchk hrel
      simp only [parametersOfOutput] at hpar
      have h0 := hin c.input rfl
      simp only
      rw [hchk, keeps_known hi h0]
      have e : objectApi (outputEnv lib inputs' indexes' defaultIndex parsers') c parsers' = objectApi (outputEnv lib inputs indexes defaultIndex parsers) c parsers := by
        simp only [objectApi, OutputApi.mk.injEq, true_and]
        refine ⟨?_, ?_⟩
        · funext name
          cases hm : mapGet c.parameters name with
          | none => rfl
          | some p => simp only [keeps_known hp (hpar (name, p) (mapGet_mem hm)).1]
        · funext params payload
          exact handleObject_keeps henv c h0 (fun e he => ⟨hpf _ (hpar e he).1, (hpar e he).2⟩) hrel params
      have e2 : c.parameters.all (fun p => (mapGet parsers' p.2.parser).isSome) = c.parameters.all (fun p => (mapGet parsers p.2.parser).isSome) := by
        rw [Bool.eq_iff_iff, List.all_eq_true, List.all_eq_true]
        exact ⟨fun h e he => by rw [← keeps_known hp (hpar e he).1]; exact h e he, fun h e he => by rw [keeps_known hp (hpar e he).1]; exact h e he⟩
      rw [e, e2]

theorem createRoutes_keeps {outputs outputs' : GoMap OutputApi} (hk : Keeps outputs outputs') : ∀ (l : List (String × List Char)), (∀ r ∈ l, Known outputs r.1) →
    createRoutes outputs' l = createRoutes outputs l
  | [], _ => rfl
  | (o, path) :: rest, h => by
    simp only [createRoutes, createRoute, keeps_known hk (h _ (.head _)), createRoutes_keeps hk rest (fun r hr => h r (.tail _ hr))]

theorem Spec.ServiceDecl.instantiate_keeps {lib : StartLib} {outputs outputs' : GoMap OutputApi} (hk : Keeps outputs outputs') {s : ServiceDecl} (hs : ∀ r ∈ s.routes, Known outputs r.output) :
    s.instantiate lib outputs' = s.instantiate lib outputs := by
  simp only [ServiceDecl.instantiate]
  rw [createRoutes_keeps hk]
  intro r hr
  obtain ⟨q, hq, rfl⟩ := List.mem_map.1 hr
  exact hs q hq

/-! ### The program -/

/-- The second configuration has what the first one has. -/
structure ConfigKeeps (c c' : Config) : Prop where
  parsers : Keeps c.parsers c'.parsers
  inputs : Keeps c.inputs c'.inputs
  indexes : Keeps c.indexes c'.indexes
  services : Keeps c.services c'.services
  outputs : Keeps c.outputs c'.outputs

theorem start_added {lib : StartLib} {files : Files} (hlib : lib.input = openInput files) (hvisit : ∀ path (α : Type) (l : List α), (lib.visit path l).Perm l) {c c' : Config} (hr : References c) (hk : ConfigKeeps c c')
    (hn1 : (c.parsers.map (·.1)).Nodup) (hn2 : (c.inputs.map (·.1)).Nodup) (hn3 : (c.indexes.map (·.1)).Nodup) (hn4 : (c.outputs.map (·.1)).Nodup) (hn5 : (c.services.map (·.1)).Nodup)
    (hstring : Known c.parsers "string") (hends : ∀ n, Known c.parsers n → SplitsEnd c.parsers n)
    (hxml : ∀ n d, mapGet c.inputs n = some (.xml d) → xmlAllParsersOk (Known c.parsers) (xmlProps files.xpath d.properties)) {s' : GoMap (String × List Route)}
    (h' : start lib c' = .ok s') : ∃ s, start lib c = .ok s ∧ Keeps s s' := by
  simp only [start, bind_ok] at h' ⊢
  obtain ⟨parsers', q1, inputs', q2, indexes', q3, outputs', q4, q5⟩ := h'
  obtain ⟨parsers, p1, k1⟩ := instantiateMap_fewer q1 hn1 hk.parsers (fun _ _ _ => rfl)
  have kf := parseFunctions_keeps p1 hends k1
  have hkn : ∀ n, Known parsers n → Known (parseFunctions lib parsers) n := fun n hn => known_parseFunctions hn
  have n1 := fun n (hn : Known c.parsers n) => instantiateMap_known p1 hn
  obtain ⟨inputs, p2, k2⟩ := instantiateMap_fewer (f := InputDecl.instantiate lib parsers) q2 hn2 hk.inputs (fun n x hx => by
    refine Spec.InputDecl.instantiate_keeps hlib k1 kf (n1 _ hstring) ?_ ?_
    · intro d hd column hc
      subst hd
      exact n1 _ (hr.columns n d (mapGet_mem hx) column hc)
    · intro d hd
      subst hd
      exact xmlAllParsersOk_mono n1 _ (hxml n d hx))
  have n2 := fun n (hn : Known c.inputs n) => instantiateMap_known p2 hn
  obtain ⟨indexes, p3, k3⟩ := instantiateMap_fewer (f := IndexDecl.instantiate lib inputs) q3 hn3 hk.indexes (fun n x hx =>
    Spec.IndexDecl.instantiate_keeps k2 (fun m hm => n2 _ (hr.indexes n x (mapGet_mem hx) m hm)))
  have n3 := fun n (hn : Known c.indexes n) => instantiateMap_known p3 hn
  obtain ⟨outputs, p4, k4⟩ := instantiateMap_fewer (f := OutputDecl.instantiate lib inputs indexes parsers) q4 hn4 hk.outputs (fun n x hx => by
    have hm := mapGet_mem hx
    refine Spec.OutputDecl.instantiate_keeps hvisit k2 k3 k1 kf hkn (fun i hi => n2 _ (hr.outputs n x hm i hi).1) ?_ ?_ (n3 _ hr.default)
    · intro e he
      have hi : ∃ i, inputOfOutput x = some i := by
        cases x with
        | graphql n => cases he
        | array n c => exact ⟨_, rfl⟩
        | object n c => exact ⟨_, rfl⟩
      obtain ⟨i, hi⟩ := hi
      obtain ⟨⟨p, hp, _⟩, index, hx, _⟩ := (hr.outputs n x hm i hi).2 e.1 e.2 he
      exact ⟨n1 _ ⟨p, hp⟩, n3 _ ⟨index, hx⟩⟩
    · intro r hr'
      obtain ⟨h1, h2⟩ := hr.relationships n x hm r hr'
      refine ⟨n2 _ h1, fun m hm => ?_⟩
      obtain ⟨index, hx, _⟩ := h2 m hm
      exact n3 _ ⟨index, hx⟩)
  have n4 := fun n (hn : Known c.outputs n) => instantiateMap_known p4 hn
  obtain ⟨s, p5, k5⟩ := instantiateMap_fewer (f := ServiceDecl.instantiate lib outputs) q5 hn5 hk.services (fun n x hx =>
    Spec.ServiceDecl.instantiate_keeps k4 (fun r hr' => n4 _ (hr.routes n x (mapGet_mem hx) r hr')))
  exact ⟨s, ⟨parsers, p1, inputs, p2, indexes, p3, outputs, p4, p5⟩, k5⟩

end Rodb
