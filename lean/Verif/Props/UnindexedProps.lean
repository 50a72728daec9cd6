import Verif.Proofs.UnindexedStart
import Verif.Proofs.RestartOrder
import Verif.Props.FilesProps
import Verif.Props.AddedProps
import Verif.Model.Url
/-
  C124 : full scans instead of map indexes.
-/
namespace Rodb
open Spec

theorem perm_of_mapGet {α : Type} {a b : GoMap α} (h : ∀ n, mapGet a n = mapGet b n) (ha : (a.map (·.1)).Nodup) (hb : (b.map (·.1)).Nodup) : a.Perm b := by
  have nodup : ∀ l : GoMap α, (l.map (·.1)).Nodup → l.Nodup := fun l hl => (List.pairwise_map.1 hl).imp (fun hne e => hne (by rw [e]))
  refine (List.perm_ext_iff_of_nodup (nodup a ha) (nodup b hb)).2 (fun e => ?_)
  obtain ⟨k, v⟩ := e
  exact ⟨fun hm => mapGet_mem (by rw [← h]; exact mapGet_nodup_mem ha hm), fun hm => mapGet_mem (by rw [h]; exact mapGet_nodup_mem hb hm)⟩

theorem scannedIndex_name (chosen : String → Bool) (x : IndexDecl) : (scannedIndex chosen x).name = x.name := by
  cases x with
  | map d => simp only [scannedIndex]; split <;> rfl
  | _ => rfl

theorem scannedIndex_completed (chosen : String → Bool) (config : ConfigLib) (x : IndexDecl) :
    completedIndex config (scannedIndex chosen x) = scannedIndex chosen (completedIndex config x) := by
  cases x with
  | map d =>
    simp only [scannedIndex]
    cases h : chosen d.name
    · simp only [completedIndex, Bool.false_eq_true, if_false, h]
    · simp only [completedIndex, if_true, h]
  | _ => rfl

theorem withoutMaps_isIndex {chosen : String → Bool} {p : ParsedConfig} {n : String} {y : IndexDecl} :
    IsIndex (withoutMaps chosen p) n y ↔ ∃ x, IsIndex p n x ∧ y = scannedIndex chosen x := by
  constructor
  · rintro (⟨h, e⟩ | ⟨h, hd, e⟩)
    · obtain ⟨x, hx, rfl⟩ := List.mem_map.1 h
      exact ⟨x, .inl ⟨hx, by rw [← scannedIndex_name chosen]; exact e⟩, rfl⟩
    · rw [List.mem_singleton] at hd
      subst hd
      exact ⟨.noop "default", .inr ⟨fun x hx hn => h _ (List.mem_map_of_mem hx) (by rw [scannedIndex_name]; exact hn), List.mem_singleton.2 rfl, e⟩, rfl⟩
  · rintro ⟨x, ⟨h, e⟩ | ⟨h, hd, e⟩, rfl⟩
    · exact .inl ⟨List.mem_map_of_mem h, by rw [scannedIndex_name]; exact e⟩
    · rw [List.mem_singleton] at hd
      subst hd
      refine .inr ⟨fun x hx hn => ?_, List.mem_singleton.2 rfl, e⟩
      obtain ⟨y, hy, rfl⟩ := List.mem_map.1 hx
      exact h y hy (by rw [← scannedIndex_name chosen]; exact hn)

theorem scannedIndex_searches {chosen : String → Bool} {x : IndexDecl} {input property : String} (h : Searches x input property) : Searches (scannedIndex chosen x) input property := by
  cases x with
  | map d =>
    simp only [scannedIndex]
    split
    · trivial
    · exact h
  | _ => exact h

section wellFormed
variable {lib : ConfigLib} {chosen : String → Bool} {p : ParsedConfig}

theorem withoutMaps_searchable {index input property : String} (h : Searchable p index input property) : Searchable (withoutMaps chosen p) index input property := by
  obtain ⟨i, hi, hs⟩ := h
  exact ⟨_, withoutMaps_isIndex.2 ⟨i, hi, rfl⟩, scannedIndex_searches hs⟩

theorem withoutMaps_relationship {r : Relationship} (h : WellFormedRelationship p r) : WellFormedRelationship (withoutMaps chosen p) r := by
  cases r with
  | mk input isArray limit sort matching relationships =>
    exact ⟨h.1, h.2.1, h.2.2.1, h.2.2.2.1, h.2.2.2.2.1, fun m hm => withoutMaps_searchable (h.2.2.2.2.2 m hm)⟩

theorem withoutMaps_parameter {input : String} {x : ParamConfig} (h : WellFormedParameter p input x) : WellFormedParameter (withoutMaps chosen p) input x :=
  ⟨h.1, withoutMaps_searchable h.2.1, h.2.2⟩

theorem withoutMaps_output {o : OutputDecl} (h : WellFormedOutput p o) : WellFormedOutput (withoutMaps chosen p) o := by
  cases o with
  | graphql n => trivial
  | array n d => exact ⟨h.1, h.2.1, h.2.2.1, fun name param hp => ⟨withoutMaps_parameter (h.2.2.2.1 name param hp).1, (h.2.2.2.1 name param hp).2⟩,
      fun r hr => withoutMaps_relationship (h.2.2.2.2 r hr)⟩
  | object n d => exact ⟨h.1, h.2.1, h.2.2.1, fun name param hp => withoutMaps_parameter (h.2.2.2.1 name param hp), fun r hr => withoutMaps_relationship (h.2.2.2.2 r hr)⟩

theorem withoutMaps_index {x : IndexDecl} (h : WellFormedIndex lib p x) : WellFormedIndex lib (withoutMaps chosen p) (scannedIndex chosen x) := by
  cases x with
  | map d =>
    simp only [scannedIndex]
    split
    · trivial
    · exact h
  | _ => exact h

theorem withoutMaps_wellFormed (h : WellFormed lib p) : WellFormed lib (withoutMaps chosen p) where
  parserNames := h.parserNames
  inputNames := h.inputNames
  indexNames := by
    have e : (withoutMaps chosen p).indexes.map IndexDecl.name = p.indexes.map IndexDecl.name := by
      simp only [withoutMaps, List.map_map]
      exact List.map_congr_left (fun x _ => scannedIndex_name chosen x)
    rw [e]
    exact h.indexNames
  serviceNames := h.serviceNames
  outputNames := h.outputNames
  parsers := h.parsers
  inputs := h.inputs
  indexes := by
    intro y hy
    obtain ⟨x, hx, rfl⟩ := List.mem_map.1 hy
    exact withoutMaps_index (h.indexes x hx)
  services := h.services
  outputs := fun o ho => withoutMaps_output (h.outputs o ho)
end wellFormed

/-- **C124** Any of the map indexes of an accepted configuration can be replaced by full scans: the configuration stays accepted. -/
theorem C124_accepted (config : ConfigLib) (p : ParsedConfig) (chosen : String → Bool) (c : Config) (hc : loadConfig config p = .ok c) :
    ∃ c', loadConfig config (withoutMaps chosen p) = .ok c' :=
  (C76_accepted config _).2 (withoutMaps_wellFormed ((C76_accepted config p).1 ⟨c, hc⟩))

mutual
theorem plainMatches_completed {inputs : GoMap Input} {chosen : String → Bool} (hdefault : chosen "default" = false) : ∀ (r : Relationship) {parent : String} {names : List String},
    PlainMatches inputs chosen parent names r → PlainMatches inputs chosen parent names (completedRelationship r)
  | .mk input isArray limit sort matching relationships, parent, names, h => by
    simp only [PlainMatches, completedRelationship] at h ⊢
    refine ⟨fun m hm hch => ?_, ?_⟩
    · obtain ⟨m', hm', rfl⟩ := List.mem_map.1 hm
      refine h.1 m' hm' ?_
      simp only [orText] at hch
      split at hch
      · rw [hdefault] at hch; cases hch
      · exact hch
    · rw [completedRelationships_names relationships]
      exact allPlainMatches_completed hdefault relationships h.2
theorem allPlainMatches_completed {inputs : GoMap Input} {chosen : String → Bool} (hdefault : chosen "default" = false) : ∀ (l : List (String × Relationship)) {parent : String} {names : List String},
    AllPlainMatches inputs chosen parent names l → AllPlainMatches inputs chosen parent names (completedRelationships l)
  | [], _, _, _ => by simp only [completedRelationships, AllPlainMatches]
  | (_, .mk input isArray limit sort matching relationships) :: rest, parent, names, h => by
    simp only [AllPlainMatches, completedRelationships] at h ⊢
    exact ⟨plainMatches_completed hdefault (.mk input isArray limit sort matching relationships) h.1, allPlainMatches_completed hdefault rest h.2⟩
theorem completedRelationships_names : ∀ (l : List (String × Relationship)), (completedRelationships l).map (·.1) = l.map (·.1)
  | [] => by simp only [completedRelationships]
  | (_, _) :: rest => by simp only [completedRelationships, List.map_cons, completedRelationships_names rest]
end

theorem output_completed {inputs : GoMap Input} {chosen : String → Bool} (hdefault : chosen "default" = false) {o : OutputDecl} {root : String} (hroot : inputOfOutput (completedOutput o) = some root)
    (h : ∀ root, inputOfOutput o = some root → AllPlainMatches inputs chosen root ((relationshipsOfOutput o).map (·.1)) (relationshipsOfOutput o)) :
    AllPlainMatches inputs chosen root ((relationshipsOfOutput (completedOutput o)).map (·.1)) (relationshipsOfOutput (completedOutput o)) := by
  cases o with
  | graphql n => cases hroot
  | array n d =>
    have h := h root hroot
    simp only [relationshipsOfOutput, completedOutput] at h ⊢
    rw [completedRelationships_names]
    exact allPlainMatches_completed hdefault _ h
  | object n d =>
    have h := h root hroot
    simp only [relationshipsOfOutput, completedOutput] at h ⊢
    rw [completedRelationships_names]
    exact allPlainMatches_completed hdefault _ h

theorem loaded_scanned {config : ConfigLib} {p : ParsedConfig} {chosen : String → Bool} {c c' : Config} (hc : loadConfig config p = .ok c)
    (hc' : loadConfig config (withoutMaps chosen p) = .ok c') {d d' : Config} (ho : Reordered c d) (ho' : Reordered c' d') : ConfigScanned chosen d d' := by
  obtain ⟨_, r1, r2, r3, r4, r5, _, _⟩ := loadConfig_ok hc
  obtain ⟨_, t1, t2, t3, t4, t5, _, _⟩ := loadConfig_ok hc'
  have hd := C77_defaults config p c hc
  have hd' := C77_defaults config _ c' hc'
  have indexes : ∀ n, mapGet c'.indexes n = (mapGet c.indexes n).map (scannedIndex chosen) := by
    intro n
    refine Option.ext (fun y => ?_)
    rw [(hd' n).2.2.1 y]
    constructor
    · rintro ⟨y, hy, rfl⟩
      obtain ⟨x, hx, rfl⟩ := withoutMaps_isIndex.1 hy
      rw [((hd n).2.2.1 _).2 ⟨x, hx, rfl⟩, scannedIndex_completed]
      rfl
    · intro h
      cases hg : mapGet c.indexes n with
      | none => rw [hg] at h; cases h
      | some z =>
        rw [hg] at h
        cases h
        obtain ⟨x, hx, rfl⟩ := ((hd n).2.2.1 z).1 hg
        exact ⟨_, withoutMaps_isIndex.2 ⟨x, hx, rfl⟩, (scannedIndex_completed chosen config x).symm⟩
  constructor
  · exact (ho.parsers.symm.trans (perm_of_mapGet (fun n => Option.ext (fun y => by rw [(hd n).1 y, (hd' n).1 y]; rfl)) r1.1 t1.1)).trans ho'.parsers
  · exact (ho.inputs.symm.trans (perm_of_mapGet (fun n => Option.ext (fun y => by rw [(hd n).2.1 y, (hd' n).2.1 y]; rfl)) r2.1 t2.1)).trans ho'.inputs
  · exact (ho.services.symm.trans (perm_of_mapGet (fun n => Option.ext (fun y => by rw [(hd n).2.2.2.1 y, (hd' n).2.2.2.1 y]; rfl)) r4.1 t4.1)).trans ho'.services
  · exact (ho.outputs.symm.trans (perm_of_mapGet (fun n => Option.ext (fun y => by rw [(hd n).2.2.2.2 y, (hd' n).2.2.2.2 y]; rfl)) r5.1 t5.1)).trans ho'.outputs
  · intro n
    rw [← mapGet_perm ho'.indexes t3.1, ← mapGet_perm ho.indexes r3.1]
    exact indexes n
  · exact (ho'.indexes.map _).nodup_iff.1 t3.1
  · intro n m hm
    rw [← mapGet_perm ho.indexes r3.1] at hm
    obtain ⟨x, hx, e⟩ := ((hd n).2.2.1 _).1 hm
    cases x with
    | map x =>
      cases e
      rcases hx with ⟨hx, e⟩ | ⟨_, hx, _⟩
      · exact ⟨e, (((C76_accepted config p).1 ⟨c, hc⟩).indexes _ hx).2⟩
      · rw [List.mem_singleton] at hx
        cases hx
    | _ => cases e

/-- **C124** Full scans instead of some of the map indexes change no answer of a running program: the program also starts with the full scans, and every service answers every request in the same
way, body and status. The positions of the records of the inputs of these indexes must increase, and relationships that are looked up in these indexes must be for values that are not arrays or
objects. -/
theorem C124_answers (config : ConfigLib) (p : ParsedConfig) (chosen : String → Bool) (hdefault : chosen "default" = false) (c c' : Config) (hc : loadConfig config p = .ok c)
    (hc' : loadConfig config (withoutMaps chosen p) = .ok c') (rest : StartLib) (files : Files) (hsort : SortContract rest.sort) (hvisit : ∀ path (α : Type) (l : List α), (rest.visit path l).Perm l)
    (d d' : Config) (ho : Reordered c d) (ho' : Reordered c' d') (running : GoMap (String × List Route)) (hstart : start (rest.onFiles files) d = .ok running) :
    ∃ texts env apis, Running config (rest.onFiles files) p texts env apis running ∧
      ((∀ m, .map m ∈ p.indexes → chosen m.name = true → ∀ input, mapGet env.inputs m.input = some input → PositionsIncrease input) →
       (∀ o ∈ p.outputs, ∀ root, inputOfOutput o = some root → AllPlainMatches env.inputs chosen root ((relationshipsOfOutput o).map (·.1)) (relationshipsOfOutput o)) →
       ∃ scanned, start (rest.onFiles files) d' = .ok scanned ∧ (∀ name, mapGet scanned name = none ↔ mapGet running name = none) ∧
        ∀ name errorsType routes, mapGet running name = some (errorsType, routes) →
        ∃ routes', mapGet scanned name = some (errorsType, routes') ∧ ∀ (service : ServiceLib) old visit method contentType target body,
          serveTarget service errorsType routes' old visit method contentType target body = serveTarget service errorsType routes old visit method contentType target body) := by
  obtain ⟨hr, r1, r2, r3, r4, r5, _, _⟩ := loadConfig_ok hc
  have hd := C77_defaults config p c hc
  have hk := loaded_scanned hc hc' ho ho'
  have hr' := References.reorder ho r1.1 r2.1 r3.1 r5.1 hr
  have n1 := (ho.parsers.map (·.1)).nodup_iff.1 r1.1
  have n2 := (ho.inputs.map (·.1)).nodup_iff.1 r2.1
  have n4 := (ho.outputs.map (·.1)).nodup_iff.1 r5.1
  have n5 := (ho.services.map (·.1)).nodup_iff.1 r4.1
  obtain ⟨texts, env, apis, s1, s2, hrun⟩ := start_runs hc ho hstart
  refine ⟨texts, env, apis, hrun, fun hordered hplain => ?_⟩
  have hin : ∀ texts texts' : GoMap TextParser, texts.Perm texts' → (texts.map (·.1)).Nodup →
      InputDecl.instantiate (rest.onFiles files) texts = InputDecl.instantiate (rest.onFiles files) texts' := fun _ _ h1 h2 => inputs_congr h1 h2
  have hsort' : SortContract (rest.onFiles files).sort := hsort
  have hvisit' : ∀ path (α : Type) (l : List α), ((rest.onFiles files).visit path l).Perm l := hvisit
  generalize rest.onFiles files = lib at hstart s1 s2 hrun hin hsort' hvisit' ⊢
  simp only [start, bind_ok] at hstart
  obtain ⟨texts2, q1, inputs, q2, indexes, q3, apis2, q4, q5⟩ := hstart
  rw [s1] at q1
  cases q1
  rw [s2] at q2
  cases q2
  obtain ⟨scanned, hs, he⟩ := start_scanned hdefault hsort' hvisit' hin hr' hk n1 n2 n4 n5 s1 s2 q3 q4 q5
    (fun n m input hm hch hi => by
      rw [← mapGet_perm ho.indexes r3.1] at hm
      obtain ⟨x, hx, e⟩ := ((hd n).2.2.1 _).1 hm
      cases x with
      | map x =>
        cases e
        rcases hx with ⟨hx, e⟩ | ⟨_, hx, _⟩
        · exact hordered _ hx (by rw [show m.name = n from e]; exact hch) input hi
        · rw [List.mem_singleton] at hx
          cases hx
      | _ => cases e)
    (fun n o ho' root hroot => by
      rw [← mapGet_perm ho.outputs r5.1] at ho'
      obtain ⟨x, hx, _, rfl⟩ := ((hd n).2.2.2.2 _).1 ho'
      exact output_completed hdefault hroot (hplain x hx))
  refine ⟨scanned, hs, fun name => by rw [he], fun name errorsType routes h => ⟨routes, by rw [he]; exact h, fun _ _ _ _ _ _ _ => rfl⟩⟩

/-! ### CSV files -/

theorem badReader_scan {c : CsvInput} (hbad : ∀ sched r, (c.reader.read sched r).1 = .bad) (content : Bytes) (sched : Nat → List Nat) (records : List Rec) :
    csvScan c content sched ≠ .ok (records.map .ok) := by
  intro h
  simp only [csvScan] at h
  split at h
  · cases h
  · rename_i r hr
    simp only [csvRecords, csvNext] at h
    have hb := hbad (sched (0 + 1)) r
    split at h <;> rename_i e
    · split at e <;> rename_i e' <;> rw [e'] at hb <;> cases hb
      cases e
    · have h := ok_inj.1 h
      cases records with
      | nil => cases h
      | cons x l => cases h
    · split at e <;> rename_i e' <;> rw [e'] at hb <;> cases hb
      cases e

theorem badReader_read {comma : UInt8} (h : comma = 34 ∨ comma = 10 ∨ comma = 13 ∨ comma = 0) (sched : List Nat) (r : BufReader) : ((csvReader comma).read sched r).1 = .bad := by
  unfold csvReader
  rw [if_pos h]
  simp only [ItemReader.read, ItemReader.run]
  split <;> rfl

theorem csvColumns_ordered (columns : List CsvColumn) (ignoreFirstRow : Bool) (comma : UInt8) (name : String) (content : Bytes) (modTimeNs : Int) (sched : Nat → List Nat)
    (fetchFrom : Int → BufReader × List Nat) :
    PositionsIncrease (csvAsInput { columns := columns, ignoreFirstRow := ignoreFirstRow, reader := csvReader comma } name content modTimeNs sched fetchFrom) := by
  intro records hscan
  by_cases hc : comma = 34 ∨ comma = 10 ∨ comma = 13 ∨ comma = 0
  · exact (badReader_scan (c := { columns := columns, ignoreFirstRow := ignoreFirstRow, reader := csvReader comma }) (badReader_read hc) content sched records hscan).elim
  · have e : csvReader comma = csvRecordReader comma := by
      unfold csvReader
      rw [if_neg hc]
    have h := (C37_csv_fetch_returns_scanned { columns := columns, ignoreFirstRow := ignoreFirstRow, reader := csvReader comma }
      (by rw [e]; exact csvRecordReader_end comma) content sched _ hscan).2.2
    rw [List.pairwise_iff_getElem]
    intro i j hi hj hij
    simp only [List.length_map] at hi hj
    simp only [List.getElem_map]
    exact h i j _ _ hij (by rw [List.getElem?_map, List.getElem?_eq_getElem hi]; rfl) (by rw [List.getElem?_map, List.getElem?_eq_getElem hj]; rfl)

/-- **C124** The positions of the records of a CSV file increase. -/
theorem C124_csv_ordered (files : Files) (d : CsvDecl) (types : String → Option ParserType) (parsers : GoMap (Bytes → Res Value)) (input : Input)
    (h : openInput files (.csv d) types parsers = .ok input) : PositionsIncrease input := by
  simp only [openInput, openCsvInput] at h
  split at h
  · cases h
  · simp only [bind_ok, ok_inj] at h
    obtain ⟨comma, _, rfl⟩ := h
    exact csvColumns_ordered _ _ _ _ _ _ _ _

/-- **C124** The positions of the records of a JSON file increase, if the decoder reads at least one byte and no more than there are. -/
theorem C124_json_ordered (files : Files) (hdec : ∀ bytes data n, files.decodeJson bytes = (.doc data, n) → 1 ≤ n ∧ n ≤ bytes.length) (d : JsonDecl) (types : String → Option ParserType)
    (parsers : GoMap (Bytes → Res Value)) (input : Input) (h : openInput files (.json d) types parsers = .ok input) : PositionsIncrease input := by
  simp only [openInput, openJsonInput] at h
  split at h
  · cases h
  · rename_i content _
    cases h
    intro records hscan
    obtain ⟨docs, tail, l, hdocs, hl, _, hall⟩ := C40_json_nothing_lost_partial files.decodeJson hdec content
    have hl' : jsonScan files.decodeJson content = .ok (records.map .ok) := hscan
    rw [hl] at hl'
    cases hl'
    obtain ⟨e, _⟩ := hall (fun e he => by obtain ⟨r, _, hr⟩ := List.mem_map.1 he; cases hr)
    have e' : records = docs.map (fun x => jsonRecord x.2 x.1) := by
      have inj : ∀ (a b : List Rec), a.map (Except.ok (ε := Fail)) = b.map .ok → a = b := by
        intro a
        induction a with
        | nil => intro b hab; cases b with | nil => rfl | cons y b => cases hab
        | cons x a ih =>
          intro b hab
          cases b with
          | nil => cases hab
          | cons y b =>
            simp only [List.map_cons, List.cons.injEq, ok_inj] at hab
            rw [hab.1, ih b hab.2]
      refine inj _ _ (e.trans ?_)
      rw [List.map_map]
      rfl
    have hp := (JsonDocs.spec hdocs content rfl).1
    rw [e', List.map_map, List.pairwise_map]
    rw [List.pairwise_map] at hp
    exact hp.imp (fun h => Int.ofNat_lt.2 h)

theorem csvAll_values {columns : List CsvColumn} {data : List Bytes} (P : Value → Prop) (hnull : P .null) (hp : ∀ c ∈ columns, ∀ cell v, c.parse cell = .ok v → P v) :
    ∀ {todo : List CsvColumn} {result m : GoMap Value}, (∀ k v, mapGet result k = some v → P v) → csvAll columns data todo result = .ok m → ∀ k v, mapGet m k = some v → P v
  | [], _, _, hr, h => by cases h; exact hr
  | c :: rest, result, m, hr, h => by
    simp only [csvAll] at h
    split at h
    · cases h
    · rename_i v hv
      refine csvAll_values P hnull hp (fun k w hw => ?_) h
      rw [mapGet_mapSet] at hw
      split at hw
      · cases hw
        simp only [csvGetColumn] at hv
        split at hv
        · cases hv
        · split at hv
          · cases hv; exact hnull
          · split at hv
            · cases hv
            · rename_i x hx
              exact hp x (List.mem_of_getElem? hx) _ _ hv
      · exact hr k w hw

/-- **C124** The records of a CSV file have no arrays and objects if the parsers of its columns give none. -/
theorem C124_csv_scalars (files : Files) (d : CsvDecl) (types : String → Option ParserType) (parsers : GoMap (Bytes → Res Value)) (input : Input)
    (h : openInput files (.csv d) types parsers = .ok input)
    (hplain : ∀ column ∈ d.columns, ∀ f, mapGet parsers column.parser = some f → ∀ cell v, f cell = .ok v → Scalar v) (property : String) : OnlyScalars input property := by
  simp only [openInput, openCsvInput] at h
  split at h
  · cases h
  · simp only [bind_ok, ok_inj] at h
    obtain ⟨comma, _, rfl⟩ := h
    intro position r data v hf ha hv
    simp only [csvAsInput, csvFetch] at hf
    split at hf
    · cases hf
    · split at hf
      · cases hf
      · cases hf
      · cases hf
        refine csvAll_values Scalar trivial (fun c hc cell v hp => ?_) (fun k v h => by cases h) ha property v hv
        obtain ⟨column, hcol, rfl⟩ := List.mem_map.1 hc
        cases hf : mapGet parsers column.parser with
        | none => simp only [hf] at hp; cases hp
        | some f =>
          simp only [hf] at hp
          exact hplain column hcol f hf cell v hp

mutual
theorem plainMatches_record {inputs : GoMap Input} (hs : ∀ n i, mapGet inputs n = some i → ∀ property, OnlyScalars i property) {chosen : String → Bool} : ∀ (r : Relationship) {parent : String}
    {names : List String}, MatchesRecord chosen names r → PlainMatches inputs chosen parent names r
  | .mk input isArray limit sort matching relationships, parent, names, h => by
    simp only [PlainMatches, MatchesRecord] at h ⊢
    exact ⟨fun m hm hc => ⟨h.1 m hm hc, fun i hi => hs _ i hi _⟩, allPlainMatches_record hs relationships h.2⟩
theorem allPlainMatches_record {inputs : GoMap Input} (hs : ∀ n i, mapGet inputs n = some i → ∀ property, OnlyScalars i property) {chosen : String → Bool} : ∀ (l : List (String × Relationship))
    {parent : String} {names : List String}, AllMatchRecord chosen names l → AllPlainMatches inputs chosen parent names l
  | [], _, _, _ => by simp only [AllPlainMatches]
  | (_, .mk input isArray limit sort matching relationships) :: rest, parent, names, h => by
    simp only [AllPlainMatches, AllMatchRecord] at h ⊢
    exact ⟨plainMatches_record hs (.mk input isArray limit sort matching relationships) h.1, allPlainMatches_record hs rest h.2⟩
end

theorem running_scalar {config : ConfigLib} {lib : StartLib} {p : ParsedConfig} {texts : GoMap TextParser} {env : OutputEnv} {apis : GoMap OutputApi} {running : GoMap (String × List Route)}
    (hrun : Running config lib p texts env apis running) {n : String} {x : ParserDecl} (hx : IsParser p n x) (hp : x.primitive = true) {f : Bytes → Res Value} (hf : mapGet env.parsers n = some f)
    {cell : Bytes} {v : Value} (h : f cell = .ok v) : Scalar v := by
  obtain ⟨t, ht, hr⟩ := hrun.parsers n x hx
  rw [hrun.functions] at hf
  refine parseFunctions_scalar ht ?_ hf h
  obtain ⟨name, kind⟩ := x
  cases kind <;> simp only [RunsParser, completedParser] at hr
  · rcases hr with ⟨_, rfl⟩ | ⟨_, _, _, rfl⟩ <;> rfl
  · subst hr; rfl
  · subst hr; rfl
  · subst hr; rfl
  · cases hp
  · cases hp

theorem running_csv {config : ConfigLib} {rest : StartLib} {files : Files} {p : ParsedConfig} (hw : WellFormed config p) {texts : GoMap TextParser} {env : OutputEnv} {apis : GoMap OutputApi}
    {running : GoMap (String × List Route)} (hrun : Running config (rest.onFiles files) p texts env apis running) (hcsv : ∀ x ∈ p.inputs, PlainCsv p x) {n : String} {input : Input}
    (hi : mapGet env.inputs n = some input) : PositionsIncrease input ∧ ∀ property, OnlyScalars input property := by
  obtain ⟨x, hx, rfl⟩ := hrun.inputNames n input hi
  have hpl := hcsv x hx
  obtain ⟨e, input', hcol, hopen, hi'⟩ := hrun.inputs x hx
  rw [hi] at hi'
  cases hi'
  have string : ∃ y, IsParser p "string" y := string_isParser p
  cases x with
  | xml d => exact hpl.elim
  | json d => exact hpl.elim
  | csv d =>
    have hopen' : openInput files e (declaredTypes p) env.parsers = .ok input := hopen
    clear hopen
    simp only [completedInput, WithColumns] at hcol
    split at hcol
    · rename_i ha
      obtain ⟨row, _, _, rfl⟩ := hcol
      refine ⟨C124_csv_ordered _ _ _ _ _ hopen', fun property => C124_csv_scalars _ _ _ _ _ hopen' (fun column hc f hf cell v hv => ?_) property⟩
      obtain ⟨name, _, rfl⟩ := List.mem_map.1 hc
      obtain ⟨y, hy⟩ := string
      exact running_scalar hrun hy (hpl.2 ha y hy) hf hv
    · subst hcol
      refine ⟨C124_csv_ordered _ _ _ _ _ hopen', fun property => C124_csv_scalars _ _ _ _ _ hopen' (fun column hc f hf cell v hv => ?_) property⟩
      obtain ⟨col, hcol, rfl⟩ := List.mem_map.1 hc
      have hn : ∃ y, IsParser p (orText col.parser "string") y := by
        simp only [orText]
        split
        · exact string
        · rename_i hne
          rcases (hw.inputs _ hx).2.2.2.2 col hcol with h | h
          · exact (hne h).elim
          · exact h
      obtain ⟨y, hy⟩ := hn
      exact running_scalar hrun hy (hpl.1 col hcol y hy) hf hv

/-- **C124** For a configuration whose inputs are CSV files without arrays and objects: full scans instead of some of the map indexes change no answer. Relationships that are looked up in these
indexes must be for properties of the records, not for the results of other relationships. -/
theorem C124_csv_answers (config : ConfigLib) (p : ParsedConfig) (chosen : String → Bool) (hdefault : chosen "default" = false) (hcsv : ∀ x ∈ p.inputs, PlainCsv p x)
    (hmatch : ∀ o ∈ p.outputs, AllMatchRecord chosen ((relationshipsOfOutput o).map (·.1)) (relationshipsOfOutput o)) (c c' : Config) (hc : loadConfig config p = .ok c)
    (hc' : loadConfig config (withoutMaps chosen p) = .ok c') (rest : StartLib) (files : Files) (hsort : SortContract rest.sort) (hvisit : ∀ path (α : Type) (l : List α), (rest.visit path l).Perm l)
    (d d' : Config) (ho : Reordered c d) (ho' : Reordered c' d') (running : GoMap (String × List Route)) (hstart : start (rest.onFiles files) d = .ok running) :
    ∃ scanned, start (rest.onFiles files) d' = .ok scanned ∧ (∀ name, mapGet scanned name = none ↔ mapGet running name = none) ∧
      ∀ name errorsType routes, mapGet running name = some (errorsType, routes) →
      ∃ routes', mapGet scanned name = some (errorsType, routes') ∧ ∀ (service : ServiceLib) old visit method contentType target body,
        serveTarget service errorsType routes' old visit method contentType target body = serveTarget service errorsType routes old visit method contentType target body := by
  obtain ⟨texts, env, apis, hrun, h⟩ := C124_answers config p chosen hdefault c c' hc hc' rest files hsort hvisit d d' ho ho' running hstart
  have hw := (C76_accepted config p).1 ⟨c, hc⟩
  exact h (fun m _ _ input hi => (running_csv hw hrun hcsv hi).1)
    (fun o ho root _ => allPlainMatches_record (fun n i hi => (running_csv hw hrun hcsv hi).2) _ (hmatch o ho))

namespace UnindexedExample
open AddedExample
/-- The libraries of the example, with a sorting function. -/
def library : StartLib := { ConfigExample.startLib FilesExample.noParsers with sort := goInsertionSort }

/-- The map index of the example is a full scan. -/
def chosen (n : String) : Bool := n = "map"

theorem plain : ∀ x ∈ ConfigExample.parsed.inputs, PlainCsv ConfigExample.parsed x := by
  intro x hx
  simp only [ConfigExample.parsed, List.mem_singleton] at hx
  subst hx
  refine ⟨fun column hc x hx => ?_, fun h => by cases h⟩
  have key : ∀ n x, n = "amount" ∨ n = "string" → IsParser ConfigExample.parsed n x → x.primitive = true := by
    rintro n x hn (⟨h, e⟩ | ⟨_, h, e⟩)
    · simp only [ConfigExample.parsed, List.mem_cons, List.not_mem_nil, or_false] at h
      rcases h with rfl | rfl
      · rfl
      · rcases hn with rfl | rfl <;> revert e <;> decide
    · simp only [builtinParsers, List.mem_cons, List.not_mem_nil, or_false] at h
      rcases h with rfl | rfl | rfl | rfl | rfl <;> first | rfl | (rcases hn with rfl | rfl <;> revert e <;> decide)
  simp only [List.mem_cons, List.not_mem_nil, or_false] at hc
  rcases hc with rfl | rfl
  · exact key _ x (.inl rfl) hx
  · exact key _ x (.inr rfl) hx

theorem starts : ∃ c', loadConfig ConfigExample.lib (withoutMaps chosen ConfigExample.parsed) = .ok c' ∧ c'.indexes = [("map", .noop "map"), ("default", .noop "default")] := ⟨_, rfl, rfl⟩

theorem runs : ∃ running, start (UnindexedExample.library.onFiles machine) ConfigExample.loaded = .ok running := by
  have h : (match start (UnindexedExample.library.onFiles machine) ConfigExample.loaded with | .ok _ => true | .error _ => false) = true := by decide +kernel
  cases hs : start (UnindexedExample.library.onFiles machine) ConfigExample.loaded with
  | error e => rw [hs] at h; cases h
  | ok running => exact ⟨running, rfl⟩
end UnindexedExample

/-- The example runs, with a map index that the list of people is searched in, and has the same answers without it. -/
example : ∃ running c' scanned, start (UnindexedExample.library.onFiles AddedExample.machine) ConfigExample.loaded = .ok running ∧
    loadConfig ConfigExample.lib (withoutMaps UnindexedExample.chosen ConfigExample.parsed) = .ok c' ∧ c'.indexes = [("map", .noop "map"), ("default", .noop "default")] ∧
    start (UnindexedExample.library.onFiles AddedExample.machine) c' = .ok scanned ∧
    ∀ name errorsType routes, mapGet running name = some (errorsType, routes) → ∃ routes', mapGet scanned name = some (errorsType, routes') ∧
      ∀ (service : ServiceLib) old visit method contentType target body,
        serveTarget service errorsType routes' old visit method contentType target body = serveTarget service errorsType routes old visit method contentType target body := by
  obtain ⟨running, hrun⟩ := UnindexedExample.runs
  obtain ⟨c', hc', hi⟩ := UnindexedExample.starts
  obtain ⟨scanned, hs, _, h⟩ := C124_csv_answers ConfigExample.lib ConfigExample.parsed UnindexedExample.chosen (by decide) UnindexedExample.plain
    (by
      intro o ho
      simp only [ConfigExample.parsed, List.mem_cons, List.not_mem_nil, or_false] at ho
      rcases ho with rfl | rfl
      · simp only [relationshipsOfOutput, AllMatchRecord]
      · simp only [relationshipsOfOutput, AllMatchRecord, MatchesRecord, and_true]
        intro m hm hch
        simp only [List.mem_singleton] at hm
        subst hm
        revert hch
        decide)
    _ _ ConfigExample.loads hc' UnindexedExample.library AddedExample.machine goInsertionSort_contract (fun _ _ _ => .refl _) _ _
    ⟨.refl _, .refl _, .refl _, .refl _, .refl _⟩ ⟨.refl _, .refl _, .refl _, .refl _, .refl _⟩ running hrun
  exact ⟨running, c', scanned, hrun, hc', hi, hs, h⟩

end Rodb
