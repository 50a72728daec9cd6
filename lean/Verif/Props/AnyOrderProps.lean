import Verif.Proofs.AnyOrder
import Verif.Props.StoredFilesProps
import Verif.Props.SameFilterProps
/-
  C119: requests on indexes that give their matches in any order.
-/
namespace Rodb
open Spec

/-- **C119** The answer to a list request on indexes that give their matches in any order: it shows, from the asked offset on and at most the asked limit of them, records that satisfy
all the conditions (of several on one property of one index, one of them, as in C45), no record twice; if all the conditions are on one index, no such record is left out. -/
theorem C119_list_partial (env : OutputEnv) (c : ArrayConfig) (params : GoMap Bytes) (input : Input) (records : List Rec)
    (sat : String → String → Value → Rec → Bool) (acceptable : String → String → Value → Prop)
    (hin : mapGet env.inputs c.input = some input) (hdata : AnyOrderData env input records sat acceptable)
    (conditions : List Condition) (hreads : Reads env (givenParameters c.parameters params) conditions)
    (hindex : ∀ c ∈ conditions, ∃ index, mapGet env.indexes c.index = some index) (hacc : ∀ c ∈ conditions, acceptable c.index c.property c.value)
    (limit offset : Nat) (hlimit : AskedLimit c.limit params limit) (hoffset : AskedOffset c.offsetParameter params offset) (hsmall : min limit c.limit.max < 2^63) :
    ∃ kept found, OneForEach conditions kept ∧ Found records sat kept found ∧
      ListsRecords env c.relationships ((found.drop offset).take (min limit c.limit.max)) (handleArray env c params) := by
  have hp : (givenParameters c.parameters params).Perm (givenParameters (env.visit [0] c.parameters) params) := ((hdata.visit [0] _ c.parameters).filterMap _).symm
  obtain ⟨cs, r1, r2⟩ := reads_perm hp hreads
  obtain ⟨filters, g1, g2, g3⟩ := arrayFilters_kept env params (env.visit [0] c.parameters) [] cs ⟨by simp, by simp⟩ r1
  have hk : KeptFrom conditions (flatFilters filters) := by
    have : KeptFrom cs (flatFilters filters) := by simpa [flatFilters] using g3
    exact (KeptFrom.of_perm r2).trans this
  obtain ⟨its, found, h2, h3, hfound⟩ := filteredPositions_any hdata [] g2 (fun c hc => hindex c (hk.chosen c hc)) (fun c hc => hacc c (hk.chosen c hc))
  refine ⟨_, found, ⟨hk.chosen, hk.asked, g2.distinct⟩, hfound, ?_⟩
  obtain ⟨st, h4, h5⟩ := skipRows_drains offset its _ h3
  have h6 : (intOfUint (min limit c.limit.max)).toNat = min limit c.limit.max := by
    simp only [intOfUint, if_pos hsmall, Int.toNat_natCast]
  simp only [handleArray, getLimit_spec hlimit, getOffset_spec hoffset, g1, hin, h2, h4, h6]
  rw [readRows_drains _ _ _ _ _ h5, ← List.map_drop, ← List.map_take]
  exact rows_list_any hdata hin c.relationships (fun r hr => (hfound.right r (List.mem_of_mem_drop (List.mem_of_mem_take hr))).1)

/-- **C119** Likewise for an object request: the answer is one of the records that satisfy all the conditions, or "not found"; if all the conditions are on one index, "not found" only
if no record satisfies them. -/
theorem C119_object_partial (env : OutputEnv) (c : ObjectConfig) (params : GoMap Bytes) (input : Input) (records : List Rec)
    (sat : String → String → Value → Rec → Bool) (acceptable : String → String → Value → Prop)
    (hin : mapGet env.inputs c.input = some input) (hdata : AnyOrderData env input records sat acceptable)
    (conditions : List Condition) (hreads : Reads env (allParameters c.parameters params) conditions)
    (hindex : ∀ c ∈ conditions, ∃ index, mapGet env.indexes c.index = some index) (hacc : ∀ c ∈ conditions, acceptable c.index c.property c.value) :
    ∃ kept found, OneForEach conditions kept ∧ Found records sat kept found ∧
      ((found = [] ∧ handleObject env c params = .notFound) ∨
        ∃ r ∈ found, (∃ item, handleObject env c params = .data (.obj item) ∧ ShowsRecord env c.relationships r (.ok item)) ∨
          ∃ e, handleObject env c params = .error e ∧ ShowsRecord env c.relationships r (.error e)) := by
  have hp : (allParameters c.parameters params).Perm (allParameters (env.visit [0] c.parameters) params) := ((hdata.visit [0] _ c.parameters).map _).symm
  obtain ⟨cs, r1, r2⟩ := reads_perm hp hreads
  obtain ⟨filters, g1, g2, g3⟩ := objectFilters_kept env params (env.visit [0] c.parameters) [] cs ⟨by simp, by simp⟩ r1
  have hk : KeptFrom conditions (flatFilters filters) := by
    have : KeptFrom cs (flatFilters filters) := by simpa [flatFilters] using g3
    exact (KeptFrom.of_perm r2).trans this
  obtain ⟨its, found, h2, h3, hfound⟩ := filteredPositions_any hdata [] g2 (fun c hc => hindex c (hk.chosen c hc)) (fun c hc => hacc c (hk.chosen c hc))
  refine ⟨_, found, ⟨hk.chosen, hk.asked, g2.distinct⟩, hfound, ?_⟩
  cases found with
  | nil =>
    obtain ⟨st, g, _⟩ := Drains.nil h3
    exact .inl ⟨rfl, by simp only [handleObject, g1, hin, h2, g]⟩
  | cons r rest =>
    obtain ⟨st, g, _⟩ := Drains.cons h3
    refine .inr ⟨r, .head _, ?_⟩
    simp only [handleObject, g1, hin, h2, g]
    have hs := dataFromPosition_shows_any hdata hin [4] c.relationships (hfound.right r (.head _)).1
    cases hd : dataFromPosition env [4] c.input c.relationships r.position with
    | error e => rw [hd] at hs; exact .inr ⟨e, rfl, hs⟩
    | ok d => rw [hd] at hs; exact .inl ⟨d, rfl, hs⟩

theorem Spec.Serves.anyOrder {index : IndexFn} {input : Input} {records : List Rec} {sat : String → Value → Rec → Bool} {acceptable : String → Value → Prop}
    (h : Serves index input records sat acceptable) : ServesAnyOrder index input records sat acceptable :=
  fun filters hne hnd hacc => ⟨_, .refl _, h filters hne hnd hacc⟩

theorem scan_records {input : Input} {a b : List Rec} (ha : input.scan = .ok (a.map .ok)) (hb : input.scan = .ok (b.map .ok)) : a = b := by
  rw [ha] at hb
  injection hb with e
  exact (List.map_inj_right (fun _ _ h => by injection h)).1 e

/-- The index that is opened holds the records of the input. -/
theorem stored_disk_holds_any {st : Storage} (hsql : ReadsAllRows st.sql) {x : StoredIndex} {dsn : String} {input : Input} (hdisk : StoredDisk st x dsn input) (hacc : x.Accepted)
    (hok : (x.start st.sql input ⟨st.db dsn, none⟩).1 = .ok ()) : HoldsAll x input (x.start st.sql input ⟨st.db dsn, none⟩).2.db := by
  obtain ⟨empty, starts, hempty, hall, hown, hdb⟩ := hdisk.database
  have h := C62_history hsql.plan hempty starts ⟨x, input, none⟩ (by
    intro s hs
    rcases List.mem_append.1 hs with hs | hs
    · exact hall s hs
    · rw [List.mem_singleton.1 hs]
      exact hacc)
  rw [afterStarts_last, ← hdb] at h
  unfold afterStart at h
  obtain ⟨b, hb, hname, hstat, hholds⟩ := h hok
  have hb' : b.index = x ∧ b.input.scan = input.scan := by
    rcases List.mem_append.1 hb with hb | hb
    · exact ⟨(hown b hb hname).1, (hown b hb hname).2 hstat⟩
    · rw [List.mem_singleton.1 hb]
      exact ⟨rfl, rfl⟩
  unfold HoldsAll at hholds ⊢
  rw [hb'.1, hb'.2] at hholds
  exact hholds

/-- **C119** A full-text index that was opened, from whatever killed starts left on the disk, is such an index. -/
theorem C119_fts5 {st : Storage} (hsql : ReadsAllRows st.sql) {d : Fts5Decl}
    {input : Input} (hname : input.name = d.input) {records : List Rec} (hscan : input.scan = .ok (records.map .ok)) (hdisk : StoredDisk st (.fts5 d) d.dsn input) {index : IndexFn}
    (hopen : openIndex st (.fts5 d) input = .ok index) : ServesAnyOrder index input records (fun _ => ftsSat st.sql d) FtsAcceptable := by
  have hacc : Fts5Accepted d := ⟨hdisk.name, hdisk.properties, hdisk.tokenize _ rfl⟩
  have hall := stored_disk_holds_any hsql hdisk (x := .fts5 d) hacc
  have hopen' : fts5Index st.sql d (newFts5 st.sql d input ⟨st.db d.dsn, none⟩) = .ok index := hopen
  clear hopen
  simp only [start_fts5] at hall
  generalize newFts5 st.sql d input ⟨st.db d.dsn, none⟩ = result at hopen' hall
  obtain ⟨r, s⟩ := result
  cases r with
  | error e => cases hopen'
  | ok u =>
    cases hopen'
    intro filters hne hnd hf
    obtain ⟨records', h1, h2⟩ := C81_positions_partial ⟨hsql.plan, hsql.complete⟩ hacc (hall rfl)
    rw [scan_records hscan h1]
    cases filters with
    | nil => exact (hne rfl).elim
    | cons f rest =>
      obtain ⟨p, v⟩ := f
      obtain ⟨rfl, w, hw⟩ := hf _ (.head _)
      cases rest with
      | cons g rest =>
        have hg := (hf g (.tail _ (.head _))).1
        simp only [List.map_cons, List.nodup_cons, List.mem_cons] at hnd
        exact (hnd.1 (.inl hg.symm)).elim
      | nil =>
        have hsat : (fun r => [("match", v)].all (fun f => ftsSat st.sql d f.2 r)) = ftsSat st.sql d v := by
          funext r
          simp
        rw [hsat]
        simp only [hname]
        exact h2 v w hw

/-- **C119** Likewise for a SQLite index. -/
theorem C119_sqlite {st : Storage} (hsql : ReadsAllRows st.sql) {d : SqliteDecl} (hcol : ∀ q ∈ d.properties, q.collate ∈ ["BINARY", "NOCASE", "RTIRM"])
    {input : Input} (hname : input.name = d.input) {records : List Rec} (hscan : input.scan = .ok (records.map .ok)) (hdisk : StoredDisk st (.sqlite d) d.dsn input) {index : IndexFn}
    (hopen : openIndex st (.sqlite d) input = .ok index) : ServesAnyOrder index input records (sqliteSat st.sql d) (SqliteAcceptable d) := by
  have hacc : SqliteAccepted d := ⟨hdisk.name, fun q hq => hdisk.properties q.name (List.mem_map_of_mem hq), hcol⟩
  have hall := stored_disk_holds_any hsql hdisk (x := .sqlite d) hacc
  have hopen' : sqliteIndex st.sql d (newSqlite st.sql d input ⟨st.db d.dsn, none⟩) = .ok index := hopen
  clear hopen
  simp only [start_sqlite] at hall
  generalize newSqlite st.sql d input ⟨st.db d.dsn, none⟩ = result at hopen' hall
  obtain ⟨r, s⟩ := result
  cases r with
  | error e => cases hopen'
  | ok u =>
    cases hopen'
    intro filters hne _ hf
    obtain ⟨records', h1, h2⟩ := C63_positions_partial ⟨hsql.plan, hsql.complete⟩ hacc (hall rfl)
    rw [scan_records hscan h1]
    simp only [hname]
    exact h2 filters hne hf

/-- **C119** The indexes of a running program, on the disk that killed starts left, find what they are documented to find, in any order. -/
theorem C119_indexes_find (config : ConfigLib) (lib : StartLib) (st : Storage) (p : ParsedConfig) (hw : WellFormed config p) (functions : GoMap (Bytes → Res Value))
    (x : InputDecl) (records : List Rec) (hdisk : DiskInAnyOrder config lib st p functions x records) :
    FindInAnyOrder config lib p functions x records (finds config st p) (findable config st p) where
  equality n i hi he q v r := by
    unfold finds
    cases h : declaredIndex p n with
    | none => rfl
    | some j =>
      rcases declaredIndex_equal hw hi he h with ⟨m, rfl⟩ | ⟨m, rfl⟩ <;> rfl
  others i hi hn hin e input index he hinput hindex := by
    have hd := declaredIndex_of_mem hw hi
    have hwf := hw.indexes i hi
    rw [hdisk.index] at hindex
    cases i with
    | map m => exact (hn (.inl ⟨m, rfl⟩)).elim
    | noop m => exact (hn (.inr ⟨m, rfl⟩)).elim
    | fts5 d =>
      have hx : d.input = x.name := Option.some.inj hin
      obtain ⟨hsql, hdb⟩ := hdisk.fts5 d hi hx
      have h := C119_fts5 hsql (d := completedFts5 d) ((hdisk.named e input he hinput).trans hx.symm) (hdisk.rows e input he hinput) (hdb e input he hinput) (index := index) hindex
      have hf : finds config st p (IndexDecl.fts5 d).name = fun _ => ftsSat st.sql (completedFts5 d) := by
        funext q v r
        simp only [finds, hd]
      have ha : findable config st p (IndexDecl.fts5 d).name = FtsAcceptable := by
        funext q v
        simp only [findable, hd]
      rw [hf, ha]
      exact h
    | wildcard d =>
      have hx : d.input = x.name := Option.some.inj hin
      have h := wildcard_serves_disk hwf.2.2.2 (hdisk.wildcard d hi hx e input he hinput) (index := index) hindex
      have hf : finds config st p (IndexDecl.wildcard d).name = fun q v r => wildcardFinds st.lower (d.ignoreCase.getD false) r q v := by
        funext q v r
        simp only [finds, hd]
      have ha : findable config st p (IndexDecl.wildcard d).name = fun q v => q ∈ d.properties ∧ ∃ query, v = .str query ∧
          (if d.ignoreCase.getD false then st.lower query else query) ≠ [] := by
        funext q v
        simp only [findable, hd]
      rw [hf, ha]
      exact h.anyOrder
    | sqlite d =>
      have hx : d.input = x.name := Option.some.inj hin
      obtain ⟨hsql, hdb⟩ := hdisk.sqlite d hi hx
      have h := C119_sqlite hsql (d := completedSqlite config d) (by
        intro q hq
        obtain ⟨q', hq', rfl⟩ := List.mem_map.1 hq
        simp only
        rcases hwf.2.2.2 q' hq' with h | h
        · simp [h]
        · by_cases h0 : q'.collate = ""
          · simp [h0]
          · rw [if_neg h0]
            exact h) ((hdisk.named e input he hinput).trans hx.symm) (hdisk.rows e input he hinput) (hdb e input he hinput) hindex
      have hf : finds config st p (IndexDecl.sqlite d).name = sqliteSat st.sql (completedSqlite config d) := by
        funext q v r
        simp only [finds, hd]
      have ha : findable config st p (IndexDecl.sqlite d).name = SqliteAcceptable (completedSqlite config d) := by
        funext q v
        simp only [findable, hd]
      rw [hf, ha]
      exact h

/-- The data behind an output of a running program, when its other indexes give their matches in any order. -/
theorem Running.data_any {config : ConfigLib} {lib : StartLib} {p : ParsedConfig} {texts : GoMap TextParser} {env : OutputEnv} {apis : GoMap OutputApi} {running : GoMap (String × List Route)}
    (hrun : Running config lib p texts env apis running) (hw : WellFormed config p) (hdef : PlainDefault p)
    (hvisit : ∀ (path : List Nat) (α : Type) (l : List α), (lib.visit path l).Perm l) {x : InputDecl} (hx : x ∈ p.inputs) {asked : List String}
    {records : List Rec} (hrec : RecordsOf lib p env.parsers x asked records) {sat : String → String → Value → Rec → Bool}
    {acceptable : String → String → Value → Prop} (hfind : FindInAnyOrder config lib p env.parsers x records sat acceptable) :
    ∃ input, mapGet env.inputs x.name = some input ∧
      AnyOrderData env input records sat (askable p x.name asked acceptable) := by
  obtain ⟨d, input, hd, hin, hget⟩ := hrun.inputs x hx
  obtain ⟨htab, hfetch⟩ := hrec.rows d input hd hin
  refine ⟨input, hget, ?_⟩
  constructor
  · intro path α l
    rw [hrun.visit]
    exact hvisit path α l
  · exact htab.increasing
  · exact hfetch
  · obtain ⟨i, hi⟩ := hrun.indexNames _ _ hrun.defaultIndex
    obtain ⟨n, rfl⟩ := hdef i hi
    obtain ⟨f, hf, hr⟩ := hrun.indexes _ _ hi
    rw [hrun.defaultIndex] at hf
    cases hf
    rw [show env.defaultIndex = noopGetRecordPositions from hr]
    exact C44_noop_everything _ _ htab
  · intro name index hindex
    obtain ⟨i, hi⟩ := hrun.indexNames _ _ hindex
    obtain ⟨f, hf, hr⟩ := hrun.indexes _ _ hi
    rw [hindex] at hf
    cases hf
    by_cases hplain : FindsEqual i
    · have hsat : sat name = fun q v r => propEquals r q v := by
        funext q v r
        exact hfind.equality name i hi hplain q v r
      rw [hsat]
      rcases hplain with ⟨m, rfl⟩ | ⟨n, rfl⟩
      · have hmem : .map m ∈ p.indexes := by
          rcases hi with ⟨h1, _⟩ | ⟨_, h1, _⟩
          · exact h1
          · cases List.mem_singleton.1 h1
        obtain ⟨other, built, h1, h2, h3⟩ := hr
        intro filters hne hnd hacc
        have hin' : m.input = x.name := by
          cases filters with
          | nil => exact (hne rfl).elim
          | cons a l =>
            obtain ⟨_, ⟨j, hj, hs, _⟩, _⟩ := hacc a (.head _)
            rw [← IsIndex.unique hw hi hj] at hs
            exact hs.1
        rw [hin', hget] at h1
        cases h1
        have hwf := hw.indexes _ hmem
        obtain ⟨built', hb, hserves⟩ := C44_map_serves { properties := m.properties } input records hwf.2 htab (hrec.indexed m hmem hin')
        have hsame : built' = built := by
          rw [h2] at hb
          exact (Except.ok.inj hb).symm
        subst hsame
        rw [h3]
        refine hserves.anyOrder filters hne hnd (fun a ha => ?_)
        obtain ⟨hs, ⟨j, hj, hsearch, _⟩, _⟩ := hacc a ha
        rw [← IsIndex.unique hw hi hj] at hsearch
        exact ⟨hsearch.2, hs⟩
      · rw [show index = noopGetRecordPositions from hr]
        intro filters hne hnd hacc
        refine (C44_noop_serves input records htab).anyOrder filters hne hnd (fun a ha => ?_)
        obtain ⟨hs, _, hq⟩ := hacc a ha
        exact ⟨hs, hrec.filtered _ (hq.resolve_left (isFullText_equal hw hi (.inr ⟨n, rfl⟩)))⟩
    · have hmem : i ∈ p.indexes ∧ i.name = name := by
        rcases hi with ⟨h1, h2⟩ | ⟨_, h1, _⟩
        · exact ⟨h1, h2⟩
        · exact (hplain (.inr ⟨_, List.mem_singleton.1 h1⟩)).elim
      obtain ⟨n, other, h1, h2, h3⟩ := RunsIndex.other hplain hr
      intro filters hne hnd hacc
      have hin' : inputOfIndex i = some x.name := by
        cases filters with
        | nil => exact (hne rfl).elim
        | cons a l =>
          obtain ⟨_, ⟨j, hj, hs, _⟩, _⟩ := hacc a (.head _)
          rw [← IsIndex.unique hw hi hj] at hs
          rcases Searches.input hs with h | h
          · exact (hplain (.inr h)).elim
          · exact h
      rw [hin'] at h1
      cases h1
      rw [hget] at h2
      cases h2
      have hserves := hfind.others i hmem.1 hplain hin' d input index hd hin h3
      rw [hmem.2] at hserves
      refine hserves filters hne hnd (fun a ha => ?_)
      obtain ⟨_, ⟨j, hj, _, hacc'⟩, _⟩ := hacc a ha
      rw [← IsIndex.unique hw hi hj] at hacc'
      exact hacc'.resolve_left hplain

/-- **C119** In a running program, for a list output with any indexes, from the disk on: whatever SQLite's order of the rows, the answer shows a window of records that satisfy
what is asked of the indexes, none twice; with one index, none is missing. -/
theorem C119_running_list_partial (config : ConfigLib) (lib : StartLib) (st : Storage) (p : ParsedConfig) (texts : GoMap TextParser) (env : OutputEnv) (apis : GoMap OutputApi)
    (running : GoMap (String × List Route)) (hrun : Running config lib p texts env apis running) (hw : WellFormed config p) (hdef : PlainDefault p)
    (hvisit : ∀ (path : List Nat) (α : Type) (l : List α), (lib.visit path l).Perm l) (name : String) (d : ArrayConfig) (ho : .array name d ∈ p.outputs)
    (x : InputDecl) (hx : x ∈ p.inputs) (hxn : x.name = d.input) (records : List Rec) (hrec : RecordsOf lib p env.parsers x (filteredValues p d.parameters) records)
    (hdisk : DiskInAnyOrder config lib st p env.parsers x records) :
    ∃ api, mapGet apis name = some api ∧ ∀ (params : GoMap Bytes) (payload : Bytes) (conditions : List Condition) (limit offset : Nat),
      Reads env (givenParameters (d.parameters.map (fun e => (e.1, completedParameter e.2))) params) conditions →
      (∀ c ∈ conditions, ∀ i, IsIndex p c.index i → ¬ FindsEqual i → findable config st p c.index c.property c.value) →
      AskedLimit ⟨orNumber d.limit.default 100, orNumber d.limit.max 1000, orText d.limit.parameter "limit"⟩ params limit →
      AskedOffset (orText d.offsetParameter "offset") params offset → min limit (orNumber d.limit.max 1000) < 2^63 →
      ∃ kept found, OneForEach conditions kept ∧ Found records (finds config st p) kept found ∧
        ListsRecords env (completedRelationships d.relationships) ((found.drop offset).take (min limit (orNumber d.limit.max 1000))) (api.handle params payload) := by
  obtain ⟨api, h4, h5⟩ := hrun.outputs _ ho
  obtain ⟨input, h6, hdata⟩ := Running.data_any hrun hw hdef hvisit hx hrec (C119_indexes_find config lib st p hw env.parsers x records hdisk)
  have hd := hw.outputs _ ho
  refine ⟨api, h4, fun params payload conditions limit offset hreads hacc hlimit hoffset hsmall => ?_⟩
  have hans := Running.answerable hrun (input := x.name) (parameters := d.parameters) (asked := filteredValues p d.parameters) (fun _ h => h) (fun n q hq => by rw [hxn]; exact (hd.2.2.2.1 n q hq).1) (by
    intro e he
    simp only [givenParameters, List.filterMap_map, List.mem_filterMap, Function.comp_def, Option.map_eq_some_iff] at he
    obtain ⟨⟨n, q⟩, hq, t, _, rfl⟩ := he
    exact ⟨n, q, hq, rfl⟩) hreads hacc
  rw [show api = _ from h5]
  exact C119_list_partial env _ params input records _ _ (by rw [← hxn]; exact h6) hdata conditions hreads hans.1 hans.2 limit offset hlimit hoffset hsmall

/-- **C119** Likewise for an object output. -/
theorem C119_running_object_partial (config : ConfigLib) (lib : StartLib) (st : Storage) (p : ParsedConfig) (texts : GoMap TextParser) (env : OutputEnv) (apis : GoMap OutputApi)
    (running : GoMap (String × List Route)) (hrun : Running config lib p texts env apis running) (hw : WellFormed config p) (hdef : PlainDefault p)
    (hvisit : ∀ (path : List Nat) (α : Type) (l : List α), (lib.visit path l).Perm l) (name : String) (d : ObjectConfig) (ho : .object name d ∈ p.outputs)
    (x : InputDecl) (hx : x ∈ p.inputs) (hxn : x.name = d.input) (records : List Rec) (hrec : RecordsOf lib p env.parsers x (filteredValues p d.parameters) records)
    (hdisk : DiskInAnyOrder config lib st p env.parsers x records) :
    ∃ api, mapGet apis name = some api ∧ ∀ (params : GoMap Bytes) (payload : Bytes) (conditions : List Condition),
      Reads env (allParameters (d.parameters.map (fun e => (e.1, completedParameter e.2))) params) conditions →
      (∀ c ∈ conditions, ∀ i, IsIndex p c.index i → ¬ FindsEqual i → findable config st p c.index c.property c.value) →
      ∃ kept found, OneForEach conditions kept ∧ Found records (finds config st p) kept found ∧
        ((found = [] ∧ api.handle params payload = .notFound) ∨
          ∃ r ∈ found, (∃ item, api.handle params payload = .data (.obj item) ∧ ShowsRecord env (completedRelationships d.relationships) r (.ok item)) ∨
            ∃ e, api.handle params payload = .error e ∧ ShowsRecord env (completedRelationships d.relationships) r (.error e)) := by
  obtain ⟨api, h4, h5⟩ := hrun.outputs _ ho
  obtain ⟨input, h6, hdata⟩ := Running.data_any hrun hw hdef hvisit hx hrec (C119_indexes_find config lib st p hw env.parsers x records hdisk)
  have hd := hw.outputs _ ho
  refine ⟨api, h4, fun params payload conditions hreads hacc => ?_⟩
  have hans := Running.answerable hrun (input := x.name) (parameters := d.parameters) (asked := filteredValues p d.parameters) (fun _ h => h) (fun n q hq => by rw [hxn]; exact hd.2.2.2.1 n q hq) (by
    intro e he
    simp only [allParameters, List.map_map, List.mem_map, Function.comp_def] at he
    obtain ⟨⟨n, q⟩, hq, rfl⟩ := he
    exact ⟨n, q, hq, rfl⟩) hreads hacc
  rw [show api = _ from h5]
  exact C119_object_partial env _ params input records _ _ (by rw [← hxn]; exact h6) hdata conditions hreads hans.1 hans.2

namespace AnyOrderExample
/-- A SQLite that gives the rows of every statement in the reverse order of their insertion. -/
def lib : SqlLib := { plainLib with plan := fun _ rows => rows.reverse }
theorem reads_all : ReadsAllRows lib := ⟨fun _ rows => List.reverse_perm rows, fun _ => rfl⟩
def recs : List Rec := [textRec 0 [("a", "x"), ("b", "y")], textRec 7 [("a", "x"), ("b", "z")], textRec 9 [("a", "w"), ("b", "y")]]
def input : Input := { textInput recs with fetch := fun p => match recs.find? (fun r => r.position == p) with | some r => .ok r | none => .error (.err "none") }
def storage : Storage := { lower := id, sql := lib, file := fun _ => none, db := fun _ => emptyDb }
def byA : SqliteDecl := textIndex "ia" ["a"]
def byB : SqliteDecl := textIndex "ib" ["b"]
/-- The index once opened. -/
def opened (d : SqliteDecl) : IndexFn := match openIndex storage (.sqlite d) input with | .ok f => f | .error _ => fun _ _ => .error (.err "not opened")
theorem disk (name property : String) (hn : NoNul name) (hq : NoNul property) : StoredDisk storage (.sqlite (textIndex name [property])) "" input :=
  ⟨hn, fun q h => by rw [List.mem_singleton.1 h]; exact hq, fun _ h => (by cases h), ⟨emptyDb, [], fun _ => rfl, by simp, by simp, rfl⟩⟩
theorem opens (d : SqliteDecl) (h : (newSqlite lib d input ⟨emptyDb, none⟩).1 = .ok ()) : openIndex storage (.sqlite d) input = .ok (opened d) := by
  unfold opened
  have : openIndex storage (.sqlite d) input = sqliteIndex lib d (newSqlite lib d input ⟨emptyDb, none⟩) := rfl
  rw [this]
  generalize newSqlite lib d input ⟨emptyDb, none⟩ = r at h
  obtain ⟨r, s⟩ := r
  cases h
  rfl
theorem opens_a : openIndex storage (.sqlite byA) input = .ok (opened byA) := opens byA (by decide +kernel)
theorem opens_b : openIndex storage (.sqlite byB) input = .ok (opened byB) := opens byB (by decide +kernel)
theorem serves_a : ServesAnyOrder (opened byA) input recs (sqliteSat lib byA) (SqliteAcceptable byA) :=
  C119_sqlite (st := storage) reads_all (fun q h => by rw [List.mem_singleton.1 h]; decide) rfl rfl (disk "ia" "a" (by unfold NoNul; decide) (by unfold NoNul; decide)) opens_a
theorem serves_b : ServesAnyOrder (opened byB) input recs (sqliteSat lib byB) (SqliteAcceptable byB) :=
  C119_sqlite (st := storage) reads_all (fun q h => by rw [List.mem_singleton.1 h]; decide) rfl rfl (disk "ib" "b" (by unfold NoNul; decide) (by unfold NoNul; decide)) opens_b
theorem found_a : opened byA input [("a", .str [120])] = .ok (iterateList [7, 0]) := by decide +kernel
theorem found_b : opened byB input [("b", .str [121])] = .ok (iterateList [9, 0]) := by decide +kernel
def env : OutputEnv :=
  { inputs := [("people", input)], defaultIndex := noopGetRecordPositions, parsers := [("text", fun t => .ok (.str t))], visit := fun _ _ l => l,
    indexes := [("ia", opened byA), ("ib", opened byB)], sort := fun _ l => l }
def sat (index property : String) (v : Value) (r : Rec) : Bool := if index = "ia" then sqliteSat lib byA property v r else sqliteSat lib byB property v r
def acceptable (index property : String) (v : Value) : Prop := if index = "ia" then SqliteAcceptable byA property v else SqliteAcceptable byB property v
theorem data : AnyOrderData env input recs sat acceptable where
  visit _ _ l := .refl l
  increasing := by decide
  fetch r hr := by
    simp only [recs, List.mem_cons, List.not_mem_nil, or_false] at hr
    rcases hr with rfl | rfl | rfl <;> rfl
  everything := C44_noop_everything _ _ ⟨rfl, by decide⟩
  serves name index h := by
    simp only [env, mapGet] at h
    split at h
    · rename_i e
      have h := Option.some.inj h
      rw [← h]
      subst e
      have h1 : sat "ia" = sqliteSat lib byA := by funext q v r; exact if_pos rfl
      have h2 : acceptable "ia" = SqliteAcceptable byA := by funext q v; exact if_pos rfl
      rw [h1, h2]
      exact serves_a
    · split at h
      · rename_i e
        have h := Option.some.inj h
        rw [← h]
        subst e
        have h1 : sat "ib" = sqliteSat lib byB := by funext q v r; exact if_neg (by decide)
        have h2 : acceptable "ib" = SqliteAcceptable byB := by funext q v; exact if_neg (by decide)
        rw [h1, h2]
        exact serves_b
      · cases h
def array : ArrayConfig :=
  { input := "people", limit := { default := 100, max := 1000, parameter := "limit" }, offsetParameter := "offset",
    parameters := [("first", { property := "a", index := "ia", parser := "text" }), ("second", { property := "b", index := "ib", parser := "text" })], relationships := [] }
def object : ObjectConfig := { input := "people", parameters := [("first", { property := "a", index := "ia", parser := "text" })], relationships := [] }
def conditionA : Condition := { index := "ia", property := "a", value := .str [120] }
def conditionB : Condition := { index := "ib", property := "b", value := .str [121] }
theorem reads_a : Reads env (givenParameters array.parameters [("first", [120])]) [conditionA] := ⟨rfl, rfl, ⟨_, rfl, rfl⟩, trivial⟩
theorem reads_both : Reads env (givenParameters array.parameters [("first", [120]), ("second", [121])]) [conditionA, conditionB] :=
  ⟨rfl, rfl, ⟨_, rfl, rfl⟩, rfl, rfl, ⟨_, rfl, rfl⟩, trivial⟩
theorem indexed : ∀ c ∈ [conditionA, conditionB], ∃ index, mapGet env.indexes c.index = some index := by
  intro c hc
  simp only [List.mem_cons, List.not_mem_nil, or_false] at hc
  rcases hc with rfl | rfl <;> exact ⟨_, rfl⟩
theorem accepted : ∀ c ∈ [conditionA, conditionB], acceptable c.index c.property c.value := by
  intro c hc
  simp only [List.mem_cons, List.not_mem_nil, or_false] at hc
  rcases hc with rfl | rfl
  · exact ⟨⟨⟨"a", "BINARY"⟩, .head _, rfl⟩, _, .text _⟩
  · exact ⟨⟨⟨"b", "BINARY"⟩, .head _, rfl⟩, _, .text _⟩
end AnyOrderExample

/-- first=x on one SQLite index that gives its rows backwards: two records are found, in some order. -/
example : ∃ found : List Rec, (∀ r, r ∈ found ↔ r ∈ [textRec 0 [("a", "x"), ("b", "y")], textRec 7 [("a", "x"), ("b", "z")]]) ∧ (found.map Rec.position).Nodup ∧
    ListsRecords AnyOrderExample.env [] (found.take 100) (handleArray AnyOrderExample.env AnyOrderExample.array [("first", [120])]) := by
  obtain ⟨kept, found, h1, h2, h3⟩ := C119_list_partial AnyOrderExample.env AnyOrderExample.array [("first", [120])] _ _ _ _ rfl AnyOrderExample.data [AnyOrderExample.conditionA]
    AnyOrderExample.reads_a (fun c hc => AnyOrderExample.indexed c (List.mem_cons.2 (.inl (List.mem_singleton.1 hc))))
    (fun c hc => AnyOrderExample.accepted c (List.mem_cons.2 (.inl (List.mem_singleton.1 hc)))) 100 0 (.inl ⟨rfl, rfl⟩) (.inl ⟨rfl, rfl⟩) (by decide)
  have hsat : ∀ r, (∀ c ∈ kept, AnyOrderExample.sat c.index c.property c.value r = true) ↔ AnyOrderExample.sat "ia" "a" (.str [120]) r = true := by
    intro r
    constructor
    · intro h
      obtain ⟨k, k1, _, _⟩ := h1.asked _ (.head _)
      have := h k k1
      rw [List.mem_singleton.1 (h1.chosen k k1)] at this
      exact this
    · intro h c hc
      rw [List.mem_singleton.1 (h1.chosen c hc)]
      exact h
  have hone : OneIndex kept := by
    intro c hc c' hc'
    rw [List.mem_singleton.1 (h1.chosen c hc), List.mem_singleton.1 (h1.chosen c' hc')]
  refine ⟨found, fun r => ?_, h2.once, h3⟩
  have : r ∈ found ↔ r ∈ AnyOrderExample.recs ∧ AnyOrderExample.sat "ia" "a" (.str [120]) r = true := by
    rw [← hsat]
    exact ⟨h2.right r, fun h => h2.complete hone r h.1 h.2⟩
  rw [this, ← List.mem_filter]
  exact Iff.rfl

/-- Likewise for the object: it is found. -/
example : handleObject AnyOrderExample.env AnyOrderExample.object [("first", [120])] ≠ .notFound := by
  obtain ⟨kept, found, h1, h2, h3⟩ := C119_object_partial AnyOrderExample.env AnyOrderExample.object [("first", [120])] _ _ _ _ rfl AnyOrderExample.data [AnyOrderExample.conditionA]
    ⟨rfl, rfl, ⟨_, rfl, rfl⟩, trivial⟩ (fun c hc => AnyOrderExample.indexed c (List.mem_cons.2 (.inl (List.mem_singleton.1 hc))))
    (fun c hc => AnyOrderExample.accepted c (List.mem_cons.2 (.inl (List.mem_singleton.1 hc))))
  intro h
  rcases h3 with ⟨rfl, _⟩ | ⟨r, _, ⟨_, e, _⟩ | ⟨_, e, _⟩⟩
  · have := h2.complete (by
      intro c hc c' hc'
      rw [List.mem_singleton.1 (h1.chosen c hc), List.mem_singleton.1 (h1.chosen c' hc')]) (textRec 0 [("a", "x"), ("b", "y")]) (.head _) (by
      intro c hc
      rw [List.mem_singleton.1 (h1.chosen c hc)]
      rfl)
    cases this
  · rw [h] at e; cases e
  · rw [h] at e; cases e

/-- **C119** With conditions on two indexes, records that satisfy them all can be left out: first=x&second=y on two SQLite indexes that give their rows backwards is answered with an empty
list, although the first record has both values. -/
theorem C119_false : ∃ (env : OutputEnv) (c : ArrayConfig) (params : GoMap Bytes) (input : Input) (records : List Rec) (sat : String → String → Value → Rec → Bool)
    (acceptable : String → String → Value → Prop) (conditions : List Condition),
    mapGet env.inputs c.input = some input ∧ AnyOrderData env input records sat acceptable ∧ Reads env (givenParameters c.parameters params) conditions ∧ Answerable env acceptable conditions ∧
    (∃ r ∈ records, ∀ c ∈ conditions, sat c.index c.property c.value r = true) ∧ handleArray env c params = .data (.arr []) := by
  refine ⟨AnyOrderExample.env, AnyOrderExample.array, [("first", [120]), ("second", [121])], _, _, _, _, _, rfl, AnyOrderExample.data, AnyOrderExample.reads_both,
    ⟨AnyOrderExample.indexed, AnyOrderExample.accepted, by decide⟩, ⟨textRec 0 [("a", "x"), ("b", "y")], .head _, ?_⟩, ?_⟩
  · intro c hc
    simp only [List.mem_cons, List.not_mem_nil, or_false] at hc
    rcases hc with rfl | rfl <;> rfl
  · have hf : arrayFilters AnyOrderExample.env [("first", [120]), ("second", [121])] (AnyOrderExample.env.visit [0] AnyOrderExample.array.parameters) [] =
        .ok [("ia", [("a", .str [120])]), ("ib", [("b", .str [121])])] := rfl
    have hp : filteredPositions AnyOrderExample.env [] AnyOrderExample.input [("ia", [("a", .str [120])]), ("ib", [("b", .str [121])])] = .ok [iterateList [7, 0], iterateList [9, 0]] := by
      have ha : mapGet AnyOrderExample.env.indexes "ia" = some (AnyOrderExample.opened AnyOrderExample.byA) := rfl
      have hb : mapGet AnyOrderExample.env.indexes "ib" = some (AnyOrderExample.opened AnyOrderExample.byB) := rfl
      have hv : ∀ (path : List Nat) (α : Type) (l : List α), AnyOrderExample.env.visit path l = l := fun _ _ _ => rfl
      simp only [filteredPositions, List.length_cons, List.length_nil, Nat.add_eq_zero_iff, hv, filteredPositionsLoop, ha, hb, AnyOrderExample.found_a, AnyOrderExample.found_b]
      rfl
    have hl : getLimit AnyOrderExample.array.limit [("first", [120]), ("second", [121])] = .ok 100 := by decide
    have ho : getOffset AnyOrderExample.array.offsetParameter [("first", [120]), ("second", [121])] = .ok 0 := by decide
    have hi : mapGet AnyOrderExample.env.inputs AnyOrderExample.array.input = some AnyOrderExample.input := rfl
    simp only [handleArray, hl, ho, hf, hi, hp, skipRows]
    rfl

/-- A disk whose databases are read in order is one whose databases are read in any order. -/
theorem Spec.DiskFor.anyOrder {config : ConfigLib} {lib : StartLib} {st : Storage} {p : ParsedConfig} {functions : GoMap (Bytes → Res Value)} {x : InputDecl} {records : List Rec}
    (h : DiskFor config lib st p functions x records) : DiskInAnyOrder config lib st p functions x records where
  index := h.index
  named := h.named
  rows := h.rows
  wildcard := h.wildcard
  sqlite d hd hx := ⟨⟨fun text rows => by rw [(h.sqlite d hd hx).1.plan], (h.sqlite d hd hx).1.complete⟩, (h.sqlite d hd hx).2⟩
  fts5 d hd hx := ⟨⟨fun text rows => by rw [(h.fts5 d hd hx).1.plan], (h.fts5 d hd hx).1.complete⟩, (h.fts5 d hd hx).2⟩

/-- A program that runs with a CSV file and indexes of every kind: number=1 on the SQLite index finds exactly the records with 1, each once. -/
example (parserLib : ParserLib) (c : Config) (hload : loadConfig ConfigExample.lib StoredFilesExample.parsed = .ok c) (running)
    (hstart : start ((StoredFilesExample.startLib parserLib).onFiles FilesExample.machine) c = .ok running) :
    ∃ (env : OutputEnv) (apis : GoMap OutputApi) (api : OutputApi) (records found : List Rec), mapGet apis "list" = some api ∧ (found.map Rec.position).Nodup ∧
      (∀ r, r ∈ found ↔ r ∈ records ∧ finds ConfigExample.lib StoredFilesExample.storage StoredFilesExample.parsed "q" "n" (.int 1) r = true) ∧
      ListsRecords env (completedRelationships StoredFilesExample.list.relationships) ((found.drop 0).take 100) (api.handle [("number", [49])] []) := by
  obtain ⟨texts, env, apis, hrun⟩ := C78_running _ _ _ _ _ hload ⟨.refl _, .refl _, .refl _, .refl _, .refl _⟩ running hstart
  have hw := (C76_accepted _ _).1 ⟨_, hload⟩
  obtain ⟨p1, p2⟩ := StoredFilesExample.parser hrun
  have hx : InputDecl.csv FilesExample.decl ∈ StoredFilesExample.parsed.inputs := .head _
  obtain ⟨⟨records, h⟩, _⟩ := (StoredFilesExample.data p1 p2 _ hx).records hrun hw hx
  have hdisk := ((StoredFilesExample.stored (parserLib := parserLib) p1 p2 _ hx).disk h rfl).anyOrder
  obtain ⟨api, ha, hl⟩ := C119_running_list_partial _ _ _ _ _ _ _ _ hrun hw StoredFilesExample.plain_default (fun _ _ _ => .refl _) "list" StoredFilesExample.list (.head _) _ hx rfl records
    (h.rows.mono (by decide)) hdisk
  obtain ⟨kept, found, k1, k2, k3⟩ := hl [("number", [49])] [] [⟨"q", "n", .int 1⟩] 100 0 ⟨rfl, rfl, ⟨_, p1, rfl⟩, trivial⟩ (by
    intro c hc i hi hn
    rw [List.mem_singleton.1 hc] at hi ⊢
    exact ⟨⟨_, .head _, rfl⟩, _, .int _⟩) (.inl ⟨rfl, rfl⟩) (.inl ⟨rfl, rfl⟩) (by decide)
  have hone : OneIndex kept := by
    intro c hc c' hc'
    rw [List.mem_singleton.1 (k1.chosen c hc), List.mem_singleton.1 (k1.chosen c' hc')]
  refine ⟨env, apis, api, records, found, ha, k2.once, fun r => ⟨fun hr => ⟨(k2.right r hr).1, ?_⟩, fun hr => k2.complete hone r hr.1 ?_⟩, k3⟩
  · obtain ⟨k, q1, _, _⟩ := k1.asked _ (.head _)
    have := (k2.right r hr).2 k q1
    rw [List.mem_singleton.1 (k1.chosen k q1)] at this
    exact this
  · intro c hc
    rw [List.mem_singleton.1 (k1.chosen c hc)]
    exact hr.2

end Rodb
