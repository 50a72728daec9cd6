import Verif.Spec.StoredFiles
import Verif.Props.RelatedFilesProps
import Verif.Props.StorageProps
/-
  C89: from the bytes of all the files to responses, with indexes of every kind.
-/
namespace Rodb
open Spec

variable {config : ConfigLib} {lib : StartLib} {files : Files} {p : ParsedConfig} {texts : GoMap TextParser} {env : OutputEnv} {apis : GoMap OutputApi}
  {running : GoMap (String × List Route)}

/-- The text of a property. -/
def columnText (r : Rec) (q : String) : Bytes :=
  match r.get q with
  | .ok (.str text) => text
  | _ => []

theorem ContentRecords.textTable {functions : GoMap (Bytes → Res Value)} {x : InputDecl} {asked : List String} {objects : List (GoMap Value)} {records : List Rec}
    (h : ContentRecords lib files p functions x (inputPath x) asked objects records) {st : Storage} {d : WildcardDecl} {e : InputDecl} {input : Input}
    (he : WithColumns (lib.onFiles files) (completedInput x) e) (hopen : openInput files e (declaredTypes p) functions = .ok input)
    (hd : WildcardOn files st d (inputPath x) asked objects input) : ∃ rows, TextTable input d.properties rows ∧ rows.map Row.record = records := by
  obtain ⟨_, content, hc, hsize, htime, hpos⟩ := h.opened e input he hopen
  obtain ⟨htab, _⟩ := h.rows.rows e input he hopen
  have hlen := hd.length content hc
  have hrec : (records.map (fun r => (⟨r, columnText r⟩ : Row))).map Row.record = records := by
    rw [List.map_map]
    exact List.map_id _
  refine ⟨records.map (fun r => ⟨r, columnText r⟩), ⟨?_, ?_, ?_, ?_, ?_, ?_⟩, hrec⟩
  · rw [htab.scan, List.map_map]
    rfl
  · intro row hrow q hq
    obtain ⟨r, hr, rfl⟩ := List.mem_map.1 hrow
    obtain ⟨text, ht⟩ := hd.texts _ (h.shown ▸ List.mem_map_of_mem hr) q hq
    have hg := (h.get r hr q (hd.asked q hq) _).2 ht
    simp only [columnText, hg]
  · rw [List.map_map]
    exact htab.increasing
  · intro row hrow
    obtain ⟨r, hr, rfl⟩ := List.mem_map.1 hrow
    obtain ⟨h1, h2⟩ := hpos r hr
    have : (⟨r, columnText r⟩ : Row).pos = r.position := rfl
    rw [this]
    unfold Int64Range
    omega
  · refine ⟨_, hsize, ?_⟩
    unfold Int64Range
    omega
  · exact ⟨_, htime, hd.time⟩

/-- The disk of the file is a disk of C80 for its records. -/
theorem Spec.StoredOn.disk {functions : GoMap (Bytes → Res Value)} {x : InputDecl} {asked : List String} {objects : List (GoMap Value)} {records : List Rec}
    (h : ContentRecords lib files p functions x (inputPath x) asked objects records) {st : Storage} (hst : lib.index = openIndex st)
    (hs : StoredOn config lib files st p functions x asked objects) : DiskFor config (lib.onFiles files) st p functions x records where
  index := hst
  named e input he hopen := (h.opened e input he hopen).1
  rows e input he hopen := (h.rows.rows e input he hopen).1.scan
  wildcard d hd hx e input he hopen := by
    have hw := hs.wildcard d hd hx e input he hopen
    exact ⟨h.textTable he hopen hw, hw.small, hw.count, hw.file⟩
  sqlite := hs.sqlite
  fts5 d hd hx := ⟨(hs.fts5 d hd hx).1, (hs.fts5 d hd hx).2.2⟩

theorem askedUnlessFullText (hw : WellFormed config p) {index : String} {i : IndexDecl} {q : String} {asked : List String} (hi : IsIndex p index i)
    (hq : isFullText p index = true ∨ q ∈ asked) (hn : ∀ d, i ≠ .fts5 d) : q ∈ asked := by
  rcases hq with h | h
  · obtain ⟨j, hj, hname⟩ := List.any_eq_true.1 h
    cases j with
    | fts5 d =>
      have hname : d.name = index := by simpa using hname
      exact (hn d (IsIndex.unique hw hi (.inl ⟨hj, hname⟩))).elim
    | map _ | noop _ | wildcard _ | sqlite _ => exact absurd hname (by simp)
  · exact h

theorem wildcardFinds_found {lower : Bytes → Bytes} {ignoreCase : Bool} {r : Rec} {q : String} {o : GoMap Value} (hv : ∀ v, r.get q = .ok v ↔ ValueAt o q v) (v : Value) :
    wildcardFinds lower ignoreCase r q v = true ↔ ∃ text query, ValueAt o q (.str text) ∧ v = .str query ∧
      if ignoreCase = true then lower query <:+: lower text else query <:+: text := by
  simp only [← hv]
  unfold wildcardFinds
  constructor
  · intro h
    split at h
    · rename_i text query hg
      refine ⟨text, query, hg, rfl, ?_⟩
      cases ignoreCase <;> simpa using h
    · cases h
  · rintro ⟨text, query, hg, rfl, h⟩
    rw [hg]
    cases ignoreCase <;> simpa using h

theorem sqliteSat_found {sql : SqlLib} {d : SqliteDecl} {r : Rec} {q : String} {o : GoMap Value} (hv : ∀ v, r.get q = .ok v ↔ ValueAt o q v) (v : Value) :
    sqliteSat sql d q v r = true ↔ ∃ x, ValueAt o q x ∧ ∃ c ∈ d.properties, c.name = q ∧ sqliteEquals sql c.collate x v = true := by
  simp only [← hv]
  unfold sqliteSat
  rw [List.any_eq_true]
  cases hg : r.get q with
  | ok x =>
    constructor
    · rintro ⟨c, hc, h⟩
      simp only [Bool.and_eq_true, decide_eq_true_eq] at h
      exact ⟨x, rfl, c, hc, h.1, h.2⟩
    · rintro ⟨y, hy, c, hc, h1, h2⟩
      cases hy
      exact ⟨c, hc, by simp [h1, h2]⟩
  | error e =>
    constructor
    · rintro ⟨c, hc, h⟩
      simp at h
    · rintro ⟨y, hy, _⟩
      cases hy

theorem storedProperty_at {r : Rec} {q : String} {o : GoMap Value} (hv : ∀ v, r.get q = .ok v ↔ ValueAt o q v) (s : SqlValue) : StoredAt o q s ↔ s = storedProperty r q := by
  unfold StoredAt storedProperty
  simp only [← hv]
  cases hg : r.get q with
  | ok x => simp
  | error e => simp

theorem ftsSat_found {sql : SqlLib} {d : Fts5Decl} {r : Rec} {o : GoMap Value} (hv : ∀ q ∈ d.properties, ∀ v, r.get q = .ok v ↔ ValueAt o q v) (v : Value) :
    ftsSat sql d v r = true ↔ ∃ (found : List SqlValue → Bool) (values : List SqlValue),
      sql.matches d.tokenize.toList (d.properties.map (·.toList)) (storedAs v) = some found ∧ values.length = d.properties.length ∧
      (∀ k (h : k < d.properties.length) (h' : k < values.length), StoredAt o d.properties[k] values[k]) ∧ found values = true := by
  unfold ftsSat
  constructor
  · intro h
    split at h
    · rename_i found hm
      refine ⟨found, _, hm, by rw [List.length_map], ?_, h⟩
      intro k hk hk'
      rw [storedProperty_at (hv _ (List.getElem_mem hk)), List.getElem_map]
    · cases h
  · rintro ⟨found, values, hm, hl, hs, h⟩
    rw [hm]
    have : values = d.properties.map (storedProperty r) := by
      apply List.ext_getElem (by rw [List.length_map, hl])
      intro k h1 h2
      have hk : k < d.properties.length := hl ▸ h1
      rw [List.getElem_map]
      exact (storedProperty_at (hv _ (List.getElem_mem hk)) _).1 (hs k hk h1)
    rw [← this]
    exact h

open Classical in
/-- What the indexes find among the records is what they find among the objects. -/
theorem finds_found {st : Storage} {x : InputDecl} {functions : GoMap (Bytes → Res Value)} {asked : List String} {objects : List (GoMap Value)} (hw : WellFormed config p)
    (hs : StoredOn config lib files st p functions x asked objects) {r : Rec} (hget : ∀ q ∈ asked, ∀ v, r.get q = .ok v ↔ ValueAt (shownOf r) q v)
    {index : String} {i : IndexDecl} {q : String} (hi : IsIndex p index i) (hse : Searches i x.name q) (hq : isFullText p index = true ∨ q ∈ asked) (v : Value) :
    finds config st p index q v r = foundIn config st p index q v (shownOf r) := by
  unfold foundIn
  rw [Bool.eq_iff_iff, decide_eq_true_eq]
  by_cases hplain : FindsEqual i
  · have hv := hget q (hq.resolve_left (isFullText_equal hw hi hplain))
    have hp : finds config st p index q v r = propEquals r q v ∧ (FoundIn config st p index q v (shownOf r) ↔ ∃ y, ValueAt (shownOf r) q y ∧ sameValue y v = true) := by
      unfold finds FoundIn
      cases h : declaredIndex p index with
      | none => exact ⟨rfl, Iff.rfl⟩
      | some j => rcases declaredIndex_equal hw hi hplain h with ⟨m, rfl⟩ | ⟨m, rfl⟩ <;> exact ⟨rfl, Iff.rfl⟩
    rw [hp.1, hp.2, propEquals_at hv v]
    unfold hasValueAt
    rw [decide_eq_true_eq]
  · have hmem : i ∈ p.indexes ∧ i.name = index := by
      rcases hi with ⟨h1, h2⟩ | ⟨_, h1, _⟩
      · exact ⟨h1, h2⟩
      · exact (hplain (.inr ⟨_, List.mem_singleton.1 h1⟩)).elim
    have hd := declaredIndex_of_mem hw hmem.1
    rw [hmem.2] at hd
    unfold finds FoundIn
    rw [hd]
    cases i with
    | map m => exact (hplain (.inl ⟨m, rfl⟩)).elim
    | noop n => exact (hplain (.inr ⟨n, rfl⟩)).elim
    | wildcard d =>
      have hv := hget q (askedUnlessFullText hw hi hq (fun _ h => by cases h))
      exact wildcardFinds_found hv v
    | sqlite d =>
      have hv := hget q (askedUnlessFullText hw hi hq (fun _ h => by cases h))
      exact sqliteSat_found hv v
    | fts5 d => exact ftsSat_found (d := completedFts5 d) (fun q hq => hget q ((hs.fts5 d hmem.1 hse.1).2.1 q hq)) v

/-- The records of a file whose indexes are on disk. -/
theorem Spec.FileContent.hold {parseFloat : Bytes → Res GoFloat} {x : InputDecl} {asked : List String} {objects : List (GoMap Value)} {st : Storage}
    (hrun : Running config (lib.onFiles files) p texts env apis running) (hw : WellFormed config p) (hx : x ∈ p.inputs)
    (hdata : FileContent files parseFloat p env.parsers x asked objects) (hst : lib.index = openIndex st) (hs : StoredOn config lib files st p env.parsers x asked objects) :
    ∃ records, RecordsHold config (lib.onFiles files) p env.parsers (finds config st p) (findable config st p) (foundIn config st p) x asked objects records := by
  obtain ⟨⟨records, h⟩, hf⟩ := hdata.records hrun hw hx
  exact ⟨records, h.rows, C80_indexes_find_partial config _ st p hw _ x records (hs.disk h hst), h.shown, h.all, h.get, hf,
    fun index i q v hi hse hq r hr => finds_found hw hs (h.get r hr) hi hse hq v⟩

/-- **C89** From the bytes of all the files to the bytes of the response, for lists, with indexes of every kind: in a running program whose inputs are CSV, JSON and XML files that hold
the objects of `tables`, and whose index files and databases do not exist yet or were left by earlier starts, a request to a route of a list output is answered with status 200 and
the JSON text of the array of exactly the objects that the asked indexes find (wildcard indexes: the text is contained; SQLite: equal for SQLite; full-text: the expression
matches; others: equal), in the order of the file, from the asked offset on, at most the asked limit of them, each shown with its relationships, which are found likewise. Of several parameters on one property of one index, one counts. -/
theorem C89_list_stored_partial (service : ServiceLib) (hlib : RegexpContract service.find) (formatFloat : Int → Bytes) (hencode : service.encode = encodeJson formatFloat) (config : ConfigLib)
    (lib : StartLib) (hsort : SortContract lib.sort) (files : Files) (p : ParsedConfig) (texts : GoMap TextParser) (env : OutputEnv) (apis : GoMap OutputApi)
    (running : GoMap (String × List Route)) (hrun : Running config (lib.onFiles files) p texts env apis running) (hw : WellFormed config p) (hdef : PlainDefault p)
    (hvisit : ∀ (path : List Nat) (α : Type) (l : List α), (lib.visit path l).Perm l)
    (s : ServiceDecl) (hs : s ∈ p.services) (k : Nat) (hk : k < s.routes.length) (d : ArrayConfig) (ho : .array s.routes[k].output d ∈ p.outputs)
    (first : List Char) (placeholders : List (List Char × List Char)) (hpath : s.routes[k].path.toList = template first placeholders)
    (hg : GoodTemplate first placeholders) (parsers : List TextParser) (hp : PlaceholderParsers (lib.onFiles files) p d.parameters placeholders parsers)
    (hr : ∀ p ∈ parsers, RouteParser p) (hu : ∀ p ∈ parsers.dropLast, Ungrouped p)
    (parseFloat : Bytes → Res GoFloat) (asked : String → List String) (tables : String → List (GoMap Value))
    (st : Storage) (hst : lib.index = openIndex st)
    (hdata : ∀ x ∈ p.inputs, FileContent files parseFloat p env.parsers x (asked x.name) (tables x.name))
    (hstored : ∀ x ∈ p.inputs, StoredOn config lib files st p env.parsers x (asked x.name) (tables x.name))
    (hasked : ∀ q ∈ filteredValues p d.parameters, q ∈ asked d.input)
    (hfits : FitsObjects p (Askable config st p) asked tables (depthOf d.relationships) d.input d.relationships) :
    ∃ routes, mapGet running s.name = some ("application/json", routes) ∧ ∃ h : k < routes.length,
      (∀ request : Request, Suits routes[k] request ↔
        request.method = "GET" ∧ ∃ given, PlaceholderTexts parsers given ∧ request.path = filled first placeholders given) ∧
      ∀ request : Request, FirstSuiting routes request routes[k] → GoodQuery request.query →
        ∃ given, PlaceholderTexts parsers given ∧ request.path = filled first placeholders given ∧
          ∀ params : GoMap Bytes, params = requestParameters (placeholders.map (fun p => String.ofList p.1)) given request.query →
          ∀ (conditions : List Condition) (limit offset : Nat),
            Reads env (givenParameters (d.parameters.map (fun e => (e.1, completedParameter e.2))) params) conditions →
            (∀ c ∈ conditions, Askable config st p c.index c.property c.value) →
            AskedLimit ⟨orNumber d.limit.default 100, orNumber d.limit.max 1000, orText d.limit.parameter "limit"⟩ params limit →
            AskedOffset (orText d.offsetParameter "offset") params offset → min limit (orNumber d.limit.max 1000) < 2^63 →
            ∃ kept, OneForEach conditions kept ∧
            let window := (((tables d.input).filter (fun o => kept.all (fun c => foundIn config st p c.index c.property c.value o))).drop offset).take
              (min limit (orNumber d.limit.max 1000))
            ∃ response, clientGets (handleRequest service "application/json" routes request) = some response ∧ response.status = 200 ∧
              mapGet response.headers "Content-Type" = some "application/json; charset=UTF-8" ∧
              ∃ rows : List (GoMap Value), encodeJson formatFloat (.arr (rows.map .obj)) = .ok response.body ∧ rows.length = window.length ∧
                ∀ k (h : k < window.length) (h' : k < rows.length), ShownWith (foundIn config st p) tables (depthOf d.relationships) window[k] d.relationships rows[k] := by
  obtain ⟨routes, h1, h2, h3, h4⟩ := list_from_tables service hlib formatFloat hencode config lib hsort files p texts env apis running hrun hw hdef hvisit s hs k hk d ho first placeholders hpath hg parsers hp hr hu asked
    tables _ _ (foundIn config st p) (Askable config st p) (fun _ i _ _ hi hne h => (h i hi).resolve_left hne)
    (fun x hx => Spec.FileContent.hold hrun hw hx (hdata x hx) hst (hstored x hx)) hasked hfits
  refine ⟨routes, h1, h2, h3, fun request hf hq => ?_⟩
  obtain ⟨given, h5, h6, _, h7⟩ := h4 request hf hq
  exact ⟨given, h5, h6, h7⟩

/-- **C89** From the bytes of all the files to the bytes of the response, for objects, with indexes of every kind: status 200 and the JSON text of the first object that all the
asked indexes find, shown with its relationships, or status 404 if there is none. -/
theorem C89_object_stored_partial (service : ServiceLib) (hlib : RegexpContract service.find) (formatFloat : Int → Bytes) (hencode : service.encode = encodeJson formatFloat) (config : ConfigLib)
    (lib : StartLib) (hsort : SortContract lib.sort) (files : Files) (p : ParsedConfig) (texts : GoMap TextParser) (env : OutputEnv) (apis : GoMap OutputApi)
    (running : GoMap (String × List Route)) (hrun : Running config (lib.onFiles files) p texts env apis running) (hw : WellFormed config p) (hdef : PlainDefault p)
    (hvisit : ∀ (path : List Nat) (α : Type) (l : List α), (lib.visit path l).Perm l)
    (s : ServiceDecl) (hs : s ∈ p.services) (k : Nat) (hk : k < s.routes.length) (d : ObjectConfig) (ho : .object s.routes[k].output d ∈ p.outputs)
    (first : List Char) (placeholders : List (List Char × List Char)) (hpath : s.routes[k].path.toList = template first placeholders)
    (hg : GoodTemplate first placeholders) (parsers : List TextParser) (hp : PlaceholderParsers (lib.onFiles files) p d.parameters placeholders parsers)
    (hr : ∀ p ∈ parsers, RouteParser p) (hu : ∀ p ∈ parsers.dropLast, Ungrouped p)
    (parseFloat : Bytes → Res GoFloat) (asked : String → List String) (tables : String → List (GoMap Value))
    (st : Storage) (hst : lib.index = openIndex st)
    (hdata : ∀ x ∈ p.inputs, FileContent files parseFloat p env.parsers x (asked x.name) (tables x.name))
    (hstored : ∀ x ∈ p.inputs, StoredOn config lib files st p env.parsers x (asked x.name) (tables x.name))
    (hasked : ∀ q ∈ filteredValues p d.parameters, q ∈ asked d.input)
    (hfits : FitsObjects p (Askable config st p) asked tables (depthOf d.relationships) d.input d.relationships) :
    ∃ routes, mapGet running s.name = some ("application/json", routes) ∧ ∃ h : k < routes.length,
      (∀ request : Request, Suits routes[k] request ↔
        request.method = "GET" ∧ ∃ given, PlaceholderTexts parsers given ∧ request.path = filled first placeholders given) ∧
      ∀ request : Request, FirstSuiting routes request routes[k] → GoodQuery request.query →
        ∃ given, PlaceholderTexts parsers given ∧ request.path = filled first placeholders given ∧
          ∀ params : GoMap Bytes, params = requestParameters (placeholders.map (fun p => String.ofList p.1)) given request.query →
          ∀ conditions : List Condition, Reads env (allParameters (d.parameters.map (fun e => (e.1, completedParameter e.2))) params) conditions →
            (∀ c ∈ conditions, Askable config st p c.index c.property c.value) →
            ∃ kept, OneForEach conditions kept ∧ ∃ response, clientGets (handleRequest service "application/json" routes request) = some response ∧
              match (tables d.input).find? (fun o => kept.all (fun c => foundIn config st p c.index c.property c.value o)) with
              | none => response.status = 404
              | some o => response.status = 200 ∧ mapGet response.headers "Content-Type" = some "application/json; charset=UTF-8" ∧
                  ∃ shown, encodeJson formatFloat (.obj shown) = .ok response.body ∧ ShownWith (foundIn config st p) tables (depthOf d.relationships) o d.relationships shown := by
  obtain ⟨routes, h1, h2, h3, h4⟩ := object_from_tables service hlib formatFloat hencode config lib hsort files p texts env apis running hrun hw hdef hvisit s hs k hk d ho first placeholders hpath hg parsers hp hr hu asked
    tables _ _ (foundIn config st p) (Askable config st p) (fun _ i _ _ hi hne h => (h i hi).resolve_left hne)
    (fun x hx => Spec.FileContent.hold hrun hw hx (hdata x hx) hst (hstored x hx)) hasked hfits
  refine ⟨routes, h1, h2, h3, fun request hf hq => ?_⟩
  obtain ⟨given, h5, h6, _, h7⟩ := h4 request hf hq
  exact ⟨given, h5, h6, h7⟩

namespace StoredFilesExample
/-- The CSV file of `FilesExample` with a wildcard index and a full-text index on its texts and a SQLite index on its numbers, and the route /all to the list of the rows, each with
the rows of the same number. -/
def list : ArrayConfig where
  input := "in"
  limit := ⟨0, 0, ""⟩
  offsetParameter := ""
  parameters := [("part", { property := "s", index := "w", parser := "string" }), ("number", { property := "n", index := "q", parser := "integer" }),
                 ("word", { property := "match", index := "f", parser := "string" })]
  relationships := [("twins", .mk "in" true 0 [⟨"s", some false⟩] [⟨"n", "n", "q"⟩] [])]
def one : ObjectConfig := { input := "in", parameters := [("word", { property := "match", index := "f", parser := "string" })], relationships := list.relationships }
def web : ServiceDecl := { name := "web", http := some "", https := none, errorsType := "", routes := [⟨"list", "/all"⟩, ⟨"one", "/one"⟩] }
/-- A second service, without the wildcard index. -/
def numbers : ArrayConfig := { input := "in", limit := ⟨0, 0, ""⟩, offsetParameter := "", parameters := [("number", { property := "n", index := "q", parser := "integer" })],
                               relationships := list.relationships }
def api : ServiceDecl := { name := "api", http := some "", https := none, errorsType := "", routes := [⟨"one", "/one"⟩, ⟨"numbers", "/by/{number}"⟩] }
def wildcard : WildcardDecl := { name := "w", path := "in.w", input := "in", properties := ["s"], ignoreCase := some true }
def sqlite : SqliteDecl := { name := "q", dsn := "in.sqlite", input := "in", properties := [⟨"n", ""⟩] }
def fts5 : Fts5Decl := { name := "f", dsn := "in.fts", input := "in", prefixes := [], tokenize := "", properties := ["s"] }
def parsed : ParsedConfig where
  parsers := []
  inputs := [.csv FilesExample.decl]
  indexes := [.wildcard wildcard, .sqlite sqlite, .fts5 fts5]
  services := [web, api]
  outputs := [.array "list" list, .object "one" one, .array "numbers" numbers]
/-- The first start: no file of the wildcard index, empty databases. -/
def storage : Storage where
  lower := WildcardExample.lower
  sql := wordLib
  file _ := none
  db _ := emptyDb
def startLib (parserLib : ParserLib) : StartLib := { ConfigExample.startLib parserLib with sort := goInsertionSort, index := openIndex storage }
def asked (_ : String) : List String := ["n", "s"]
def tables (_ : String) : List (GoMap Value) := FilesExample.objects
theorem starts : ∃ c, loadConfig ConfigExample.lib parsed = .ok c ∧ ∃ running, start ((startLib FilesExample.noParsers).onFiles FilesExample.machine) c = .ok running := by
  have h : (match loadConfig ConfigExample.lib parsed with
      | .ok c => (match start ((startLib FilesExample.noParsers).onFiles FilesExample.machine) c with | .ok _ => true | .error _ => false)
      | .error _ => false) = true := by decide +kernel
  cases hc : loadConfig ConfigExample.lib parsed with
  | error e => rw [hc] at h; cases h
  | ok c =>
    rw [hc] at h
    simp only at h
    refine ⟨c, rfl, ?_⟩
    cases hs : start ((startLib FilesExample.noParsers).onFiles FilesExample.machine) c with
    | error e => rw [hs] at h; cases h
    | ok running => exact ⟨running, rfl⟩
theorem plain_default : PlainDefault parsed := by
  intro i hi
  rcases hi with ⟨h, e⟩ | ⟨_, h, _⟩
  · simp only [parsed, List.mem_cons, List.not_mem_nil, or_false] at h
    rcases h with rfl | rfl | rfl <;> exact absurd e (by decide)
  · exact ⟨_, List.mem_singleton.1 h⟩
theorem parser {parserLib : ParserLib} {texts : GoMap TextParser} {env : OutputEnv} {apis : GoMap OutputApi} {running : GoMap (String × List Route)}
    (hrun : Running ConfigExample.lib ((startLib parserLib).onFiles FilesExample.machine) parsed texts env apis running) :
    mapGet env.parsers "integer" = some (integerParse []) ∧ mapGet env.parsers "string" = some (fun cell => .ok (.str cell)) := by
  have key : ∀ {n x}, IsParser parsed n x → ∃ t, RunsParser ((startLib parserLib).onFiles FilesExample.machine) (completedParser x) t ∧ mapGet env.parsers n =
      some (Rodb.parse parserLib (texts.map (fun q => (q.1, q.2.config))) texts.length t.config) := by
    intro n x hx
    obtain ⟨t, ht, hr⟩ := hrun.parsers _ _ hx
    refine ⟨t, hr, ?_⟩
    rw [hrun.functions, parseFunctions, mapGet_mapValues (fun q : TextParser => Rodb.parse ((startLib parserLib).onFiles FilesExample.machine).parserLib
      (texts.map (fun q => (q.1, q.2.config))) texts.length q.config), ht]
    rfl
  obtain ⟨t, ht, h⟩ := key (n := "integer") (x := ⟨"integer", .integer ""⟩) (.inr ⟨by simp [parsed], by simp [builtinParsers], rfl⟩)
  obtain ⟨u, hu, g⟩ := key (n := "string") (x := ⟨"string", .string ""⟩) (.inr ⟨by simp [parsed], by simp [builtinParsers], rfl⟩)
  rw [show t = .integer [] from ht] at h
  rcases hu with ⟨_, rfl⟩ | ⟨hc, _⟩
  · refine ⟨?_, ?_⟩
    · rw [h]
      congr 1
      funext cell
      show Rodb.parse _ _ _ (.integer []) cell = _
      simp only [Rodb.parse]
    · rw [g]
      congr 1
      funext cell
      show Rodb.parse _ _ _ (.string none) cell = _
      simp only [Rodb.parse, stringParse]
  · exact (hc rfl).elim
theorem data {functions : GoMap (Bytes → Res Value)} (h1 : mapGet functions "integer" = some (integerParse []))
    (h2 : mapGet functions "string" = some (fun cell => .ok (.str cell))) :
    ∀ x ∈ parsed.inputs, FileContent FilesExample.machine JsonExample.parse parsed functions x (asked x.name) (tables x.name) := by
  intro x hx
  cases List.mem_singleton.1 hx
  have hrow : ∀ a b v, integerParse [] a = .ok v → RowReads functions [⟨"n", "integer"⟩, ⟨"s", "string"⟩] [a, b] [("n", v), ("s", .str b)] :=
    fun a b v h => ⟨_, _, _, h1, h, ⟨_, _, _, h2, rfl, rfl, rfl⟩, rfl⟩
  refine ⟨⟨_, _, FilesExample.file, ⟨_, _, hrow _ _ _ rfl, ⟨_, _, hrow _ _ _ rfl, ⟨_, _, hrow _ _ _ rfl, rfl, rfl⟩, rfl⟩, rfl⟩, ?_, ?_⟩, ?_⟩
  · intro q hq
    have hq : q ∈ ["n", "s"] := hq
    simp only [List.mem_cons, List.not_mem_nil, or_false] at hq
    rcases hq with rfl | rfl
    · exact ⟨⟨"n", [], rfl, by decide⟩, fun o _ => ⟨_, (valueAt_name (by decide)).2 rfl⟩⟩
    · exact ⟨⟨"s", [], rfl, by decide⟩, fun o _ => ⟨_, (valueAt_name (by decide)).2 rfl⟩⟩
  · intro m hm
    simp [parsed] at hm
  · intro o ho
    simp only [tables, FilesExample.objects, List.mem_cons, List.not_mem_nil, or_false] at ho
    rcases ho with rfl | rfl | rfl <;> (intro h; cases h with | @obj m k v hm hv => simp at hm; rcases hm with ⟨_, rfl⟩ | ⟨_, rfl⟩ <;> cases hv)
/-- The input that is opened. -/
def opened : Input :=
  csvAsInput { columns := [⟨"n", integerParse []⟩, ⟨"s", fun cell => .ok (.str cell)⟩], ignoreFirstRow := true, reader := csvReader 44 } "in"
    [110, 44, 115, 10, 49, 44, 97, 10, 49, 44, 98, 13, 10, 10, 50, 44, 34, 99, 34, 34, 34] 0 (fun _ => [3, 7])
    (fun _ => ({ content := [110, 44, 115, 10, 49, 44, 97, 10, 49, 44, 98, 13, 10, 10, 50, 44, 34, 99, 34, 34, 34], offset := 5, buffer := [] }, [100]))
theorem stored {parserLib : ParserLib} {functions : GoMap (Bytes → Res Value)} (h1 : mapGet functions "integer" = some (integerParse []))
    (h2 : mapGet functions "string" = some (fun cell => .ok (.str cell))) :
    ∀ x ∈ parsed.inputs, StoredOn ConfigExample.lib (startLib parserLib) FilesExample.machine storage parsed functions x (asked x.name) (tables x.name) := by
  intro x hx
  cases List.mem_singleton.1 hx
  have hopen : ∀ e input, WithColumns ((startLib parserLib).onFiles FilesExample.machine) (completedInput (.csv FilesExample.decl)) e →
      openInput FilesExample.machine e (declaredTypes parsed) functions = .ok input → input = opened := by
    intro e input he h
    rw [show e = completedInput (.csv FilesExample.decl) from he] at h
    have : openInput FilesExample.machine (completedInput (.csv FilesExample.decl)) (declaredTypes parsed) functions = .ok opened := by
      have hcolumns : CsvDecl.csvColumns { FilesExample.decl with columns := [⟨"n", "integer"⟩, ⟨"s", "string"⟩] } functions =
          [⟨"n", integerParse []⟩, ⟨"s", fun cell => .ok (.str cell)⟩] := by
        simp only [CsvDecl.csvColumns, List.map_cons, List.map_nil, h1, h2]
      unfold opened
      rw [← hcolumns]
      rfl
    rw [this] at h
    exact (Except.ok.inj h).symm
  refine ⟨?_, ?_, ?_⟩
  · intro d hd _ e input he h
    cases hopen e input he h
    simp only [parsed, List.mem_cons, IndexDecl.wildcard.injEq, reduceCtorEq, List.not_mem_nil, or_false] at hd
    subst hd
    refine ⟨by decide, ?_, ?_, by unfold Int64Range; decide, by decide +kernel, by decide, .inl rfl⟩
    · intro o ho q hq
      rw [List.mem_singleton.1 hq]
      have ho : o ∈ FilesExample.objects := ho
      simp only [FilesExample.objects, List.mem_cons, List.not_mem_nil, or_false] at ho
      rcases ho with rfl | rfl | rfl <;> exact ⟨_, (valueAt_name (by decide)).2 rfl⟩
    · intro content hc
      cases hc
      decide
  · intro d hd _
    simp only [parsed, List.mem_cons, IndexDecl.sqlite.injEq, reduceCtorEq, List.not_mem_nil, or_false, false_or] at hd
    subst hd
    refine ⟨⟨fun _ _ => rfl, fun _ => rfl⟩, fun e i _ h => ⟨by unfold NoNul; decide, ?_, ?_, emptyDb, [], fun _ => rfl, by simp, by simp, rfl⟩⟩
    · intro q hq
      rw [List.mem_singleton.1 hq]
      unfold NoNul
      decide
    · intro s hs
      cases hs
  · intro d hd _
    simp only [parsed, List.mem_cons, IndexDecl.fts5.injEq, reduceCtorEq, List.not_mem_nil, or_false, false_or] at hd
    subst hd
    refine ⟨⟨fun _ _ => rfl, fun _ => rfl⟩, by decide, fun e i _ h => ⟨by unfold NoNul; decide, ?_, ?_, emptyDb, [], fun _ => rfl, by simp, by simp, rfl⟩⟩
    · intro q hq
      rw [List.mem_singleton.1 hq]
      unfold NoNul
      decide
    · intro s hs
      cases hs
      decide
theorem askable_q (v : Value) (w : SqlValue) (h : Stands v w) : Askable ConfigExample.lib storage parsed "q" "n" v :=
  fun _ _ => .inr ⟨⟨_, .head _, rfl⟩, _, h⟩
theorem askable_f (text : Bytes) : Askable ConfigExample.lib storage parsed "f" "match" (.str text) := fun _ _ => .inr ⟨rfl, _, .text _⟩
theorem askable_w (text : Bytes) (h : WildcardExample.lower text ≠ []) : Askable ConfigExample.lib storage parsed "w" "s" (.str text) :=
  fun _ _ => .inr ⟨.head _, _, rfl, h⟩
theorem fits : FitsObjects parsed (Askable ConfigExample.lib storage parsed) asked tables (depthOf list.relationships) "in" list.relationships := by
  refine ⟨by decide, ?_⟩
  intro name input isArray limit sort ms nested hm
  cases List.mem_singleton.1 hm
  refine ⟨by decide, ?_, ?_, ?_, ?_, rfl⟩
  · intro m _ other ho hne
    exact (hne (List.mem_singleton.1 ho)).elim
  · decide
  · decide
  · intro o ho m hm
    cases List.mem_singleton.1 hm
    have ho : o ∈ FilesExample.objects := ho
    simp only [FilesExample.objects, List.mem_cons, List.not_mem_nil, or_false] at ho
    rcases ho with rfl | rfl | rfl <;> exact ⟨_, rfl, trivial, askable_q _ _ (.int _)⟩
open Classical in
theorem found_w (o : GoMap Value) (text : Bytes) : foundIn ConfigExample.lib storage parsed "w" "s" (.str text) o =
    match (o.lookup "s").getD .null with
    | .str t => decide (WildcardExample.lower text <:+: WildcardExample.lower t)
    | _ => false := by
  unfold foundIn
  rw [Bool.eq_iff_iff, decide_eq_true_eq]
  show (∃ t query, ValueAt o "s" (.str t) ∧ Value.str text = .str query ∧ WildcardExample.lower query <:+: WildcardExample.lower t) ↔ _
  simp only [valueAt_name (name := "s") (by decide)]
  constructor
  · rintro ⟨t, query, h1, h2, h3⟩
    cases h2
    rw [← h1]
    simpa using h3
  · intro h
    split at h
    · rename_i t ht
      exact ⟨t, text, ht.symm, rfl, by simpa using h⟩
    · cases h
open Classical in
theorem found_q (o : GoMap Value) (v : Value) : foundIn ConfigExample.lib storage parsed "q" "n" v o =
    sqliteEquals wordLib "BINARY" ((o.lookup "n").getD .null) v := by
  unfold foundIn
  rw [Bool.eq_iff_iff, decide_eq_true_eq]
  show (∃ x, ValueAt o "n" x ∧ ∃ q ∈ [(⟨"n", "BINARY"⟩ : SqlitePropertyDecl)], q.name = "n" ∧ sqliteEquals wordLib q.collate x v = true) ↔ _
  simp only [valueAt_name (name := "n") (by decide), List.mem_singleton]
  constructor
  · rintro ⟨x, h1, q, rfl, _, h3⟩
    rw [← h1]
    exact h3
  · intro h
    exact ⟨_, rfl, _, rfl, rfl, h⟩
open Classical in
theorem found_f (n : Int) (t text : Bytes) (h : 34 ∉ text) : foundIn ConfigExample.lib storage parsed "f" "match" (.str text) [("n", .int n), ("s", .str t)] = decide (t = text) := by
  unfold foundIn
  rw [Bool.eq_iff_iff, decide_eq_true_eq, decide_eq_true_eq]
  refine (ftsSat_found (sql := wordLib) (d := completedFts5 fts5) (r := jsonRecord [("n", .int n), ("s", .str t)] 0) (fun q hq v => ?_) (.str text)).symm.trans ?_
  · rw [List.mem_singleton.1 hq, valueAt_name (by decide)]
    constructor
    · intro h
      cases h
      rfl
    · rintro rfl
      rfl
  · show (match (if 34 ∈ text then none else some (fun values : List SqlValue => values.any (fun v => v = .text text))) with
      | some found => found [.text t]
      | none => false) = true ↔ _
    rw [if_neg h]
    simp
end StoredFilesExample

/-- GET /all?part=B&number=1: the row 1,b, with its twins. -/
example (service : ServiceLib) (hlib : RegexpContract service.find) (hencode : service.encode = encodeJson JsonExample.format) (parserLib : ParserLib) (c : Config)
    (hload : loadConfig ConfigExample.lib StoredFilesExample.parsed = .ok c) (running)
    (hstart : start ((StoredFilesExample.startLib parserLib).onFiles FilesExample.machine) c = .ok running) :
    ∃ routes, mapGet running "web" = some ("application/json", routes) ∧ ∃ response,
      clientGets (handleRequest service "application/json" routes (RelatedFilesExample.request "/all" [("part", [[66]]), ("number", [[49]])])) = some response ∧
        response.status = 200 ∧ ∃ row : GoMap Value, encodeJson JsonExample.format (.arr [.obj row]) = .ok response.body ∧
          row.lookup "n" = some (.int 1) ∧ row.lookup "s" = some (.str [98]) := by
  obtain ⟨texts, env, apis, hrun⟩ := C78_running _ _ _ _ _ hload ⟨.refl _, .refl _, .refl _, .refl _, .refl _⟩ running hstart
  have hw := (C76_accepted _ _).1 ⟨_, hload⟩
  obtain ⟨p1, p2⟩ := StoredFilesExample.parser hrun
  obtain ⟨routes, h1, hk, h2, h3⟩ := C89_list_stored_partial service hlib _ hencode _ _ goInsertionSort_contract _ _ _ _ _ _ hrun hw StoredFilesExample.plain_default
    (fun _ _ _ => .refl _) StoredFilesExample.web (.head _) 0 (by decide) StoredFilesExample.list (.head _) "/all".toList [] rfl
    (JsonFilesExample.good _ (by unfold PlainText; decide)) [] trivial (by simp) (by simp) JsonExample.parse StoredFilesExample.asked StoredFilesExample.tables
    StoredFilesExample.storage rfl (StoredFilesExample.data p1 p2) (StoredFilesExample.stored p1 p2) (by decide) StoredFilesExample.fits
  refine ⟨routes, h1, ?_⟩
  match routes, hk, h2, h3 with
  | route :: rest, hk, h2, h3 =>
    obtain ⟨given, h4, h5, h6⟩ := h3 (RelatedFilesExample.request "/all" [("part", [[66]]), ("number", [[49]])])
      ⟨[], rest, rfl, (h2 _).2 ⟨rfl, [], trivial, rfl⟩, by simp⟩ ⟨by decide, by decide⟩
    match given, h4 with
    | [], _ =>
      obtain ⟨kept, hkept, h7⟩ := h6 _ rfl [⟨"w", "s", .str [66]⟩, ⟨"q", "n", .int 1⟩] 100 0
        ⟨rfl, rfl, ⟨_, p2, rfl⟩, rfl, rfl, ⟨_, p1, rfl⟩, trivial⟩
        (by
          intro c hc
          simp only [List.mem_cons, List.not_mem_nil, or_false] at hc
          rcases hc with rfl | rfl
          · exact StoredFilesExample.askable_w _ (by decide)
          · exact StoredFilesExample.askable_q _ _ (.int _))
        (.inl ⟨rfl, rfl⟩) (.inl ⟨rfl, rfl⟩) (by decide)
      simp only [hkept.all_eq (by decide)] at h7
      obtain ⟨response, g1, g2, _, rows, g4, g5, g6⟩ := h7
      have hwindow : (StoredFilesExample.tables StoredFilesExample.list.input).filter (fun o => [(⟨"w", "s", .str [66]⟩ : Condition), ⟨"q", "n", .int 1⟩].all
          (fun c => foundIn ConfigExample.lib StoredFilesExample.storage StoredFilesExample.parsed c.index c.property c.value o)) = [[("n", .int 1), ("s", .str [98])]] := by
        simp only [List.all_cons, List.all_nil, Bool.and_true, StoredFilesExample.found_w, StoredFilesExample.found_q]
        rfl
      simp only [hwindow] at g5 g6
      match rows, g4, g5, g6 with
      | [row], g4, _, g6 =>
        obtain ⟨g7, _⟩ := g6 0 (by decide) (by simp)
        exact ⟨response, g1, g2, row, g4, g7 _ (by decide), g7 _ (by decide)⟩

/-- GET /one?word=b: the row 1,b. -/
example (service : ServiceLib) (hlib : RegexpContract service.find) (hencode : service.encode = encodeJson JsonExample.format) (parserLib : ParserLib) (c : Config)
    (hload : loadConfig ConfigExample.lib StoredFilesExample.parsed = .ok c) (running)
    (hstart : start ((StoredFilesExample.startLib parserLib).onFiles FilesExample.machine) c = .ok running) :
    ∃ routes, mapGet running "web" = some ("application/json", routes) ∧ ∃ h : 1 < routes.length,
      FirstSuiting routes (RelatedFilesExample.request "/one" [("word", [[98]])]) routes[1] → ∃ response,
      clientGets (handleRequest service "application/json" routes (RelatedFilesExample.request "/one" [("word", [[98]])])) = some response ∧
        response.status = 200 ∧ ∃ row : GoMap Value, encodeJson JsonExample.format (.obj row) = .ok response.body ∧
          row.lookup "n" = some (.int 1) ∧ row.lookup "s" = some (.str [98]) := by
  obtain ⟨texts, env, apis, hrun⟩ := C78_running _ _ _ _ _ hload ⟨.refl _, .refl _, .refl _, .refl _, .refl _⟩ running hstart
  have hw := (C76_accepted _ _).1 ⟨_, hload⟩
  obtain ⟨p1, p2⟩ := StoredFilesExample.parser hrun
  obtain ⟨routes, h1, hk, h2, h3⟩ := C89_object_stored_partial service hlib _ hencode _ _ goInsertionSort_contract _ _ _ _ _ _ hrun hw StoredFilesExample.plain_default
    (fun _ _ _ => .refl _) StoredFilesExample.web (.head _) 1 (by decide) StoredFilesExample.one (.tail _ (.head _)) "/one".toList [] rfl
    (JsonFilesExample.good _ (by unfold PlainText; decide)) [] trivial (by simp) (by simp) JsonExample.parse StoredFilesExample.asked StoredFilesExample.tables
    StoredFilesExample.storage rfl (StoredFilesExample.data p1 p2) (StoredFilesExample.stored p1 p2) (by decide) StoredFilesExample.fits
  refine ⟨routes, h1, hk, fun hfirst => ?_⟩
  obtain ⟨given, h4, h5, h6⟩ := h3 _ hfirst ⟨by decide, by decide⟩
  match given, h4 with
  | [], _ =>
    obtain ⟨kept, hkept, response, g1, g2⟩ := h6 _ rfl [⟨"f", "match", .str [98]⟩] ⟨rfl, rfl, ⟨_, p2, rfl⟩, trivial⟩
      (fun c hc => by rw [List.mem_singleton.1 hc]; exact StoredFilesExample.askable_f _)
    simp only [hkept.all_eq (by decide)] at g2
    have hfind : (StoredFilesExample.tables StoredFilesExample.one.input).find? (fun o => [(⟨"f", "match", .str [98]⟩ : Condition)].all
        (fun c => foundIn ConfigExample.lib StoredFilesExample.storage StoredFilesExample.parsed c.index c.property c.value o)) = some [("n", .int 1), ("s", .str [98])] := by
      have h := fun n t => StoredFilesExample.found_f n t [98] (by decide)
      rw [show StoredFilesExample.tables StoredFilesExample.one.input =
        [[("n", .int 1), ("s", .str [97])], [("n", .int 1), ("s", .str [98])], [("n", .int 2), ("s", .str [99, 34])]] from rfl]
      simp only [List.all_cons, List.all_nil, Bool.and_true, List.find?_cons, h]
      rfl
    rw [hfind] at g2
    obtain ⟨g2, _, row, g3, g4, _⟩ := g2
    exact ⟨response, g1, g2, row, g3, g4 _ (by decide), g4 _ (by decide)⟩

end Rodb
