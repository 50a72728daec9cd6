import Verif.Spec.JsonFiles
import Verif.Props.FilesProps
import Verif.Props.JsonTextProps
/-
  C86: from the bytes of a JSON file and the configuration to the bytes of the response.
-/
namespace Rodb
open Spec

variable {config : ConfigLib} {lib : StartLib} {files : Files} {p : ParsedConfig} {texts : GoMap TextParser} {env : OutputEnv} {apis : GoMap OutputApi}
  {running : GoMap (String × List Route)}

theorem jsonRecord_get {o : GoMap Value} {position : Int} {q : String} (hq : q ≠ "") {v : Value} : (jsonRecord o position).get q = .ok v ↔ ValueAt o q v :=
  (C64_json_get_agrees o position q hq).2.1 v

theorem jsonRecord_equals {o : GoMap Value} {position : Int} {q : String} (hq : q ≠ "") (v : Value) : propEquals (jsonRecord o position) q v = hasValueAt o q v :=
  propEquals_at (fun _ => jsonRecord_get hq) v

/-- What is fetched is inside of the file. -/
theorem jsonFetch_within {parseFloat : Bytes → Res GoFloat} {content : Bytes} {position : Int} {r : Rec} (h : jsonFetch (jsonDecoder parseFloat) content position = .ok r) :
    0 ≤ position ∧ position < content.length := by
  unfold jsonFetch at h
  by_cases hneg : position < 0
  · rw [if_pos hneg] at h; cases h
  · rw [if_neg hneg] at h
    refine ⟨by omega, ?_⟩
    apply Classical.byContradiction
    intro hge
    rw [List.drop_eq_nil_of_le (by omega)] at h
    cases h

/-- The records of a JSON file in the running program. -/
theorem Spec.JsonContent.records {parseFloat : Bytes → Res GoFloat} {d : JsonDecl} {asked : List String} {objects : List (GoMap Value)}
    (hdata : JsonContent files parseFloat p d asked objects) (functions : GoMap (Bytes → Res Value)) :
    ∃ records : List Rec, ContentRecords lib files p functions (.json d) d.path asked objects records := by
  obtain ⟨content, hcontent, hfile⟩ := hdata.file
  obtain ⟨records, h1, h2, h3, h4, h5⟩ := C85_json_file parseFloat objects content hfile (fun m hm => (hdata.data m hm).2.1)
  have hrec : ∀ r ∈ records, ∃ o ∈ objects, r = jsonRecord o r.position := by
    intro r hr
    obtain ⟨i, hi⟩ := List.getElem?_of_mem hr
    have hlt : i < objects.length := by
      rw [← h4]
      exact (List.getElem?_eq_some_iff.mp hi).1
    obtain ⟨data, g1, _, g3⟩ := h5 i _ r (List.getElem?_eq_getElem hlt) hi
    rw [g3 (hdata.data _ (List.getElem_mem hlt)).1] at g1
    exact ⟨_, List.getElem_mem hlt, g1⟩
  have hshown : ∀ o position, shownOf (jsonRecord o position) = o := fun _ _ => rfl
  refine ⟨records, ⟨?_, ?_, ?_⟩, ?_, ?_, ?_, ?_⟩
  · intro e input he hopen
    simp only [completedInput, WithColumns] at he
    subst he
    simp only [StartLib.onFiles, openInput, openJsonInput, hcontent, hdata.decoder, Except.ok.injEq] at hopen
    subst hopen
    exact ⟨⟨h1, h2⟩, h3⟩
  · intro m hm hin r hr q hq
    obtain ⟨o, ho, he⟩ := hrec r hr
    obtain ⟨hne, hv⟩ := hdata.indexed m hm hin q hq
    obtain ⟨v, hv, hs⟩ := hv o ho
    rw [he]
    exact ⟨v, (jsonRecord_get hne).2 hv, hs⟩
  · intro q hq r hr
    obtain ⟨o, ho, he⟩ := hrec r hr
    obtain ⟨hne, hv⟩ := hdata.paths q hq
    obtain ⟨v, hv⟩ := hv o ho
    rw [he]
    exact ⟨v, (jsonRecord_get hne).2 hv⟩
  · apply List.ext_getElem?
    intro i
    rw [List.getElem?_map]
    cases hi : records[i]? with
    | none =>
      rw [List.getElem?_eq_none_iff] at hi
      rw [List.getElem?_eq_none (by omega)]
      rfl
    | some r =>
      have hlt : i < objects.length := by
        rw [← h4]
        exact (List.getElem?_eq_some_iff.mp hi).1
      obtain ⟨data, g1, _, g3⟩ := h5 i _ r (List.getElem?_eq_getElem hlt) hi
      rw [g3 (hdata.data _ (List.getElem_mem hlt)).1] at g1
      rw [List.getElem?_eq_getElem hlt, Option.map_some, g1, hshown]
  · intro r hr
    obtain ⟨o, ho, he⟩ := hrec r hr
    rw [he]
    rfl
  · intro r hr q hq v
    obtain ⟨o, ho, he⟩ := hrec r hr
    rw [he, hshown]
    exact jsonRecord_get (hdata.paths q hq).1
  · intro e input he hopen
    simp only [completedInput, WithColumns] at he
    subst he
    simp only [openInput, openJsonInput, hcontent, hdata.decoder, Except.ok.injEq] at hopen
    subst hopen
    exact ⟨rfl, content, hcontent, rfl, rfl, fun r hr => jsonFetch_within (h3 r hr)⟩

theorem Spec.JsonData.records {parseFloat : Bytes → Res GoFloat} {d : JsonDecl} {asked : List String} {objects : List (GoMap Value)}
    (hdata : JsonData files parseFloat p d asked objects) (functions : GoMap (Bytes → Res Value)) :
    ∃ records : List Rec, RecordsOf (lib.onFiles files) p functions (.json d) asked records ∧
      IndexesFind config (lib.onFiles files) p functions (.json d) records (fun _ q v r => propEquals r q v) (fun _ _ _ => True) ∧
      records.map shownOf = objects ∧ (∀ r ∈ records, r.all = .ok (shownOf r)) ∧
      ∀ r ∈ records, ∀ q ∈ asked, ∀ v, r.get q = .ok v ↔ ValueAt (shownOf r) q v := by
  obtain ⟨records, h⟩ := Spec.JsonContent.records (lib := lib) hdata.toJsonContent functions
  exact ⟨records, h.rows, indexesFind_equality hdata.equality, h.shown, h.all, h.get⟩

/-- **C86** From the bytes of a JSON file to the bytes of the response, for lists: in a running program, a request to a route of a list output without relationships, on a JSON
file made of `objects` written in any way that JSON allows, is answered with status 200 and the JSON text of the array of exactly the objects that have the values given in the
path and the query string, at the paths that the parameters name, in the order of the file, from the asked offset on, at most the asked limit of them.
Of several conditions on one property of one index, one counts (`kept`, see C45). -/
theorem C86_list_from_json (service : ServiceLib) (hlib : RegexpContract service.find) (formatFloat : Int → Bytes) (hencode : service.encode = encodeJson formatFloat) (config : ConfigLib)
    (lib : StartLib) (files : Files) (p : ParsedConfig) (texts : GoMap TextParser) (env : OutputEnv) (apis : GoMap OutputApi) (running : GoMap (String × List Route))
    (hrun : Running config (lib.onFiles files) p texts env apis running) (hw : WellFormed config p) (hdef : PlainDefault p)
    (hvisit : ∀ (path : List Nat) (α : Type) (l : List α), (lib.visit path l).Perm l)
    (s : ServiceDecl) (hs : s ∈ p.services) (k : Nat) (hk : k < s.routes.length) (d : ArrayConfig) (ho : .array s.routes[k].output d ∈ p.outputs)
    (hrel : d.relationships = []) (c : JsonDecl) (hc : .json c ∈ p.inputs) (hname : c.name = d.input)
    (first : List Char) (placeholders : List (List Char × List Char)) (hpath : s.routes[k].path.toList = template first placeholders)
    (hg : GoodTemplate first placeholders) (parsers : List TextParser) (hp : PlaceholderParsers (lib.onFiles files) p d.parameters placeholders parsers)
    (hr : ∀ p ∈ parsers, RouteParser p) (hu : ∀ p ∈ parsers.dropLast, Ungrouped p)
    (parseFloat : Bytes → Res GoFloat) (objects : List (GoMap Value)) (hdata : JsonData files parseFloat p c (filteredBy d.parameters) objects) :
    ∃ routes, mapGet running s.name = some ("application/json", routes) ∧ ∃ h : k < routes.length,
      (∀ request : Request, Suits routes[k] request ↔
        request.method = "GET" ∧ ∃ given, PlaceholderTexts parsers given ∧ request.path = filled first placeholders given) ∧
      ∀ request : Request, FirstSuiting routes request routes[k] → GoodQuery request.query →
        ∃ given, PlaceholderTexts parsers given ∧ request.path = filled first placeholders given ∧
          ∀ params : GoMap Bytes, params = requestParameters (placeholders.map (fun p => String.ofList p.1)) given request.query →
          ∀ (conditions : List Condition) (limit offset : Nat),
            Reads env (givenParameters (d.parameters.map (fun e => (e.1, completedParameter e.2))) params) conditions →
            AskedLimit ⟨orNumber d.limit.default 100, orNumber d.limit.max 1000, orText d.limit.parameter "limit"⟩ params limit →
            AskedOffset (orText d.offsetParameter "offset") params offset → min limit (orNumber d.limit.max 1000) < 2^63 →
            ∃ kept, OneForEach conditions kept ∧ ∃ response, clientGets (handleRequest service "application/json" routes request) = some response ∧ response.status = 200 ∧
              mapGet response.headers "Content-Type" = some "application/json; charset=UTF-8" ∧
              encodeJson formatFloat (.arr ((((objects.filter (fun o => kept.all (fun c => hasValueAt o c.property c.value))).drop offset).take
                (min limit (orNumber d.limit.max 1000))).map .obj)) = .ok response.body := by
  obtain ⟨records, hrec, hfind, hshown, hall, hget⟩ := hdata.records (config := config) (lib := lib) env.parsers
  have h := list_from_data service hlib (by rw [hencode]; exact C84_encoder_contract formatFloat) config lib files p texts env apis running hrun hw hdef hvisit s hs k hk d ho hrel (.json c) hc
    hname first placeholders hpath hg parsers hp hr hu records hrec hfind objects hshown hall (fun o ho => (hdata.data o ho).2.2) hget
  rw [hencode] at h
  exact h

/-- **C86** From the bytes of a JSON file to the bytes of the response, for objects: status 200 and the JSON text of the first object with the given values, or status 404 if
there is none.
Of several conditions on one property of one index, one counts (`kept`, see C45). -/
theorem C86_object_from_json (service : ServiceLib) (hlib : RegexpContract service.find) (formatFloat : Int → Bytes) (hencode : service.encode = encodeJson formatFloat) (config : ConfigLib)
    (lib : StartLib) (files : Files) (p : ParsedConfig) (texts : GoMap TextParser) (env : OutputEnv) (apis : GoMap OutputApi) (running : GoMap (String × List Route))
    (hrun : Running config (lib.onFiles files) p texts env apis running) (hw : WellFormed config p) (hdef : PlainDefault p)
    (hvisit : ∀ (path : List Nat) (α : Type) (l : List α), (lib.visit path l).Perm l)
    (s : ServiceDecl) (hs : s ∈ p.services) (k : Nat) (hk : k < s.routes.length) (d : ObjectConfig) (ho : .object s.routes[k].output d ∈ p.outputs)
    (hrel : d.relationships = []) (c : JsonDecl) (hc : .json c ∈ p.inputs) (hname : c.name = d.input)
    (first : List Char) (placeholders : List (List Char × List Char)) (hpath : s.routes[k].path.toList = template first placeholders)
    (hg : GoodTemplate first placeholders) (parsers : List TextParser) (hp : PlaceholderParsers (lib.onFiles files) p d.parameters placeholders parsers)
    (hr : ∀ p ∈ parsers, RouteParser p) (hu : ∀ p ∈ parsers.dropLast, Ungrouped p)
    (parseFloat : Bytes → Res GoFloat) (objects : List (GoMap Value)) (hdata : JsonData files parseFloat p c (filteredBy d.parameters) objects) :
    ∃ routes, mapGet running s.name = some ("application/json", routes) ∧ ∃ h : k < routes.length,
      (∀ request : Request, Suits routes[k] request ↔
        request.method = "GET" ∧ ∃ given, PlaceholderTexts parsers given ∧ request.path = filled first placeholders given) ∧
      ∀ request : Request, FirstSuiting routes request routes[k] → GoodQuery request.query →
        ∃ given, PlaceholderTexts parsers given ∧ request.path = filled first placeholders given ∧
          ∀ params : GoMap Bytes, params = requestParameters (placeholders.map (fun p => String.ofList p.1)) given request.query →
          ∀ conditions : List Condition, Reads env (allParameters (d.parameters.map (fun e => (e.1, completedParameter e.2))) params) conditions →
            ∃ kept, OneForEach conditions kept ∧ ∃ response, clientGets (handleRequest service "application/json" routes request) = some response ∧
              match objects.find? (fun o => kept.all (fun c => hasValueAt o c.property c.value)) with
              | none => response.status = 404
              | some o => response.status = 200 ∧ mapGet response.headers "Content-Type" = some "application/json; charset=UTF-8" ∧
                  encodeJson formatFloat (.obj o) = .ok response.body := by
  obtain ⟨records, hrec, hfind, hshown, hall, hget⟩ := hdata.records (config := config) (lib := lib) env.parsers
  have h := object_from_data service hlib (by rw [hencode]; exact C84_encoder_contract formatFloat) config lib files p texts env apis running hrun hw hdef hvisit s hs k hk d ho hrel (.json c) hc
    hname first placeholders hpath hg parsers hp hr hu records hrec hfind objects hshown hall (fun o ho => (hdata.data o ho).2.2) hget
  rw [hencode] at h
  exact h

namespace JsonFilesExample
open JsonExample
/-- A JSON file with a map index on o.s, and the route /all to a list, with the parameter letter. -/
def parameters : GoMap ParamConfig := [("letter", { property := "o.s", index := "map", parser := "" })]
def list : ArrayConfig := { input := "in", limit := ⟨0, 0, ""⟩, offsetParameter := "", parameters := parameters, relationships := [] }
def one : ObjectConfig := { input := "in", parameters := parameters, relationships := [] }
def web : ServiceDecl := { name := "web", http := some "", https := none, errorsType := "", routes := [⟨"list", "/all"⟩, ⟨"one", "/one"⟩] }
def decl : JsonDecl := { name := "in", path := "in.json", dieOnInputChange := none }
def parsed : ParsedConfig where
  parsers := []
  inputs := [.json decl]
  indexes := [.map { name := "map", input := "in", properties := ["o.s"] }]
  services := [web]
  outputs := [.array "list" list, .object "one" one]
/-- The file in.json: {"o":{"s":"a"},"n":1} and, on another line, {"o" : {"s":"b"}}. -/
def machine : Files where
  content path := if path = "in.json" then some [123, 34, 111, 34, 58, 123, 34, 115, 34, 58, 34, 97, 34, 125, 44, 34, 110, 34, 58, 49, 125, 10, 123, 34, 111, 34, 32, 58, 32, 123, 34, 115, 34, 58, 34, 98, 34, 125, 125] else none
  modTimeNs _ := 0
  decodeJson := jsonDecoder JsonExample.parse
  lexXml _ := ([], .eof)
  xpath := FilesExample.noXPath
  fetchedXml _ _ := []
  ahead _ _ := []
  shared _ _ := (0, [], [])
def objects : List (GoMap Value) := [[("o", .obj [("s", .str [97])]), ("n", .float (.fin 1))], [("o", .obj [("s", .str [98])])]]
theorem key {c : Char} {b : UInt8} (h1 : 32 ≤ c.toNat) (h2 : c ≠ '"') (h3 : c ≠ '\\') (hb : String.utf8EncodeChar c = [b]) : JsonString JsonChar [c] [34, b, 34] := by
  refine ⟨[b], ?_, rfl⟩
  have := JsonChars.cons (.plain h1 h2 h3) .nil (char := JsonChar)
  rwa [hb] at this
theorem inner {c : Char} {b : UInt8} (h : JsonString JsonChar [c] [34, b, 34]) (hu : utf8 [c] = [b]) :
    JsonText JsonChar (ReadNumber JsonExample.parse) (.obj [("s", .str [b])]) [123, 34, 115, 34, 58, 34, b, 34, 125] := by
  refine JsonText.members (t := [34, 115, 34, 58, 34, b, 34]) (JsonMembers.last (key := "s") (s := []) (k := [34, 115, 34]) (s' := []) (s'' := [])
    (t := [34, b, 34]) (s''' := []) no_spaces (key (by decide) (by decide) (by decide) (by decide)) no_spaces no_spaces ?_ no_spaces)
  have := JsonText.string h (num := ReadNumber JsonExample.parse)
  rwa [hu] at this
theorem file : JsonFile JsonChar (ReadNumber JsonExample.parse) (objects.map .obj)
    ([] ++ [123, 34, 111, 34, 58, 123, 34, 115, 34, 58, 34, 97, 34, 125, 44, 34, 110, 34, 58, 49, 125] ++ ([10] ++ [123, 34, 111, 34, 32, 58, 32, 123, 34, 115, 34, 58, 34, 98, 34, 125, 125] ++ [])) := by
  have sp : Spaces [32] := by unfold Spaces; decide
  refine .doc no_spaces ?_ (.doc (by unfold Spaces; decide) ?_ (.done no_spaces))
  · refine JsonText.members (t := [34, 111, 34, 58, 123, 34, 115, 34, 58, 34, 97, 34, 125, 44, 34, 110, 34, 58, 49]) ?_
    refine JsonMembers.cons (key := "o") (s := []) (k := [34, 111, 34]) (s' := []) (s'' := []) (t := [123, 34, 115, 34, 58, 34, 97, 34, 125]) (s''' := []) no_spaces
      (key (by decide) (by decide) (by decide) (by decide)) no_spaces no_spaces (inner (key (c := 'a') (by decide) (by decide) (by decide) (by decide)) (by decide)) no_spaces ?_
    exact JsonMembers.last (key := "n") (s := []) (k := [34, 110, 34]) (s' := []) (s'' := []) (t := [49]) (s''' := []) no_spaces
      (key (by decide) (by decide) (by decide) (by decide)) no_spaces no_spaces
      (.number ⟨[], [49], [], [], rfl, .inl rfl, .inr ⟨⟨by simp, by decide⟩, by simp⟩, .inl rfl, .inl rfl⟩ ⟨.fin 1, rfl, by decide +kernel⟩) no_spaces
  · refine JsonText.members (t := [34, 111, 34, 32, 58, 32, 123, 34, 115, 34, 58, 34, 98, 34, 125]) ?_
    exact JsonMembers.last (key := "o") (s := []) (k := [34, 111, 34]) (s' := [32]) (s'' := [32]) (t := [123, 34, 115, 34, 58, 34, 98, 34, 125]) (s''' := []) no_spaces
      (key (by decide) (by decide) (by decide) (by decide)) sp sp (inner (key (c := 'b') (by decide) (by decide) (by decide) (by decide)) (by decide)) no_spaces
theorem starts : ∃ c, loadConfig ConfigExample.lib parsed = .ok c ∧ ∃ running, start ((ConfigExample.startLib FilesExample.noParsers).onFiles machine) c = .ok running := by
  have h : (match loadConfig ConfigExample.lib parsed with
      | .ok c => (match start ((ConfigExample.startLib FilesExample.noParsers).onFiles machine) c with | .ok _ => true | .error _ => false)
      | .error _ => false) = true := by decide +kernel
  cases hc : loadConfig ConfigExample.lib parsed with
  | error e => rw [hc] at h; cases h
  | ok c =>
    rw [hc] at h
    simp only at h
    refine ⟨c, rfl, ?_⟩
    cases hs : start ((ConfigExample.startLib FilesExample.noParsers).onFiles machine) c with
    | error e => rw [hs] at h; cases h
    | ok running => exact ⟨running, rfl⟩
theorem value_at : ∀ o ∈ objects, ∃ v, ValueAt o "o.s" v ∧ Scalar v := by
  intro o ho
  simp only [objects, List.mem_cons, List.not_mem_nil, or_false] at ho
  rcases ho with rfl | rfl
  · exact ⟨.str [97], (jsonRecord_get (position := 0) (by decide)).1 rfl, trivial⟩
  · exact ⟨.str [98], (jsonRecord_get (position := 0) (by decide)).1 rfl, trivial⟩
theorem data : JsonData machine JsonExample.parse parsed decl (filteredBy parameters) objects where
  decoder := rfl
  file := ⟨_, rfl, file⟩
  data o ho := by
    simp only [objects, List.mem_cons, List.not_mem_nil, or_false] at ho
    rcases ho with rfl | rfl
    · refine ⟨.obj (by decide) ?_, .obj ?_, ?_⟩
      · intro k v h
        simp only [List.mem_cons, Prod.mk.injEq, List.not_mem_nil, or_false] at h
        rcases h with ⟨_, rfl⟩ | ⟨_, rfl⟩
        · exact .obj (by decide) (by simp only [List.mem_singleton, Prod.mk.injEq]; rintro k v ⟨_, rfl⟩; exact .str)
        · exact .float
      · intro k v h
        simp only [List.mem_cons, Prod.mk.injEq, List.not_mem_nil, or_false] at h
        rcases h with ⟨_, rfl⟩ | ⟨_, rfl⟩
        · exact .obj (by simp only [List.mem_singleton, Prod.mk.injEq]; rintro k v ⟨_, rfl⟩; exact .str)
        · exact .float
      · intro h
        cases h with
        | @obj m k v hm hv =>
          simp at hm
          rcases hm with ⟨_, rfl⟩ | ⟨_, rfl⟩
          · cases hv with | @obj m k v hm hv => simp at hm; rcases hm with ⟨_, rfl⟩; cases hv
          · cases hv
    · refine ⟨.obj (by decide) ?_, .obj ?_, ?_⟩
      · simp only [List.mem_singleton, Prod.mk.injEq]; rintro k v ⟨_, rfl⟩
        exact .obj (by decide) (by simp only [List.mem_singleton, Prod.mk.injEq]; rintro k v ⟨_, rfl⟩; exact .str)
      · simp only [List.mem_singleton, Prod.mk.injEq]; rintro k v ⟨_, rfl⟩
        exact .obj (by simp only [List.mem_singleton, Prod.mk.injEq]; rintro k v ⟨_, rfl⟩; exact .str)
      · intro h
        cases h with
        | @obj m k v hm hv =>
          simp at hm
          rcases hm with ⟨_, rfl⟩
          cases hv with | @obj m k v hm hv => simp at hm; rcases hm with ⟨_, rfl⟩; cases hv
  paths q hq := by
    rw [List.mem_singleton.1 hq]
    exact ⟨by decide, fun o ho => (value_at o ho).elim fun v hv => ⟨v, hv.1⟩⟩
  indexed m hm _ q hq := by
    cases List.mem_singleton.1 hm
    rw [List.mem_singleton.1 hq]
    exact ⟨by decide, value_at⟩
  equality i hi _ := by
    rw [List.mem_singleton.1 hi]
    exact .inl ⟨_, rfl⟩
theorem plain_default : PlainDefault parsed := by
  intro i hi
  rcases hi with ⟨h, e⟩ | ⟨_, h, _⟩
  · rw [List.mem_singleton.1 h] at e
    exact absurd e (by decide)
  · exact ⟨_, List.mem_singleton.1 h⟩
theorem parser {parserLib : ParserLib} {texts : GoMap TextParser} {env : OutputEnv} {apis : GoMap OutputApi} {running : GoMap (String × List Route)}
    (hrun : Running ConfigExample.lib ((ConfigExample.startLib parserLib).onFiles machine) parsed texts env apis running) :
    mapGet env.parsers "string" = some (Rodb.parse parserLib (texts.map (fun q => (q.1, q.2.config))) texts.length (.string none)) := by
  obtain ⟨t, ht, hr⟩ := hrun.parsers "string" ⟨"string", .string ""⟩ (.inr ⟨by simp [parsed], by simp [builtinParsers], rfl⟩)
  rw [hrun.functions, parseFunctions, mapGet_mapValues (fun q : TextParser => Rodb.parse ((ConfigExample.startLib parserLib).onFiles machine).parserLib
    (texts.map (fun q => (q.1, q.2.config))) texts.length q.config), ht]
  rcases hr with ⟨_, rfl⟩ | ⟨hc, _⟩
  · rfl
  · exact (hc rfl).elim
def request (path : String) : Request := { method := "GET", contentType := "", path := path.toList, query := [("letter", [[98]])], body := .ok [] }
theorem good (path : List Char) (h : PlainText path) : GoodTemplate path [] := ⟨h, by simp, by simp⟩
end JsonFilesExample

/-- GET /all?letter=b in the program started on the file in.json: [{"o":{"s":"b"}}] and a newline. -/
example (service : ServiceLib) (hlib : RegexpContract service.find) (hencode : service.encode = encodeJson JsonExample.format) (parserLib : ParserLib) (c : Config)
    (hload : loadConfig ConfigExample.lib JsonFilesExample.parsed = .ok c) (running)
    (hstart : start ((ConfigExample.startLib parserLib).onFiles JsonFilesExample.machine) c = .ok running) :
    ∃ routes, mapGet running "web" = some ("application/json", routes) ∧ ∃ response,
      clientGets (handleRequest service "application/json" routes (JsonFilesExample.request "/all")) = some response ∧ response.status = 200 ∧
        response.body = [91, 123, 34, 111, 34, 58, 123, 34, 115, 34, 58, 34, 98, 34, 125, 125, 93, 10] := by
  obtain ⟨texts, env, apis, hrun⟩ := C78_running _ _ _ _ _ hload ⟨.refl _, .refl _, .refl _, .refl _, .refl _⟩ running hstart
  have hw := (C76_accepted _ _).1 ⟨_, hload⟩
  obtain ⟨routes, h1, hk, h2, h3⟩ := C86_list_from_json service hlib _ hencode _ _ _ _ _ _ _ _ hrun hw JsonFilesExample.plain_default (fun _ _ _ => .refl _)
    JsonFilesExample.web (.head _) 0 (by decide) JsonFilesExample.list (.head _) rfl JsonFilesExample.decl (.head _) rfl "/all".toList [] rfl
    (JsonFilesExample.good _ (by unfold PlainText; decide)) [] trivial (by simp) (by simp) JsonExample.parse JsonFilesExample.objects JsonFilesExample.data
  refine ⟨routes, h1, ?_⟩
  match routes, hk, h2, h3 with
  | route :: rest, hk, h2, h3 =>
    obtain ⟨given, h4, h5, h6⟩ := h3 (JsonFilesExample.request "/all") ⟨[], rest, rfl, (h2 _).2 ⟨rfl, [], trivial, rfl⟩, by simp⟩ ⟨by decide, by decide⟩
    match given, h4 with
    | [], _ =>
      obtain ⟨kept, hkept, response, g1, g2, _, g4⟩ := h6 _ rfl [⟨"map", "o.s", .str [98]⟩] 100 0
        ⟨rfl, rfl, ⟨_, JsonFilesExample.parser hrun, by simp only [parse, stringParse]⟩, trivial⟩
        (.inl ⟨by decide, rfl⟩) (.inl ⟨by decide, rfl⟩) (by decide)
      simp only [hkept.all_eq (by decide)] at g4
      refine ⟨response, g1, g2, ?_⟩
      have hfilter : JsonFilesExample.objects.filter (fun o => [(⟨"map", "o.s", .str [98]⟩ : Condition)].all (fun c => hasValueAt o c.property c.value)) =
          [[("o", .obj [("s", .str [98])])]] := by
        simp only [← jsonRecord_equals (position := 0) (q := "o.s") (by decide), List.all_cons, List.all_nil, Bool.and_true]
        rfl
      rw [hfilter] at g4
      exact (Except.ok.inj g4).symm

/-- GET /one?letter=b: {"o":{"s":"b"}} and a newline. -/
example (service : ServiceLib) (hlib : RegexpContract service.find) (hencode : service.encode = encodeJson JsonExample.format) (parserLib : ParserLib) (c : Config)
    (hload : loadConfig ConfigExample.lib JsonFilesExample.parsed = .ok c) (running)
    (hstart : start ((ConfigExample.startLib parserLib).onFiles JsonFilesExample.machine) c = .ok running) :
    ∃ routes, mapGet running "web" = some ("application/json", routes) ∧ ∃ response,
      clientGets (handleRequest service "application/json" routes (JsonFilesExample.request "/one")) = some response ∧ response.status = 200 ∧
        response.body = [123, 34, 111, 34, 58, 123, 34, 115, 34, 58, 34, 98, 34, 125, 125, 10] := by
  obtain ⟨texts, env, apis, hrun⟩ := C78_running _ _ _ _ _ hload ⟨.refl _, .refl _, .refl _, .refl _, .refl _⟩ running hstart
  have hw := (C76_accepted _ _).1 ⟨_, hload⟩
  obtain ⟨routes, h1, hk, h2, h3⟩ := C86_object_from_json service hlib _ hencode _ _ _ _ _ _ _ _ hrun hw JsonFilesExample.plain_default (fun _ _ _ => .refl _)
    JsonFilesExample.web (.head _) 1 (by decide) JsonFilesExample.one (.tail _ (.head _)) rfl JsonFilesExample.decl (.head _) rfl "/one".toList [] rfl
    (JsonFilesExample.good _ (by unfold PlainText; decide)) [] trivial (by simp) (by simp) JsonExample.parse JsonFilesExample.objects JsonFilesExample.data
  obtain ⟨routes', h1', hk', h2', _⟩ := C86_list_from_json service hlib _ hencode _ _ _ _ _ _ _ _ hrun hw JsonFilesExample.plain_default (fun _ _ _ => .refl _)
    JsonFilesExample.web (.head _) 0 (by decide) JsonFilesExample.list (.head _) rfl JsonFilesExample.decl (.head _) rfl "/all".toList [] rfl
    (JsonFilesExample.good _ (by unfold PlainText; decide)) [] trivial (by simp) (by simp) JsonExample.parse JsonFilesExample.objects JsonFilesExample.data
  cases h1.symm.trans h1'
  refine ⟨routes, h1, ?_⟩
  match routes, hk, h2, h3, hk', h2' with
  | route₀ :: route :: rest, hk, h2, h3, hk', h2' =>
  have hno : ¬ Suits route₀ (JsonFilesExample.request "/one") := by
    intro h
    obtain ⟨_, given, hg, h⟩ := (h2' _).1 h
    match given, hg with
    | [], _ => exact absurd h (by decide)
  obtain ⟨given, h4, h5, h6⟩ := h3 (JsonFilesExample.request "/one") ⟨[route₀], rest, rfl, (h2 _).2 ⟨rfl, [], trivial, rfl⟩, by simpa using hno⟩ ⟨by decide, by decide⟩
  match given, h4 with
  | [], _ =>
    obtain ⟨kept, hkept, response, g1, g2⟩ := h6 _ rfl [⟨"map", "o.s", .str [98]⟩]
      ⟨rfl, rfl, ⟨_, JsonFilesExample.parser hrun, by simp only [parse, stringParse]; rfl⟩, trivial⟩
    simp only [hkept.all_eq (by decide)] at g2
    have hfilter : JsonFilesExample.objects.find? (fun o => [(⟨"map", "o.s", .str [98]⟩ : Condition)].all (fun c => hasValueAt o c.property c.value)) =
        some [("o", .obj [("s", .str [98])])] := by
      simp only [← jsonRecord_equals (position := 0) (q := "o.s") (by decide), List.all_cons, List.all_nil, Bool.and_true]
      rfl
    rw [hfilter] at g2
    exact ⟨response, g1, g2.1, (Except.ok.inj g2.2.2).symm⟩

end Rodb
