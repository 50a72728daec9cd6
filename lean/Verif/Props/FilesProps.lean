import Verif.Proofs.Files
import Verif.Props.RunningProps
/-
  C83: from the bytes of the files and the configuration to the response.
-/
namespace Rodb
open Spec

variable {config : ConfigLib} {lib : StartLib} {files : Files} {p : ParsedConfig} {texts : GoMap TextParser} {env : OutputEnv} {apis : GoMap OutputApi}
  {running : GoMap (String × List Route)}

theorem Spec.Reads.property {env : OutputEnv} : ∀ {l : List (ParamConfig × Bytes)} {conditions : List Condition}, Reads env l conditions →
    ∀ c ∈ conditions, ∃ e ∈ l, c.property = e.1.property ∧ c.index = e.1.index
  | [], [], _, c, hc => by simp at hc
  | (q, text) :: l, c :: conditions, ⟨h1, h2, _, h⟩, c', hc => by
    rcases List.mem_cons.1 hc with rfl | hc
    · exact ⟨_, .head _, h2, h1⟩
    · obtain ⟨e, he, h⟩ := Spec.Reads.property h c' hc
      exact ⟨e, .tail _ he, h⟩
  | [], _ :: _, h, _, _ => h.elim
  | _ :: _, [], h, _, _ => h.elim

/-- What the records of a file are in the running program. -/
structure ContentRecords (lib : StartLib) (files : Files) (p : ParsedConfig) (functions : GoMap (Bytes → Res Value)) (x : InputDecl) (path : String) (asked : List String)
    (objects : List (GoMap Value)) (records : List Rec) : Prop where
  rows : RecordsOf (lib.onFiles files) p functions x asked records
  shown : records.map shownOf = objects
  all : ∀ r ∈ records, r.all = .ok (shownOf r)
  get : ∀ r ∈ records, ∀ q ∈ asked, ∀ v, r.get q = .ok v ↔ ValueAt (shownOf r) q v
  opened : ∀ e input, WithColumns (lib.onFiles files) (completedInput x) e → openInput files e (declaredTypes p) functions = .ok input → input.name = x.name ∧
    ∃ content, files.content path = some content ∧ input.size = .ok content.length ∧ input.modTimeNs = .ok (files.modTimeNs path) ∧
      ∀ r ∈ records, 0 ≤ r.position ∧ r.position < content.length

/-- The records of a well written CSV file in the running program. -/
theorem Spec.CsvContent.records_of {d : CsvDecl} {asked : List String} {objects : List (GoMap Value)}
    {functions : GoMap (Bytes → Res Value)} {e₀ : InputDecl} (he₀ : WithColumns (lib.onFiles files) (completedInput (.csv d)) e₀) (hw : WellFormed config p) (hd : .csv d ∈ p.inputs)
    (hdata : CsvContent files p functions d asked objects) : ∃ records : List Rec, ContentRecords lib files p functions (.csv d) d.path asked objects records := by
  obtain ⟨columns, rows, hfile, hread, hasked, hindexed⟩ := hdata.file
  obtain ⟨records, h1, h2, h3⟩ := hfile.opened (types := declaredTypes p) lib (hw.inputs _ hd).2.2.2.1 functions hread he₀
  refine ⟨records, ⟨fun e input he hopen => ⟨(h3 e input he hopen).2.1, (h3 e input he hopen).2.2.1⟩, ?_, ?_⟩, h1, fun r hr => (h2 r hr).1, ?_,
    fun e input he hopen => ⟨(h3 e input he hopen).1, (h3 e input he hopen).2.2.2⟩⟩
  · intro m hm hin r hr q hq
    obtain ⟨hcol, hval⟩ := hindexed m hm hin q hq
    obtain ⟨v, hv, hs⟩ := hval _ (h1 ▸ List.mem_map_of_mem hr)
    exact ⟨v, ((h2 r hr).2 q hcol v).2 hv, hs⟩
  · intro q hq r hr
    obtain ⟨hcol, hval⟩ := hasked q hq
    obtain ⟨v, hv⟩ := hval _ (h1 ▸ List.mem_map_of_mem hr)
    exact ⟨v, ((h2 r hr).2 q hcol v).2 hv⟩
  · intro r hr q hq v
    exact (h2 r hr).2 q (hasked q hq).1 v

theorem Spec.CsvContent.records {d : CsvDecl} {asked : List String} {objects : List (GoMap Value)}
    (hrun : Running config (lib.onFiles files) p texts env apis running) (hw : WellFormed config p) (hd : .csv d ∈ p.inputs)
    (hdata : CsvContent files p env.parsers d asked objects) : ∃ records : List Rec, ContentRecords lib files p env.parsers (.csv d) d.path asked objects records := by
  obtain ⟨e₀, _, he₀, _, _⟩ := hrun.inputs _ hd
  exact Spec.CsvContent.records_of he₀ hw hd hdata

theorem indexesFind_equality {x : InputDecl} {functions : GoMap (Bytes → Res Value)} {records : List Rec} (h : ∀ i ∈ p.indexes, inputOfIndex i = some x.name → FindsEqual i) :
    IndexesFind config (lib.onFiles files) p functions x records (fun _ q v r => propEquals r q v) (fun _ _ _ => True) where
  equality _ _ _ _ _ _ _ := rfl
  others i hi hne hin := (hne (h i hi hin)).elim

theorem Spec.CsvData.records {d : CsvDecl} {asked : List String} {objects : List (GoMap Value)}
    (hrun : Running config (lib.onFiles files) p texts env apis running) (hw : WellFormed config p) (hd : .csv d ∈ p.inputs)
    (hdata : CsvData files p env.parsers d asked objects) :
    ∃ records : List Rec, RecordsOf (lib.onFiles files) p env.parsers (.csv d) asked records ∧
      IndexesFind config (lib.onFiles files) p env.parsers (.csv d) records (fun _ q v r => propEquals r q v) (fun _ _ _ => True) ∧
      records.map shownOf = objects ∧ (∀ r ∈ records, r.all = .ok (shownOf r)) ∧ ∀ r ∈ records, ∀ q ∈ asked, ∀ v, r.get q = .ok v ↔ ValueAt (shownOf r) q v := by
  obtain ⟨records, h⟩ := hdata.toCsvContent.records hrun hw hd
  exact ⟨records, h.rows, indexesFind_equality hdata.equality, h.shown, h.all, h.get⟩

/-- Responses of list outputs, from the records of an input. -/
theorem list_from_data (service : ServiceLib) (hlib : RegexpContract service.find) (hjson : EncoderContract service.encode) (config : ConfigLib)
    (lib : StartLib) (files : Files) (p : ParsedConfig) (texts : GoMap TextParser) (env : OutputEnv) (apis : GoMap OutputApi) (running : GoMap (String × List Route))
    (hrun : Running config (lib.onFiles files) p texts env apis running) (hw : WellFormed config p) (hdef : PlainDefault p)
    (hvisit : ∀ (path : List Nat) (α : Type) (l : List α), (lib.visit path l).Perm l)
    (s : ServiceDecl) (hs : s ∈ p.services) (k : Nat) (hk : k < s.routes.length) (d : ArrayConfig) (ho : .array s.routes[k].output d ∈ p.outputs)
    (hrel : d.relationships = []) (x : InputDecl) (hc : x ∈ p.inputs) (hname : x.name = d.input)
    (first : List Char) (placeholders : List (List Char × List Char)) (hpath : s.routes[k].path.toList = template first placeholders)
    (hg : GoodTemplate first placeholders) (parsers : List TextParser) (hp : PlaceholderParsers (lib.onFiles files) p d.parameters placeholders parsers)
    (hr : ∀ p ∈ parsers, RouteParser p) (hu : ∀ p ∈ parsers.dropLast, Ungrouped p)
    (records : List Rec) (hrec : RecordsOf (lib.onFiles files) p env.parsers x (filteredBy d.parameters) records)
    (hfind : IndexesFind config (lib.onFiles files) p env.parsers x records (fun _ q v r => propEquals r q v) (fun _ _ _ => True))
    (objects : List (GoMap Value)) (hshown : records.map shownOf = objects) (hall : ∀ r ∈ records, r.all = .ok (shownOf r)) (hfinite : ∀ o ∈ objects, ¬ HasNonFinite (.obj o))
    (hget : ∀ r ∈ records, ∀ q ∈ filteredBy d.parameters, ∀ v, r.get q = .ok v ↔ ValueAt (shownOf r) q v) :
    ∃ routes, mapGet running s.name = some ("application/json", routes) ∧ ∃ h : k < routes.length,
      (∀ request : Request, Suits routes[k] request ↔
        request.method = "GET" ∧ ∃ given, PlaceholderTexts parsers given ∧ request.path = filled first placeholders given) ∧
      ∀ request : Request, FirstSuiting routes request routes[k] → GoodQuery request.query →
        ∃ given, PlaceholderTexts parsers given ∧ request.path = filled first placeholders given ∧
          ∀ params : GoMap Bytes, params = requestParameters (placeholders.map (fun p => String.ofList p.1)) given request.query →
          ∀ (conditions : List Condition) (limit offset : Nat),
            Reads env (givenParameters (d.parameters.map (fun e => (e.1, completedParameter e.2))) params) conditions →
            AskedLimit ⟨orNumber d.limit.default 100, orNumber d.limit.max 1000, orText d.limit.parameter "limit"⟩ params limit →
            AskedOffset (orText d.offsetParameter "offset") params offset → min limit (orNumber d.limit.max 1000) < 2^63 →
            ∃ kept, OneForEach conditions kept ∧ ∃ response, clientGets (handleRequest service "application/json" routes request) = some response ∧ response.status = 200 ∧
              mapGet response.headers "Content-Type" = some "application/json; charset=UTF-8" ∧
              service.encode (.arr ((((objects.filter (fun o => kept.all (fun c => hasValueAt o c.property c.value))).drop offset).take
                (min limit (orNumber d.limit.max 1000))).map .obj)) = .ok response.body := by
  obtain ⟨routes, h1, h2, h3, h4⟩ := C79_list_request_partial service hlib hjson config (lib.onFiles files) p texts env apis running hrun hw hdef hvisit s hs k hk d ho hrel x hc hname
    first placeholders hpath hg parsers hp hr hu records (hrec.mono filteredValues_filteredBy) _ _ hfind shownOf hall
    (fun r hr => hfinite _ (hshown ▸ List.mem_map_of_mem hr))
  refine ⟨routes, h1, h2, h3, fun request hf hq => ?_⟩
  obtain ⟨given, g1, g2, g3⟩ := h4 request hf hq
  refine ⟨given, g1, g2, fun params hparams conditions limit offset hreads hlimit hoffset hsmall => ?_⟩
  obtain ⟨kept, hkept, response, k1, k2, k3, k4⟩ := g3 params hparams conditions limit offset hreads (fun _ _ _ _ _ => trivial) hlimit hoffset hsmall
  refine ⟨kept, hkept, response, k1, k2, k3, ?_⟩
  rw [← k4, ← hshown]
  have hcond : ∀ r ∈ records, kept.all (fun c => hasValueAt (shownOf r) c.property c.value) = kept.all (fun c => propEquals r c.property c.value) := by
    intro r hr
    rw [Bool.eq_iff_iff, List.all_eq_true, List.all_eq_true]
    refine forall_congr' fun c => forall_congr' fun hc => ?_
    obtain ⟨e, he, hp, _⟩ := hreads.property c (hkept.chosen c hc)
    simp only [givenParameters, List.filterMap_map, List.mem_filterMap, Function.comp_def, Option.map_eq_some_iff] at he
    obtain ⟨⟨n, q⟩, hq, t, _, rfl⟩ := he
    rw [hp, show (completedParameter q).property = q.property from rfl, propEquals_at (hget r hr _ (List.mem_map_of_mem (f := fun e : String × ParamConfig => e.2.property) hq))]
  rw [List.filter_map, ← List.map_drop, ← List.map_take, List.map_map]
  have hfilter : records.filter ((fun o => kept.all (fun c => hasValueAt o c.property c.value)) ∘ shownOf) =
      records.filter (fun r => kept.all (fun c => propEquals r c.property c.value)) := List.filter_congr hcond
  rw [hfilter]
  rfl

/-- Responses of object outputs, from the records of an input. -/
theorem object_from_data (service : ServiceLib) (hlib : RegexpContract service.find) (hjson : EncoderContract service.encode) (config : ConfigLib)
    (lib : StartLib) (files : Files) (p : ParsedConfig) (texts : GoMap TextParser) (env : OutputEnv) (apis : GoMap OutputApi) (running : GoMap (String × List Route))
    (hrun : Running config (lib.onFiles files) p texts env apis running) (hw : WellFormed config p) (hdef : PlainDefault p)
    (hvisit : ∀ (path : List Nat) (α : Type) (l : List α), (lib.visit path l).Perm l)
    (s : ServiceDecl) (hs : s ∈ p.services) (k : Nat) (hk : k < s.routes.length) (d : ObjectConfig) (ho : .object s.routes[k].output d ∈ p.outputs)
    (hrel : d.relationships = []) (x : InputDecl) (hc : x ∈ p.inputs) (hname : x.name = d.input)
    (first : List Char) (placeholders : List (List Char × List Char)) (hpath : s.routes[k].path.toList = template first placeholders)
    (hg : GoodTemplate first placeholders) (parsers : List TextParser) (hp : PlaceholderParsers (lib.onFiles files) p d.parameters placeholders parsers)
    (hr : ∀ p ∈ parsers, RouteParser p) (hu : ∀ p ∈ parsers.dropLast, Ungrouped p)
    (records : List Rec) (hrec : RecordsOf (lib.onFiles files) p env.parsers x (filteredBy d.parameters) records)
    (hfind : IndexesFind config (lib.onFiles files) p env.parsers x records (fun _ q v r => propEquals r q v) (fun _ _ _ => True))
    (objects : List (GoMap Value)) (hshown : records.map shownOf = objects) (hall : ∀ r ∈ records, r.all = .ok (shownOf r)) (hfinite : ∀ o ∈ objects, ¬ HasNonFinite (.obj o))
    (hget : ∀ r ∈ records, ∀ q ∈ filteredBy d.parameters, ∀ v, r.get q = .ok v ↔ ValueAt (shownOf r) q v) :
    ∃ routes, mapGet running s.name = some ("application/json", routes) ∧ ∃ h : k < routes.length,
      (∀ request : Request, Suits routes[k] request ↔
        request.method = "GET" ∧ ∃ given, PlaceholderTexts parsers given ∧ request.path = filled first placeholders given) ∧
      ∀ request : Request, FirstSuiting routes request routes[k] → GoodQuery request.query →
        ∃ given, PlaceholderTexts parsers given ∧ request.path = filled first placeholders given ∧
          ∀ params : GoMap Bytes, params = requestParameters (placeholders.map (fun p => String.ofList p.1)) given request.query →
          ∀ conditions : List Condition, Reads env (allParameters (d.parameters.map (fun e => (e.1, completedParameter e.2))) params) conditions →
            ∃ kept, OneForEach conditions kept ∧ ∃ response, clientGets (handleRequest service "application/json" routes request) = some response ∧
              match objects.find? (fun o => kept.all (fun c => hasValueAt o c.property c.value)) with
              | none => response.status = 404
              | some o => response.status = 200 ∧ mapGet response.headers "Content-Type" = some "application/json; charset=UTF-8" ∧
                  service.encode (.obj o) = .ok response.body := by
  obtain ⟨routes, h1, h2, h3, h4⟩ := C79_object_request_partial service hlib hjson config (lib.onFiles files) p texts env apis running hrun hw hdef hvisit s hs k hk d ho hrel x hc hname
    first placeholders hpath hg parsers hp hr hu records (hrec.mono filteredValues_filteredBy) _ _ hfind shownOf hall
    (fun r hr => hfinite _ (hshown ▸ List.mem_map_of_mem hr))
  refine ⟨routes, h1, h2, h3, fun request hf hq => ?_⟩
  obtain ⟨given, g1, g2, g3⟩ := h4 request hf hq
  refine ⟨given, g1, g2, fun params hparams conditions hreads => ?_⟩
  obtain ⟨kept, hkept, response, k1, k2⟩ := g3 params hparams conditions hreads (fun _ _ _ _ _ => trivial)
  refine ⟨kept, hkept, response, k1, ?_⟩
  have hcond : ∀ r ∈ records, kept.all (fun c => hasValueAt (shownOf r) c.property c.value) = kept.all (fun c => propEquals r c.property c.value) := by
    intro r hr
    rw [Bool.eq_iff_iff, List.all_eq_true, List.all_eq_true]
    refine forall_congr' fun c => forall_congr' fun hc => ?_
    obtain ⟨e, he, hp, _⟩ := hreads.property c (hkept.chosen c hc)
    simp only [allParameters, List.map_map, List.mem_map, Function.comp_def] at he
    obtain ⟨⟨n, q⟩, hq, rfl⟩ := he
    rw [hp, show (completedParameter q).property = q.property from rfl, propEquals_at (hget r hr _ (List.mem_map_of_mem (f := fun e : String × ParamConfig => e.2.property) hq))]
  have hfirst : objects.find? (fun o => kept.all (fun c => hasValueAt o c.property c.value)) =
      (records.find? (fun r => kept.all (fun c => propEquals r c.property c.value))).map shownOf := by
    rw [← hshown, List.find?_map]
    congr 1
    clear hrec hfind hshown hall hget h4 g3 k2
    induction records with
    | nil => rfl
    | cons r records ih =>
      simp only [List.find?_cons, Function.comp_apply]
      rw [hcond r (.head _), ih (fun r hr => hcond r (.tail _ hr))]
  rw [hfirst]
  cases hfound : records.find? (fun r => kept.all (fun c => propEquals r c.property c.value)) with
  | none => rw [hfound] at k2; exact k2
  | some r => rw [hfound] at k2; exact k2

/-- **C83** From the bytes of a CSV file to the response, for lists: in a running program, a request to a route of a list output without relationships, on
a CSV file that is well written and whose cells are read by the parsers of their columns as `objects`, is answered with status 200 and the JSON text of the array of exactly the
objects that have the values given in the path and the query string, in the order of the rows, from the asked offset on, at most the asked limit of them. Nothing of it
depends on how the operating system hands out the bytes of the file.
Of several conditions on one property of one index, one counts (`kept`, see C45). -/
theorem C83_list_from_csv (service : ServiceLib) (hlib : RegexpContract service.find) (hjson : EncoderContract service.encode) (config : ConfigLib)
    (lib : StartLib) (files : Files) (p : ParsedConfig) (texts : GoMap TextParser) (env : OutputEnv) (apis : GoMap OutputApi) (running : GoMap (String × List Route))
    (hrun : Running config (lib.onFiles files) p texts env apis running) (hw : WellFormed config p) (hdef : PlainDefault p)
    (hvisit : ∀ (path : List Nat) (α : Type) (l : List α), (lib.visit path l).Perm l)
    (s : ServiceDecl) (hs : s ∈ p.services) (k : Nat) (hk : k < s.routes.length) (d : ArrayConfig) (ho : .array s.routes[k].output d ∈ p.outputs)
    (hrel : d.relationships = []) (c : CsvDecl) (hc : .csv c ∈ p.inputs) (hname : c.name = d.input)
    (first : List Char) (placeholders : List (List Char × List Char)) (hpath : s.routes[k].path.toList = template first placeholders)
    (hg : GoodTemplate first placeholders) (parsers : List TextParser) (hp : PlaceholderParsers (lib.onFiles files) p d.parameters placeholders parsers)
    (hr : ∀ p ∈ parsers, RouteParser p) (hu : ∀ p ∈ parsers.dropLast, Ungrouped p)
    (objects : List (GoMap Value)) (hdata : CsvData files p env.parsers c (filteredBy d.parameters) objects) :
    ∃ routes, mapGet running s.name = some ("application/json", routes) ∧ ∃ h : k < routes.length,
      (∀ request : Request, Suits routes[k] request ↔
        request.method = "GET" ∧ ∃ given, PlaceholderTexts parsers given ∧ request.path = filled first placeholders given) ∧
      ∀ request : Request, FirstSuiting routes request routes[k] → GoodQuery request.query →
        ∃ given, PlaceholderTexts parsers given ∧ request.path = filled first placeholders given ∧
          ∀ params : GoMap Bytes, params = requestParameters (placeholders.map (fun p => String.ofList p.1)) given request.query →
          ∀ (conditions : List Condition) (limit offset : Nat),
            Reads env (givenParameters (d.parameters.map (fun e => (e.1, completedParameter e.2))) params) conditions →
            AskedLimit ⟨orNumber d.limit.default 100, orNumber d.limit.max 1000, orText d.limit.parameter "limit"⟩ params limit →
            AskedOffset (orText d.offsetParameter "offset") params offset → min limit (orNumber d.limit.max 1000) < 2^63 →
            ∃ kept, OneForEach conditions kept ∧ ∃ response, clientGets (handleRequest service "application/json" routes request) = some response ∧ response.status = 200 ∧
              mapGet response.headers "Content-Type" = some "application/json; charset=UTF-8" ∧
              service.encode (.arr ((((objects.filter (fun o => kept.all (fun c => hasValueAt o c.property c.value))).drop offset).take
                (min limit (orNumber d.limit.max 1000))).map .obj)) = .ok response.body := by
  obtain ⟨records, hrec, hfind, hshown, hall, hget⟩ := hdata.records hrun hw hc
  exact list_from_data service hlib hjson config lib files p texts env apis running hrun hw hdef hvisit s hs k hk d ho hrel (.csv c) hc hname first placeholders hpath hg parsers hp hr hu
    records hrec hfind objects hshown hall hdata.finite hget

/-- **C83** From the bytes of a CSV file to the response, for objects: status 200 and the JSON text of the object of the first row with the given values, or status
404 if there is none.
Of several conditions on one property of one index, one counts (`kept`, see C45). -/
theorem C83_object_from_csv (service : ServiceLib) (hlib : RegexpContract service.find) (hjson : EncoderContract service.encode) (config : ConfigLib)
    (lib : StartLib) (files : Files) (p : ParsedConfig) (texts : GoMap TextParser) (env : OutputEnv) (apis : GoMap OutputApi) (running : GoMap (String × List Route))
    (hrun : Running config (lib.onFiles files) p texts env apis running) (hw : WellFormed config p) (hdef : PlainDefault p)
    (hvisit : ∀ (path : List Nat) (α : Type) (l : List α), (lib.visit path l).Perm l)
    (s : ServiceDecl) (hs : s ∈ p.services) (k : Nat) (hk : k < s.routes.length) (d : ObjectConfig) (ho : .object s.routes[k].output d ∈ p.outputs)
    (hrel : d.relationships = []) (c : CsvDecl) (hc : .csv c ∈ p.inputs) (hname : c.name = d.input)
    (first : List Char) (placeholders : List (List Char × List Char)) (hpath : s.routes[k].path.toList = template first placeholders)
    (hg : GoodTemplate first placeholders) (parsers : List TextParser) (hp : PlaceholderParsers (lib.onFiles files) p d.parameters placeholders parsers)
    (hr : ∀ p ∈ parsers, RouteParser p) (hu : ∀ p ∈ parsers.dropLast, Ungrouped p)
    (objects : List (GoMap Value)) (hdata : CsvData files p env.parsers c (filteredBy d.parameters) objects) :
    ∃ routes, mapGet running s.name = some ("application/json", routes) ∧ ∃ h : k < routes.length,
      (∀ request : Request, Suits routes[k] request ↔
        request.method = "GET" ∧ ∃ given, PlaceholderTexts parsers given ∧ request.path = filled first placeholders given) ∧
      ∀ request : Request, FirstSuiting routes request routes[k] → GoodQuery request.query →
        ∃ given, PlaceholderTexts parsers given ∧ request.path = filled first placeholders given ∧
          ∀ params : GoMap Bytes, params = requestParameters (placeholders.map (fun p => String.ofList p.1)) given request.query →
          ∀ conditions : List Condition, Reads env (allParameters (d.parameters.map (fun e => (e.1, completedParameter e.2))) params) conditions →
            ∃ kept, OneForEach conditions kept ∧ ∃ response, clientGets (handleRequest service "application/json" routes request) = some response ∧
              match objects.find? (fun o => kept.all (fun c => hasValueAt o c.property c.value)) with
              | none => response.status = 404
              | some o => response.status = 200 ∧ mapGet response.headers "Content-Type" = some "application/json; charset=UTF-8" ∧
                  service.encode (.obj o) = .ok response.body := by
  obtain ⟨records, hrec, hfind, hshown, hall, hget⟩ := hdata.records hrun hw hc
  exact object_from_data service hlib hjson config lib files p texts env apis running hrun hw hdef hvisit s hs k hk d ho hrel (.csv c) hc hname first placeholders hpath hg parsers hp hr hu
    records hrec hfind objects hshown hall hdata.finite hget

namespace FilesExample
open RunningExample
/-- No XML files. -/
def noXPath : XPathLib := ⟨fun _ => ⟨fun _ => false, false⟩, fun _ _ => [], fun _ _ => .other, fun _ => 0⟩
/-- The file in.csv: n,s / 1,a / 1,b with CRLF / an empty line / 2,"c""" without an end. -/
def machine : Files where
  content path := if path = "in.csv" then some [110, 44, 115, 10, 49, 44, 97, 10, 49, 44, 98, 13, 10, 10, 50, 44, 34, 99, 34, 34, 34] else none
  modTimeNs _ := 0
  decodeJson := fun _ => (.bad, 0)
  lexXml _ := ([], .eof)
  xpath := FilesExample.noXPath
  fetchedXml _ _ := []
  ahead _ _ := [3, 7]
  shared _ _ := (5, [], [100])
def objects : List (GoMap Value) :=
  [[("n", .int 1), ("s", .str [97])], [("n", .int 1), ("s", .str [98])], [("n", .int 2), ("s", .str [99, 34])]]
def decl : CsvDecl := { name := "in", path := "in.csv", dieOnInputChange := none, ignoreFirstRow := true, autodetectColumns := false, delimiter := "",
                        columns := [⟨"n", "integer"⟩, ⟨"s", ""⟩] }
theorem file : CsvFile machine decl [⟨"n", "integer"⟩, ⟨"s", "string"⟩] [[[49], [97]], [[49], [98]], [[50], [99, 34]]] := by
  refine ⟨_, 44, [[[110], [115]], [[49], [97]], [[49], [98]], [[50], [99, 34]]], _, rfl, by decide +kernel, by unfold GoodDelimiter; decide, ?_, rfl, rfl, [[110], [115]], rfl, rfl⟩
  refine .row (text := [110, 44, 115]) (e := [10]) (.cons (text := [110]) (.plain (by decide)) (.one (.plain (by decide)))) (by decide) (.inl rfl) ?_
  refine .row (text := [49, 44, 97]) (e := [10]) (.cons (text := [49]) (.plain (by decide)) (.one (.plain (by decide)))) (by decide) (.inl rfl) ?_
  refine .row (text := [49, 44, 98]) (e := [13, 10]) (.cons (text := [49]) (.plain (by decide)) (.one (.plain (by decide)))) (by decide) (.inr rfl) ?_
  refine .blank (e := [10]) (.inl rfl) ?_
  exact .last (.cons (text := [50]) (.plain (by decide)) (.one (.quoted (cell := [99, 34])))) (by decide)
def noParsers : ParserLib := ⟨fun _ => .error (.err ""), fun _ => .error (.err ""), fun _ => []⟩
theorem starts : ∃ c, loadConfig ConfigExample.lib parsed = .ok c ∧ ∃ running, start ((ConfigExample.startLib noParsers).onFiles machine) c = .ok running := by
  have h : (match loadConfig ConfigExample.lib parsed with
      | .ok c => (match start ((ConfigExample.startLib noParsers).onFiles machine) c with | .ok _ => true | .error _ => false)
      | .error _ => false) = true := by decide +kernel
  cases hc : loadConfig ConfigExample.lib parsed with
  | error e => rw [hc] at h; cases h
  | ok c =>
    rw [hc] at h
    simp only at h
    refine ⟨c, rfl, ?_⟩
    cases hs : start ((ConfigExample.startLib noParsers).onFiles machine) c with
    | error e => rw [hs] at h; cases h
    | ok running => exact ⟨running, rfl⟩

theorem parser {parserLib : ParserLib} {texts : GoMap TextParser} {env : OutputEnv} {apis : GoMap OutputApi} {running : GoMap (String × List Route)}
    (hrun : Running ConfigExample.lib ((ConfigExample.startLib parserLib).onFiles machine) parsed texts env apis running) :
    mapGet env.parsers "integer" = some (parse parserLib (texts.map (fun q => (q.1, q.2.config))) texts.length (.integer [])) ∧
    mapGet env.parsers "string" = some (parse parserLib (texts.map (fun q => (q.1, q.2.config))) texts.length (.string none)) := by
  have key : ∀ {n x}, IsParser parsed n x → ∃ t, RunsParser ((ConfigExample.startLib parserLib).onFiles machine) (completedParser x) t ∧ mapGet env.parsers n =
      some (parse parserLib (texts.map (fun q => (q.1, q.2.config))) texts.length t.config) := by
    intro n x hx
    obtain ⟨t, ht, hr⟩ := hrun.parsers _ _ hx
    refine ⟨t, hr, ?_⟩
    rw [hrun.functions, parseFunctions, mapGet_mapValues (fun q : TextParser => parse ((ConfigExample.startLib parserLib).onFiles machine).parserLib
      (texts.map (fun q => (q.1, q.2.config))) texts.length q.config), ht]
    rfl
  obtain ⟨t, ht, h⟩ := key integer_parser
  obtain ⟨u, hu, g⟩ := key string_parser
  rw [show t = .integer [] from ht] at h
  rcases hu with ⟨_, rfl⟩ | ⟨hc, _⟩
  · exact ⟨h, g⟩
  · exact (hc rfl).elim

theorem data {parserLib : ParserLib} {texts : GoMap TextParser} {env : OutputEnv} {apis : GoMap OutputApi} {running : GoMap (String × List Route)}
    (hrun : Running ConfigExample.lib ((ConfigExample.startLib parserLib).onFiles machine) parsed texts env apis running) :
    CsvData machine parsed env.parsers decl (filteredBy parameters) objects := by
  obtain ⟨h1, h2⟩ := parser hrun
  have hint : ∀ cell v, integerParse [] cell = .ok v → parse parserLib (texts.map (fun q => (q.1, q.2.config))) texts.length (.integer []) cell = .ok v := by
    intro cell v h
    simp only [parse]; exact h
  have hstr : ∀ cell, parse parserLib (texts.map (fun q => (q.1, q.2.config))) texts.length (.string none) cell = .ok (.str cell) := by
    intro cell
    simp only [parse, stringParse]
  have hrow : ∀ a b v, integerParse [] a = .ok v → RowReads env.parsers [⟨"n", "integer"⟩, ⟨"s", "string"⟩] [a, b] [("n", v), ("s", .str b)] :=
    fun a b v h => ⟨_, _, _, h1, hint a v h, ⟨_, _, _, h2, hstr b, rfl, rfl⟩, rfl⟩
  refine ⟨⟨⟨_, _, file, ⟨_, _, hrow _ _ _ rfl, ⟨_, _, hrow _ _ _ rfl, ⟨_, _, hrow _ _ _ rfl, rfl, rfl⟩, rfl⟩, rfl⟩, ?_, ?_⟩, ?_⟩, ?_⟩
  · intro q hq
    have hq : q ∈ ["n", "s"] := hq
    simp only [List.mem_cons, List.not_mem_nil, or_false] at hq
    rcases hq with rfl | rfl
    · exact ⟨⟨"n", [], rfl, by decide⟩, fun o _ => ⟨_, (valueAt_name (by decide)).2 rfl⟩⟩
    · exact ⟨⟨"s", [], rfl, by decide⟩, fun o _ => ⟨_, (valueAt_name (by decide)).2 rfl⟩⟩
  · intro m hm _ q hq
    cases List.mem_singleton.1 hm
    rw [List.mem_singleton.1 hq]
    refine ⟨⟨"n", [], rfl, by decide⟩, fun o ho => ⟨_, (valueAt_name (by decide)).2 rfl, ?_⟩⟩
    simp only [objects, List.mem_cons, List.not_mem_nil, or_false] at ho
    rcases ho with rfl | rfl | rfl <;> trivial
  · intro o ho
    simp only [objects, List.mem_cons, List.not_mem_nil, or_false] at ho
    rcases ho with rfl | rfl | rfl <;> (intro h; cases h with | @obj m k v hm hv => simp at hm; rcases hm with ⟨_, rfl⟩ | ⟨_, rfl⟩ <;> cases hv)
  · intro i hi _
    rw [List.mem_singleton.1 hi]
    exact .inl ⟨_, rfl⟩
end FilesExample

/-- GET /by/1?letter=b in the program started on the file in.csv: the second row. -/
example (service : ServiceLib) (hlib : RegexpContract service.find) (hjson : EncoderContract service.encode) (parserLib : ParserLib) (c : Config)
    (hload : loadConfig ConfigExample.lib RunningExample.parsed = .ok c) (running) (hstart : start ((ConfigExample.startLib parserLib).onFiles FilesExample.machine) c = .ok running) :
    ∃ routes, mapGet running "web" = some ("application/json", routes) ∧ ∃ response,
      clientGets (handleRequest service "application/json" routes EndToEndExample.request) = some response ∧ response.status = 200 ∧
        service.encode (.arr [.obj [("n", .int 1), ("s", .str [98])]]) = .ok response.body := by
  obtain ⟨texts, env, apis, hrun⟩ := C78_running _ _ _ _ _ hload ⟨.refl _, .refl _, .refl _, .refl _, .refl _⟩ running hstart
  have hw := (C76_accepted _ _).1 ⟨_, hload⟩
  obtain ⟨routes, h1, hk, h2, h3⟩ := C83_list_from_csv service hlib hjson _ _ _ _ _ _ _ _ hrun hw RunningExample.plain_default (fun _ _ _ => .refl _)
    RunningExample.web (.head _) 0 (by decide) RunningExample.list (.head _) rfl FilesExample.decl (.head _) rfl "/by/".toList EndToEndExample.placeholders rfl
    EndToEndExample.good [.integer []] ⟨⟨_, _, rfl, RunningExample.integer_parser, rfl⟩, trivial⟩ EndToEndExample.integer_route (by simp) FilesExample.objects
    (FilesExample.data hrun)
  refine ⟨routes, h1, ?_⟩
  match routes, hk, h2, h3 with
  | route :: rest, hk, h2, h3 =>
    obtain ⟨given, h4, h5, h6⟩ := h3 EndToEndExample.request ⟨[], rest, rfl, (h2 _).2 ⟨rfl, ["1".toList], ⟨⟨[], [], ['1'], rfl, by simp, .inl rfl, by simp, by
      unfold isDigitChar; decide⟩, trivial⟩, rfl⟩, by simp⟩ ⟨by decide, by decide⟩
    have := EndToEndExample.one_reading (first := "/by/".toList) (suffix := []) (name := "number".toList) (text := ['1']) h4 (by
      rw [← show EndToEndExample.request.path = "/by/".toList ++ ['1'] ++ [] from rfl, h5]; rfl)
    subst this
    obtain ⟨p1, p2⟩ := FilesExample.parser hrun
    obtain ⟨kept, hkept, response, g1, g2, _, g4⟩ := h6 _ rfl [⟨"map", "n", .int 1⟩, ⟨"default", "s", .str [98]⟩] 100 0
      ⟨rfl, rfl, ⟨_, p1, by simp only [parse]; rfl⟩, rfl, rfl, ⟨_, p2, by simp only [parse, stringParse]⟩, trivial⟩
      (.inl ⟨by decide, rfl⟩) (.inl ⟨by decide, rfl⟩) (by decide)
    refine ⟨response, g1, g2, ?_⟩
    simp only [hkept.all_eq (by decide), List.all_cons, List.all_nil, Bool.and_true, hasValueAt_name (name := "n") (by decide), hasValueAt_name (name := "s") (by decide)] at g4
    exact g4

end Rodb
