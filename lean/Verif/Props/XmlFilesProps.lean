import Verif.Proofs.XmlFiles
import Verif.Props.JsonFilesProps
/-
  C100: from the bytes of an XML file and the configuration to the bytes of the response.
-/
namespace Rodb
open Spec

variable {config : ConfigLib} {lib : StartLib} {files : Files} {p : ParsedConfig} {functions : GoMap (Bytes → Res Value)}

/-- The records of an XML file in the running program. -/
theorem Spec.XmlInputContent.records {d : XmlDecl} {asked : List String} {objects : List (GoMap Value)} (hw : WellFormed config p) (hd : .xml d ∈ p.inputs)
    (hdata : XmlInputContent files p functions d asked objects) : ∃ records : List Rec, ContentRecords lib files p functions (.xml d) d.path asked objects records := by
  obtain ⟨content, nodes, P, hcontent, hlooks, hdoc, hstraight, hreads⟩ := hdata.file
  obtain ⟨_, _, _, hnames, hprops⟩ := hw.inputs _ hd
  generalize hmake : XmlDecl.record files.xpath { d with dieOnInputChange := some (d.dieOnInputChange.getD true), properties := completedProperties d.properties } (declaredTypes p) functions = make
  have hmake' : make = xmlRecord (recordEnv files.xpath (declaredTypes p) functions) (xmlProps files.xpath (completedProperties d.properties)) := hmake.symm
  have hpos : ∀ node q, (make node q).position = q := by intro node q; rw [hmake']; rfl
  have hopen : ∀ e input, WithColumns (lib.onFiles files) (completedInput (.xml d)) e → openInput files e (declaredTypes p) functions = .ok input →
      e = completedInput (.xml d) ∧
      input = xmlAsInput files.lexXml (files.xpath.matching d.recordXPath) make d.name content (files.modTimeNs d.path) (files.fetchedXml d.name) := by
    intro e input he hopen
    simp only [completedInput, WithColumns] at he
    subst he
    simp only [openInput, openXmlInput, hcontent, hmake, Except.ok.injEq] at hopen
    exact ⟨rfl, hopen.symm⟩
  obtain ⟨positions, h1, h2, h3, h4⟩ := C98_xml_scan files.lexXml hdata.lexer _ P hlooks make content nodes hdoc
  obtain ⟨g1, g2, g3⟩ := hreads.records hnames hprops hmake' h1 _ rfl
  generalize hrecords : ((recordsIn P nodes).zip positions).map (fun x => make x.1 x.2) = records at g1 g2 g3
  have hscan : xmlScan files.lexXml (files.xpath.matching d.recordXPath) make content = .ok (records.map .ok) := by
    rw [h4, ← hrecords]
    simp [Placed]
  have hgood : ∀ o ∈ objects, ∃ r ∈ records, shownOf r = o := by
    intro o ho
    rw [← g1] at ho
    obtain ⟨r, hr, e⟩ := List.mem_map.1 ho
    exact ⟨r, hr, e⟩
  have hobj : ∀ r ∈ records, shownOf r ∈ objects := fun r hr => g1 ▸ List.mem_map_of_mem hr
  refine ⟨records, ⟨?_, ?_, ?_⟩, g1, fun r hr => (g3 r hr).1, ?_, ?_⟩
  · intro e input he ho
    obtain ⟨rfl, rfl⟩ := hopen e input he ho
    refine ⟨⟨hscan, ?_⟩, ?_⟩
    · rw [g2]
      exact List.pairwise_map.2 (h2.imp (fun h => Int.ofNat_lt.2 h))
    · intro r hr
      refine C99_xml_fetch_partial files.lexXml hdata.lexer _ P hlooks make hpos content nodes hdoc hstraight records hscan _ ?_ r hr
      intro q hq
      obtain ⟨rs, x, k1, k2, k3⟩ := hdata.fetched _ ho _ q hq
      have k1' : xmlScan files.lexXml (files.xpath.matching d.recordXPath) make content = .ok rs := k1
      rw [hscan, Except.ok.injEq] at k1'
      rw [← k1'] at k2
      obtain ⟨y, hy, e⟩ := List.mem_map.1 k2
      cases e
      exact ⟨_, hy, k3⟩
  · intro m hm hin r hr q hq
    obtain ⟨hp, hv⟩ := hdata.indexed m hm hin q hq
    obtain ⟨v, hv, hs⟩ := hv _ (hobj r hr)
    exact ⟨v, ((g3 r hr).2 q hp ⟨v, hv⟩ v).2 hv, hs⟩
  · intro q hq r hr
    obtain ⟨hp, hv⟩ := hdata.paths q hq
    obtain ⟨v, hv⟩ := hv _ (hobj r hr)
    exact ⟨v, ((g3 r hr).2 q hp ⟨v, hv⟩ v).2 hv⟩
  · intro r hr q hq v
    obtain ⟨hp, hv⟩ := hdata.paths q hq
    exact (g3 r hr).2 q hp (hv _ (hobj r hr)) v
  · intro e input he ho
    obtain ⟨rfl, rfl⟩ := hopen e input he ho
    refine ⟨rfl, content, hcontent, rfl, rfl, fun r hr => ?_⟩
    have : r.position ∈ positions.map Int.ofNat := g2 ▸ List.mem_map_of_mem hr
    obtain ⟨q, hq, e⟩ := List.mem_map.1 this
    have := h3 q hq
    have : (q : Int) = r.position := e
    omega

theorem Spec.XmlInputData.records {d : XmlDecl} {asked : List String} {objects : List (GoMap Value)} (hw : WellFormed config p) (hd : .xml d ∈ p.inputs)
    (hdata : XmlInputData files p functions d asked objects) :
    ∃ records : List Rec, RecordsOf (lib.onFiles files) p functions (.xml d) asked records ∧
      IndexesFind config (lib.onFiles files) p functions (.xml d) records (fun _ q v r => propEquals r q v) (fun _ _ _ => True) ∧
      records.map shownOf = objects ∧ (∀ r ∈ records, r.all = .ok (shownOf r)) ∧
      ∀ r ∈ records, ∀ q ∈ asked, ∀ v, r.get q = .ok v ↔ ValueAt (shownOf r) q v := by
  obtain ⟨records, h⟩ := Spec.XmlInputContent.records (lib := lib) hw hd hdata.toXmlInputContent
  exact ⟨records, h.rows, indexesFind_equality hdata.equality, h.shown, h.all, h.get⟩

/-- **C100** From the bytes of an XML file to the bytes of the response, for lists: in a running program, a request to a route of a list output without relationships, on an XML file
in whose records the properties have the values in `objects`, is answered with status 200 and the JSON text of the array of exactly the objects that have the values given in the path and the
query string, at the paths that the parameters name, in the order of the document, from the asked offset on, at most the asked limit of them.
Missing: documents in which a record comes after the end of an element with a record in it, for which it is false (`C100_false`), and expressions that do not look for elements anywhere in the
document.
Of several conditions on one property of one index, one counts (`kept`, see C45). -/
theorem C100_list_from_xml_partial (service : ServiceLib) (hlib : RegexpContract service.find) (formatFloat : Int → Bytes) (hencode : service.encode = encodeJson formatFloat) (config : ConfigLib)
    (lib : StartLib) (files : Files) (p : ParsedConfig) (texts : GoMap TextParser) (env : OutputEnv) (apis : GoMap OutputApi) (running : GoMap (String × List Route))
    (hrun : Running config (lib.onFiles files) p texts env apis running) (hw : WellFormed config p) (hdef : PlainDefault p)
    (hvisit : ∀ (path : List Nat) (α : Type) (l : List α), (lib.visit path l).Perm l)
    (s : ServiceDecl) (hs : s ∈ p.services) (k : Nat) (hk : k < s.routes.length) (d : ArrayConfig) (ho : .array s.routes[k].output d ∈ p.outputs)
    (hrel : d.relationships = []) (c : XmlDecl) (hc : .xml c ∈ p.inputs) (hname : c.name = d.input)
    (first : List Char) (placeholders : List (List Char × List Char)) (hpath : s.routes[k].path.toList = template first placeholders)
    (hg : GoodTemplate first placeholders) (parsers : List TextParser) (hp : PlaceholderParsers (lib.onFiles files) p d.parameters placeholders parsers)
    (hr : ∀ p ∈ parsers, RouteParser p) (hu : ∀ p ∈ parsers.dropLast, Ungrouped p)
    (objects : List (GoMap Value)) (hdata : XmlInputData files p env.parsers c (filteredBy d.parameters) objects) :
    ∃ routes, mapGet running s.name = some ("application/json", routes) ∧ ∃ h : k < routes.length,
      (∀ request : Request, Suits routes[k] request ↔
        request.method = "GET" ∧ ∃ given, PlaceholderTexts parsers given ∧ request.path = filled first placeholders given) ∧
      ∀ request : Request, FirstSuiting routes request routes[k] → GoodQuery request.query →
        ∃ given, PlaceholderTexts parsers given ∧ request.path = filled first placeholders given ∧
          ∀ params : GoMap Bytes, params = requestParameters (placeholders.map (fun p => String.ofList p.1)) given request.query →
          ∀ (conditions : List Condition) (limit offset : Nat),
            Reads env (givenParameters (d.parameters.map (fun e => (e.1, completedParameter e.2))) params) conditions →
            AskedLimit ⟨orNumber d.limit.default 100, orNumber d.limit.max 1000, orText d.limit.parameter "limit"⟩ params limit →
            AskedOffset (orText d.offsetParameter "offset") params offset → min limit (orNumber d.limit.max 1000) < 2^63 →
            ∃ kept, OneForEach conditions kept ∧ ∃ response, clientGets (handleRequest service "application/json" routes request) = some response ∧ response.status = 200 ∧
              mapGet response.headers "Content-Type" = some "application/json; charset=UTF-8" ∧
              encodeJson formatFloat (.arr ((((objects.filter (fun o => kept.all (fun c => hasValueAt o c.property c.value))).drop offset).take
                (min limit (orNumber d.limit.max 1000))).map .obj)) = .ok response.body := by
  obtain ⟨records, hrec, hfind, hshown, hall, hget⟩ := hdata.records (lib := lib) hw hc
  have h := list_from_data service hlib (by rw [hencode]; exact C84_encoder_contract formatFloat) config lib files p texts env apis running hrun hw hdef hvisit s hs k hk d ho hrel (.xml c) hc
    hname first placeholders hpath hg parsers hp hr hu records hrec hfind objects hshown hall hdata.finite hget
  rw [hencode] at h
  exact h

/-- **C100** From the bytes of an XML file to the bytes of the response, for objects: status 200 and the JSON text of the first object with the given values, or status 404 if there is
none. Missing: as for lists.
Of several conditions on one property of one index, one counts (`kept`, see C45). -/
theorem C100_object_from_xml_partial (service : ServiceLib) (hlib : RegexpContract service.find) (formatFloat : Int → Bytes) (hencode : service.encode = encodeJson formatFloat) (config : ConfigLib)
    (lib : StartLib) (files : Files) (p : ParsedConfig) (texts : GoMap TextParser) (env : OutputEnv) (apis : GoMap OutputApi) (running : GoMap (String × List Route))
    (hrun : Running config (lib.onFiles files) p texts env apis running) (hw : WellFormed config p) (hdef : PlainDefault p)
    (hvisit : ∀ (path : List Nat) (α : Type) (l : List α), (lib.visit path l).Perm l)
    (s : ServiceDecl) (hs : s ∈ p.services) (k : Nat) (hk : k < s.routes.length) (d : ObjectConfig) (ho : .object s.routes[k].output d ∈ p.outputs)
    (hrel : d.relationships = []) (c : XmlDecl) (hc : .xml c ∈ p.inputs) (hname : c.name = d.input)
    (first : List Char) (placeholders : List (List Char × List Char)) (hpath : s.routes[k].path.toList = template first placeholders)
    (hg : GoodTemplate first placeholders) (parsers : List TextParser) (hp : PlaceholderParsers (lib.onFiles files) p d.parameters placeholders parsers)
    (hr : ∀ p ∈ parsers, RouteParser p) (hu : ∀ p ∈ parsers.dropLast, Ungrouped p)
    (objects : List (GoMap Value)) (hdata : XmlInputData files p env.parsers c (filteredBy d.parameters) objects) :
    ∃ routes, mapGet running s.name = some ("application/json", routes) ∧ ∃ h : k < routes.length,
      (∀ request : Request, Suits routes[k] request ↔
        request.method = "GET" ∧ ∃ given, PlaceholderTexts parsers given ∧ request.path = filled first placeholders given) ∧
      ∀ request : Request, FirstSuiting routes request routes[k] → GoodQuery request.query →
        ∃ given, PlaceholderTexts parsers given ∧ request.path = filled first placeholders given ∧
          ∀ params : GoMap Bytes, params = requestParameters (placeholders.map (fun p => String.ofList p.1)) given request.query →
          ∀ conditions : List Condition, Reads env (allParameters (d.parameters.map (fun e => (e.1, completedParameter e.2))) params) conditions →
            ∃ kept, OneForEach conditions kept ∧ ∃ response, clientGets (handleRequest service "application/json" routes request) = some response ∧
              match objects.find? (fun o => kept.all (fun c => hasValueAt o c.property c.value)) with
              | none => response.status = 404
              | some o => response.status = 200 ∧ mapGet response.headers "Content-Type" = some "application/json; charset=UTF-8" ∧
                  encodeJson formatFloat (.obj o) = .ok response.body := by
  obtain ⟨records, hrec, hfind, hshown, hall, hget⟩ := hdata.records (lib := lib) hw hc
  have h := object_from_data service hlib (by rw [hencode]; exact C84_encoder_contract formatFloat) config lib files p texts env apis running hrun hw hdef hvisit s hs k hk d ho hrel (.xml c) hc
    hname first placeholders hpath hg parsers hp hr hu records hrec hfind objects hshown hall hdata.finite hget
  rw [hencode] at h
  exact h

namespace XmlFilesExample
/-- The text in a node. -/
def textOf : XmlNode → Bytes
  | .element _ _ [.other _ text] => text
  | _ => []
/-- The expression `//i` for the records, `.`, `string()` and `count(node())`. -/
def xpath : XPathLib where
  matching _ := (XmlExample.query true)
  select _ node := [node]
  eval expr node := if expr = "string()" then .str (textOf node) else match node with
    | .element _ _ children => .num (.fin children.length)
    | .other _ _ => .num (.fin 0)
  floatToInt f := match f with
    | .fin k => k
    | _ => 0
/-- An XML file with a map index on the text of the records, and the routes /all to a list and /one to an object, with the parameter text. -/
def parameters : GoMap ParamConfig := [("text", { property := "text", index := "map", parser := "" }), ("count", { property := "o.count", index := "", parser := "integer" })]
def list : ArrayConfig := { input := "in", limit := ⟨0, 0, ""⟩, offsetParameter := "", parameters := parameters, relationships := [] }
def web : ServiceDecl := { name := "web", http := some "", https := none, errorsType := "", routes := [⟨"list", "/all"⟩] }
def decl : XmlDecl where
  name := "in"
  path := "in.xml"
  dieOnInputChange := none
  properties := [.mk "text" "" "" "string()" none [], .mk "o" "object" "" "." none [.mk "count" "primitive" "integer" "count(node())" none []]]
  recordXPath := "//i"
def parsed : ParsedConfig where
  parsers := []
  inputs := [.xml decl]
  indexes := [.map { name := "map", input := "in", properties := ["text"] }]
  services := [web]
  outputs := [.array "list" list]
/-- The file in.xml. -/
def machine (content : Bytes) : Files where
  content path := if path = "in.xml" then some content else none
  modTimeNs _ := 0
  decodeJson := fun _ => (.bad, 0)
  lexXml := XmlExample.lex
  xpath := xpath
  fetchedXml _ _ := [7, 0]
  ahead _ _ := []
  shared _ _ := (0, [], [])
def objects : List (GoMap Value) := [[("text", .str []), ("o", .obj [("count", .int 0)])], [("text", .str [121]), ("o", .obj [("count", .int 1)])]]
theorem starts : ∃ c, loadConfig ConfigExample.lib parsed = .ok c ∧ ∃ running, start ((ConfigExample.startLib FilesExample.noParsers).onFiles (machine XmlExample.flat)) c = .ok running := by
  have h : (match loadConfig ConfigExample.lib parsed with
      | .ok c => (match start ((ConfigExample.startLib FilesExample.noParsers).onFiles (machine XmlExample.flat)) c with | .ok _ => true | .error _ => false)
      | .error _ => false) = true := by decide +kernel
  cases hc : loadConfig ConfigExample.lib parsed with
  | error e => rw [hc] at h; cases h
  | ok c =>
    rw [hc] at h
    simp only at h
    refine ⟨c, rfl, ?_⟩
    cases hs : start ((ConfigExample.startLib FilesExample.noParsers).onFiles (machine XmlExample.flat)) c with
    | error e => rw [hs] at h; cases h
    | ok running => exact ⟨running, rfl⟩
theorem parser {parserLib : ParserLib} {content : Bytes} {texts : GoMap TextParser} {env : OutputEnv} {apis : GoMap OutputApi} {running : GoMap (String × List Route)}
    (hrun : Running ConfigExample.lib ((ConfigExample.startLib parserLib).onFiles (machine content)) parsed texts env apis running) :
    mapGet env.parsers "integer" = some (parse parserLib (texts.map (fun q => (q.1, q.2.config))) texts.length (.integer [])) ∧
    mapGet env.parsers "string" = some (parse parserLib (texts.map (fun q => (q.1, q.2.config))) texts.length (.string none)) := by
  have key : ∀ {n x}, IsParser parsed n x → ∃ t, RunsParser ((ConfigExample.startLib parserLib).onFiles (machine content)) (completedParser x) t ∧ mapGet env.parsers n =
      some (parse parserLib (texts.map (fun q => (q.1, q.2.config))) texts.length t.config) := by
    intro n x hx
    obtain ⟨t, ht, hr⟩ := hrun.parsers _ _ hx
    refine ⟨t, hr, ?_⟩
    rw [hrun.functions, parseFunctions, mapGet_mapValues (fun q : TextParser => parse ((ConfigExample.startLib parserLib).onFiles (machine content)).parserLib
      (texts.map (fun q => (q.1, q.2.config))) texts.length q.config), ht]
    rfl
  obtain ⟨t, ht, h⟩ := key (n := "integer") (x := ⟨"integer", .integer ""⟩) (.inr ⟨by simp [parsed], by simp [builtinParsers], rfl⟩)
  obtain ⟨u, hu, g⟩ := key (n := "string") (x := ⟨"string", .string ""⟩) (.inr ⟨by simp [parsed], by simp [builtinParsers], rfl⟩)
  rw [show t = .integer [] from ht] at h
  rcases hu with ⟨_, rfl⟩ | ⟨hc, _⟩
  · exact ⟨h, g⟩
  · exact (hc rfl).elim
theorem value_at : ∀ o ∈ objects, (∃ v, ValueAt o "text" v ∧ Scalar v) ∧ ∃ v, ValueAt o "o.count" v := by
  intro o ho
  simp only [objects, List.mem_cons, List.not_mem_nil, or_false] at ho
  rcases ho with rfl | rfl
  · exact ⟨⟨.str [], (jsonRecord_get (position := 0) (by decide)).1 rfl, trivial⟩, .int 0, (jsonRecord_get (position := 0) (by decide)).1 rfl⟩
  · exact ⟨⟨.str [121], (jsonRecord_get (position := 0) (by decide)).1 rfl, trivial⟩, .int 1, (jsonRecord_get (position := 0) (by decide)).1 rfl⟩
theorem data {parserLib : ParserLib} {texts : GoMap TextParser} {env : OutputEnv} {apis : GoMap OutputApi} {running : GoMap (String × List Route)}
    (hrun : Running ConfigExample.lib ((ConfigExample.startLib parserLib).onFiles (machine XmlExample.flat)) parsed texts env apis running) :
    XmlInputData (machine XmlExample.flat) parsed env.parsers decl (filteredBy parameters) objects := by
  obtain ⟨_, hstring⟩ := parser hrun
  have htext : ∀ (node : XmlNode) text, textOf node = text →
      XmlReads xpath (declaredTypes parsed) env.parsers (.mk "text" "" "" "string()" none []) node (.str text) := by
    intro node text h
    refine .primitive (.inl rfl) ?_
    have : xpath.eval "string()" node = .str text := by rw [← h]; rfl
    rw [this]
    exact .text (parser := "string") hstring (by simp only [parse, stringParse])
  have hcount : ∀ name attr (children : List XmlNode),
      XmlReads xpath (declaredTypes parsed) env.parsers (.mk "o" "object" "" "." none [.mk "count" "primitive" "integer" "count(node())" none []]) (.element name attr children)
        (.obj [("count", .int children.length)]) := by
    intro name attr children
    refine .object (child := .element name attr children) rfl (.cons (property := .mk "count" "primitive" "integer" "count(node())" none []) (.primitive (.inr rfl) ?_) .nil)
    have : xpath.eval "count(node())" (.element name attr children) = .num (.fin children.length) := rfl
    rw [this]
    exact .integer (xpath := xpath) (f := .fin children.length) (by decide +kernel)
  have hrow : ∀ name attr (children : List XmlNode) text, textOf (.element name attr children) = text →
      XmlReadsObject xpath (declaredTypes parsed) env.parsers decl.properties (.element name attr children) [("text", .str text), ("o", .obj [("count", .int children.length)])] :=
    fun name attr children text h => .cons (property := .mk "text" "" "" "string()" none []) (htext _ _ h)
      (.cons (property := .mk "o" "object" "" "." none [.mk "count" "primitive" "integer" "count(node())" none []]) (hcount name attr children) .nil)
  refine { lexer := XmlExample.steady, file := ?_, fetched := ?_, paths := ?_, indexed := ?_, finite := ?_, equality := ?_ }
  · exact ⟨_, _, XmlExample.isItem, rfl, XmlExample.looks, XmlExample.flat_document, XmlExample.flat_straight, _, _, hrow "i" [] [] [] rfl,
      ⟨_, _, hrow "i" [] [.other .text [121]] [121] rfl, rfl, rfl⟩, rfl⟩
  · intro input hopen position before hb
    cases hopen
    have hb : before ∈ [(7 : Int), 0] := hb
    simp only [List.mem_cons, List.not_mem_nil, or_false] at hb
    rcases hb with rfl | rfl
    · exact ⟨_, _, rfl, .tail _ (.head _), rfl⟩
    · exact ⟨_, _, rfl, .head _, rfl⟩
  · intro q hq
    have hq : q ∈ ["text", "o.count"] := hq
    simp only [List.mem_cons, List.not_mem_nil, or_false] at hq
    rcases hq with rfl | rfl
    · exact ⟨⟨"text", [], rfl, by decide⟩, fun o ho => (value_at o ho).1.elim fun v hv => ⟨v, hv.1⟩⟩
    · exact ⟨⟨"o", ["count"], rfl, by decide⟩, fun o ho => (value_at o ho).2⟩
  · intro m hm _ q hq
    cases List.mem_singleton.1 hm
    rw [List.mem_singleton.1 hq]
    exact ⟨⟨"text", [], rfl, by decide⟩, fun o ho => (value_at o ho).1⟩
  · intro o ho
    simp only [objects, List.mem_cons, List.not_mem_nil, or_false] at ho
    rcases ho with rfl | rfl <;>
    · intro h
      cases h with
      | @obj m k v hm hv =>
        simp at hm
        rcases hm with ⟨_, rfl⟩ | ⟨_, rfl⟩
        · cases hv
        · cases hv with | @obj m k v hm hv => simp at hm; rcases hm with ⟨_, rfl⟩; cases hv
  · intro i hi _
    rw [List.mem_singleton.1 hi]
    exact .inl ⟨_, rfl⟩
theorem plain_default : PlainDefault parsed := by
  intro i hi
  rcases hi with ⟨h, e⟩ | ⟨_, h, _⟩
  · rw [List.mem_singleton.1 h] at e
    exact absurd e (by decide)
  · exact ⟨_, List.mem_singleton.1 h⟩
def request (query : GoMap (List Bytes)) : Request := { method := "GET", contentType := "", path := "/all".toList, query := query, body := .ok [] }
end XmlFilesExample

/-- GET /all?count=1 in the program started on the file <r><i/>x<i>y</i></r>: [{"o":{"count":1},"text":"y"}] and a newline. -/
example (service : ServiceLib) (hlib : RegexpContract service.find) (hencode : service.encode = encodeJson JsonExample.format) (parserLib : ParserLib) (c : Config)
    (hload : loadConfig ConfigExample.lib XmlFilesExample.parsed = .ok c) (running)
    (hstart : start ((ConfigExample.startLib parserLib).onFiles (XmlFilesExample.machine XmlExample.flat)) c = .ok running) :
    ∃ routes, mapGet running "web" = some ("application/json", routes) ∧ ∃ response,
      clientGets (handleRequest service "application/json" routes (XmlFilesExample.request [("count", [[49]])])) = some response ∧ response.status = 200 ∧
        response.body = [91, 123, 34, 111, 34, 58, 123, 34, 99, 111, 117, 110, 116, 34, 58, 49, 125, 44, 34, 116, 101, 120, 116, 34, 58, 34, 121, 34, 125, 93, 10] := by
  obtain ⟨texts, env, apis, hrun⟩ := C78_running _ _ _ _ _ hload ⟨.refl _, .refl _, .refl _, .refl _, .refl _⟩ running hstart
  have hw := (C76_accepted _ _).1 ⟨_, hload⟩
  obtain ⟨routes, h1, hk, h2, h3⟩ := C100_list_from_xml_partial service hlib _ hencode _ _ _ _ _ _ _ _ hrun hw XmlFilesExample.plain_default (fun _ _ _ => .refl _)
    XmlFilesExample.web (.head _) 0 (by decide) XmlFilesExample.list (.head _) rfl XmlFilesExample.decl (.head _) rfl "/all".toList [] rfl
    (JsonFilesExample.good _ (by unfold PlainText; decide)) [] trivial (by simp) (by simp) XmlFilesExample.objects (XmlFilesExample.data hrun)
  refine ⟨routes, h1, ?_⟩
  match routes, hk, h2, h3 with
  | route :: rest, hk, h2, h3 =>
    obtain ⟨given, h4, h5, h6⟩ := h3 (XmlFilesExample.request [("count", [[49]])]) ⟨[], rest, rfl, (h2 _).2 ⟨rfl, [], trivial, rfl⟩, by simp⟩ ⟨by decide, by decide⟩
    match given, h4 with
    | [], _ =>
      obtain ⟨kept, hkept, response, g1, g2, _, g4⟩ := h6 _ rfl [⟨"default", "o.count", .int 1⟩] 100 0
        ⟨rfl, rfl, ⟨_, (XmlFilesExample.parser hrun).1, by simp only [parse]; rfl⟩, trivial⟩
        (.inl ⟨by decide, rfl⟩) (.inl ⟨by decide, rfl⟩) (by decide)
      simp only [hkept.all_eq (by decide)] at g4
      refine ⟨response, g1, g2, ?_⟩
      have hfilter : XmlFilesExample.objects.filter (fun o => [(⟨"default", "o.count", .int 1⟩ : Condition)].all (fun c => hasValueAt o c.property c.value)) =
          [[("text", .str [121]), ("o", .obj [("count", .int 1)])]] := by
        simp only [← jsonRecord_equals (position := 0) (q := "o.count") (by decide), List.all_cons, List.all_nil, Bool.and_true]
        rfl
      rw [hfilter] at g4
      exact (Except.ok.inj g4).symm

/-- **C100 is false** of other documents: the program starts on the well-formed file <r><g><i/></g><g><i/></g></r>, in which a record comes after the end of an element with a record
in it, but a list of all its records is an error. -/
theorem C100_false : ∃ (files : Files) (nodes : List XmlNode), files.content XmlFilesExample.decl.path = some XmlExample.nested ∧
    LooksFor (files.xpath.matching XmlFilesExample.decl.recordXPath) XmlExample.isItem ∧ IsDocument files.lexXml XmlExample.nested nodes ∧
    (recordsIn XmlExample.isItem nodes).length = 2 ∧ (∀ position, files.fetchedXml XmlFilesExample.decl.name position = []) ∧
    ∃ c running routes, loadConfig ConfigExample.lib XmlFilesExample.parsed = .ok c ∧ start ((ConfigExample.startLib FilesExample.noParsers).onFiles files) c = .ok running ∧
      mapGet running "web" = some ("application/json", routes) ∧ ∃ route rest, routes = route :: rest ∧ route.output.handle [] [] = .error (.err "Cannot read xml data") := by
  refine ⟨{ XmlFilesExample.machine XmlExample.nested with fetchedXml := fun _ _ => [] }, _, rfl, XmlExample.looks, XmlExample.nested_document, rfl, fun _ => rfl, ?_⟩
  generalize hfiles : ({ XmlFilesExample.machine XmlExample.nested with fetchedXml := fun _ _ => [] } : Files) = files
  have h : (match loadConfig ConfigExample.lib XmlFilesExample.parsed with
      | .ok c => (match start ((ConfigExample.startLib FilesExample.noParsers).onFiles files) c with
        | .ok running => (match mapGet running "web" with
          | some (t, route :: _) => t == "application/json" && (match route.output.handle [] [] with | .error (.err m) => m == "Cannot read xml data" | _ => false)
          | _ => false)
        | .error _ => false)
      | .error _ => false) = true := by rw [← hfiles]; decide +kernel
  cases hc : loadConfig ConfigExample.lib XmlFilesExample.parsed with
  | error e => rw [hc] at h; cases h
  | ok c =>
    rw [hc] at h
    simp only at h
    cases hs : start ((ConfigExample.startLib FilesExample.noParsers).onFiles files) c with
    | error e => rw [hs] at h; cases h
    | ok running =>
      rw [hs] at h
      simp only at h
      cases hm : mapGet running "web" with
      | none => rw [hm] at h; cases h
      | some x =>
        obtain ⟨t, routes⟩ := x
        rw [hm] at h
        cases routes with
        | nil => cases h
        | cons route rest =>
          simp only [Bool.and_eq_true, beq_iff_eq] at h
          obtain ⟨rfl, h⟩ := h
          refine ⟨c, running, _, rfl, hs, hm, route, rest, rfl, ?_⟩
          split at h
          · rename_i m he
            rw [he, eq_of_beq h]
          · cases h

end Rodb
