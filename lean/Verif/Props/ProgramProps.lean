import Verif.Props.UrlProps
import Verif.Props.StoredFilesProps
import Verif.Props.ConfigFileProps
import Verif.Spec.Program
/-
  C108: the program as a whole, from its configuration file, its data files and the URL of a request to the bytes of the response.
-/
namespace Rodb
open Spec

/-- Parameters are only looked up by their names. -/
theorem askedLimit_congr {c : LimitConfig} {a b : GoMap Bytes} {n : Nat} (h : ∀ n, mapGet a n = mapGet b n) (ha : AskedLimit c a n) : AskedLimit c b n := by
  unfold AskedLimit at ha ⊢
  simpa only [h] using ha

theorem askedOffset_congr {c : String} {a b : GoMap Bytes} {n : Nat} (h : ∀ n, mapGet a n = mapGet b n) (ha : AskedOffset c a n) : AskedOffset c b n := by
  unfold AskedOffset at ha ⊢
  simpa only [h] using ha

/-- The first route whose pattern the path matches. -/
theorem firstSuiting_path {routes : List Route} {k : Nat} (h : k < routes.length) {request : Request} (hk : Suits routes[k] request)
    (hbefore : ∀ (j : Nat) (hj : j < k), ¬ PathMatches (routes[j]'(Nat.lt_trans hj h)) request.path) : FirstSuiting routes request routes[k] := by
  refine ⟨routes.take k, routes.drop (k + 1), ?_, hk, ?_⟩
  · rw [← List.drop_eq_getElem_cons h, List.take_append_drop]
  · intro r hr hs
    obtain ⟨j, hj, rfl⟩ := List.mem_iff_getElem.1 hr
    rw [List.length_take] at hj
    rw [List.getElem_take] at hs
    exact hbefore j (by omega) hs.2

/-- A running program answers the requests for lists. -/
theorem lists_answered {config : ConfigLib} {lib : StartLib} (hsort : SortContract lib.sort) {files : Files} (hvisit : ∀ (path : List Nat) (α : Type) (l : List α), (lib.visit path l).Perm l)
    {p : ParsedConfig} (hw : WellFormed config p) {texts : GoMap TextParser} {env : OutputEnv} {apis : GoMap OutputApi} {running : GoMap (String × List Route)}
    (hrun : Running config (lib.onFiles files) p texts env apis running) {st : Storage} (hst : lib.index = openIndex st)
    (service : ServiceLib) (hlib : RegexpContract service.find) (formatFloat : Int → Bytes) (hencode : service.encode = encodeJson formatFloat) (parseFloat : Bytes → Res GoFloat)
    (asked : String → List String) (tables : String → List (GoMap Value)) (hdef : PlainDefault p)
    (hdata : ∀ x ∈ p.inputs, FileContent files parseFloat p env.parsers x (asked x.name) (tables x.name))
    (hstored : ∀ x ∈ p.inputs, StoredOn config lib files st p env.parsers x (asked x.name) (tables x.name)) :
    ListsAnswered config lib files st p env running service formatFloat asked tables := by
  intro s hs k hk d ho first placeholders hpath hg parsers hp hr hu hasked hfits
  obtain ⟨routes, h1, h, h2, h3⟩ := C89_list_stored_partial service hlib formatFloat hencode config lib hsort files p texts env apis running hrun hw hdef hvisit s hs k hk d ho first placeholders
    hpath hg parsers hp hr hu parseFloat asked tables st hst hdata hstored hasked hfits
  refine ⟨routes, h1, h, ?_⟩
  intro old visit hv urlPath pairs target htarget hslash hfilled hbefore contentType body
  obtain ⟨request, q1, q2, _, _, q5, q6, q7⟩ := C106_url_written service "application/json" routes old visit hv "GET" contentType body _ _ _ htarget hslash
  obtain ⟨texts', t1, t2⟩ := hfilled
  obtain ⟨given, e1, e2, e3⟩ := h3 request (firstSuiting_path h ((h2 request).2 ⟨q2, texts', t1, q5.trans t2⟩) (by rw [q5]; exact hbefore)) q6
  refine ⟨given, e1, q5.symm.trans e2, ?_⟩
  intro params hparams conditions limit offset c1 c3 c4 c5 c6
  have hsame : ∀ n, mapGet params n = mapGet (requestParameters (placeholders.map (fun p => String.ofList p.1)) given request.query) n := by
    intro n
    rw [hparams, requestParameters_get _ _ _ q6, q7]
  rw [q1]
  exact e3 _ rfl conditions limit offset (by rw [← givenParameters_congr _ hsame]; exact c1) c3 (askedLimit_congr hsame c4) (askedOffset_congr hsame c5) c6

/-- A running program answers the requests for objects. -/
theorem objects_answered {config : ConfigLib} {lib : StartLib} (hsort : SortContract lib.sort) {files : Files} (hvisit : ∀ (path : List Nat) (α : Type) (l : List α), (lib.visit path l).Perm l)
    {p : ParsedConfig} (hw : WellFormed config p) {texts : GoMap TextParser} {env : OutputEnv} {apis : GoMap OutputApi} {running : GoMap (String × List Route)}
    (hrun : Running config (lib.onFiles files) p texts env apis running) {st : Storage} (hst : lib.index = openIndex st)
    (service : ServiceLib) (hlib : RegexpContract service.find) (formatFloat : Int → Bytes) (hencode : service.encode = encodeJson formatFloat) (parseFloat : Bytes → Res GoFloat)
    (asked : String → List String) (tables : String → List (GoMap Value)) (hdef : PlainDefault p)
    (hdata : ∀ x ∈ p.inputs, FileContent files parseFloat p env.parsers x (asked x.name) (tables x.name))
    (hstored : ∀ x ∈ p.inputs, StoredOn config lib files st p env.parsers x (asked x.name) (tables x.name)) :
    ObjectsAnswered config lib files st p env running service formatFloat asked tables := by
  intro s hs k hk d ho first placeholders hpath hg parsers hp hr hu hasked hfits
  obtain ⟨routes, h1, h, h2, h3⟩ := C89_object_stored_partial service hlib formatFloat hencode config lib hsort files p texts env apis running hrun hw hdef hvisit s hs k hk d ho first placeholders
    hpath hg parsers hp hr hu parseFloat asked tables st hst hdata hstored hasked hfits
  refine ⟨routes, h1, h, ?_⟩
  intro old visit hv urlPath pairs target htarget hslash hfilled hbefore contentType body
  obtain ⟨request, q1, q2, _, _, q5, q6, q7⟩ := C106_url_written service "application/json" routes old visit hv "GET" contentType body _ _ _ htarget hslash
  obtain ⟨texts', t1, t2⟩ := hfilled
  obtain ⟨given, e1, e2, e3⟩ := h3 request (firstSuiting_path h ((h2 request).2 ⟨q2, texts', t1, q5.trans t2⟩) (by rw [q5]; exact hbefore)) q6
  refine ⟨given, e1, q5.symm.trans e2, ?_⟩
  intro params hparams conditions c1 c3
  have hsame : ∀ n, mapGet params n = mapGet (requestParameters (placeholders.map (fun p => String.ofList p.1)) given request.query) n := by
    intro n
    rw [hparams, requestParameters_get _ _ _ q6, q7]
  rw [q1]
  exact e3 _ rfl conditions (by rw [← allParameters_congr _ hsame]; exact c1) c3

/-- **C108** The program as a whole, for lists. The program runs with a configuration file that describes `p`. If the inputs are CSV, JSON and XML files that hold the objects of `tables`, and the index files
and databases do not exist yet or were left by earlier starts, then a GET request with a URL that writes, in any way, the path of a route to a list output (which no earlier route matches) and some
parameters, is answered with status 200 and the JSON text of the array of exactly the objects that the asked indexes find, in the order of the file, from the asked offset on, at most the asked limit of
them, each with its relationships. Of several parameters on one property of one index, one counts.
Missing for the full C108: what is missing in C79 and C89. -/
theorem C108_list_partial (file : ConfigFileLib) (config : ConfigLib) (path : String) (p : ParsedConfig) (hdescribes : FileDescribes file path p) (c c' : Config)
    (hload : loadConfigFile file config path = .ok c) (hre : Reordered c c')
    (lib : StartLib) (hsort : SortContract lib.sort) (files : Files) (hvisit : ∀ (path : List Nat) (α : Type) (l : List α), (lib.visit path l).Perm l)
    (st : Storage) (hst : lib.index = openIndex st) (running : GoMap (String × List Route)) (hstart : start (lib.onFiles files) c' = .ok running)
    (service : ServiceLib) (hlib : RegexpContract service.find) (formatFloat : Int → Bytes) (hencode : service.encode = encodeJson formatFloat) (parseFloat : Bytes → Res GoFloat) :
    ∃ texts env apis, WellFormed config p ∧ Running config (lib.onFiles files) p texts env apis running ∧
      ∀ (asked : String → List String) (tables : String → List (GoMap Value)), PlainDefault p →
      (∀ x ∈ p.inputs, FileContent files parseFloat p env.parsers x (asked x.name) (tables x.name)) →
      (∀ x ∈ p.inputs, StoredOn config lib files st p env.parsers x (asked x.name) (tables x.name)) →
      ∀ s ∈ p.services, ∀ (k : Nat) (hk : k < s.routes.length) (d : ArrayConfig), .array s.routes[k].output d ∈ p.outputs →
      ∀ (first : List Char) (placeholders : List (List Char × List Char)), s.routes[k].path.toList = template first placeholders → GoodTemplate first placeholders →
      ∀ parsers : List TextParser, PlaceholderParsers (lib.onFiles files) p d.parameters placeholders parsers → (∀ p ∈ parsers, RouteParser p) → (∀ p ∈ parsers.dropLast, Ungrouped p) →
      (∀ q ∈ filteredValues p d.parameters, q ∈ asked d.input) → FitsObjects p (Askable config st p) asked tables (depthOf d.relationships) d.input d.relationships →
      ∃ routes, mapGet running s.name = some ("application/json", routes) ∧ ∃ h : k < routes.length,
        ∀ (old : Bool) (visit : GoMap (List Bytes) → GoMap (List Bytes)), (∀ m, (visit m).Perm m) →
        ∀ (urlPath : List Char) (pairs : List (String × Bytes)) (target : Bytes), TargetText urlPath pairs target → target.head? = some 47 →
        (∃ given, PlaceholderTexts parsers given ∧ urlPath = filled first placeholders given) → (∀ (j : Nat) (hj : j < k), ¬ PathMatches (routes[j]'(Nat.lt_trans hj h)) urlPath) →
        ∀ (contentType : String) (body : Res Bytes), ∃ given, PlaceholderTexts parsers given ∧ urlPath = filled first placeholders given ∧
          ∀ params : GoMap Bytes,
            (∀ name, mapGet params name = ((placeholderValue (placeholders.map (fun p => String.ofList p.1)) given name).map utf8).or (pairs.lookup name)) →
          ∀ (conditions : List Condition) (limit offset : Nat),
            Reads env (givenParameters (d.parameters.map (fun e => (e.1, completedParameter e.2))) params) conditions →
            (∀ c ∈ conditions, Askable config st p c.index c.property c.value) →
            AskedLimit ⟨orNumber d.limit.default 100, orNumber d.limit.max 1000, orText d.limit.parameter "limit"⟩ params limit →
            AskedOffset (orText d.offsetParameter "offset") params offset → min limit (orNumber d.limit.max 1000) < 2^63 →
            ∃ kept, OneForEach conditions kept ∧
            let window := (((tables d.input).filter (fun o => kept.all (fun c => foundIn config st p c.index c.property c.value o))).drop offset).take
              (min limit (orNumber d.limit.max 1000))
            ∃ response, serveTarget service "application/json" routes old visit "GET" contentType target body = some response ∧ response.status = 200 ∧
              mapGet response.headers "Content-Type" = some "application/json; charset=UTF-8" ∧
              ∃ rows : List (GoMap Value), encodeJson formatFloat (.arr (rows.map .obj)) = .ok response.body ∧ rows.length = window.length ∧
                ∀ k (h : k < window.length) (h' : k < rows.length), ShownWith (foundIn config st p) tables (depthOf d.relationships) window[k] d.relationships rows[k] := by
  obtain ⟨p', hdescribes', hw, texts, env, apis, hrun⟩ := C93_running file config (lib.onFiles files) path c c' hload hre running hstart
  obtain rfl := hdescribes'.unique hdescribes
  refine ⟨texts, env, apis, hw, hrun, ?_⟩
  intro asked tables hdef hdata hstored
  exact lists_answered hsort hvisit hw hrun hst service hlib formatFloat hencode parseFloat asked tables hdef hdata hstored

/-- **C108** The program as a whole, for objects: status 200 and the JSON text of the first object that all the asked indexes find, with its relationships, or status 404 if there is none.
Missing for the full C108: what is missing in C79 and C89. -/
theorem C108_object_partial (file : ConfigFileLib) (config : ConfigLib) (path : String) (p : ParsedConfig) (hdescribes : FileDescribes file path p) (c c' : Config)
    (hload : loadConfigFile file config path = .ok c) (hre : Reordered c c')
    (lib : StartLib) (hsort : SortContract lib.sort) (files : Files) (hvisit : ∀ (path : List Nat) (α : Type) (l : List α), (lib.visit path l).Perm l)
    (st : Storage) (hst : lib.index = openIndex st) (running : GoMap (String × List Route)) (hstart : start (lib.onFiles files) c' = .ok running)
    (service : ServiceLib) (hlib : RegexpContract service.find) (formatFloat : Int → Bytes) (hencode : service.encode = encodeJson formatFloat) (parseFloat : Bytes → Res GoFloat) :
    ∃ texts env apis, WellFormed config p ∧ Running config (lib.onFiles files) p texts env apis running ∧
      ∀ (asked : String → List String) (tables : String → List (GoMap Value)), PlainDefault p →
      (∀ x ∈ p.inputs, FileContent files parseFloat p env.parsers x (asked x.name) (tables x.name)) →
      (∀ x ∈ p.inputs, StoredOn config lib files st p env.parsers x (asked x.name) (tables x.name)) →
      ∀ s ∈ p.services, ∀ (k : Nat) (hk : k < s.routes.length) (d : ObjectConfig), .object s.routes[k].output d ∈ p.outputs →
      ∀ (first : List Char) (placeholders : List (List Char × List Char)), s.routes[k].path.toList = template first placeholders → GoodTemplate first placeholders →
      ∀ parsers : List TextParser, PlaceholderParsers (lib.onFiles files) p d.parameters placeholders parsers → (∀ p ∈ parsers, RouteParser p) → (∀ p ∈ parsers.dropLast, Ungrouped p) →
      (∀ q ∈ filteredValues p d.parameters, q ∈ asked d.input) → FitsObjects p (Askable config st p) asked tables (depthOf d.relationships) d.input d.relationships →
      ∃ routes, mapGet running s.name = some ("application/json", routes) ∧ ∃ h : k < routes.length,
        ∀ (old : Bool) (visit : GoMap (List Bytes) → GoMap (List Bytes)), (∀ m, (visit m).Perm m) →
        ∀ (urlPath : List Char) (pairs : List (String × Bytes)) (target : Bytes), TargetText urlPath pairs target → target.head? = some 47 →
        (∃ given, PlaceholderTexts parsers given ∧ urlPath = filled first placeholders given) → (∀ (j : Nat) (hj : j < k), ¬ PathMatches (routes[j]'(Nat.lt_trans hj h)) urlPath) →
        ∀ (contentType : String) (body : Res Bytes), ∃ given, PlaceholderTexts parsers given ∧ urlPath = filled first placeholders given ∧
          ∀ params : GoMap Bytes,
            (∀ name, mapGet params name = ((placeholderValue (placeholders.map (fun p => String.ofList p.1)) given name).map utf8).or (pairs.lookup name)) →
          ∀ conditions : List Condition, Reads env (allParameters (d.parameters.map (fun e => (e.1, completedParameter e.2))) params) conditions →
            (∀ c ∈ conditions, Askable config st p c.index c.property c.value) →
            ∃ kept, OneForEach conditions kept ∧ ∃ response, serveTarget service "application/json" routes old visit "GET" contentType target body = some response ∧
              match (tables d.input).find? (fun o => kept.all (fun c => foundIn config st p c.index c.property c.value o)) with
              | none => response.status = 404
              | some o => response.status = 200 ∧ mapGet response.headers "Content-Type" = some "application/json; charset=UTF-8" ∧
                  ∃ shown, encodeJson formatFloat (.obj shown) = .ok response.body ∧ ShownWith (foundIn config st p) tables (depthOf d.relationships) o d.relationships shown := by
  obtain ⟨p', hdescribes', hw, texts, env, apis, hrun⟩ := C93_running file config (lib.onFiles files) path c c' hload hre running hstart
  obtain rfl := hdescribes'.unique hdescribes
  refine ⟨texts, env, apis, hw, hrun, ?_⟩
  intro asked tables hdef hdata hstored
  exact objects_answered hsort hvisit hw hrun hst service hlib formatFloat hencode parseFloat asked tables hdef hdata hstored

namespace ProgramExample
/-- The configuration of `StoredFilesExample`, in a file. -/
def file : ConfigFileLib where
  read path := if path = "rodb.yaml" then some [36, 80] else none
  env name := if name = [80] then [112] else []
  parse text := if text = [112] then some (documentOf StoredFilesExample.parsed) else none
  yaml := YamlExample.lib

theorem representable : Representable StoredFilesExample.parsed :=
  ⟨by simp [StoredFilesExample.parsed, StoredFilesExample.fts5], by
      rintro name d h
      simp only [StoredFilesExample.parsed, List.mem_cons, OutputDecl.array.injEq, reduceCtorEq, List.not_mem_nil, or_false, false_or] at h
      rcases h with ⟨_, rfl⟩ | ⟨_, rfl⟩ <;> simp [StoredFilesExample.numbers, StoredFilesExample.list, AllInRange, InRange],
    by simp [StoredFilesExample.parsed, StoredFilesExample.one, StoredFilesExample.list, AllInRange, InRange]⟩

theorem loads : FileDescribes file "rodb.yaml" StoredFilesExample.parsed ∧
    ∃ c, loadConfigFile file ConfigExample.lib "rodb.yaml" = .ok c ∧ loadConfig ConfigExample.lib StoredFilesExample.parsed = .ok c := by
  obtain ⟨c, hc, _⟩ := StoredFilesExample.starts
  exact C93_written file ConfigExample.lib "rodb.yaml" _ representable ((C76_accepted _ _).1 ⟨_, hc⟩) [36, 80] (by simp [file])
    (by simp [file, expandEnv, expandLoop, shellName, isShellSpecial, isAlphaNum])

/-- `/%61ll?&part=%42&number=1` -/
def target : Bytes := [47, 37, 54, 49, 108, 108] ++ 63 :: (38 :: ((utf8 "part".toList ++ 61 :: [37, 52, 50]) ++ 38 :: (utf8 "number".toList ++ 61 :: [49])))
theorem text : TargetText "/all".toList [("part", [66]), ("number", [49])] target := by
  have pl : ∀ {plus : Bool} {special bytes text : Bytes} (b : UInt8), (32 < b.toNat ∧ b.toNat ≠ 127 ∧ b ≠ 37 ∧ b ∉ special) → UrlText plus special bytes text →
      UrlText plus special (b :: bytes) (b :: text) := fun b h t => .plain h.1 h.2.1 h.2.2.1 h.2.2.2 t
  refine .query (path := "/all".toList) ?_ (.blank (.more (.value ?_ ?_) (.last (.value ?_ ?_))))
  · exact pl 47 (by decide) (.escaped (b := 97) (by unfold IsHex; decide) (by unfold IsHex; decide) (pl 108 (by decide) (pl 108 (by decide) .done)))
  · exact pl 112 (by decide) (pl 97 (by decide) (pl 114 (by decide) (pl 116 (by decide) .done)))
  · exact .escaped (b := 66) (by unfold IsHex; decide) (by unfold IsHex; decide) .done
  · exact pl 110 (by decide) (pl 117 (by decide) (pl 109 (by decide) (pl 98 (by decide) (pl 101 (by decide) (pl 114 (by decide) .done)))))
  · exact pl 49 (by decide) .done
end ProgramExample

/-- The program runs with the file of the example, and answers `GET /%61ll?&part=%42&number=1` with the row 1,b. -/
example (service : ServiceLib) (hlib : RegexpContract service.find) (hencode : service.encode = encodeJson JsonExample.format) : ∃ c running,
    loadConfigFile ProgramExample.file ConfigExample.lib "rodb.yaml" = .ok c ∧
    start ((StoredFilesExample.startLib FilesExample.noParsers).onFiles FilesExample.machine) c = .ok running ∧
    ∃ routes, mapGet running "web" = some ("application/json", routes) ∧ ∀ old, ∃ response,
      serveTarget service "application/json" routes old id "GET" "" ProgramExample.target (.ok []) = some response ∧
        response.status = 200 ∧ ∃ row : GoMap Value, encodeJson JsonExample.format (.arr [.obj row]) = .ok response.body ∧
          row.lookup "n" = some (.int 1) ∧ row.lookup "s" = some (.str [98]) := by
  obtain ⟨hd, c, hload, hc⟩ := ProgramExample.loads
  obtain ⟨c', hc', running, hstart⟩ := StoredFilesExample.starts
  rw [hc] at hc'
  cases hc'
  refine ⟨c, running, hload, hstart, ?_⟩
  obtain ⟨texts, env, apis, hw, hrun, h⟩ := C108_list_partial ProgramExample.file ConfigExample.lib "rodb.yaml" _ hd c c hload ⟨.refl _, .refl _, .refl _, .refl _, .refl _⟩
    (StoredFilesExample.startLib FilesExample.noParsers) goInsertionSort_contract FilesExample.machine (fun _ _ _ => .refl _) StoredFilesExample.storage rfl running hstart service hlib _ hencode
    JsonExample.parse
  obtain ⟨p1, p2⟩ := StoredFilesExample.parser hrun
  obtain ⟨routes, h1, hk, h2⟩ := h StoredFilesExample.asked StoredFilesExample.tables StoredFilesExample.plain_default (StoredFilesExample.data p1 p2) (StoredFilesExample.stored p1 p2)
    StoredFilesExample.web (.head _) 0 (by decide) StoredFilesExample.list (.head _) "/all".toList [] rfl (JsonFilesExample.good _ (by unfold PlainText; decide)) [] trivial (by simp) (by simp)
    (by decide) StoredFilesExample.fits
  refine ⟨routes, h1, fun old => ?_⟩
  obtain ⟨given, h4, _, h6⟩ := h2 old id (fun _ => .refl _) _ _ _ ProgramExample.text rfl ⟨[], trivial, rfl⟩ (by simp) "" (.ok [])
  match given, h4 with
  | [], _ =>
    obtain ⟨kept, hkept, h7⟩ := h6 [("part", [66]), ("number", [49])] (fun _ => by rw [← mapGet_eq_lookup]; rfl)
      [⟨"w", "s", .str [66]⟩, ⟨"q", "n", .int 1⟩] 100 0 ⟨rfl, rfl, ⟨_, p2, rfl⟩, rfl, rfl, ⟨_, p1, rfl⟩, trivial⟩
      (by
        intro c hc
        simp only [List.mem_cons, List.not_mem_nil, or_false] at hc
        rcases hc with rfl | rfl
        · exact StoredFilesExample.askable_w _ (by decide)
        · exact StoredFilesExample.askable_q _ _ (.int _))
      (.inl ⟨rfl, rfl⟩) (.inl ⟨rfl, rfl⟩) (by decide)
    simp only [hkept.all_eq (by decide)] at h7
    obtain ⟨response, g1, g2, _, rows, g4, g5, g6⟩ := h7
    have hwindow : (StoredFilesExample.tables StoredFilesExample.list.input).filter (fun o => [(⟨"w", "s", .str [66]⟩ : Condition), ⟨"q", "n", .int 1⟩].all
        (fun c => foundIn ConfigExample.lib StoredFilesExample.storage StoredFilesExample.parsed c.index c.property c.value o)) = [[("n", .int 1), ("s", .str [98])]] := by
      simp only [List.all_cons, List.all_nil, Bool.and_true, StoredFilesExample.found_w, StoredFilesExample.found_q]
      rfl
    simp only [hwindow] at g5 g6
    match rows, g4, g5, g6 with
    | [row], g4, _, g6 =>
      obtain ⟨g7, _⟩ := g6 0 (by decide) (by simp)
      exact ⟨response, g1, g2, row, g4, g7 _ (by decide), g7 _ (by decide)⟩

namespace ProgramExample
/-- `/one?word=b` -/
def oneTarget : Bytes := [47, 111, 110, 101] ++ 63 :: (utf8 "word".toList ++ 61 :: [98])
theorem oneText : TargetText "/one".toList [("word", [98])] oneTarget := by
  have pl : ∀ {plus : Bool} {special bytes text : Bytes} (b : UInt8), (32 < b.toNat ∧ b.toNat ≠ 127 ∧ b ≠ 37 ∧ b ∉ special) → UrlText plus special bytes text →
      UrlText plus special (b :: bytes) (b :: text) := fun b h t => .plain h.1 h.2.1 h.2.2.1 h.2.2.2 t
  refine .query (path := "/one".toList) ?_ (.last (.value ?_ ?_))
  · exact pl 47 (by decide) (pl 111 (by decide) (pl 110 (by decide) (pl 101 (by decide) .done)))
  · exact pl 119 (by decide) (pl 111 (by decide) (pl 114 (by decide) (pl 100 (by decide) .done)))
  · exact pl 98 (by decide) .done
end ProgramExample

/-- It answers `GET /one?word=b` with the row 1,b. -/
example (service : ServiceLib) (hlib : RegexpContract service.find) (hencode : service.encode = encodeJson JsonExample.format) : ∃ c running,
    loadConfigFile ProgramExample.file ConfigExample.lib "rodb.yaml" = .ok c ∧
    start ((StoredFilesExample.startLib FilesExample.noParsers).onFiles FilesExample.machine) c = .ok running ∧
    ∃ routes, mapGet running "web" = some ("application/json", routes) ∧ ∀ old, ∃ response,
      serveTarget service "application/json" routes old id "GET" "" ProgramExample.oneTarget (.ok []) = some response ∧
        response.status = 200 ∧ ∃ row : GoMap Value, encodeJson JsonExample.format (.obj row) = .ok response.body ∧
          row.lookup "n" = some (.int 1) ∧ row.lookup "s" = some (.str [98]) := by
  obtain ⟨hd, c, hload, hc⟩ := ProgramExample.loads
  obtain ⟨c', hc', running, hstart⟩ := StoredFilesExample.starts
  rw [hc] at hc'
  cases hc'
  refine ⟨c, running, hload, hstart, ?_⟩
  obtain ⟨texts, env, apis, hw, hrun, h⟩ := C108_object_partial ProgramExample.file ConfigExample.lib "rodb.yaml" _ hd c c hload ⟨.refl _, .refl _, .refl _, .refl _, .refl _⟩
    (StoredFilesExample.startLib FilesExample.noParsers) goInsertionSort_contract FilesExample.machine (fun _ _ _ => .refl _) StoredFilesExample.storage rfl running hstart service hlib _ hencode
    JsonExample.parse
  obtain ⟨p1, p2⟩ := StoredFilesExample.parser hrun
  obtain ⟨routes, h1, hk, h2⟩ := h StoredFilesExample.asked StoredFilesExample.tables StoredFilesExample.plain_default (StoredFilesExample.data p1 p2) (StoredFilesExample.stored p1 p2)
    StoredFilesExample.web (.head _) 1 (by decide) StoredFilesExample.one (.tail _ (.head _)) "/one".toList [] rfl (JsonFilesExample.good _ (by unfold PlainText; decide)) [] trivial (by simp) (by simp)
    (by decide) StoredFilesExample.fits
  refine ⟨routes, h1, fun old => ?_⟩
  obtain ⟨routes', f1, fk, f2, _⟩ := C89_list_stored_partial service hlib _ hencode _ _ goInsertionSort_contract _ _ _ _ _ _ hrun hw StoredFilesExample.plain_default
    (fun _ _ _ => .refl _) StoredFilesExample.web (.head _) 0 (by decide) StoredFilesExample.list (.head _) "/all".toList [] rfl
    (JsonFilesExample.good _ (by unfold PlainText; decide)) [] trivial (by simp) (by simp) JsonExample.parse StoredFilesExample.asked StoredFilesExample.tables
    StoredFilesExample.storage rfl (StoredFilesExample.data p1 p2) (StoredFilesExample.stored p1 p2) (by decide) StoredFilesExample.fits
  rw [h1] at f1
  cases f1
  have hnot : ∀ (j : Nat) (hj : j < 1), ¬ PathMatches (routes[j]'(Nat.lt_trans hj hk)) "/one".toList := by
    intro j hj hm
    obtain rfl : j = 0 := by omega
    have hpayload : routes[0].output.payloadType = none := by
      rcases ((f2 (RelatedFilesExample.request "/all" [])).2 ⟨rfl, [], trivial, rfl⟩).1 with h | h
      · exact h.2
      · exact absurd h.1 (by decide)
    obtain ⟨_, given, g1, g2⟩ := (f2 (RelatedFilesExample.request "/one" [])).1 ⟨.inl ⟨rfl, hpayload⟩, hm⟩
    match given, g1, g2 with
    | [], _, g2 => exact absurd g2 (by decide)
  obtain ⟨given, h4, _, h6⟩ := h2 old id (fun _ => .refl _) _ _ _ ProgramExample.oneText rfl ⟨[], trivial, rfl⟩ hnot "" (.ok [])
  match given, h4 with
  | [], _ =>
    obtain ⟨kept, hkept, response, g1, g2⟩ := h6 [("word", [98])] (fun _ => by rw [← mapGet_eq_lookup]; rfl) [⟨"f", "match", .str [98]⟩] ⟨rfl, rfl, ⟨_, p2, rfl⟩, trivial⟩
      (fun c hc => by rw [List.mem_singleton.1 hc]; exact StoredFilesExample.askable_f _)
    simp only [hkept.all_eq (by decide)] at g2
    have hfind : (StoredFilesExample.tables StoredFilesExample.one.input).find? (fun o => [(⟨"f", "match", .str [98]⟩ : Condition)].all
        (fun c => foundIn ConfigExample.lib StoredFilesExample.storage StoredFilesExample.parsed c.index c.property c.value o)) = some [("n", .int 1), ("s", .str [98])] := by
      have h := fun n t => StoredFilesExample.found_f n t [98] (by decide)
      rw [show StoredFilesExample.tables StoredFilesExample.one.input =
        [[("n", .int 1), ("s", .str [97])], [("n", .int 1), ("s", .str [98])], [("n", .int 2), ("s", .str [99, 34])]] from rfl]
      simp only [List.all_cons, List.all_nil, Bool.and_true, List.find?_cons, h]
      rfl
    rw [hfind] at g2
    obtain ⟨g2, _, row, g3, g4, _⟩ := g2
    exact ⟨response, g1, g2, row, g3, g4 _ (by decide), g4 _ (by decide)⟩

end Rodb
