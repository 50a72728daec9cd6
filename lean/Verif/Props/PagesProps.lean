import Verif.Props.RelatedFilesProps
/-
  C97: a client that follows the pages of a list gets every object once.
-/
namespace Rodb
open Spec

/-- Two lists of the same length whose elements are related one by one. -/
def RelatedLists {α β : Type} (R : α → β → Prop) (l : List α) (m : List β) : Prop :=
  m.length = l.length ∧ ∀ k (h : k < l.length) (h' : k < m.length), R l[k] m[k]

theorem RelatedLists.append {α β : Type} {R : α → β → Prop} {l l' : List α} {m m' : List β} (h : RelatedLists R l m) (h' : RelatedLists R l' m') :
    RelatedLists R (l ++ l') (m ++ m') := by
  obtain ⟨h1, h2⟩ := h
  obtain ⟨h3, h4⟩ := h'
  refine ⟨by simp [h1, h3], fun k hk hk' => ?_⟩
  by_cases hlt : k < l.length
  · rw [List.getElem_append_left hlt, List.getElem_append_left (by omega)]
    exact h2 k hlt (by omega)
  · rw [List.getElem_append_right (by omega), List.getElem_append_right (by omega)]
    simp only [List.length_append] at hk hk'
    simp only [h1]
    exact h4 _ (by omega) (by omega)

theorem RelatedLists.pages {α β : Type} {R : α → β → Prop} {window : Nat → List α} {page : Nat → List β} : ∀ {n : Nat},
    (∀ i, i < n → RelatedLists R (window i) (page i)) → RelatedLists R ((List.range n).flatMap window) ((List.range n).flatMap page)
  | 0, _ => ⟨rfl, fun k h => by cases h⟩
  | n + 1, h => by
    simp only [List.range_succ, List.flatMap_append, List.flatMap_singleton]
    exact (RelatedLists.pages (fun i hi => h i (by omega))).append (h n (by omega))

theorem windows_cover {α : Type} (l : List α) (size n : Nat) (hcover : l.length ≤ n * size) :
    (List.range n).flatMap (fun k => (l.drop (k * size)).take size) = l := by
  have : ∀ n, (List.range n).flatMap (fun k => (l.drop (k * size)).take size) = l.take (n * size) := by
    intro n
    induction n with
    | zero => simp
    | succ n ih => rw [List.range_succ, List.flatMap_append, ih, List.flatMap_singleton, Nat.add_mul, Nat.one_mul, List.take_add]
  rw [this, List.take_of_length_le hcover]

theorem choose_below {α : Type} [Inhabited α] {P : Nat → α → Prop} {n : Nat} (h : ∀ i, i < n → ∃ a, P i a) : ∃ f : Nat → α, ∀ i, i < n → P i (f i) := by
  refine ⟨fun i => if hi : i < n then Classical.choose (h i hi) else default, fun i hi => ?_⟩
  simp only [hi, dif_pos]
  exact Classical.choose_spec (h i hi)

instance : Inhabited Response := ⟨{ status := 0, headers := [], body := [] }⟩

/-- **C97** A client that follows the pages of a list output: requests number 0, 1, 2, ... with the same conditions, `size` as their limit and `size` times their
number as their offset. When there are enough of them, all are answered with status 200 and an array of at most `size` objects, and these arrays one after the other are the
objects of the file that satisfy the conditions, each once, in the order of the file, shown with their relationships. -/
theorem C97_pages_from_files (service : ServiceLib) (hlib : RegexpContract service.find) (formatFloat : Int → Bytes) (hencode : service.encode = encodeJson formatFloat) (config : ConfigLib)
    (lib : StartLib) (hsort : SortContract lib.sort) (files : Files) (p : ParsedConfig) (texts : GoMap TextParser) (env : OutputEnv) (apis : GoMap OutputApi)
    (running : GoMap (String × List Route)) (hrun : Running config (lib.onFiles files) p texts env apis running) (hw : WellFormed config p) (hdef : PlainDefault p)
    (hvisit : ∀ (path : List Nat) (α : Type) (l : List α), (lib.visit path l).Perm l)
    (s : ServiceDecl) (hs : s ∈ p.services) (k : Nat) (hk : k < s.routes.length) (d : ArrayConfig) (ho : .array s.routes[k].output d ∈ p.outputs)
    (first : List Char) (placeholders : List (List Char × List Char)) (hpath : s.routes[k].path.toList = template first placeholders)
    (hg : GoodTemplate first placeholders) (parsers : List TextParser) (hp : PlaceholderParsers (lib.onFiles files) p d.parameters placeholders parsers)
    (hr : ∀ p ∈ parsers, RouteParser p) (hu : ∀ p ∈ parsers.dropLast, Ungrouped p)
    (parseFloat : Bytes → Res GoFloat) (asked : String → List String) (tables : String → List (GoMap Value))
    (hdata : ∀ x ∈ p.inputs, FileData files parseFloat p env.parsers x (asked x.name) (tables x.name)) (hasked : ∀ q ∈ filteredValues p d.parameters, q ∈ asked d.input)
    (hfits : FitsObjects p (fun _ _ _ => True) asked tables (depthOf d.relationships) d.input d.relationships) :
    ∃ routes, mapGet running s.name = some ("application/json", routes) ∧ ∃ h : k < routes.length,
      ∀ (pages : Nat) (request : Nat → Request), (∀ n, n < pages → FirstSuiting routes (request n) routes[k] ∧ GoodQuery (request n).query) →
        ∃ given : Nat → List (List Char), (∀ n, n < pages → PlaceholderTexts parsers (given n) ∧ (request n).path = filled first placeholders (given n)) ∧
          ∀ params : Nat → GoMap Bytes, (∀ n, params n = requestParameters (placeholders.map (fun p => String.ofList p.1)) (given n) (request n).query) →
          ∀ (conditions : List Condition) (size : Nat),
            (∀ n, n < pages → Reads env (givenParameters (d.parameters.map (fun e => (e.1, completedParameter e.2))) (params n)) conditions) →
            (conditions.map (fun c => (c.index, c.property))).Nodup →
            (∀ n, n < pages → AskedLimit ⟨orNumber d.limit.default 100, orNumber d.limit.max 1000, orText d.limit.parameter "limit"⟩ (params n) size) →
            (∀ n, n < pages → AskedOffset (orText d.offsetParameter "offset") (params n) (n * size)) →
            size ≤ orNumber d.limit.max 1000 → size < 2^63 →
            let found := (tables d.input).filter (fun o => conditions.all (fun c => hasValueAt o c.property c.value))
            found.length ≤ pages * size →
            ∃ (response : Nat → Response) (page : Nat → List (GoMap Value)),
              (∀ n, n < pages → clientGets (handleRequest service "application/json" routes (request n)) = some (response n) ∧ (response n).status = 200 ∧
                encodeJson formatFloat (.arr ((page n).map .obj)) = .ok (response n).body ∧ (page n).length ≤ size) ∧
              ((List.range pages).flatMap page).length = found.length ∧
              ∀ i (h : i < found.length) (h' : i < ((List.range pages).flatMap page).length),
                ShownWith equalAt tables (depthOf d.relationships) found[i] d.relationships ((List.range pages).flatMap page)[i] := by
  obtain ⟨routes, h1, h2, _, h4⟩ := C87_list_from_files service hlib formatFloat hencode config lib hsort files p texts env apis running hrun hw hdef hvisit s hs k hk d ho first placeholders
    hpath hg parsers hp hr hu parseFloat asked tables hdata hasked hfits
  refine ⟨routes, h1, h2, fun pages request hreq => ?_⟩
  obtain ⟨given, hgiven⟩ := choose_below (fun n hn => h4 (request n) (hreq n hn).1 (hreq n hn).2)
  refine ⟨given, fun n hn => ⟨(hgiven n hn).1, (hgiven n hn).2.1⟩, fun params hparams conditions size hreads hnd hlimit hoffset hmax hsmall => ?_⟩
  intro found hcover
  have hpage : ∀ n, n < pages → ∃ x : Response × List (GoMap Value),
      clientGets (handleRequest service "application/json" routes (request n)) = some x.1 ∧ x.1.status = 200 ∧
        encodeJson formatFloat (.arr (x.2.map .obj)) = .ok x.1.body ∧
        RelatedLists (fun o shown => ShownWith equalAt tables (depthOf d.relationships) o d.relationships shown) ((found.drop (n * size)).take size) x.2 := by
    intro n hn
    obtain ⟨kept, hkept, h⟩ := (hgiven n hn).2.2 (params n) (hparams n) conditions size (n * size) (hreads n hn) (hlimit n hn) (hoffset n hn)
      (by rw [Nat.min_eq_left hmax]; exact hsmall)
    simp only [hkept.all_eq hnd] at h
    obtain ⟨response, g1, g2, _, rows, g4, g5, g6⟩ := h
    rw [Nat.min_eq_left hmax] at g5
    simp only [Nat.min_eq_left hmax] at g6
    exact ⟨(response, rows), g1, g2, g4, g5, g6⟩
  obtain ⟨f, hf⟩ := choose_below hpage
  refine ⟨fun n => (f n).1, fun n => (f n).2, fun n hn => ?_, ?_⟩
  · obtain ⟨g1, g2, g3, g4⟩ := hf n hn
    exact ⟨g1, g2, g3, by rw [g4.1]; exact List.length_take_le _ _⟩
  · have hrel := RelatedLists.pages (fun i hi => (hf i hi).2.2.2)
    rw [windows_cover found size pages hcover] at hrel
    exact hrel

/-- The two pages of GET /all with limit=2 in the program started on the two files of `RelatedFilesExample` show its three rows. -/
example (service : ServiceLib) (hlib : RegexpContract service.find) (hencode : service.encode = encodeJson JsonExample.format) (parserLib : ParserLib) (c : Config)
    (hload : loadConfig ConfigExample.lib RelatedFilesExample.parsed = .ok c) (running)
    (hstart : start ((RelatedExample.startLib parserLib).onFiles RelatedFilesExample.machine) c = .ok running) :
    ∃ routes, mapGet running "web" = some ("application/json", routes) ∧ ∃ (response : Nat → Response) (page : Nat → List (GoMap Value)),
      (∀ n, n < 2 → clientGets (handleRequest service "application/json" routes (RelatedFilesExample.request "/all" [("offset", [[48 + 2 * n.toUInt8]]), ("limit", [[50]])])) =
        some (response n) ∧ (response n).status = 200 ∧ encodeJson JsonExample.format (.arr ((page n).map .obj)) = .ok (response n).body ∧ (page n).length ≤ 2) ∧
      ∃ first second third, page 0 ++ page 1 = [first, second, third] ∧ first.lookup "s" = some (.str [97]) ∧ second.lookup "s" = some (.str [98]) := by
  obtain ⟨texts, env, apis, hrun⟩ := C78_running _ _ _ _ _ hload ⟨.refl _, .refl _, .refl _, .refl _, .refl _⟩ running hstart
  have hw := (C76_accepted _ _).1 ⟨_, hload⟩
  obtain ⟨routes, h1, hk2, h2, _⟩ := C87_list_from_files service hlib _ hencode _ _ goInsertionSort_contract _ _ _ _ _ _ hrun hw RelatedFilesExample.plain_default (fun _ _ _ => .refl _)
    RelatedFilesExample.web (.head _) 0 (by decide) RelatedFilesExample.list (.head _) "/all".toList [] rfl
    (JsonFilesExample.good _ (by unfold PlainText; decide)) [] trivial (by simp) (by simp) JsonExample.parse RelatedFilesExample.asked RelatedFilesExample.tables
    (RelatedFilesExample.data hrun) (by simp [filteredValues, RelatedFilesExample.list]) RelatedFilesExample.fits
  obtain ⟨routes', h1', hk, h3⟩ := C97_pages_from_files service hlib _ hencode _ _ goInsertionSort_contract _ _ _ _ _ _ hrun hw RelatedFilesExample.plain_default (fun _ _ _ => .refl _)
    RelatedFilesExample.web (.head _) 0 (by decide) RelatedFilesExample.list (.head _) "/all".toList [] rfl
    (JsonFilesExample.good _ (by unfold PlainText; decide)) [] trivial (by simp) (by simp) JsonExample.parse RelatedFilesExample.asked RelatedFilesExample.tables
    (RelatedFilesExample.data hrun) (by simp [filteredValues, RelatedFilesExample.list]) RelatedFilesExample.fits
  cases (Prod.mk.inj (Option.some.inj (h1.symm.trans h1'))).2
  refine ⟨routes, h1, ?_⟩
  match routes, hk, hk2, h2, h3 with
  | route :: rest, hk, hk2, h2, h3 =>
    obtain ⟨given, h4, h6⟩ := h3 2 (fun n => RelatedFilesExample.request "/all" [("offset", [[48 + 2 * n.toUInt8]]), ("limit", [[50]])])
      (fun n hn => ⟨⟨[], rest, rfl, (h2 _).2 ⟨rfl, [], trivial, rfl⟩, by simp⟩, by rcases n with _ | _ | n <;> first | exact ⟨by decide, by decide⟩ | omega⟩)
    have hnil : ∀ n, n < 2 → given n = [] := by
      intro n hn
      have := (h4 n hn).1
      cases hgn : given n with
      | nil => rfl
      | cons a l => rw [hgn] at this; exact this.elim
    obtain ⟨response, page, g1, g2, g3⟩ := h6 _ (fun _ => rfl) [] 2 (fun _ _ => trivial) .nil
      (fun n hn => by rw [hnil n hn]; rcases n with _ | _ | n <;> first | exact .inr ⟨[50], by decide, (atoi_iff [50] 2).mp (by decide), by decide⟩ | omega)
      (fun n hn => by
        rw [hnil n hn]
        rcases n with _ | _ | n
        · exact .inr ⟨[48], by decide, (atoi_iff [48] 0).mp (by decide)⟩
        · exact .inr ⟨[50], by decide, (atoi_iff [50] 2).mp (by decide)⟩
        · omega)
      (by decide) (by decide) (by decide)
    refine ⟨response, page, g1, ?_⟩
    rw [show page 0 ++ page 1 = (List.range 2).flatMap page by simp [List.range_succ]]
    revert g2 g3
    generalize (List.range 2).flatMap page = shown
    intro g2 g3
    match shown, g2, g3 with
    | [first, second, third], _, g3 =>
      refine ⟨first, second, third, rfl, ?_, ?_⟩
      · exact (RelatedFilesExample.shown_row rfl (g3 0 (by decide) (by simp))).2.1
      · exact (RelatedFilesExample.shown_row rfl (g3 1 (by decide) (by simp))).2.1

end Rodb
