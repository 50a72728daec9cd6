import Verif.Proofs.XmlInput
import Verif.Proofs.XmlText
/-
  C98, C99: scanning an XML file, and fetching its records by their positions.
-/
namespace Rodb
open Spec

theorem offsetsFrom_sorted : ∀ {out : List (XmlNode × List (XmlRaw × Nat))} {offset : Nat}, (∀ x ∈ out, 0 < sizeOfTokens x.2) →
    (∀ p ∈ offsetsFrom offset out, offset ≤ p) ∧ (offsetsFrom offset out).Pairwise (· < ·)
  | [], _, _ => ⟨by simp [offsetsFrom], .nil⟩
  | x :: out, offset, h => by
    have hx := h x (.head _)
    obtain ⟨h1, h2⟩ := offsetsFrom_sorted (out := out) (offset := offset + sizeOfTokens x.2) (fun y hy => h y (.tail _ hy))
    refine ⟨?_, .cons (fun p hp => ?_) h2⟩
    · intro p hp
      rcases List.mem_cons.1 hp with rfl | hp
      · exact Nat.le_refl _
      · have := h1 p hp; omega
    · have := h1 p hp; omega

theorem XmlRuns.sizes {P query} {lex : XmlLexer} (hl : SteadyLexer lex) {content : Bytes} {last} {s s' : XmlStream} {out} (h : XmlRuns P query s out s') :
    ∀ {tail offset}, lex (content.drop offset) = (flatTokens out ++ tail, last) → ∀ x ∈ out, 0 < sizeOfTokens x.2 := by
  induction h with
  | nil => intro _ _ _ x hx; cases hx
  | @cons s s' s'' node seg out h1 _ _ _ ih =>
    intro tail offset hlex x hx
    have hflat : flatTokens ((node, seg) :: out) = seg ++ flatTokens out := by simp [flatTokens]
    rw [hflat, List.append_assoc] at hlex
    obtain ⟨g1, g2, _⟩ := lex_drop hl hlex
    rcases List.mem_cons.1 hx with rfl | hx
    · have : 0 < seg.length := List.length_pos_iff.2 h1
      simp only
      omega
    · exact ih g1 x hx

theorem offsetsFrom_lt : ∀ {out : List (XmlNode × List (XmlRaw × Nat))} {offset : Nat}, (∀ x ∈ out, 0 < sizeOfTokens x.2) →
    ∀ p ∈ offsetsFrom offset out, p < offset + sizeOfTokens (flatTokens out) ∧ flatTokens out ≠ []
  | [], _, _, p, hp => by simp [offsetsFrom] at hp
  | x :: out, offset, h, p, hp => by
    have hx := h x (.head _)
    have hflat : flatTokens (x :: out) = x.2 ++ flatTokens out := by simp [flatTokens]
    have hsize : sizeOfTokens (x.2 ++ flatTokens out) = sizeOfTokens x.2 + sizeOfTokens (flatTokens out) := by simp [sizeOfTokens]
    refine ⟨?_, ?_⟩
    · rw [hflat, hsize]
      rcases List.mem_cons.1 hp with rfl | hp
      · omega
      · have := (offsetsFrom_lt (out := out) (fun y hy => h y (.tail _ hy)) p hp).1; omega
    · rw [hflat]
      intro e
      rw [(List.append_eq_nil_iff.1 e).1] at hx
      simp [sizeOfTokens] at hx

/-- **C98** A scan of an XML file that is a well-formed document gives each of its records once, in the order of the document, at increasing positions inside of the file, and then the
end. -/
theorem C98_xml_scan (lex : XmlLexer) (hl : SteadyLexer lex) (query : XmlQuery) (P : String → List (String × Bytes) → Bool) (hq : LooksFor query P)
    (make : XmlNode → Int → Rec) (content : Bytes) (nodes : List XmlNode) (h : IsDocument lex content nodes) :
    ∃ positions : List Nat, positions.length = (recordsIn P nodes).length ∧ positions.Pairwise (· < ·) ∧ (∀ p ∈ positions, p < content.length) ∧
      xmlScan lex query make content = .ok (Placed make (recordsIn P nodes) positions) := by
  obtain ⟨l, hlex, h⟩ := h
  obtain ⟨out, s1, tail, h1, h2, h3, _, h5⟩ := document_scan hl hq (make := make) hlex h
  have hlex' : lex (content.drop 0) = (flatTokens out ++ tail, .eof) := by rw [List.drop_zero, hlex, h1]
  refine ⟨_, by rw [offsetsFrom_length, ← h3, List.length_map], (offsetsFrom_sorted (h2.sizes hl hlex')).2, ?_, h5⟩
  intro p hp
  obtain ⟨k1, k2⟩ := offsetsFrom_lt (h2.sizes hl hlex') p hp
  have := (lex_drop hl hlex').2.2 k2
  omega

theorem malformed_reported (lex : XmlLexer) (hl : SteadyLexer lex) (query : XmlQuery) (make : XmlNode → Int → Rec) (content : Bytes) (tokens : List (XmlRaw × Nat)) (msg : String)
    (h : lex content = (tokens, .bad msg)) : ∃ records e, xmlScan lex query make content = .ok (records ++ [.error e]) := by
  suffices key : ∀ fuel (s : XmlStream) offset l, s.failed = none → lex (content.drop offset) = (l, .bad msg) → ∃ records e, xmlRecords lex query make content fuel s offset = records ++ [.error e] by
    obtain ⟨r, e, hr⟩ := key (content.length + 1) .fresh 0 tokens rfl (by rw [List.drop_zero, h])
    exact ⟨r, e, by rw [xmlScan, hr]⟩
  intro fuel
  induction fuel with
  | zero => intro s offset l _ _; exact ⟨[], _, rfl⟩
  | succ fuel ih =>
    intro s offset l hs hlex
    rw [xmlRecords]
    have hread := XmlStream.read_bad (query := query) hlex hs
    generalize s.read lex query (content.drop offset) = r at hread
    obtain ⟨r1, r2, r3⟩ := r
    cases r1 with
    | eof => exact hread.elim
    | bad m => exact ⟨[], _, rfl⟩
    | node n =>
      obtain ⟨g1, l1, l2, g2, g3⟩ := hread
      subst g2 g3
      obtain ⟨records, e, hr⟩ := ih r2 _ l2 g1 (lex_drop hl hlex).1
      simp only [hr]
      exact ⟨_ :: records, e, rfl⟩

/-- **C98** Every scan ends, whatever the file has: after at most as many records as it has bytes, with the end of the file or with an error. -/
theorem C98_xml_ends (lex : XmlLexer) (hl : SteadyLexer lex) (query : XmlQuery) (make : XmlNode → Int → Rec) (content : Bytes) :
    ∃ records : List Rec, records.length ≤ content.length ∧
      (xmlScan lex query make content = .ok (records.map .ok) ∨ xmlScan lex query make content = .ok (records.map .ok ++ [.error (.err "Cannot read xml data")])) := by
  obtain ⟨records, h1, h2⟩ := xmlRecords_ends (query := query) hl (make := make) (content := content) (fuel := content.length + 1) (s := .fresh) (offset := 0) (Nat.zero_le _)
    (by simp [XmlStream.fresh])
  refine ⟨records, by omega, ?_⟩
  rcases h2 with h2 | h2
  · exact .inl (by rw [xmlScan, h2])
  · exact .inr (by rw [xmlScan, h2])

/-- **C98** Something in the file that is not XML is reported: the scan ends with an error, not as if the file ended there. -/
theorem C98_xml_malformed (lex : XmlLexer) (hl : SteadyLexer lex) (query : XmlQuery) (make : XmlNode → Int → Rec) (content : Bytes) (tokens : List (XmlRaw × Nat)) (msg : String)
    (h : lex content = (tokens, .bad msg)) : ∃ records : List Rec, xmlScan lex query make content = .ok (records.map .ok ++ [.error (.err "Cannot read xml data")]) := by
  obtain ⟨records, _, h2⟩ := C98_xml_ends lex hl query make content
  rcases h2 with h2 | h2
  · obtain ⟨r, e, h3⟩ := malformed_reported lex hl query make content tokens msg h
    rw [h2] at h3
    simp only [Except.ok.injEq] at h3
    have : Except.error e ∈ records.map (Except.ok (ε := Fail)) := by rw [h3]; simp
    simp at this
  · exact ⟨records, h2⟩


/-- **C99** Fetching a record of an XML file by its position gives the record that the scan gave there, whatever records were fetched before since the input was opened; for
documents in which no record comes after the end of an element with a record in it. Fetches of several goroutines are done one after the other because of the lock, in some order.
Missing: other documents, for which it is false (`C99_false`), and expressions that do not look for elements anywhere in the document (`C99_path_false`). -/
theorem C99_xml_fetch_partial (lex : XmlLexer) (hl : SteadyLexer lex) (query : XmlQuery) (P : String → List (String × Bytes) → Bool) (hq : LooksFor query P)
    (make : XmlNode → Int → Rec) (hmake : ∀ node p, (make node p).position = p) (content : Bytes) (nodes : List XmlNode) (h : IsDocument lex content nodes) (hs : Straight P nodes)
    (records : List Rec) (hscan : xmlScan lex query make content = .ok (records.map .ok)) (before : List Int) (hb : ∀ p ∈ before, ∃ r ∈ records, r.position = p) (r : Rec) (hr : r ∈ records) :
    (xmlFetch lex query make content (xmlAfter lex query make content before) r.position).1 = .ok r := by
  obtain ⟨l, hlex, h⟩ := h
  obtain ⟨out, s1, tail, h1, h2, h3, h4, h5⟩ := document_scan hl hq (make := make) hlex h
  obtain ⟨out', tail', g1, g2, g3⟩ := h.straight hq hs
  obtain ⟨s1', g4⟩ := anywhere_runs g3 (CleanStream.fresh (P := P))
  have hlex' : lex (content.drop 0) = (flatTokens out' ++ tail', .eof) := by rw [List.drop_zero, hlex, g1]
  have hlength : out'.length = out.length := by
    have := congrArg List.length (h3.trans g2.symm)
    simpa using this.symm
  have hoffsets : offsetsFrom 0 out = offsetsFrom 0 out' := by
    have e := g4.records hl (make := make) CleanStream.fresh ((content.length - out.length) + 1) hlex'
    rw [show out'.length + ((content.length - out.length) + 1) = content.length + 1 by omega] at e
    rw [xmlScan, Except.ok.injEq] at h5
    rw [h5, g2] at e
    have hlen := congrArg List.length e
    have hz : ∀ offset (o : List (XmlNode × List (XmlRaw × Nat))), o.length = (recordsIn P nodes).length → (Placed make (recordsIn P nodes) (offsetsFrom offset o)).length = o.length := by
      intro offset o ho
      simp [Placed, offsetsFrom_length, ho]
    have k1 : out.length = (recordsIn P nodes).length := by rw [← h3, List.length_map]
    rw [List.length_append, hz 0 out k1, hz 0 out' (hlength.trans k1)] at hlen
    have hnil : ∀ l : List (Res Rec), out.length = out'.length + l.length → l = [] := by
      intro l hl
      have : l.length = 0 := by omega
      exact List.length_eq_zero_iff.1 this
    rw [hnil _ hlen, List.append_nil] at e
    exact placed_inj hmake (by rw [offsetsFrom_length, k1]) (by rw [offsetsFrom_length, hlength, k1]) e
  rw [h5, Except.ok.injEq, hoffsets, ← g2] at hscan
  have key : ∀ r ∈ records, ∀ s, CleanStream P s → (xmlFetch lex query make content s r.position).1 = .ok r ∧ CleanStream P (xmlFetch lex query make content s r.position).2 := by
    intro r hr s hclean
    obtain ⟨x, hx, p, rest, e1, e2⟩ := lex_at hl hlex' (r := r) (make := make) (by rw [hscan]; exact List.mem_map_of_mem hr)
    obtain ⟨s', k1, k2⟩ := (g3 x hx).2 s hclean
    have hp : r.position = p := by rw [e1, hmake]
    rw [xmlFetch, hp, if_neg (by omega), Int.toNat_natCast, hclean.reads e2, k2]
    exact ⟨by rw [e1], k1⟩
  refine (key r hr _ ?_).1
  refine after_clean (positions := fun p => ∃ r ∈ records, r.position = p) ?_ hb
  rintro _ ⟨r, hr, rfl⟩ s hclean
  exact (key r hr s hclean).2

/-- **C99 is false** of every other document: the scan gives a record that cannot be fetched by its position when the input has just been opened. After the attempt no record can be fetched any more. -/
theorem C99_false (lex : XmlLexer) (hl : SteadyLexer lex) (query : XmlQuery) (P : String → List (String × Bytes) → Bool) (hq : LooksFor query P)
    (make : XmlNode → Int → Rec) (hmake : ∀ node p, (make node p).position = p) (content : Bytes) (nodes : List XmlNode) (h : IsDocument lex content nodes) (hs : ¬ Straight P nodes) :
    ∃ records : List Rec, xmlScan lex query make content = .ok (records.map .ok) ∧ ∃ r ∈ records,
      ∃ msg, (xmlFetch lex query make content .fresh r.position).1 = .error (.err msg) ∧
        ∀ after p, ∃ msg, (xmlFetch lex query make content (xmlAfter lex query make content (after ++ [r.position])) p).1 = .error (.err msg) := by
  obtain ⟨l, hlex, h⟩ := h
  obtain ⟨out, s1, tail, h1, h2, h3, h4, h5⟩ := document_scan hl hq (make := make) hlex h
  refine ⟨((recordsIn P nodes).zip (offsetsFrom 0 out)).map (fun x => make x.1 x.2), by rw [h5]; simp [Placed], ?_⟩
  obtain ⟨out', s1', s2', node, bal, ns, name, size, more, post, g1, g2, g3, g4, g5, g6, g7⟩ := h.closing hq hs (CleanStream.fresh (P := P))
  generalize hseg : bal ++ (.stop name, size) :: more = seg at g1 g7
  have hlex' : lex (content.drop 0) = (flatTokens out' ++ (seg ++ post), .eof) := by rw [List.drop_zero, hlex, g1, List.append_assoc]
  have hat := (lex_drop hl hlex').1
  rw [Nat.zero_add] at hat
  generalize hoff : sizeOfTokens (flatTokens out') = offset at hat
  have hmem : .ok (make node offset) ∈ Placed make (recordsIn P nodes) (offsetsFrom 0 out) := by
    have hruns : XmlRuns P query .fresh (out' ++ [(node, seg)]) s2' := g3.append (.cons (by rw [← hseg]; simp) g7 g6 .nil)
    have hlex2 : lex (content.drop 0) = (flatTokens (out' ++ [(node, seg)]) ++ post, .eof) := by rw [hlex']; simp [flatTokens]
    have hle : (out' ++ [(node, seg)]).length ≤ content.length := by
      obtain ⟨_, k2, k3⟩ := lex_drop hl hlex2
      have := hruns.length
      have hne : flatTokens (out' ++ [(node, seg)]) ≠ [] := by
        intro hnil
        rw [hnil] at this
        simp at this
      have := k3 hne
      omega
    have e := hruns.records hl (make := make) CleanStream.fresh (content.length + 1 - (out' ++ [(node, seg)]).length) hlex2
    rw [show (out' ++ [(node, seg)]).length + (content.length + 1 - (out' ++ [(node, seg)]).length) = content.length + 1 by omega] at e
    rw [xmlScan, Except.ok.injEq] at h5
    rw [← h5, e]
    refine List.mem_append_left _ ?_
    have hlast : ∀ (o : List (XmlNode × List (XmlRaw × Nat))) (k : Nat), .ok (make node (k + sizeOfTokens (flatTokens o) : Nat)) ∈
        Placed make ((o ++ [(node, seg)]).map (·.1)) (offsetsFrom k (o ++ [(node, seg)])) := by
      intro o
      induction o with
      | nil => intro k; simp [Placed, offsetsFrom, flatTokens, sizeOfTokens]
      | cons x o ih =>
        intro k
        have := ih (k + sizeOfTokens x.2)
        have hflat : flatTokens (x :: o) = x.2 ++ flatTokens o := by simp [flatTokens]
        rw [hflat, sizeOfTokens_append, ← Nat.add_assoc]
        simp only [Placed, List.cons_append, List.map_cons, offsetsFrom, List.zip_cons_cons, List.mem_cons]
        exact .inr this
    have := hlast out' 0
    rwa [Nat.zero_add, hoff] at this
  refine ⟨make node offset, ?_, ?_⟩
  · simp only [Placed, List.mem_map, Except.ok.injEq] at hmem
    obtain ⟨x, hx, e⟩ := hmem
    exact List.mem_map.2 ⟨x, hx, e⟩
  · obtain ⟨msg, s', n, k1, k2⟩ := stop_fails g4 g5 hq .eof name size (more ++ post)
    have hfetch : xmlFetch lex query make content .fresh (make node offset).position = (.error (.err "Cannot read xml data"), s') := by
      rw [xmlFetch, hmake, if_neg (by omega), Int.toNat_natCast, (CleanStream.fresh (P := P)).reads hat, ← hseg]
      simp only [List.append_assoc, List.cons_append, k1]
    refine ⟨_, by rw [hfetch], fun after p => ?_⟩
    have hstate : xmlAfter lex query make content (after ++ [(make node offset).position]) = s' := by
      induction after with
      | nil => simp only [List.nil_append, xmlAfter]; rw [hfetch]
      | cons q after ih =>
        obtain ⟨e, he⟩ := Option.ne_none_iff_exists'.1 k2
        rw [List.cons_append, xmlAfter, ih]
        exact (failed_fetch he q).2
    obtain ⟨e, he⟩ := Option.ne_none_iff_exists'.1 k2
    rw [hstate]
    exact (failed_fetch he p).1

/-! ### Examples -/

namespace XmlExample

/-- The lexer of encoding/xml. -/
def lex : XmlLexer := xmlLexer

theorem steady : SteadyLexer lex := xmlLexer_steady

/-- Elements with the name `i`. -/
def isItem (name : String) (_ : List (String × Bytes)) : Bool := name == "i"

/-- `//i` -/
def query (forgets : Bool) : XmlQuery := ⟨fun doc => !(recordsIn isItem doc).isEmpty, forgets⟩

theorem looks {forgets : Bool} : LooksFor (query forgets) isItem := by
  intro doc
  rw [← recordsIn_occurs]
  cases h : recordsIn isItem doc <;> simp [query, h]

/-- A record without properties. -/
def make (_ : XmlNode) (position : Int) : Rec := { position := position, get := fun _ => .ok .null, all := .ok [] }

/-- `<r><i/>x<i>y</i></r>` -/
def flat : Bytes := [60, 114, 62, 60, 105, 47, 62, 120, 60, 105, 62, 121, 60, 47, 105, 62, 60, 47, 114, 62]

def flatNodes : List XmlNode := [.element "r" [] [.element "i" [] [], .other .text [120], .element "i" [] [.other .text [121]]]]

theorem flat_document : IsDocument lex flat flatNodes :=
  ⟨[(.start "r" [] false, 3), (.start "i" [] true, 4), (.other .text [120], 1), (.start "i" [] false, 3), (.other .text [121], 1), (.stop "i", 4), (.stop "r", 4)], rfl,
    .element (.closed (.other (.element (.other .nil) .nil))) .nil⟩

theorem flat_straight : Straight isItem flatNodes := .inside rfl (.record rfl (.without rfl (.record rfl (.none rfl)))) rfl

/-- `<r><g><i/></g><g><i/></g></r>` -/
def nested : Bytes := [60, 114, 62, 60, 103, 62, 60, 105, 47, 62, 60, 47, 103, 62, 60, 103, 62, 60, 105, 47, 62, 60, 47, 103, 62, 60, 47, 114, 62]

def nestedNodes : List XmlNode := [.element "r" [] [.element "g" [] [.element "i" [] []], .element "g" [] [.element "i" [] []]]]

theorem nested_document : IsDocument lex nested nestedNodes :=
  ⟨[(.start "r" [] false, 3), (.start "g" [] false, 3), (.start "i" [] true, 4), (.stop "g", 4), (.start "g" [] false, 3), (.start "i" [] true, 4), (.stop "g", 4), (.stop "r", 4)], rfl,
    .element (.element (.closed .nil) (.element (.closed .nil) .nil)) .nil⟩

theorem nested_not_straight : ¬ Straight isItem nestedNodes := by
  intro h
  rcases h.inv with ⟨h, _⟩ | ⟨_, _, _, e, h, _⟩ | ⟨_, _, _, e, _, h, _⟩
  · cases h
  · cases e; cases h
  · cases e
    rcases h.inv with ⟨h, _⟩ | ⟨_, _, _, e, h, _⟩ | ⟨_, _, _, e, _, _, h⟩
    · cases h
    · cases e; cases h
    · cases h

/-- `/r/i` -/
def path (forgets : Bool) : XmlQuery := ⟨fun doc => doc.any (fun
  | .element "r" _ children => children.any (fun | .element "i" _ _ => true | _ => false)
  | _ => false), forgets⟩

end XmlExample

example : ∃ positions : List Nat, positions.length = 2 ∧ positions.Pairwise (· < ·) ∧ (∀ p ∈ positions, p < 20) ∧
    xmlScan XmlExample.lex (XmlExample.query true) XmlExample.make XmlExample.flat = .ok (Placed XmlExample.make [.element "i" [] [], .element "i" [] [.other .text [121]]] positions) :=
  C98_xml_scan _ XmlExample.steady _ _ XmlExample.looks _ _ _ XmlExample.flat_document

example : ∃ positions : List Nat, positions.length = 2 ∧ positions.Pairwise (· < ·) ∧ (∀ p ∈ positions, p < 29) ∧
    xmlScan XmlExample.lex (XmlExample.query true) XmlExample.make XmlExample.nested = .ok (Placed XmlExample.make [.element "i" [] [], .element "i" [] []] positions) :=
  C98_xml_scan _ XmlExample.steady _ _ XmlExample.looks _ _ _ XmlExample.nested_document

/-- `<r><i/><`: a record, then an error. -/
example : ∃ records : List Rec, xmlScan XmlExample.lex (XmlExample.query true) XmlExample.make [60, 114, 62, 60, 105, 47, 62, 60] = .ok (records.map .ok ++ [.error (.err "Cannot read xml data")]) :=
  C98_xml_malformed _ XmlExample.steady _ _ _ [(.start "r" [] false, 3), (.start "i" [] true, 4)] "XML syntax error" rfl

/-- The second record of `<r><i/>x<i>y</i></r>` is at 7, after the first one. It can be fetched at once, and after any fetches. -/
example (before : List Int) (hb : ∀ p ∈ before, p = 0 ∨ p = 7) :
    (xmlFetch XmlExample.lex (XmlExample.query true) XmlExample.make XmlExample.flat (xmlAfter XmlExample.lex (XmlExample.query true) XmlExample.make XmlExample.flat before) 7).1 =
      .ok (XmlExample.make (.element "i" [] [.other .text [121]]) 7) :=
  C99_xml_fetch_partial _ XmlExample.steady _ _ XmlExample.looks _ (fun _ _ => rfl) _ _ XmlExample.flat_document XmlExample.flat_straight
    [XmlExample.make (.element "i" [] []) 0, XmlExample.make (.element "i" [] [.other .text [121]]) 7] rfl before
    (fun p hp => by
      rcases hb p hp with rfl | rfl
      · exact ⟨_, .head _, rfl⟩
      · exact ⟨_, .tail _ (.head _), rfl⟩)
    (XmlExample.make (.element "i" [] [.other .text [121]]) 7) (.tail _ (.head _))

example : ∃ records : List Rec, xmlScan XmlExample.lex (XmlExample.query true) XmlExample.make XmlExample.nested = .ok (records.map .ok) ∧ ∃ r ∈ records,
    ∃ msg, (xmlFetch XmlExample.lex (XmlExample.query true) XmlExample.make XmlExample.nested .fresh r.position).1 = .error (.err msg) ∧
      ∀ after p, ∃ msg, (xmlFetch XmlExample.lex (XmlExample.query true) XmlExample.make XmlExample.nested
        (xmlAfter XmlExample.lex (XmlExample.query true) XmlExample.make XmlExample.nested (after ++ [r.position])) p).1 = .error (.err msg) :=
  C99_false _ XmlExample.steady _ _ XmlExample.looks _ (fun _ _ => rfl) _ _ XmlExample.nested_document XmlExample.nested_not_straight

/-- **C99 is false** of the expression `/r/i`, even for `<r><i/>x<i>y</i></r>`: both records are scanned, but the second one cannot be fetched when the input has just been opened, because the
parser has not seen the start of `r`; and the first one can be fetched only once, because the parser then is inside of `r`. -/
theorem C99_path_false (forgets : Bool) :
    xmlScan XmlExample.lex (XmlExample.path forgets) XmlExample.make XmlExample.flat = .ok [.ok (XmlExample.make (.element "i" [] []) 0), .ok (XmlExample.make (.element "i" [] [.other .text [121]]) 7)] ∧
      (xmlFetch XmlExample.lex (XmlExample.path forgets) XmlExample.make XmlExample.flat .fresh 7).1 = .error (.err "Cannot read xml data") ∧
      (xmlFetch XmlExample.lex (XmlExample.path forgets) XmlExample.make XmlExample.flat .fresh 0).1 = .ok (XmlExample.make (.element "i" [] []) 0) ∧
      (xmlFetch XmlExample.lex (XmlExample.path forgets) XmlExample.make XmlExample.flat (xmlAfter XmlExample.lex (XmlExample.path forgets) XmlExample.make XmlExample.flat [0]) 0).1 =
        .error (.err "Cannot read xml data") := by
  cases forgets <;> exact ⟨rfl, rfl, rfl, rfl⟩

end Rodb
