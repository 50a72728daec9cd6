import Verif.Proofs.XmlWritten
import Verif.Props.XmlInputProps
/-
  C101: XML files are read as they are written.
-/
namespace Rodb
open Spec

/-- **C101** A scan of an XML file, however its document is written, gives exactly the elements of this document that are looked for, with their attributes, texts and children, each once, in the order
of the document. -/
theorem C101_xml_written (query : XmlQuery) (P : String → List (String × Bytes) → Bool) (hq : LooksFor query P) (make : XmlNode → Int → Rec) (content : Bytes) (nodes : List XmlNode)
    (h : XmlWritten nodes content) :
    ∃ positions : List Nat, positions.length = (recordsIn P nodes).length ∧ positions.Pairwise (· < ·) ∧ (∀ p ∈ positions, p < content.length) ∧
      xmlScan xmlLexer query make content = .ok (Placed make (recordsIn P nodes) positions) :=
  C98_xml_scan xmlLexer xmlLexer_steady query P hq make content nodes h.document

theorem xmlNumber_exists (n : Nat) : ∃ w, XmlNumber 10 n w ∧ ∀ b ∈ w, 48 ≤ b.toNat ∧ b.toNat ≤ 57 := by
  induction n using Nat.strongRecOn with
  | _ n ih =>
    have digit : ∀ d, d < 10 → DigitByte 10 d (UInt8.ofNat (48 + d)) ∧ 48 ≤ (UInt8.ofNat (48 + d)).toNat ∧ (UInt8.ofNat (48 + d)).toNat ≤ 57 := by
      intro d hd
      simp only [DigitByte, UInt8.toNat_ofNat']
      omega
    by_cases h : n < 10
    · refine ⟨_, .one (digit n h).1, ?_⟩
      intro b hb
      rw [List.mem_singleton.1 hb]
      exact (digit n h).2
    · obtain ⟨w, h1, h2⟩ := ih (n / 10) (by omega)
      obtain ⟨g1, g2⟩ := digit (n % 10) (by omega)
      have := XmlNumber.more h1 g1
      rw [show 10 * (n / 10) + n % 10 = n by omega] at this
      refine ⟨_, this, ?_⟩
      intro b hb
      rcases List.mem_append.1 hb with hb | hb
      · exact h2 b hb
      · rw [List.mem_singleton.1 hb]; exact g2

theorem writtenChars_exists (quote : Option Char) : ∀ {cs : List Char}, (∀ c ∈ cs, XmlChar c) → ∃ w, WrittenChars quote cs w ∧ 62 ∉ w
  | [], _ => ⟨[], .nil, by simp⟩
  | c :: cs, h => by
    obtain ⟨w, h1, h2⟩ := writtenChars_exists quote (cs := cs) (fun d hd => h d (.tail _ hd))
    obtain ⟨n, g1, g2⟩ := xmlNumber_exists c.toNat
    refine ⟨_, .cons (.decimal (h c (.head _)) g1) h1, ?_⟩
    rw [show xmlBytes "&#" = [38, 35] from rfl, show xmlBytes ";" = [59] from rfl]
    simp only [List.mem_append, List.mem_cons, List.not_mem_nil, or_false, not_or]
    refine ⟨⟨⟨by decide, fun hm => ?_⟩, by decide⟩, h2⟩
    exact absurd (g2 62 hm) (by decide)

theorem noSectionEnd_of {w : Bytes} (h : 62 ∉ w) : NoSectionEnd w := by
  rintro ⟨a, b, hab⟩
  exact h (by rw [← hab, xmlBytes_sectionEnd]; simp)

theorem writtenAttributes_exists : ∀ {attr : List (String × Bytes)}, (∀ a ∈ attr, XmlName a.1 ∧ ∃ cs, a.2 = utf8 cs ∧ ∀ c ∈ cs, XmlChar c) → ∃ w, WrittenAttributes attr w
  | [], _ => ⟨[], .nil (by intro b hb; cases hb)⟩
  | a :: attr, h => by
    obtain ⟨w, hw⟩ := writtenAttributes_exists (attr := attr) (fun x hx => h x (.tail _ hx))
    obtain ⟨h1, cs, h2, h3⟩ := h a (.head _)
    obtain ⟨v, g1, g2⟩ := writtenChars_exists (some '"') h3
    obtain ⟨n, x⟩ := a
    simp only at h1 h2
    subst h2
    exact ⟨_, .cons (s := [32]) (s' := []) (s'' := []) (by intro b hb; rw [List.mem_singleton.1 hb]; exact .inl rfl) (by simp) h1 (by intro b hb; cases hb)
      (by intro b hb; cases hb) (.inl rfl) g1 (noSectionEnd_of g2) hw⟩

/-- **C101** Every tree of elements, attributes and texts can be written. -/
theorem C101_xml_writable : ∀ nodes : List XmlNode, ProperNodes nodes → ∃ content, XmlWritten nodes content
  | [], _ => ⟨[], .nil⟩
  | .element name attr children :: nodes, h => by
    simp only [ProperNodes, ProperNode] at h
    obtain ⟨⟨h1, h2, h3⟩, h4, _⟩ := h
    obtain ⟨w, hw⟩ := writtenAttributes_exists h2
    obtain ⟨inner, hi⟩ := C101_xml_writable children h3
    obtain ⟨w', hw'⟩ := C101_xml_writable nodes h4
    exact ⟨_, .element (s := []) h1 hw hi (by intro b hb; cases hb) hw'⟩
  | .other kind data :: nodes, h => by
    simp only [ProperNodes, ProperNode] at h
    obtain ⟨⟨rfl, cs, h2, rfl, h3⟩, h4, h5⟩ := h
    obtain ⟨w', hw'⟩ := C101_xml_writable nodes h4
    obtain ⟨w, g1, g2⟩ := writtenChars_exists none h3
    cases cs with
    | nil => exact absurd rfl h2
    | cons c cs => exact ⟨_, .text g1 (noSectionEnd_of g2) hw' (h5 trivial)⟩

/-! ### Examples -/

namespace XmlTextExample

/-- A document with a declaration, a document type, a comment, attributes in both kinds of quotes, references to characters, line ends of Windows and a CDATA section. -/
def content : Bytes := xmlBytes "<?xml version=\"1.0\" encoding=\"UTF-8\"?><!DOCTYPE r SYSTEM \"<r>\"><r><!-- a - b --><i id = 'a>&lt;é' \n x=\"\">x&#x3c;&#233;]]\r\n</i ><i/><![CDATA[<i/>]]]></r>"

def nodes : List XmlNode :=
  [.other (.instruction "xml") (xmlBytes "version=\"1.0\" encoding=\"UTF-8\""), .other .directive (xmlBytes "DOCTYPE r SYSTEM \"<r>\""),
   .element "r" [] [.other .comment (xmlBytes " a - b "), .element "i" [("id", utf8 ['a', '>', '<', 'é']), ("x", [])] [.other .text (utf8 ['x', '<', 'é', ']', ']', '\n'])], .element "i" [] [],
     .other .cdata (utf8 ['<', 'i', '/', '>', ']'])]]

theorem name (s : String) (h : (match s.toList with | [] => false | c :: rest => (c.isAlpha || c == '_') && rest.all (fun d => d.isAlphanum || d == '_' || d == '-' || d == '.')) = true) :
    XmlName s := by
  cases hs : s.toList with
  | nil => rw [hs] at h; cases h
  | cons c rest =>
    rw [hs] at h
    simp only [Bool.and_eq_true, Bool.or_eq_true, beq_iff_eq, List.all_eq_true] at h
    refine ⟨c, rest, hs, h.1, fun d hd => ?_⟩
    rcases h.2 d hd with ((h | h) | h) | h <;> simp [h]

/-- `m :: mark` is nowhere in the bytes. -/
def nowhere (m : UInt8) (mark : Bytes) : Bytes → Bool
  | [] => true
  | b :: w => !(m :: mark).isPrefixOf (b :: w) && nowhere m mark w

theorem no_infix {m : UInt8} {mark : Bytes} : ∀ {w : Bytes}, nowhere m mark w = true → ¬ m :: mark <:+: w
  | [], _, h => by simp at h
  | b :: w, h, hi => by
    simp only [nowhere, Bool.and_eq_true, Bool.not_eq_true', Bool.eq_false_iff, ne_eq, List.isPrefixOf_iff_prefix] at h
    rcases List.infix_cons_iff.1 hi with hi | hi
    · exact h.1 hi
    · exact no_infix h.2 hi

theorem plain {quote : Option Char} : ∀ {cs : List Char} {tail : List Char} {w : Bytes},
    (cs.all (fun c => 32 ≤ c.toNat && c.toNat ≤ 0xD7FF && c != '<' && c != '&' && quote != some c)) = true → WrittenChars quote tail w → WrittenChars quote (cs ++ tail) (utf8 cs ++ w)
  | [], _, _, _, h => h
  | c :: cs, tail, w, hc, h => by
    simp only [List.all_cons, Bool.and_eq_true, decide_eq_true_eq, bne_iff_ne] at hc
    obtain ⟨⟨⟨⟨⟨h1, h2⟩, h3⟩, h4⟩, h5⟩, h6⟩ := hc
    rw [List.cons_append, utf8_cons, List.append_assoc, ← utf8_single]
    refine .cons (.plain (.inr (.inr (.inr ⟨h1, by omega, by omega⟩))) h3 h4 ?_ h5) (plain h6 h)
    rintro rfl
    revert h1; decide

theorem blank : Blanks (xmlBytes " \n ") := by unfold Blanks; decide
theorem space : Blanks (xmlBytes " ") := by unfold Blanks; decide
theorem nothing : Blanks [] := by intro b hb; cases hb

theorem attributes : ∃ w, WrittenAttributes [("id", utf8 ['a', '>', '<', 'é']), ("x", [])] w ∧ w = xmlBytes " id = 'a>&lt;é' \n x=\"\"" :=
  ⟨_, .cons (s := xmlBytes " ") (s' := xmlBytes " ") (s'' := xmlBytes " ") (q := '\'') (value := ['a', '>', '<', 'é']) space (by decide) (name "id" rfl) space space (.inr rfl)
    (plain (cs := ['a', '>']) rfl (.cons .lt (plain (cs := ['é']) rfl .nil))) (no_infix (by rfl))
    (.cons (s := xmlBytes " \n ") (s' := []) (s'' := []) (q := '"') (value := []) (w := []) (w' := []) blank (by decide) (name "x" rfl) nothing nothing (.inl rfl) .nil (no_infix (by rfl)) (.nil nothing)),
    by decide +kernel⟩

theorem written_text : ∃ w, WrittenChars none ['x', '<', 'é', ']', ']', '\n'] w ∧ w = xmlBytes "x&#x3c;&#233;]]\r\n" := by
  have h1 : XmlNumber 16 ('<').toNat [51, 99] := .more (n := 3) (d := 12) (w := [51]) (.one (by unfold DigitByte; decide)) (by unfold DigitByte; decide)
  have h2 : XmlNumber 10 ('é').toNat [50, 51, 51] :=
    .more (n := 23) (d := 3) (w := [50, 51]) (.more (n := 2) (d := 3) (w := [50]) (.one (by unfold DigitByte; decide)) (by unfold DigitByte; decide)) (by unfold DigitByte; decide)
  exact ⟨_, plain (cs := ['x']) rfl (.cons (.hexadecimal (by unfold XmlChar; decide) h1) (.cons (.decimal (by unfold XmlChar; decide) h2) (plain (cs := [']', ']']) rfl (.cons .line .nil)))),
    by decide +kernel⟩

theorem section_text : WrittenSection ['<', 'i', '/', '>', ']'] (utf8 ['<', 'i', '/', '>', ']']) := by
  have key : ∀ cs : List Char, (cs.all (fun c => 32 ≤ c.toNat && c.toNat ≤ 0xD7FF)) = true → WrittenSection cs (utf8 cs) := by
    intro cs
    induction cs with
    | nil => exact fun _ => .nil
    | cons c cs ih =>
      intro h
      simp only [List.all_cons, Bool.and_eq_true, decide_eq_true_eq] at h
      rw [utf8_cons, ← utf8_single]
      refine .plain (.inr (.inr (.inr ⟨h.1.1, by omega, by omega⟩))) ?_ (ih h.2)
      rintro rfl
      have := h.1.1
      revert this; decide
  exact key _ rfl

theorem doctype : DoctypeText (xmlBytes " r SYSTEM \"<r>\"") := by
  have key : ∀ {bs w : Bytes}, (bs.all (fun b => b != 34 && b != 39 && b != 60 && b != 62)) = true → DoctypeText w → DoctypeText (bs ++ w) := by
    intro bs w
    induction bs with
    | nil => exact fun _ h => h
    | cons b bs ih =>
      intro hb h
      simp only [List.all_cons, Bool.and_eq_true, bne_iff_ne] at hb
      refine .plain ?_ (ih hb.2 h)
      rw [show xmlBytes "\"'<>" = [34, 39, 60, 62] from rfl]
      simp [hb]
  exact key (bs := xmlBytes " r SYSTEM ") rfl (.quoted (q := 34) (s := xmlBytes "<r>") (w := []) (by decide) (by decide) .nil)

theorem written : XmlWritten nodes content := by
  obtain ⟨a, ha, ea⟩ := attributes
  obtain ⟨t, ht, et⟩ := written_text
  have h := XmlWritten.declaration (data := xmlBytes "version=\"1.0\" encoding=\"UTF-8\"") ⟨_, .head _, _, .tail _ (.head _), _, .head _, rfl⟩
    (.doctype doctype
      (.element (s := []) (name "r" rfl) (.nil nothing)
        (.comment (data := xmlBytes " a - b ") (no_infix (by rfl))
          (.element (name "i" rfl) ha (.text ht (by rw [et]; exact no_infix (by rfl)) .nil id) space
            (.closed (name "i" rfl) (.nil nothing) (.cdata section_text (no_infix (by rfl)) .nil))))
        nothing .nil))
  rw [ea, et] at h
  have e : ∀ {w w' : Bytes} {n : List XmlNode}, XmlWritten n w → w = w' → XmlWritten n w' := fun h e => e ▸ h
  exact e h (by decide +kernel)

end XmlTextExample

/-- The two elements `i` of this document; what looks like one in the CDATA section is none. -/
example : ∃ positions : List Nat, positions.length = 2 ∧ positions.Pairwise (· < ·) ∧ (∀ p ∈ positions, p < XmlTextExample.content.length) ∧
    xmlScan xmlLexer (XmlExample.query true) XmlExample.make XmlTextExample.content =
      .ok (Placed XmlExample.make [.element "i" [("id", utf8 ['a', '>', '<', 'é']), ("x", [])] [.other .text (utf8 ['x', '<', 'é', ']', ']', '\n'])], .element "i" [] []] positions) :=
  C101_xml_written _ _ XmlExample.looks _ _ _ XmlTextExample.written

example : ∃ content, XmlWritten [.element "r" [("a", utf8 ['<', '\r', '&'])] [.other .text (utf8 [']', ']', '>']), .element "i" [] []]] content := by
  refine C101_xml_writable _ ?_
  simp only [ProperNodes, ProperNode]
  refine ⟨⟨XmlTextExample.name "r" rfl, ?_, ⟨⟨trivial, [']', ']', '>'], by decide, rfl, ?_⟩, ⟨⟨XmlTextExample.name "i" rfl, by simp, trivial⟩, trivial, fun h => h.elim⟩, fun _ h => h.elim⟩⟩, trivial, fun h => h.elim⟩
  · intro a ha
    rw [List.mem_singleton.1 ha]
    exact ⟨XmlTextExample.name "a" rfl, ['<', '\r', '&'], rfl, by unfold XmlChar; decide⟩
  · unfold XmlChar; decide

end Rodb
