import Verif.Proofs.XmlCut
import Verif.Props.XmlTextProps
/-
  C102: an XML file that ends too early is not read as if it were complete.
-/
namespace Rodb
open Spec

/-- **C102 (partial)** The file is a prolog (declaration, comments, texts, also elements), the element `root` and anything after it. If it is cut inside of this element, a scan gives records that a
scan of the whole file begins with, and then an error. Missing: a cut outside of the root element, see `C102_false`. -/
theorem C102_xml_cut_partial (query : XmlQuery) (make : XmlNode → Int → Rec) (prolog root after part : Bytes) (nodes children : List XmlNode) (name : String)
    (attr : List (String × Bytes)) (hp : XmlWritten nodes prolog) (hr : XmlWritten [.element name attr children] root) (hcut : part <+: root) (hne : part ≠ []) (hlt : part ≠ root) :
    ∃ records : List Rec, xmlScan xmlLexer query make (prolog ++ part) = .ok (records.map .ok ++ [.error (.err "Cannot read xml data")]) ∧
      ∃ rest, xmlScan xmlLexer query make (prolog ++ root ++ after) = .ok (records.map .ok ++ rest) := by
  obtain ⟨q, rfl⟩ := hcut
  have hq : q ≠ [] := by rintro rfl; exact hlt (by simp)
  obtain ⟨⟨t, ht⟩, tokens, h1, h2, h3⟩ := hr.root after
  obtain ⟨b, part, rfl⟩ := List.exists_cons_of_ne_nil hne
  simp only [List.cons_append, List.cons.injEq] at ht
  obtain ⟨rfl, rfl⟩ := ht
  have hlen : (60 :: part).length < sizeOfTokens tokens := by
    rw [h2, List.length_append]
    have := List.length_pos_iff.2 hq
    omega
  obtain ⟨c, c2, text, e, g1, g2, g3, g4, g5⟩ := xmlLexer_cut _ (q := q ++ after) (Nat.le_refl _) (by rw [← List.append_assoc]; exact h3) hlen
  obtain ⟨lp, k1, _, k2⟩ := hp.lexed
  have l1 : xmlLexer (prolog ++ 60 :: part) = (lp ++ c ++ text, e) := by rw [k2 _ (.inr ⟨_, rfl⟩), g3, List.append_assoc]
  have l2 : xmlLexer (prolog ++ (60 :: part ++ q) ++ after) = (lp ++ c ++ (c2 ++ (xmlLexer after).1), (xmlLexer after).2) := by
    rw [List.append_assoc, k2 (60 :: part ++ q ++ after) (.inr ⟨_, rfl⟩), h3, g1]
    simp only [List.append_assoc]
  obtain ⟨names, n1, n2⟩ : ∃ names, Nests [] (lp ++ c) names ∧ ∀ s, Tracks s names → ∃ msg, (readLoop query e s text).1 = .bad msg := by
    by_cases hc : c = []
    · subst hc
      refine ⟨[], by simpa using k1.nests [], fun s hs => ?_⟩
      cases e with
      | eof => exact absurd rfl (g5 rfl rfl)
      | bad msg =>
        rcases g4 with rfl | ⟨data, size, rfl⟩
        · exact ⟨msg, rfl⟩
        · exact ⟨msg, rfl⟩
    · obtain ⟨names, m1, m2⟩ := h1.opened g1 hc g2
      refine ⟨names, (k1.nests []).trans m2, fun s hs => ?_⟩
      rcases g4 with rfl | ⟨data, size, rfl⟩
      · exact ends_opened hs m1 e
      · have hn : Nests names [(.other .text data, size)] names := .other .nil
        rcases hs.reads (query := query) hn with ⟨node, s', d1, d2, _, hd, hd1, _, _, hr⟩ | ⟨s', hg, ht⟩
        · have := hr .eof []
          simp [readLoop, XmlStream.take, XmlStream.ends] at this
          split at this <;> simp at this
        · have := hg.readLoop e []
          rw [List.append_nil] at this
          rw [this]
          exact ends_opened ht m1 e
  have hf : (lp ++ c).length < (prolog ++ 60 :: part).length + 1 := by
    obtain ⟨_, g2, g3⟩ := lex_drop xmlLexer_steady (content := prolog ++ 60 :: part) (offset := 0) (l := lp ++ c) (l' := text) (last := e) (by simpa using l1)
    by_cases hnil : lp ++ c = []
    · rw [hnil]; simp
    · have := g3 hnil; omega
  have hf' : (lp ++ c).length < (prolog ++ (60 :: part ++ q) ++ after).length + 1 := by
    simp only [List.length_append] at hf ⊢
    omega
  have hfresh : Tracks XmlStream.fresh [] := ⟨rfl, rfl, rfl, by intro k hk; cases hk⟩
  obtain ⟨records, r1, rest, r2⟩ := cut_records (make := make) xmlLexer_steady n2 hfresh n1 hf hf' (offset := 0) (by rw [List.drop_zero]; exact l1) (by rw [List.drop_zero]; exact l2)
  exact ⟨records, by rw [xmlScan, r1], rest, by rw [xmlScan, r2]⟩

/-- **C102 (false)** A file that is cut before its root element is read as a complete file without records. -/
theorem C102_false (forgets : Bool) : ∃ (query : XmlQuery) (P : String → List (String × Bytes) → Bool) (content part : Bytes) (nodes : List XmlNode), query.forgets = forgets ∧ LooksFor query P ∧ XmlWritten nodes content ∧
    recordsIn P nodes ≠ [] ∧ part <+: content ∧ part ≠ [] ∧ ∀ make, xmlScan xmlLexer query make part = .ok [] := by
  have hd : DeclarationText (xmlBytes "version=\"1.0\"") := ⟨_, .head _, _, .head _, _, .head _, rfl⟩
  have h1 := XmlWritten.declaration hd .nil
  rw [List.append_nil] at h1
  have h2 := XmlWritten.declaration hd (.closed (XmlTextExample.name "i" rfl) (.nil XmlTextExample.nothing) .nil)
  refine ⟨XmlExample.query forgets, XmlExample.isItem, _, xmlBytes "<?xml " ++ xmlBytes "version=\"1.0\"" ++ xmlBytes "?>", _, rfl, XmlExample.looks, h2, by simp [recordsIn, recordsOf, XmlExample.isItem], ⟨_, rfl⟩, ?_, fun make => ?_⟩
  · rw [show xmlBytes "<?xml " = [60, 63, 120, 109, 108, 32] from rfl]
    simp
  · obtain ⟨positions, e1, _, _, e2⟩ := C101_xml_written (XmlExample.query forgets) _ XmlExample.looks make _ _ h1
    exact e2

/-- A file that is cut in the end tag of its root element. -/
example : ∃ records : List Rec, xmlScan xmlLexer (XmlExample.query true) XmlExample.make (xmlBytes "<!-- -->" ++ xmlBytes "<r><i/>x<i>y</i><") = .ok (records.map .ok ++ [.error (.err "Cannot read xml data")]) ∧
      ∃ rest, xmlScan xmlLexer (XmlExample.query true) XmlExample.make (xmlBytes "<!-- -->" ++ xmlBytes "<r><i/>x<i>y</i></r>" ++ xmlBytes "\n") = .ok (records.map .ok ++ rest) := by
  have h : XmlWritten XmlExample.flatNodes (xmlBytes "<r><i/>x<i>y</i></r>") := by
    have hx := XmlTextExample.plain (quote := none) (cs := ['x']) (tail := []) (by rfl) .nil
    have hy := XmlTextExample.plain (quote := none) (cs := ['y']) (tail := []) (by rfl) .nil
    have h := XmlWritten.element (s := []) (XmlTextExample.name "r" rfl) (.nil XmlTextExample.nothing)
      (.closed (XmlTextExample.name "i" rfl) (.nil XmlTextExample.nothing)
        (.text hx (XmlTextExample.no_infix (by rfl))
          (.element (s := []) (XmlTextExample.name "i" rfl) (.nil XmlTextExample.nothing) (.text hy (XmlTextExample.no_infix (by rfl)) .nil id) XmlTextExample.nothing .nil) id)) XmlTextExample.nothing .nil
    have e : ∀ {w w' : Bytes} {n : List XmlNode}, XmlWritten n w → w = w' → XmlWritten n w' := fun h e => e ▸ h
    exact e h (by decide +kernel)
  have hc : ∃ w, XmlWritten [.other .comment (xmlBytes " ")] w ∧ w = xmlBytes "<!-- -->" :=
    ⟨_, .comment (data := xmlBytes " ") (XmlTextExample.no_infix (by rfl)) .nil, by decide +kernel⟩
  obtain ⟨w, hw, rfl⟩ := hc
  exact C102_xml_cut_partial (XmlExample.query true) XmlExample.make (xmlBytes "<!-- -->") (xmlBytes "<r><i/>x<i>y</i></r>") (xmlBytes "\n") (xmlBytes "<r><i/>x<i>y</i><") _ _ _ _ hw h
    (by decide +kernel) (by decide +kernel) (by decide +kernel)

end Rodb
