import Verif.Proofs.XmlExpr
import Verif.Props.XmlInputProps
/-
  C103: the records of an XML file are what the record expression selects.
-/
namespace Rodb
open Spec

/-- **C103** A scan of a document with any record expression: at the beginning of every element outside of a record, the expression is asked about the document so far without the records before
and what the parser forgot with them, and the element is a record if something is selected then. -/
theorem C103_xml_seen (lex : XmlLexer) (hl : SteadyLexer lex) (query : XmlQuery) (make : XmlNode → Int → Rec) (content : Bytes) (nodes : List XmlNode) (h : IsDocument lex content nodes) :
    ∃ positions : List Nat, positions.length = (seenNodes query id [] nodes).1.length ∧ positions.Pairwise (· < ·) ∧ (∀ p ∈ positions, p < content.length) ∧
      xmlScan lex query make content = .ok (Placed make (seenNodes query id [] nodes).1 positions) := by
  obtain ⟨l, hlex, h⟩ := h
  obtain ⟨out, s1, tail, h1, h2, h3, h4⟩ := h.seen (query := query) [] []
  have h4 : out.map (·.1) = (seenNodes query id [] nodes).1 := h4
  have h2 : XmlRuns noName query XmlStream.fresh out s1 := h2
  have hlex' : lex (content.drop 0) = (flatTokens out ++ tail, .eof) := by rw [List.drop_zero, hlex, h1]
  have hlen := h2.length
  have hfuel : out.length ≤ content.length := by
    obtain ⟨_, g2, g3⟩ := lex_drop hl hlex'
    by_cases hnil : flatTokens out = []
    · rw [hnil] at hlen; simp at hlen; simp [hlen]
    · have := g3 hnil; omega
  refine ⟨offsetsFrom 0 out, by rw [offsetsFrom_length, ← h4, List.length_map], (offsetsFrom_sorted (h2.sizes hl hlex')).2, ?_, ?_⟩
  · intro p hp
    obtain ⟨k1, k2⟩ := offsetsFrom_lt (h2.sizes hl hlex') p hp
    have := (lex_drop hl hlex').2.2 k2
    omega
  · rw [xmlScan, show content.length + 1 = out.length + ((content.length - out.length) + 1) by omega, h2.records hl CleanStream.fresh _ hlex', h4, xmlRecords,
      (h2.clean CleanStream.fresh).reads (lex_drop hl hlex').1]
    have := h3.notFound (by simp [keep])
    generalize hr : readLoop query .eof s1 tail = r at this
    obtain ⟨r1, r2, r3⟩ := r
    simp only at this
    subst this
    simp

/-- **C103 (partial)** For an expression that looks for elements by their names and attributes and those of the elements they are in, a scan gives exactly these elements, in the order of the document.
Missing: other expressions, see `C103_false`. -/
theorem C103_xml_path_partial (lex : XmlLexer) (hl : SteadyLexer lex) (query : XmlQuery) (Q : XmlChain → Bool) (hq : LooksAlong query Q) (make : XmlNode → Int → Rec) (content : Bytes)
    (nodes : List XmlNode) (h : IsDocument lex content nodes) :
    ∃ positions : List Nat, positions.length = (recordsAt Q [] nodes).length ∧ positions.Pairwise (· < ·) ∧ (∀ p ∈ positions, p < content.length) ∧
      xmlScan lex query make content = .ok (Placed make (recordsAt Q [] nodes) positions) := by
  have := C103_xml_seen lex hl query make content nodes h
  rwa [(seenNodes_along hq nodes (whole := id) (before := []) (above := []) (fun _ => Iff.rfl) Reached.nothing).1] at this

namespace XmlExprExample

/-- The elements that `//i[j]` selects: those with the name `i` and a child with the name `j`. -/
def Selected (node : XmlNode) (doc : List XmlNode) : Prop :=
  Occurs node doc ∧ ∃ attr children attr' children', node = .element "i" attr children ∧ .element "j" attr' children' ∈ children

def isJ : XmlNode → Bool
  | .element name _ _ => name == "j"
  | .other _ _ => false

mutual
def selectsOf : XmlNode → Bool
  | .element name _ children => (name == "i" && children.any isJ) || selectsIn children
  | .other _ _ => false
def selectsIn : List XmlNode → Bool
  | [] => false
  | node :: nodes => selectsOf node || selectsIn nodes
end

theorem any_isJ {children : List XmlNode} : children.any isJ = true ↔ ∃ attr' children', .element "j" attr' children' ∈ children := by
  rw [List.any_eq_true]
  constructor
  · rintro ⟨x, hx, hj⟩
    cases x with
    | element name attr c =>
      simp only [isJ, beq_iff_eq] at hj
      subst hj
      exact ⟨_, _, hx⟩
    | other _ _ => cases hj
  · rintro ⟨a, c, h⟩
    exact ⟨_, h, rfl⟩

mutual
theorem selectsOf_iff : ∀ node : XmlNode, selectsOf node = true ↔ ∃ x, Selected x [node]
  | .other kind data => by
    simp only [selectsOf, Bool.false_eq_true, false_iff]
    rintro ⟨x, ho, a, c, a', c', rfl, _⟩
    cases ho with
    | here hm => cases List.mem_singleton.1 hm
    | inside hm _ => cases List.mem_singleton.1 hm
  | .element name attr children => by
    simp only [selectsOf, Bool.or_eq_true, Bool.and_eq_true, beq_iff_eq, any_isJ, selectsIn_iff children]
    constructor
    · rintro (⟨rfl, a', c', h⟩ | ⟨x, ho, h⟩)
      · exact ⟨_, .here (.head _), _, _, _, _, rfl, h⟩
      · exact ⟨x, .inside (.head _) ho, h⟩
    · rintro ⟨x, ho, a, c, a', c', rfl, h⟩
      cases ho with
      | here hm => cases List.mem_singleton.1 hm; exact .inl ⟨rfl, _, _, h⟩
      | inside hm ho => cases List.mem_singleton.1 hm; exact .inr ⟨_, ho, _, _, _, _, rfl, h⟩
theorem selectsIn_iff : ∀ nodes : List XmlNode, selectsIn nodes = true ↔ ∃ x, Selected x nodes
  | [] => by
    simp only [selectsIn, Bool.false_eq_true, false_iff]
    rintro ⟨x, ho, _⟩
    cases ho with
    | here hm => cases hm
    | inside hm _ => cases hm
  | node :: nodes => by
    simp only [selectsIn, Bool.or_eq_true, selectsOf_iff node, selectsIn_iff nodes]
    constructor
    · rintro (⟨x, ho, h⟩ | ⟨x, ho, h⟩)
      · refine ⟨x, ?_, h⟩
        cases ho with
        | here hm => rw [List.mem_singleton.1 hm]; exact .here (.head _)
        | inside hm ho => rw [← List.mem_singleton.1 hm]; exact .inside (.head _) ho
      · refine ⟨x, ?_, h⟩
        cases ho with
        | here hm => exact .here (.tail _ hm)
        | inside hm ho => exact .inside (.tail _ hm) ho
    · rintro ⟨x, ho, h⟩
      cases ho with
      | here hm =>
        rcases List.mem_cons.1 hm with rfl | hm
        · exact .inl ⟨x, .here (.head _), h⟩
        · exact .inr ⟨x, .here hm, h⟩
      | inside hm ho =>
        rcases List.mem_cons.1 hm with rfl | hm
        · exact .inl ⟨x, .inside (.head _) ho, h⟩
        · exact .inr ⟨x, .inside hm ho, h⟩
end

/-- `<r><i><j/></i></r>` -/
def content : Bytes := [60, 114, 62, 60, 105, 62, 60, 106, 47, 62, 60, 47, 105, 62, 60, 47, 114, 62]

def nodes : List XmlNode := [.element "r" [] [.element "i" [] [.element "j" [] []]]]

theorem document : IsDocument xmlLexer content nodes :=
  ⟨[(.start "r" [] false, 3), (.start "i" [] false, 3), (.start "j" [] true, 4), (.stop "i", 4), (.stop "r", 4)], rfl, .element (.element (.closed .nil) .nil) .nil⟩

/-- `/r/i` -/
def path (chain : XmlChain) : Bool := chain.map (·.1) == ["r", "i"]

def pathQuery : XmlQuery := ⟨fun doc => !(recordsAt path [] doc).isEmpty, true⟩

mutual
theorem recordsAtNode_reached {Q : XmlChain → Bool} : ∀ (node : XmlNode) (above : XmlChain), recordsAtNode Q above node ≠ [] ↔ Reached Q above [node]
  | .other kind data, above => by simp [recordsAtNode, Reached.notOther]
  | .element name attr children, above => by
    rw [Reached.one, recordsAtNode]
    by_cases h : Q (above ++ [(name, attr)]) = true
    · simp [h]
    · rw [if_neg h, recordsAt_reached children]
      simp [h]
theorem recordsAt_reached {Q : XmlChain → Bool} : ∀ (nodes : List XmlNode) (above : XmlChain), recordsAt Q above nodes ≠ [] ↔ Reached Q above nodes
  | [], above => by simp [recordsAt, Reached.nothing]
  | node :: nodes, above => by
    rw [recordsAt, show node :: nodes = [node] ++ nodes from rfl, Reached.append, ← recordsAtNode_reached node, ← recordsAt_reached nodes]
    simp only [ne_eq, List.append_eq_nil_iff]
    exact Classical.not_and_iff_not_or_not
end

theorem along : LooksAlong pathQuery path := by
  intro doc
  rw [← recordsAt_reached]
  cases h : recordsAt path [] doc <;> simp [pathQuery, h]

end XmlExprExample

/-- **C103 (false)** With the record expression `//i[j]`, the scan of a document gives the first `j` in an `i` as the record, which the expression does not select, and not the `i`. -/
theorem C103_false (forgets : Bool) : ∃ (query : XmlQuery) (content : Bytes) (nodes : List XmlNode), query.forgets = forgets ∧ (∀ doc, query doc = true ↔ ∃ node, XmlExprExample.Selected node doc) ∧ IsDocument xmlLexer content nodes ∧
    (∃ node, XmlExprExample.Selected node nodes) ∧ ∀ make, ∃ node position, xmlScan xmlLexer query make content = .ok [.ok (make node position)] ∧ ¬ XmlExprExample.Selected node nodes := by
  refine ⟨⟨XmlExprExample.selectsIn, forgets⟩, XmlExprExample.content, XmlExprExample.nodes, rfl, XmlExprExample.selectsIn_iff, XmlExprExample.document, (XmlExprExample.selectsIn_iff _).1 (by rfl), fun make => ?_⟩
  obtain ⟨positions, h1, _, _, h2⟩ := C103_xml_seen xmlLexer xmlLexer_steady ⟨XmlExprExample.selectsIn, forgets⟩ make _ _ XmlExprExample.document
  have e : (seenNodes ⟨XmlExprExample.selectsIn, forgets⟩ id [] XmlExprExample.nodes).1 = [.element "j" [] []] := by cases forgets <;> rfl
  rw [e] at h1 h2
  match positions, h1 with
  | [p], _ =>
    refine ⟨.element "j" [] [], p, h2, ?_⟩
    rintro ⟨_, a, c, a', c', h, _⟩
    simp at h

/-- `/r/i` in `<r><i><j/></i></r>`. -/
example : ∃ positions : List Nat, positions.length = 1 ∧ positions.Pairwise (· < ·) ∧ (∀ p ∈ positions, p < XmlExprExample.content.length) ∧
    xmlScan xmlLexer XmlExprExample.pathQuery XmlExample.make XmlExprExample.content = .ok (Placed XmlExample.make [.element "i" [] [.element "j" [] []]] positions) :=
  C103_xml_path_partial _ xmlLexer_steady _ _ XmlExprExample.along _ _ _ XmlExprExample.document

end Rodb
