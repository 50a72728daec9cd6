import Verif.Spec.XmlExpr
import Verif.Proofs.XmlInput
/-
  Lemmas for Props/XmlExprProps.lean.
-/
namespace Rodb
open Spec

variable {query : XmlQuery}

/-- Without anything to look for, a clean state is one between two records. -/
abbrev noName : String → List (String × Bytes) → Bool := fun _ _ => false

mutual
theorem noName_of : ∀ node : XmlNode, recordsOf noName node = []
  | .element name attr children => by simp [recordsOf, noName_in children]
  | .other _ _ => rfl
theorem noName_in : ∀ nodes : List XmlNode, recordsIn noName nodes = []
  | [] => rfl
  | node :: nodes => by simp [recordsIn, noName_of node, noName_in nodes]
end

theorem idle (opened : List XmlFrame) (top : List XmlNode) : CleanStream noName ⟨opened, top, none, none, none⟩ :=
  ⟨rfl, rfl, rfl, noName_in _, fun _ _ => ⟨rfl, noName_in _⟩⟩

/-- The document, given the nodes in the innermost open element. -/
def wholeOf : List XmlFrame → List XmlNode → List XmlNode → List XmlNode
  | [], _ => id
  | f :: fs, top => fun l => docOf fs top [.element f.name f.attr l]

/-- The nodes in the innermost open element. -/
def keptOf : List XmlFrame → List XmlNode → List XmlNode
  | [], top => top.reverse
  | f :: _, _ => f.children.reverse

/-- The state with other nodes in the innermost open element. -/
def keep : List XmlFrame → List XmlNode → List XmlNode → XmlStream
  | [], _ => fun l => ⟨[], l.reverse, none, none, none⟩
  | f :: fs, top => fun l => ⟨{ f with children := l.reverse } :: fs, top, none, none, none⟩

theorem keep_kept (opened : List XmlFrame) (top : List XmlNode) : keep opened top (keptOf opened top) = ⟨opened, top, none, none, none⟩ := by
  cases opened <;> simp [keep, keptOf]

theorem docOf_whole (opened : List XmlFrame) (top : List XmlNode) (node : XmlNode) : docOf opened top [node] = wholeOf opened top (keptOf opened top ++ [node]) := by
  cases opened <;> simp [docOf, wholeOf, keptOf]

theorem wholeOf_push (name : String) (attr : List (String × Bytes)) (children : List XmlNode) (opened : List XmlFrame) (top : List XmlNode) :
    wholeOf (⟨name, attr, children⟩ :: opened) top = fun l => wholeOf opened top (keptOf opened top ++ [.element name attr l]) := by
  funext l
  rw [← docOf_whole]
  rfl

theorem asks_whole (name : String) (attr : List (String × Bytes)) (opened : List XmlFrame) (top : List XmlNode) :
    docOf (⟨name, attr, []⟩ :: opened) top [] = wholeOf opened top (keptOf opened top ++ [.element name attr []]) := docOf_whole opened top (.element name attr [])

/-- What the states after `keep` have. -/
theorem keep_fields (opened : List XmlFrame) (top l : List XmlNode) : wholeOf (keep opened top l).opened (keep opened top l).top = wholeOf opened top ∧
    keptOf (keep opened top l).opened (keep opened top l).top = l ∧ keep (keep opened top l).opened (keep opened top l).top = keep opened top ∧
    keep opened top l = ⟨(keep opened top l).opened, (keep opened top l).top, none, none, none⟩ := by
  cases opened with
  | nil => exact ⟨rfl, by simp [keep, keptOf], rfl, rfl⟩
  | cons f fs => exact ⟨rfl, by simp [keep, keptOf], rfl, rfl⟩

theorem record_read {opened : List XmlFrame} {top : List XmlNode} {name : String} {attr : List (String × Bytes)} (hq : query (docOf (⟨name, attr, []⟩ :: opened) top []) = true) :
    (∀ size, Scanned noName query ⟨opened, top, none, none, none⟩ [(.start name attr true, size)] [.element name attr []]
      (keep opened top (if query.forgets then [] else keptOf opened top))) ∧
    ∀ size size' inner children, XmlContent inner children →
      Scanned noName query ⟨opened, top, none, none, none⟩ ((.start name attr false, size) :: (inner ++ [(.stop name, size')])) [.element name attr children]
        (keep opened top (if query.forgets then [] else keptOf opened top)) := by
  have hstate : keep opened top (if query.forgets then [] else keptOf opened top) = ⟨(leave query.forgets opened top).1, (leave query.forgets opened top).2, none, none, none⟩ := by
    cases query.forgets <;> cases opened <;> simp [keep, keptOf, leave]
  rw [hstate]
  constructor
  · intro size
    refine ⟨[(.element name attr [], [(.start name attr true, size)])], _, [], by simp [flatTokens], .cons (by simp) (fun last rest => ?_) (idle _ _) .nil, .refl, rfl⟩
    simp only [List.cons_append, List.nil_append, Rodb.readLoop, XmlStream.take, hq, if_true, closeTag_target]
    simp [sizeOfTokens]
  · intro size size' inner children hin
    refine ⟨[(.element name attr children, (.start name attr false, size) :: (inner ++ [(.stop name, size')]))], _, [], by simp [flatTokens], .cons (by simp) (fun last rest => ?_) (idle _ _) .nil, .refl, rfl⟩
    have h1 : XmlStream.take query ⟨opened, top, none, none, none⟩ (.start name attr false) = .next ⟨⟨name, attr, []⟩ :: opened, top, some 1, none, none⟩ := by
      simp only [XmlStream.take, hq, if_true, Bool.false_eq_true, if_false]
    have h2 := GoesOn.step (size := size) h1 (hin.inTarget (query := query) (f := ⟨name, attr, []⟩) (fs := opened) (top := top) (k := 0))
    have := h2.readLoop last ((.stop name, size') :: rest)
    simp only [List.cons_append, List.append_assoc, List.nil_append] at this ⊢
    rw [this]
    simp only [Rodb.readLoop, XmlStream.take]
    rw [closeTag_target]
    simp [sizeOfTokens, Nat.add_assoc]

/-- Reading a well-formed piece, with any expression. -/
theorem Spec.XmlContent.seen {l nodes} (h : XmlContent l nodes) : ∀ (opened : List XmlFrame) (top : List XmlNode),
    Scanned noName query ⟨opened, top, none, none, none⟩ l (seenNodes query (wholeOf opened top) (keptOf opened top) nodes).1
      (keep opened top (seenNodes query (wholeOf opened top) (keptOf opened top) nodes).2) := by
  have go : ∀ {opened : List XmlFrame} {top : List XmlNode} {l l' records kept nodes},
      Scanned noName query ⟨opened, top, none, none, none⟩ l records (keep opened top kept) →
      (∀ (opened : List XmlFrame) (top : List XmlNode), Scanned noName query ⟨opened, top, none, none, none⟩ l' (seenNodes query (wholeOf opened top) (keptOf opened top) nodes).1
        (keep opened top (seenNodes query (wholeOf opened top) (keptOf opened top) nodes).2)) →
      Scanned noName query ⟨opened, top, none, none, none⟩ (l ++ l') (records ++ (seenNodes query (wholeOf opened top) kept nodes).1)
        (keep opened top (seenNodes query (wholeOf opened top) kept nodes).2) := by
    intro opened top l l' records kept nodes h1 h2
    obtain ⟨e1, e2, e3, e4⟩ := keep_fields opened top kept
    have := h2 (keep opened top kept).opened (keep opened top kept).top
    rw [e1, e2, e3, ← e4] at this
    exact h1.trans this
  induction h with
  | nil => intro opened top; simp only [seenNodes, keep_kept]; exact .step .refl
  | @other kind data size tokens nodes _ ih =>
    intro opened top
    simp only [seenNodes, seenNode]
    refine go (l := [_]) (.step (.step (s' := keep opened top (keptOf opened top ++ [.other kind data])) ?_ .refl)) ih
    cases opened <;> simp [XmlStream.take, keep, keptOf, addNode]
  | @closed name attr size tokens nodes _ ih =>
    intro opened top
    simp only [seenNodes, seenNode]
    by_cases hq : query (wholeOf opened top (keptOf opened top ++ [.element name attr []])) = true
    · rw [if_pos hq]
      refine go (l := [_]) ?_ ih
      rw [← asks_whole] at hq
      exact (record_read hq).1 size
    · rw [if_neg hq]
      refine go (l := [_]) (.step (.step (s' := keep opened top (keptOf opened top ++ [.element name attr []])) ?_ .refl)) ih
      simp only [XmlStream.take, asks_whole, if_neg hq, if_true]
      rw [closeTag_same (by simp)]
      cases opened <;> simp [keep, keptOf, addNode]
  | @element name attr size size' inner tokens children nodes h1 _ ih1 ih2 =>
    intro opened top
    simp only [seenNodes, seenNode]
    by_cases hq : query (wholeOf opened top (keptOf opened top ++ [.element name attr []])) = true
    · rw [if_pos hq]
      have := go (l := (.start name attr false, size) :: (inner ++ [(.stop name, size')])) (opened := opened) (top := top) (kept := if query.forgets then [] else keptOf opened top) (records := [.element name attr children]) (by
        rw [← asks_whole] at hq
        exact (record_read hq).2 size size' inner children h1) ih2
      simpa using this
    · rw [if_neg hq]
      have h3 := ih1 (⟨name, attr, []⟩ :: opened) top
      rw [wholeOf_push] at h3
      have h4 : Scanned noName query ⟨opened, top, none, none, none⟩ [(.start name attr false, size)] [] ⟨⟨name, attr, []⟩ :: opened, top, none, none, none⟩ := by
        refine .step (.step ?_ .refl)
        simp only [XmlStream.take, asks_whole, if_neg hq, Bool.false_eq_true, if_false]
      generalize hr : seenNodes query (fun l => wholeOf opened top (keptOf opened top ++ [.element name attr l])) [] children = r at h3 ⊢
      have hk : keptOf (⟨name, attr, []⟩ :: opened) top = [] := rfl
      rw [hk, hr] at h3
      have h5 : Scanned noName query (keep (⟨name, attr, []⟩ :: opened) top r.2) [(.stop name, size')] [] (keep opened top (keptOf opened top ++ [.element name attr r.2])) := by
        refine .step (.step ?_ .refl)
        simp only [keep, XmlStream.take]
        rw [closeTag_same (by simp)]
        cases opened <;> simp [keptOf, addNode]
      have h6 := go ((h4.trans h3).trans h5) ih2
      simpa using h6

variable {Q : XmlChain → Bool}

theorem Reached.append {above : XmlChain} {l l' : List XmlNode} : Reached Q above (l ++ l') ↔ Reached Q above l ∨ Reached Q above l' := by
  constructor
  · intro h
    cases h with
    | here hm hq =>
      rcases List.mem_append.1 hm with hm | hm
      · exact .inl (.here hm hq)
      · exact .inr (.here hm hq)
    | inside hm hr =>
      rcases List.mem_append.1 hm with hm | hm
      · exact .inl (.inside hm hr)
      · exact .inr (.inside hm hr)
  · rintro (h | h)
    · cases h with
      | here hm hq => exact .here (List.mem_append_left _ hm) hq
      | inside hm hr => exact .inside (List.mem_append_left _ hm) hr
    · cases h with
      | here hm hq => exact .here (List.mem_append_right _ hm) hq
      | inside hm hr => exact .inside (List.mem_append_right _ hm) hr

theorem Reached.nothing {above : XmlChain} : ¬ Reached Q above [] := by
  intro h
  cases h with
  | here hm _ => cases hm
  | inside hm _ => cases hm

theorem Reached.one {above : XmlChain} {name : String} {attr : List (String × Bytes)} {children : List XmlNode} :
    Reached Q above [.element name attr children] ↔ Q (above ++ [(name, attr)]) = true ∨ Reached Q (above ++ [(name, attr)]) children := by
  constructor
  · intro h
    cases h with
    | here hm hq => cases List.mem_singleton.1 hm; exact .inl hq
    | inside hm hr => cases List.mem_singleton.1 hm; exact .inr hr
  · rintro (h | h)
    · exact .here (.head _) h
    · exact .inside (.head _) h

theorem Reached.notOther {above : XmlChain} {kind : XmlKind} {data : Bytes} : ¬ Reached Q above [.other kind data] := by
  intro h
  cases h with
  | here hm _ => cases List.mem_singleton.1 hm
  | inside hm _ => cases List.mem_singleton.1 hm

mutual
theorem seenNode_along (hq : LooksAlong query Q) : ∀ (node : XmlNode) {whole : List XmlNode → List XmlNode} {before : List XmlNode} {above : XmlChain},
    (∀ l, Reached Q [] (whole l) ↔ Reached Q above l) → ¬ Reached Q above before →
    (seenNode query whole before node).1 = recordsAtNode Q above node ∧ ¬ Reached Q above (seenNode query whole before node).2
  | .other kind data, whole, before, above, hw, hb => by
    simp only [seenNode, recordsAtNode, Reached.append, not_or]
    exact ⟨trivial, hb, Reached.notOther⟩
  | .element name attr children, whole, before, above, hw, hb => by
    have hask : query (whole (before ++ [.element name attr []])) = true ↔ Q (above ++ [(name, attr)]) = true := by
      rw [hq, hw, Reached.append, Reached.one]
      constructor
      · rintro (h | h | h)
        · exact absurd h hb
        · exact h
        · exact absurd h Reached.nothing
      · exact fun h => .inr (.inl h)
    simp only [seenNode, recordsAtNode]
    by_cases hQ : Q (above ++ [(name, attr)]) = true
    · rw [if_pos (hask.2 hQ), if_pos hQ]
      refine ⟨rfl, ?_⟩
      cases query.forgets
      · exact hb
      · exact Reached.nothing
    · rw [if_neg (fun h => hQ (hask.1 h)), if_neg hQ]
      obtain ⟨h1, h2⟩ := seenNodes_along hq children (whole := fun l => whole (before ++ [.element name attr l])) (before := []) (above := above ++ [(name, attr)]) (by
        intro l
        rw [hw, Reached.append, Reached.one]
        constructor
        · rintro (h | h | h)
          · exact absurd h hb
          · exact absurd h hQ
          · exact h
        · exact fun h => .inr (.inr h)) Reached.nothing
      refine ⟨h1, ?_⟩
      simp only [Reached.append, Reached.one, not_or]
      exact ⟨hb, hQ, h2⟩
theorem seenNodes_along (hq : LooksAlong query Q) : ∀ (nodes : List XmlNode) {whole : List XmlNode → List XmlNode} {before : List XmlNode} {above : XmlChain},
    (∀ l, Reached Q [] (whole l) ↔ Reached Q above l) → ¬ Reached Q above before →
    (seenNodes query whole before nodes).1 = recordsAt Q above nodes ∧ ¬ Reached Q above (seenNodes query whole before nodes).2
  | [], _, _, _, _, hb => ⟨rfl, hb⟩
  | node :: nodes, whole, before, above, hw, hb => by
    obtain ⟨h1, h2⟩ := seenNode_along hq node hw hb
    obtain ⟨h3, h4⟩ := seenNodes_along hq nodes hw h2
    simp only [seenNodes, recordsAt]
    exact ⟨by rw [h1, h3], h4⟩
end

end Rodb
