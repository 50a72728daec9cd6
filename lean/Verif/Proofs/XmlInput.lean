import Verif.Spec.XmlInput
/-
  Lemmas for Props/XmlInputProps.lean.
-/
namespace Rodb
open Spec

variable {P : String → List (String × Bytes) → Bool} {query : XmlQuery}

theorem recordsIn_append (l l' : List XmlNode) : recordsIn P (l ++ l') = recordsIn P l ++ recordsIn P l' := by
  induction l with
  | nil => rfl
  | cons x l ih => simp [recordsIn, ih]

theorem recordsIn_nil_iff {l : List XmlNode} : recordsIn P l = [] ↔ ∀ x ∈ l, recordsOf P x = [] := by
  induction l with
  | nil => simp [recordsIn]
  | cons x l ih => simp [recordsIn, ih]

theorem recordsOf_element {name attr children} : recordsOf P (.element name attr children) = [] ↔ P name attr = false ∧ recordsIn P children = [] := by
  simp only [recordsOf]
  cases P name attr <;> simp

/-- There is a record exactly if an element that is looked for occurs. -/
theorem recordsIn_occurs {l : List XmlNode} : recordsIn P l ≠ [] ↔ ∃ name attr children, P name attr = true ∧ Occurs (.element name attr children) l := by
  constructor
  · suffices h : (∀ x : XmlNode, recordsOf P x ≠ [] → ∃ name attr children, P name attr = true ∧ Occurs (.element name attr children) [x]) by
      intro hne
      have : ∃ x ∈ l, recordsOf P x ≠ [] := by
        apply Classical.byContradiction
        intro hn
        exact hne (recordsIn_nil_iff.2 (fun x hx => Classical.byContradiction (fun h' => hn ⟨x, hx, h'⟩)))
      obtain ⟨x, hx, hx'⟩ := this
      obtain ⟨n, a, c, hp, ho⟩ := h x hx'
      refine ⟨n, a, c, hp, ?_⟩
      cases ho with
      | here hm => exact .here (List.mem_singleton.1 hm ▸ hx)
      | inside hm ho => exact .inside (List.mem_singleton.1 hm ▸ hx) ho
    intro x
    induction x using XmlNode.rec (motive_2 := fun l => recordsIn P l ≠ [] → ∃ name attr children, P name attr = true ∧ Occurs (.element name attr children) l) with
    | element n a c ih =>
      intro h
      by_cases hp : P n a = true
      · exact ⟨n, a, c, hp, .here (.head _)⟩
      · rw [recordsOf, if_neg hp] at h
        obtain ⟨n', a', c', hp', ho⟩ := ih h
        exact ⟨n', a', c', hp', .inside (.head _) ho⟩
    | other _ d => intro h; exact (h rfl).elim
    | nil => rename_i h; exact (h rfl).elim
    | cons x l ih ih' =>
      rename_i h
      by_cases hx : recordsOf P x = []
      · rw [recordsIn, hx, List.nil_append] at h
        obtain ⟨n, a, c, hp, ho⟩ := ih' h
        refine ⟨n, a, c, hp, ?_⟩
        cases ho with
        | here hm => exact .here (.tail _ hm)
        | inside hm ho => exact .inside (.tail _ hm) ho
      · obtain ⟨n, a, c, hp, ho⟩ := ih hx
        refine ⟨n, a, c, hp, ?_⟩
        cases ho with
        | here hm => exact .here (List.mem_singleton.1 hm ▸ .head _)
        | inside hm ho => exact .inside (by rw [List.mem_singleton.1 hm]; exact .head _) ho
  · rintro ⟨n, a, c, hp, ho⟩ hnil
    induction ho with
    | here hm =>
      have := recordsIn_nil_iff.1 hnil _ hm
      rw [recordsOf, if_pos hp] at this
      cases this
    | inside hm _ ih =>
      exact ih (recordsOf_element.1 (recordsIn_nil_iff.1 hnil _ hm)).2

theorem query_iff (h : LooksFor query P) (doc : List XmlNode) : query doc = true ↔ recordsIn P doc ≠ [] := by rw [h doc, recordsIn_occurs]

theorem docOf_none {top : List XmlNode} : ∀ {opened : List XmlFrame} {inner : List XmlNode},
    recordsIn P (docOf opened top inner) = [] ↔ recordsIn P inner = [] ∧ recordsIn P top = [] ∧ ∀ f ∈ opened, P f.name f.attr = false ∧ recordsIn P f.children = []
  | [], inner => by
    simp only [docOf, recordsIn_nil_iff, List.mem_reverse, List.mem_append]
    grind
  | f :: fs, inner => by
    have hrev : recordsIn P (inner ++ f.children).reverse = [] ↔ recordsIn P inner = [] ∧ recordsIn P f.children = [] := by
      simp only [recordsIn_nil_iff, List.mem_reverse, List.mem_append]
      grind
    rw [docOf, docOf_none, recordsIn, recordsIn, List.append_nil, recordsOf_element, hrev]
    simp only [List.mem_cons, forall_eq_or_imp]
    grind

/-- Nothing that is looked for is in the document, and the parser is between two records. -/
structure CleanStream (P : String → List (String × Bytes) → Bool) (s : XmlStream) : Prop where
  target : s.target = none
  pending : s.pending = none
  failed : s.failed = none
  top : recordsIn P s.top = []
  opened : ∀ f ∈ s.opened, P f.name f.attr = false ∧ recordsIn P f.children = []

theorem CleanStream.fresh : CleanStream P .fresh := ⟨rfl, rfl, rfl, rfl, by intro f hf; cases hf⟩

/-- Adding nodes to the innermost open element. -/
def XmlStream.addAll (s : XmlStream) (nodes : List XmlNode) : XmlStream :=
  match s.opened with
  | [] => { s with opened := [], top := nodes.reverse ++ s.top }
  | f :: fs => { s with opened := { f with children := nodes.reverse ++ f.children } :: fs }

theorem XmlStream.addAll_nil (s : XmlStream) : s.addAll [] = s := by
  obtain ⟨opened, top, t, p, f⟩ := s
  cases opened <;> rfl

theorem XmlStream.addAll_append (s : XmlStream) (l l' : List XmlNode) : (s.addAll l).addAll l' = s.addAll (l ++ l') := by
  obtain ⟨opened, top, t, p, f⟩ := s
  cases opened <;> simp [XmlStream.addAll]

theorem CleanStream.addAll {s : XmlStream} (h : CleanStream P s) {nodes : List XmlNode} (hn : recordsIn P nodes = []) : CleanStream P (s.addAll nodes) := by
  obtain ⟨opened, top, t, p, f⟩ := s
  obtain ⟨h1, h2, h3, h4, h5⟩ := h
  have hrev : ∀ l, recordsIn P l = [] → recordsIn P (nodes.reverse ++ l) = [] := by
    intro l hl
    rw [recordsIn_nil_iff] at hl hn ⊢
    intro x hx
    rcases List.mem_append.1 hx with hx | hx
    · exact hn x (List.mem_reverse.1 hx)
    · exact hl x hx
  cases opened with
  | nil => exact ⟨h1, h2, h3, hrev _ h4, by intro f hf; cases hf⟩
  | cons g gs =>
    refine ⟨h1, h2, h3, h4, ?_⟩
    intro f hf
    rcases List.mem_cons.1 hf with rfl | hf
    · exact ⟨(h5 g (.head _)).1, hrev _ (h5 g (.head _)).2⟩
    · exact h5 f (.tail _ hf)

/-- A state between two records with the same open elements as another one. -/
structure After (P : String → List (String × Bytes) → Bool) (s s' : XmlStream) : Prop where
  clean : CleanStream P s'
  frames : s'.opened.map (fun f => (f.name, f.attr)) = s.opened.map (fun f => (f.name, f.attr))

theorem After.trans {s s' s'' : XmlStream} (h : After P s s') (h' : After P s' s'') : After P s s'' := ⟨h'.clean, h'.frames.trans h.frames⟩

theorem CleanStream.after {s : XmlStream} (h : CleanStream P s) {nodes : List XmlNode} (hn : recordsIn P nodes = []) : After P s (s.addAll nodes) := by
  refine ⟨h.addAll hn, ?_⟩
  obtain ⟨opened, top, t, p, f⟩ := s
  cases opened <;> rfl

/-- The state after a record was returned. -/
def XmlStream.left (query : XmlQuery) (s : XmlStream) : XmlStream := ⟨(leave query.forgets s.opened s.top).1, (leave query.forgets s.opened s.top).2, none, none, none⟩

theorem CleanStream.left {s : XmlStream} (h : CleanStream P s) : After P s (s.left query) := by
  obtain ⟨opened, top, t, p, f⟩ := s
  obtain ⟨h1, h2, h3, h4, h5⟩ := h
  have hif : ∀ l, recordsIn P l = [] → recordsIn P (if query.forgets then [] else l) = [] := by
    intro l hl
    cases query.forgets
    · exact hl
    · rfl
  cases opened with
  | nil => exact ⟨⟨rfl, rfl, rfl, hif _ h4, by intro f hf; cases hf⟩, rfl⟩
  | cons g gs =>
    refine ⟨⟨rfl, rfl, rfl, h4, ?_⟩, rfl⟩
    intro f hf
    rcases List.mem_cons.1 hf with rfl | hf
    · exact ⟨(h5 g (.head _)).1, hif _ (h5 g (.head _)).2⟩
    · exact h5 f (.tail _ hf)

/-- Several tokens after which the reading goes on. -/
inductive GoesOn (query : XmlQuery) : XmlStream → List (XmlRaw × Nat) → XmlStream → Prop where
  | refl {s : XmlStream} : GoesOn query s [] s
  | step {s s' s'' : XmlStream} {t : XmlRaw} {size : Nat} {l : List (XmlRaw × Nat)} : s.take query t = .next s' → GoesOn query s' l s'' → GoesOn query s ((t, size) :: l) s''

theorem GoesOn.append {s s' s'' : XmlStream} {l l'} (h : GoesOn query s l s') (h' : GoesOn query s' l' s'') : GoesOn query s (l ++ l') s'' := by
  induction h with
  | refl => exact h'
  | step e _ ih => exact .step e (ih h')

/-- The number of bytes of some tokens. -/
def sizeOfTokens (l : List (XmlRaw × Nat)) : Nat := (l.map (·.2)).sum

theorem GoesOn.readLoop {s s' : XmlStream} {l} (h : GoesOn query s l s') (last : XmlEnd) (rest : List (XmlRaw × Nat)) :
    readLoop query last s (l ++ rest) = ((readLoop query last s' rest).1, (readLoop query last s' rest).2.1, sizeOfTokens l + (readLoop query last s' rest).2.2) := by
  induction h with
  | refl => simp [sizeOfTokens]
  | step e _ ih =>
    rw [List.cons_append, Rodb.readLoop, e]
    simp only
    rw [ih]
    simp [sizeOfTokens, Nat.add_assoc]

theorem closeTag_same {forgets : Bool} {name : String} {attr top children fs} {target : Option Nat} (h : target ≠ some 1) :
    closeTag forgets name top [] ({ name := name, attr := attr, children := children } :: fs) target =
      .next { opened := (addNode fs top (.element name attr children.reverse)).1, top := (addNode fs top (.element name attr children.reverse)).2,
              target := target.map (· - 1), pending := none, failed := none } := by
  rw [closeTag]
  simp [h]

theorem closeTag_target {forgets : Bool} {name : String} {attr top children fs} :
    closeTag forgets name top [] ({ name := name, attr := attr, children := children } :: fs) (some 1) =
      .found (.element name attr children.reverse) { opened := (leave forgets fs top).1, top := (leave forgets fs top).2, target := none, pending := none, failed := none } := by
  rw [closeTag]
  simp

/-- Inside of the element that is looked for. -/
theorem Spec.XmlContent.inTarget {l nodes} (h : XmlContent l nodes) : ∀ {f : XmlFrame} {fs top} {k : Nat},
    GoesOn query ⟨f :: fs, top, some (k + 1), none, none⟩ l ⟨{ f with children := nodes.reverse ++ f.children } :: fs, top, some (k + 1), none, none⟩ := by
  induction h with
  | nil => intros; exact .refl
  | @other kind data _ _ _ _ ih =>
    intro f fs top k
    refine .step (s' := ⟨{ f with children := .other kind data :: f.children } :: fs, top, some (k + 1), none, none⟩) rfl ?_
    have := @ih { f with children := .other kind data :: f.children } fs top k
    simpa using this
  | @closed name attr _ _ _ _ ih =>
    intro f fs top k
    refine .step (s' := ⟨{ f with children := .element name attr [] :: f.children } :: fs, top, some (k + 1), none, none⟩) ?_ ?_
    · simp only [XmlStream.take, if_true]
      rw [closeTag_same (by simp)]
      rfl
    · have := @ih { f with children := .element name attr [] :: f.children } fs top k
      simpa using this
  | @element name attr _ _ _ _ children _ _ _ ih ih' =>
    intro f fs top k
    refine .step (s' := ⟨⟨name, attr, []⟩ :: f :: fs, top, some (k + 1 + 1), none, none⟩) rfl ?_
    refine .append ih ?_
    refine .step (s' := ⟨{ f with children := .element name attr children :: f.children } :: fs, top, some (k + 1), none, none⟩) ?_ ?_
    · simp only [XmlStream.take]
      rw [closeTag_same (by simp)]
      simp [addNode]
    · have := @ih' { f with children := .element name attr children :: f.children } fs top k
      simpa using this

theorem CleanStream.asks {s : XmlStream} (h : CleanStream P s) (hq : LooksFor query P) (name attr) :
    query (docOf ({ name := name, attr := attr, children := [] } :: s.opened) s.top []) = P name attr := by
  have := query_iff hq (docOf ({ name := name, attr := attr, children := [] } :: s.opened) s.top [])
  have hdoc := @docOf_none P s.top ({ name := name, attr := attr, children := [] } :: s.opened) []
  simp only [List.mem_cons, forall_eq_or_imp] at hdoc
  have h4 := h.top
  have h5 := h.opened
  have e : recordsIn P [] = [] := rfl
  cases hp : P name attr with
  | false => rw [Bool.eq_false_iff]; intro hc; exact this.1 hc (hdoc.2 ⟨e, h4, ⟨hp, e⟩, h5⟩)
  | true => refine this.2 (fun hc => ?_); rw [hp] at hdoc; exact absurd (hdoc.1 hc).2.2.1.1 (by simp)

theorem CleanStream.eta {s : XmlStream} (h : CleanStream P s) : s = ⟨s.opened, s.top, none, none, none⟩ := by
  obtain ⟨opened, top, t, p, f⟩ := s
  obtain ⟨h1, h2, h3, _, _⟩ := h
  simp only at h1 h2 h3
  subst h1 h2 h3
  rfl

/-- The start tag of an element that is not looked for. -/
theorem CleanStream.push {s : XmlStream} (h : CleanStream P s) {name attr} (hp : P name attr = false) :
    CleanStream P ⟨⟨name, attr, []⟩ :: s.opened, s.top, none, none, none⟩ := by
  refine ⟨rfl, rfl, rfl, h.top, ?_⟩
  intro f hf
  rcases List.mem_cons.1 hf with rfl | hf
  · exact ⟨hp, rfl⟩
  · exact h.opened f hf

theorem CleanStream.take_start {s : XmlStream} (h : CleanStream P s) (hq : LooksFor query P) (name attr) :
    s.take query (.start name attr false) = .next ⟨⟨name, attr, []⟩ :: s.opened, s.top, if P name attr = true then some 1 else none, none, none⟩ := by
  simp only [XmlStream.take, h.target, h.pending, h.failed, Bool.false_eq_true, if_false, h.asks hq]

/-- The tokens of one record. -/
inductive RecordTokens (P : String → List (String × Bytes) → Bool) : List (XmlRaw × Nat) → XmlNode → Prop where
  | closed {name : String} {attr : List (String × Bytes)} {size : Nat} : P name attr = true → RecordTokens P [(.start name attr true, size)] (.element name attr [])
  | element {name : String} {attr : List (String × Bytes)} {size size' : Nat} {inner : List (XmlRaw × Nat)} {children : List XmlNode} : P name attr = true → XmlContent inner children →
      RecordTokens P ((.start name attr false, size) :: (inner ++ [(.stop name, size')])) (.element name attr children)

theorem RecordTokens.read {l node} (h : RecordTokens P l node) {s : XmlStream} (hs : CleanStream P s) (hq : LooksFor query P) (last rest) :
    readLoop query last s (l ++ rest) = (.node node, s.left query, sizeOfTokens l) := by
  cases h with
  | @closed name attr size hp =>
    simp only [List.cons_append, List.nil_append, Rodb.readLoop, XmlStream.take, hs.target, hs.asks hq, hp, if_true, closeTag_target]
    simp [sizeOfTokens, XmlStream.left]
  | @element name attr size size' inner children hp hin =>
    have h1 := hs.take_start hq name attr
    rw [if_pos hp] at h1
    have h2 := GoesOn.step (size := size) h1 (hin.inTarget (query := query) (f := ⟨name, attr, []⟩) (fs := s.opened) (top := s.top) (k := 0))
    have := h2.readLoop last ((.stop name, size') :: rest)
    simp only [List.cons_append, List.append_assoc, List.nil_append] at this ⊢
    rw [this]
    simp only [Rodb.readLoop, XmlStream.take]
    rw [closeTag_target]
    simp [sizeOfTokens, XmlStream.left, Nat.add_assoc]

/-- A well-formed piece without records. -/
theorem Spec.XmlContent.noRecords {l nodes} (h : XmlContent l nodes) (hq : LooksFor query P) : ∀ {s : XmlStream}, CleanStream P s → recordsIn P nodes = [] →
    GoesOn query s l (s.addAll nodes) := by
  induction h with
  | nil => intro s _ _; rw [XmlStream.addAll_nil]; exact .refl
  | @other kind data _ _ nodes _ ih =>
    intro s hs hn
    have hd : recordsIn P [.other kind data] = [] := rfl
    refine .step (s' := s.addAll [.other kind data]) ?_ ?_
    · obtain ⟨opened, top, t, p, f⟩ := s
      cases opened <;> rfl
    · have := ih (hs.addAll hd) (by simpa [recordsIn, recordsOf] using hn)
      rwa [XmlStream.addAll_append] at this
  | @closed name attr _ _ nodes _ ih =>
    intro s hs hn
    simp only [recordsIn, List.append_eq_nil_iff] at hn
    obtain ⟨hp, _⟩ := recordsOf_element.1 hn.1
    refine .step (s' := s.addAll [.element name attr []]) ?_ ?_
    · simp only [XmlStream.take, hs.target, hs.asks hq, hp, if_true]
      rw [closeTag_same (by simp)]
      rw [hs.eta]
      cases s.opened <;> simp [XmlStream.addAll, addNode]
    · have := ih (hs.addAll (nodes := [.element name attr []]) (by simp [recordsIn, hn.1])) hn.2
      rwa [XmlStream.addAll_append] at this
  | @element name attr _ _ _ _ children nodes _ _ ih ih' =>
    intro s hs hn
    simp only [recordsIn, List.append_eq_nil_iff] at hn
    obtain ⟨hp, hc⟩ := recordsOf_element.1 hn.1
    have h1 := hs.take_start hq name attr
    rw [if_neg (by simp [hp])] at h1
    refine .step h1 (.append (ih (hs.push hp) hc) ?_)
    refine .step (s' := s.addAll [.element name attr children]) ?_ ?_
    · simp only [XmlStream.take, XmlStream.addAll]
      rw [closeTag_same (by simp)]
      rw [hs.eta]
      cases s.opened <;> simp [addNode]
    · have := ih' (hs.addAll (nodes := [.element name attr children]) (by simp [recordsIn, hn.1])) hn.2
      rwa [XmlStream.addAll_append] at this


/-- Reads one after the other: the node of each and its tokens. Every read begins and ends in a clean state. -/
inductive XmlRuns (P : String → List (String × Bytes) → Bool) (query : XmlQuery) : XmlStream → List (XmlNode × List (XmlRaw × Nat)) → XmlStream → Prop where
  | nil {s : XmlStream} : XmlRuns P query s [] s
  | cons {s s' s'' : XmlStream} {node : XmlNode} {seg : List (XmlRaw × Nat)} {out : List (XmlNode × List (XmlRaw × Nat))} : seg ≠ [] →
      (∀ last rest, readLoop query last s (seg ++ rest) = (.node node, s', sizeOfTokens seg)) → CleanStream P s' → XmlRuns P query s' out s'' → XmlRuns P query s ((node, seg) :: out) s''

theorem XmlRuns.append {s s' s'' : XmlStream} {out out'} (h : XmlRuns P query s out s') (h' : XmlRuns P query s' out' s'') : XmlRuns P query s (out ++ out') s'' := by
  induction h with
  | nil => exact h'
  | cons h1 h2 h3 _ ih => exact .cons h1 h2 h3 (ih h')

theorem XmlRuns.clean {s s' : XmlStream} {out} (h : XmlRuns P query s out s') (hs : CleanStream P s) : CleanStream P s' := by
  induction h with
  | nil => exact hs
  | cons _ _ h3 _ ih => exact ih h3

theorem sizeOfTokens_append (l l' : List (XmlRaw × Nat)) : sizeOfTokens (l ++ l') = sizeOfTokens l + sizeOfTokens l' := by simp [sizeOfTokens]

theorem XmlRuns.before {s s' s'' : XmlStream} {l node seg out} (h : GoesOn query s l s') (h' : XmlRuns P query s' ((node, seg) :: out) s'') :
    XmlRuns P query s ((node, l ++ seg) :: out) s'' := by
  cases h' with
  | cons h1 h2 h3 h4 =>
    refine .cons (by simp [h1]) (fun last rest => ?_) h3 h4
    rw [List.append_assoc, h.readLoop, h2, sizeOfTokens_append]

/-- All the tokens of the reads. -/
def flatTokens (out : List (XmlNode × List (XmlRaw × Nat))) : List (XmlRaw × Nat) := (out.map (·.2)).flatten

/-- Tokens with no record at their beginning: up to an end tag if there is one. -/
def TailShape (P : String → List (String × Bytes) → Bool) (tail : List (XmlRaw × Nat)) : Prop :=
  ∃ bal ns, XmlContent bal ns ∧ recordsIn P ns = [] ∧ (tail = bal ∨ ∃ name size more, tail = bal ++ (.stop name, size) :: more)

theorem Spec.XmlContent.append {l nodes l' nodes'} (h : XmlContent l nodes) (h' : XmlContent l' nodes') : XmlContent (l ++ l') (nodes ++ nodes') := by
  induction h with
  | nil => exact h'
  | other _ ih => exact .other ih
  | closed _ ih => exact .closed ih
  | element h _ _ ih =>
    simp only [List.cons_append, List.append_assoc]
    exact .element h ih

theorem TailShape.before {l nodes tail} (h : XmlContent l nodes) (hn : recordsIn P nodes = []) (ht : TailShape P tail) : TailShape P (l ++ tail) := by
  obtain ⟨bal, ns, h1, h2, h3⟩ := ht
  refine ⟨l ++ bal, nodes ++ ns, h.append h1, by rw [recordsIn_append, hn, h2]; rfl, ?_⟩
  rcases h3 with rfl | ⟨n, z, m, rfl⟩
  · exact .inl rfl
  · exact .inr ⟨n, z, m, by simp⟩

/-- What reading some tokens comes to: the records, with the tokens of the reads, and the tokens that remain after the last one. -/
def Scanned (P : String → List (String × Bytes) → Bool) (query : XmlQuery) (s : XmlStream) (l : List (XmlRaw × Nat)) (records : List XmlNode) (s' : XmlStream) : Prop :=
  ∃ out s1 tail, l = flatTokens out ++ tail ∧ XmlRuns P query s out s1 ∧ GoesOn query s1 tail s' ∧ out.map (·.1) = records

theorem Scanned.trans {s s' s'' : XmlStream} {l l' r r'} (h : Scanned P query s l r s') (h' : Scanned P query s' l' r' s'') : Scanned P query s (l ++ l') (r ++ r') s'' := by
  obtain ⟨out, s1, tail, h1, h2, h3, h4⟩ := h
  obtain ⟨out', s1', tail', g1, g2, g3, g4⟩ := h'
  cases out' with
  | nil =>
    cases g2
    refine ⟨out, s1, tail ++ tail', ?_, h2, h3.append g3, ?_⟩
    · rw [h1, g1]; simp [flatTokens]
    · rw [h4, ← g4]; simp
  | cons x out' =>
    obtain ⟨node, seg⟩ := x
    refine ⟨out ++ (node, tail ++ seg) :: out', s1', tail', ?_, h2.append (.before h3 g2), g3, ?_⟩
    · rw [h1, g1]; simp [flatTokens]
    · rw [← h4, ← g4]; simp

theorem Scanned.step {s s' : XmlStream} {l} (h : GoesOn query s l s') : Scanned P query s l [] s' := ⟨[], s, l, rfl, .nil, h, rfl⟩

theorem Scanned.record {l node} (h : RecordTokens P l node) {s : XmlStream} (hs : CleanStream P s) (hq : LooksFor query P) : Scanned P query s l [node] (s.left query) := by
  refine ⟨[(node, l)], s.left query, [], by simp [flatTokens], .cons ?_ (fun last rest => h.read hs hq last rest) hs.left.clean .nil, .refl, rfl⟩
  cases h <;> simp

/-- The end tag of an element that is not looked for. -/
theorem CleanStream.stop_step {s s1 : XmlStream} (h : CleanStream P s) {name attr} (h1 : After P ⟨⟨name, attr, []⟩ :: s.opened, s.top, none, none, none⟩ s1) :
    ∃ s2, After P s s2 ∧ ∀ size, GoesOn query s1 [(.stop name, size)] s2 := by
  obtain ⟨hc, hf⟩ := h1
  rw [hc.eta] at hf ⊢
  obtain ⟨_, _, _, h4, h5⟩ := hc
  generalize s1.opened = opened at hf h5 ⊢
  generalize s1.top = top at hf h4 ⊢
  cases opened with
  | nil => cases hf
  | cons f fs =>
    obtain ⟨n, a, children⟩ := f
    simp only [List.map_cons, List.cons.injEq, Prod.mk.injEq] at hf
    obtain ⟨⟨rfl, rfl⟩, hf⟩ := hf
    have h6 := h5 _ (.head _)
    have hrev : recordsIn P children.reverse = [] := by
      rw [recordsIn_nil_iff]
      intro x hx
      exact recordsIn_nil_iff.1 h6.2 x (List.mem_reverse.1 hx)
    have hbase : CleanStream P ⟨fs, top, none, none, none⟩ := ⟨rfl, rfl, rfl, h4, fun f hf => h5 f (.tail _ hf)⟩
    obtain ⟨k1, k2⟩ := hbase.after (nodes := [.element n a children.reverse]) (by simp [recordsIn, recordsOf_element.2 ⟨h6.1, hrev⟩])
    refine ⟨_, ⟨k1, k2.trans hf⟩, fun size => .step ?_ .refl⟩
    simp only [XmlStream.take]
    rw [closeTag_same (by simp)]
    cases fs <;> simp [XmlStream.addAll, addNode]

/-- Reading a well-formed piece finds its records. -/
theorem Spec.XmlContent.scanned {l nodes} (h : XmlContent l nodes) (hq : LooksFor query P) : ∀ {s : XmlStream}, CleanStream P s →
    ∃ s', After P s s' ∧ Scanned P query s l (recordsIn P nodes) s' := by
  induction h with
  | nil => intro s hs; exact ⟨s, ⟨hs, rfl⟩, .step .refl⟩
  | @other kind data size tokens nodes h ih =>
    intro s hs
    have h1 := XmlContent.noRecords (.other (kind := kind) (data := data) (size := size) .nil) hq hs rfl
    have h2 := hs.after (nodes := [.other kind data]) rfl
    obtain ⟨s', g1, g2⟩ := ih h2.clean
    exact ⟨s', h2.trans g1, (Scanned.step h1).trans g2⟩
  | @closed name attr size tokens nodes h ih =>
    intro s hs
    cases hp : P name attr with
    | true =>
      obtain ⟨s', g1, g2⟩ := ih (hs.left (query := query)).clean
      refine ⟨s', hs.left.trans g1, ?_⟩
      have := (Scanned.record (.closed (size := size) hp) hs hq).trans g2
      simpa [recordsIn, recordsOf, hp] using this
    | false =>
      have hn : recordsIn P [.element name attr []] = [] := by simp [recordsIn, recordsOf, hp]
      have h1 := XmlContent.noRecords (.closed (size := size) .nil) hq hs hn
      obtain ⟨s', g1, g2⟩ := ih (hs.after hn).clean
      refine ⟨s', (hs.after hn).trans g1, ?_⟩
      have := (Scanned.step h1).trans g2
      simpa [recordsIn, recordsOf, hp] using this
  | @element name attr size size' inner tokens children nodes h h' ih ih' =>
    intro s hs
    cases hp : P name attr with
    | true =>
      obtain ⟨s', g1, g2⟩ := ih' (hs.left (query := query)).clean
      refine ⟨s', hs.left.trans g1, ?_⟩
      have := (Scanned.record (.element (size := size) (size' := size') hp h) hs hq).trans g2
      simpa [recordsIn, recordsOf, hp] using this
    | false =>
      have h1 := hs.take_start hq name attr
      rw [if_neg (by simp [hp])] at h1
      obtain ⟨s1, g1, g2⟩ := ih (hs.push hp)
      obtain ⟨s2, k1, k2⟩ := hs.stop_step (query := query) g1
      obtain ⟨s3, m1, m2⟩ := ih' k1.clean
      refine ⟨s3, k1.trans m1, ?_⟩
      have := ((Scanned.step (P := P) (.step (size := size) h1 .refl)).trans g2).trans ((Scanned.step (k2 size')).trans m2)
      simpa [recordsIn, recordsOf, hp] using this

/-- The positions of the reads. -/
def offsetsFrom : Nat → List (XmlNode × List (XmlRaw × Nat)) → List Nat
  | _, [] => []
  | offset, x :: out => offset :: offsetsFrom (offset + sizeOfTokens x.2) out

theorem lex_drop {lex : XmlLexer} (hl : SteadyLexer lex) {content : Bytes} {last : XmlEnd} : ∀ {l l' : List (XmlRaw × Nat)} {offset : Nat}, lex (content.drop offset) = (l ++ l', last) →
    lex (content.drop (offset + sizeOfTokens l)) = (l', last) ∧ l.length ≤ sizeOfTokens l ∧ (l ≠ [] → offset + sizeOfTokens l ≤ content.length)
  | [], l', offset, h => ⟨h, Nat.zero_le _, fun h => (h rfl).elim⟩
  | (t, size) :: l, l', offset, h => by
    obtain ⟨h1, h2, h3⟩ := hl _ _ _ _ _ h
    rw [List.drop_drop] at h3
    obtain ⟨h4, h5, h6⟩ := lex_drop hl h3
    have e : sizeOfTokens ((t, size) :: l) = size + sizeOfTokens l := by simp [sizeOfTokens]
    rw [e, ← Nat.add_assoc]
    refine ⟨h4, by simp only [List.length_cons]; omega, fun _ => ?_⟩
    by_cases hnil : l = []
    · subst hnil
      simp only [List.length_drop] at h2
      simp [sizeOfTokens]
      omega
    · exact h6 hnil

theorem CleanStream.reads {s : XmlStream} (hs : CleanStream P s) {lex : XmlLexer} {left : Bytes} {l last} (h : lex left = (l, last)) :
    s.read lex query left = readLoop query last s l := by
  simp only [XmlStream.read, hs.failed, hs.pending, h]

/-- The scan goes through the reads. -/
theorem XmlRuns.records {lex : XmlLexer} (hl : SteadyLexer lex) {content : Bytes} {last} {make} {s s' : XmlStream} {out} (h : XmlRuns P query s out s') :
    CleanStream P s → ∀ {tail offset} (fuel : Nat), lex (content.drop offset) = (flatTokens out ++ tail, last) →
    xmlRecords lex query make content (out.length + fuel) s offset =
      Placed make (out.map (·.1)) (offsetsFrom offset out) ++ xmlRecords lex query make content fuel s' (offset + sizeOfTokens (flatTokens out)) := by
  induction h with
  | nil => intro _ tail offset fuel _; simp [Placed, offsetsFrom, flatTokens, sizeOfTokens]
  | @cons s s' s'' node seg out h1 h2 h3 h4 ih =>
    intro hs tail offset fuel hlex
    have hflat : flatTokens ((node, seg) :: out) = seg ++ flatTokens out := by simp [flatTokens]
    rw [hflat, List.append_assoc] at hlex
    rw [show ((node, seg) :: out).length + fuel = (out.length + fuel) + 1 by simp; omega, xmlRecords, hs.reads hlex, h2]
    simp only
    rw [ih h3 fuel (lex_drop hl hlex).1, hflat, sizeOfTokens_append, Nat.add_assoc]
    simp [Placed, offsetsFrom]

theorem GoesOn.notFound {s s' : XmlStream} {l} (h : GoesOn query s l s') (ho : s'.opened = []) : (Rodb.readLoop query .eof s l).1 = .eof := by
  have := h.readLoop .eof []
  rw [List.append_nil] at this
  rw [this]
  simp [Rodb.readLoop, XmlStream.ends, ho]

theorem offsetsFrom_length : ∀ (offset : Nat) (out), (offsetsFrom offset out).length = out.length
  | _, [] => rfl
  | _, _ :: out => by simp [offsetsFrom, offsetsFrom_length _ out]

theorem XmlRuns.length {s s' : XmlStream} {out} (h : XmlRuns P query s out s') : out.length ≤ (flatTokens out).length := by
  induction h with
  | nil => simp
  | @cons _ _ _ node seg out h1 _ _ _ ih =>
    have : 0 < seg.length := List.length_pos_iff.2 h1
    simp only [flatTokens, List.map_cons, List.flatten_cons, List.length_append, List.length_cons] at ih ⊢
    omega

/-- The whole scan of a well-formed document. -/
theorem document_scan {lex : XmlLexer} (hl : SteadyLexer lex) (hq : LooksFor query P) {content : Bytes} {make} {l nodes} (hlex : lex content = (l, .eof)) (h : XmlContent l nodes) :
    ∃ out s1 tail, l = flatTokens out ++ tail ∧ XmlRuns P query .fresh out s1 ∧ out.map (·.1) = recordsIn P nodes ∧ out.length ≤ content.length ∧
      xmlScan lex query make content = .ok (Placed make (recordsIn P nodes) (offsetsFrom 0 out)) := by
  obtain ⟨s', h0, out, s1, tail, h1, h2, h3, h4⟩ := h.scanned hq (CleanStream.fresh (P := P))
  have hlex' : lex (content.drop 0) = (flatTokens out ++ tail, .eof) := by rw [List.drop_zero, hlex, h1]
  have hlen := h2.length
  have hfuel : out.length ≤ content.length := by
    obtain ⟨_, g2, g3⟩ := lex_drop hl hlex'
    by_cases hnil : flatTokens out = []
    · rw [hnil] at hlen; simp at hlen; simp [hlen]
    · have := g3 hnil; omega
  refine ⟨out, s1, tail, h1, h2, h4, hfuel, ?_⟩
  rw [xmlScan, show content.length + 1 = out.length + ((content.length - out.length) + 1) by omega, h2.records hl CleanStream.fresh _ hlex', h4, xmlRecords,
    (h2.clean CleanStream.fresh).reads (lex_drop hl hlex').1]
  have := h3.notFound (List.map_eq_nil_iff.1 h0.frames)
  generalize hr : readLoop query .eof s1 tail = r at this
  obtain ⟨r1, r2, r3⟩ := r
  simp only at this
  subst this
  simp


/-- A record that can be read from any clean state. -/
def ReadsAnywhere (P : String → List (String × Bytes) → Bool) (query : XmlQuery) (node : XmlNode) (seg : List (XmlRaw × Nat)) : Prop :=
  seg ≠ [] ∧ ∀ s, CleanStream P s → ∃ s', CleanStream P s' ∧ ∀ last rest, readLoop query last s (seg ++ rest) = (.node node, s', sizeOfTokens seg)

/-- Tokens after which the reading goes on, from any clean state. -/
def GoesOnAnywhere (P : String → List (String × Bytes) → Bool) (query : XmlQuery) (l : List (XmlRaw × Nat)) : Prop :=
  ∀ s, CleanStream P s → ∃ s', CleanStream P s' ∧ GoesOn query s l s'

theorem ReadsAnywhere.before {l node seg} (h : GoesOnAnywhere P query l) (h' : ReadsAnywhere P query node seg) : ReadsAnywhere P query node (l ++ seg) := by
  refine ⟨by simp [h'.1], fun s hs => ?_⟩
  obtain ⟨s1, h1, h2⟩ := h s hs
  obtain ⟨s2, h3, h4⟩ := h'.2 s1 h1
  refine ⟨s2, h3, fun last rest => ?_⟩
  rw [List.append_assoc, h2.readLoop, h4, sizeOfTokens_append]

/-- The records of some tokens can be read from any clean state, each where the one before ends. -/
def AllAnywhere (P : String → List (String × Bytes) → Bool) (query : XmlQuery) (l : List (XmlRaw × Nat)) (records : List XmlNode) : Prop :=
  ∃ out tail, l = flatTokens out ++ tail ∧ out.map (·.1) = records ∧ ∀ x ∈ out, ReadsAnywhere P query x.1 x.2

theorem AllAnywhere.before {l l' records} (h : GoesOnAnywhere P query l) (h' : AllAnywhere P query l' records) : AllAnywhere P query (l ++ l') records := by
  obtain ⟨out, tail, h1, h2, h3⟩ := h'
  cases out with
  | nil => exact ⟨[], l ++ tail, by rw [h1]; simp [flatTokens], h2, h3⟩
  | cons x out =>
    refine ⟨(x.1, l ++ x.2) :: out, tail, by rw [h1]; simp [flatTokens], h2, ?_⟩
    intro y hy
    rcases List.mem_cons.1 hy with rfl | hy
    · exact .before h (h3 x (.head _))
    · exact h3 y (.tail _ hy)

theorem AllAnywhere.after {l records} (h : AllAnywhere P query l records) (rest : List (XmlRaw × Nat)) : AllAnywhere P query (l ++ rest) records := by
  obtain ⟨out, tail, h1, h2, h3⟩ := h
  exact ⟨out, tail ++ rest, by rw [h1, List.append_assoc], h2, h3⟩

theorem AllAnywhere.record {l node l' records} (h : RecordTokens P l node) (hq : LooksFor query P) (h' : AllAnywhere P query l' records) :
    AllAnywhere P query (l ++ l') (node :: records) := by
  obtain ⟨out, tail, h1, h2, h3⟩ := h'
  refine ⟨(node, l) :: out, tail, by rw [h1]; simp [flatTokens], by rw [← h2]; rfl, ?_⟩
  intro y hy
  rcases List.mem_cons.1 hy with rfl | hy
  · exact ⟨by cases h <;> simp, fun s hs => ⟨s.left query, hs.left.clean, fun last rest => h.read hs hq last rest⟩⟩
  · exact h3 y hy

theorem Spec.XmlContent.anywhere {l nodes} (h : XmlContent l nodes) (hq : LooksFor query P) (hn : recordsIn P nodes = []) : GoesOnAnywhere P query l :=
  fun _ hs => ⟨_, hs.addAll hn, h.noRecords hq hs hn⟩

theorem Spec.Straight.inv {node nodes} (h : Straight P (node :: nodes)) : (recordsOf P node = [] ∧ Straight P nodes) ∨
    (∃ name attr children, node = .element name attr children ∧ P name attr = true ∧ Straight P nodes) ∨
    (∃ name attr children, node = .element name attr children ∧ P name attr = false ∧ Straight P children ∧ recordsIn P nodes = []) := by
  cases h with
  | none h =>
    simp only [recordsIn, List.append_eq_nil_iff] at h
    exact .inl ⟨h.1, .none h.2⟩
  | record h h' => exact .inr (.inl ⟨_, _, _, rfl, h, h'⟩)
  | without h h' => exact .inl ⟨h, h'⟩
  | inside h h' h'' => exact .inr (.inr ⟨_, _, _, rfl, h, h', h''⟩)

theorem Spec.XmlContent.straight {l nodes} (h : XmlContent l nodes) (hq : LooksFor query P) : Straight P nodes → AllAnywhere P query l (recordsIn P nodes) := by
  induction h with
  | nil => intro _; exact ⟨[], [], rfl, rfl, by intro x hx; cases hx⟩
  | @other kind data size tokens nodes h ih =>
    intro hs
    rcases hs.inv with ⟨_, hs⟩ | ⟨_, _, _, e, _⟩ | ⟨_, _, _, e, _⟩
    · have := AllAnywhere.before (XmlContent.anywhere (.other (kind := kind) (data := data) (size := size) .nil) hq rfl) (ih hs)
      simpa [recordsIn, recordsOf] using this
    · cases e
    · cases e
  | @closed name attr size tokens nodes h ih =>
    intro hs
    rcases hs.inv with ⟨hn, hs⟩ | ⟨_, _, _, e, hp, hs⟩ | ⟨_, _, _, e, hp, _, hn⟩
    · have := AllAnywhere.before (XmlContent.anywhere (.closed (name := name) (attr := attr) (size := size) .nil) hq (by simp [recordsIn, hn])) (ih hs)
      simpa [recordsIn, hn] using this
    · cases e
      have := AllAnywhere.record (.closed (size := size) hp) hq (ih hs)
      simpa [recordsIn, recordsOf, hp] using this
    · cases e
      have := AllAnywhere.before (XmlContent.anywhere (.closed (name := name) (attr := attr) (size := size) .nil) hq (by simp [recordsIn, recordsOf, hp])) (ih (.none hn))
      simpa [recordsIn, recordsOf, hp] using this
  | @element name attr size size' inner tokens children nodes h h' ih ih' =>
    intro hs
    rcases hs.inv with ⟨hn, hs⟩ | ⟨_, _, _, e, hp, hs⟩ | ⟨_, _, _, e, hp, hs, hn⟩
    · have := AllAnywhere.before (XmlContent.anywhere (.element (name := name) (attr := attr) (size := size) (size' := size') h .nil) hq (by simp [recordsIn, hn])) (ih' hs)
      simpa [recordsIn, hn] using this
    · cases e
      have := AllAnywhere.record (.element (size := size) (size' := size') hp h) hq (ih' hs)
      simpa [recordsIn, recordsOf, hp] using this
    · cases e
      have hstart : GoesOnAnywhere P query [(.start name attr false, size)] := by
        intro s hs
        have h1 := hs.take_start hq name attr
        rw [if_neg (by simp [hp])] at h1
        exact ⟨_, hs.push hp, .step h1 .refl⟩
      have := AllAnywhere.before hstart ((ih hs).after ((.stop name, size') :: tokens))
      simpa [recordsIn, recordsOf, hp, hn] using this

theorem placed_inj {make : XmlNode → Int → Rec} (hmake : ∀ node p, (make node p).position = p) : ∀ {nodes : List XmlNode} {positions positions' : List Nat},
    positions.length = nodes.length → positions'.length = nodes.length → Placed make nodes positions = Placed make nodes positions' → positions = positions'
  | [], [], [], _, _, _ => rfl
  | node :: nodes, p :: ps, q :: qs, h, h', e => by
    simp only [Placed, List.zip_cons_cons, List.map_cons, List.cons.injEq, Except.ok.injEq] at e
    have hp := congrArg Rec.position e.1
    rw [hmake, hmake] at hp
    have hp : p = q := by omega
    have := placed_inj hmake (nodes := nodes) (positions := ps) (positions' := qs) (by simpa using h) (by simpa using h') (by simpa [Placed] using e.2)
    rw [hp, this]

/-- The reads of a scan, if each of them is possible from any clean state. -/
theorem anywhere_runs {out : List (XmlNode × List (XmlRaw × Nat))} (h : ∀ x ∈ out, ReadsAnywhere P query x.1 x.2) : ∀ {s : XmlStream}, CleanStream P s → ∃ s', XmlRuns P query s out s' := by
  induction out with
  | nil => exact fun _ => ⟨_, .nil⟩
  | cons x out ih =>
    intro s hs
    obtain ⟨s1, h1, h2⟩ := (h x (.head _)).2 s hs
    obtain ⟨s2, h3⟩ := ih (fun y hy => h y (.tail _ hy)) h1
    exact ⟨s2, .cons (h x (.head _)).1 h2 h1 h3⟩

/-- Where the tokens of a read are. -/
theorem lex_at {lex : XmlLexer} (hl : SteadyLexer lex) {content : Bytes} {last : XmlEnd} {make : XmlNode → Int → Rec} : ∀ {out tail offset},
    lex (content.drop offset) = (flatTokens out ++ tail, last) → ∀ {r}, .ok r ∈ Placed make (out.map (·.1)) (offsetsFrom offset out) →
    ∃ x ∈ out, ∃ position rest, r = make x.1 (position : Nat) ∧ lex (content.drop position) = (x.2 ++ rest, last)
  | [], _, _, _, r, hr => by simp [Placed] at hr
  | x :: out, tail, offset, h, r, hr => by
    have hflat : flatTokens (x :: out) = x.2 ++ flatTokens out := by simp [flatTokens]
    rw [hflat, List.append_assoc] at h
    simp only [Placed, List.map_cons, offsetsFrom, List.zip_cons_cons, List.mem_cons, Except.ok.injEq] at hr
    rcases hr with rfl | hr
    · exact ⟨x, .head _, offset, _, rfl, h⟩
    · obtain ⟨y, hy, p, rest, g⟩ := lex_at hl (lex_drop hl h).1 (r := r) (make := make) hr
      exact ⟨y, .tail _ hy, p, rest, g⟩

/-- Fetches of records leave a clean state. -/
theorem after_clean {lex : XmlLexer} {content : Bytes} {make : XmlNode → Int → Rec} {positions : Int → Prop}
    (h : ∀ p, positions p → ∀ s, CleanStream P s → CleanStream P (xmlFetch lex query make content s p).2) : ∀ {before : List Int}, (∀ p ∈ before, positions p) →
    CleanStream P (xmlAfter lex query make content before)
  | [], _ => .fresh
  | p :: _, hb => h p (hb p (.head _)) _ (after_clean h (fun q hq => hb q (.tail _ hq)))

/-- A failed parser never reads again. -/
theorem failed_fetch {lex : XmlLexer} {content : Bytes} {make : XmlNode → Int → Rec} {s : XmlStream} {e : XmlEnd} (h : s.failed = some e) (p : Int) :
    (∃ msg, (xmlFetch lex query make content s p).1 = .error (.err msg)) ∧ (xmlFetch lex query make content s p).2 = s := by
  rw [xmlFetch]
  by_cases hp : p < 0
  · rw [if_pos hp]; exact ⟨⟨_, rfl⟩, rfl⟩
  · rw [if_neg hp]
    simp only [XmlStream.read, h, XmlStream.ends]
    cases e with
    | eof => cases s.opened <;> exact ⟨⟨_, rfl⟩, rfl⟩
    | bad m => exact ⟨⟨_, rfl⟩, rfl⟩

/-- A read that meets an end tag outside of all elements fails. -/
theorem stop_fails {bal ns} (h : XmlContent bal ns) (hn : recordsIn P ns = []) (hq : LooksFor query P) (last name size rest) :
    ∃ msg s' n, readLoop query last .fresh (bal ++ (.stop name, size) :: rest) = (.bad msg, s', n) ∧ s'.failed ≠ none := by
  have h1 := (h.noRecords hq CleanStream.fresh hn).readLoop last ((.stop name, size) :: rest)
  rw [h1]
  have ho : (XmlStream.fresh.addAll ns).opened = [] := rfl
  rw [Rodb.readLoop, XmlStream.take, ho, closeTag]
  exact ⟨_, _, _, rfl, by simp⟩

/-- A read of the scan that closes an element which was open before. -/
def Closing (P : String → List (String × Bytes) → Bool) (query : XmlQuery) (s : XmlStream) (l : List (XmlRaw × Nat)) : Prop :=
  ∃ out s1 s2 node bal ns name size more post, l = flatTokens out ++ (bal ++ (.stop name, size) :: more) ++ post ∧ out ≠ [] ∧ XmlRuns P query s out s1 ∧ XmlContent bal ns ∧
    recordsIn P ns = [] ∧ CleanStream P s2 ∧
    ∀ last rest, readLoop query last s1 ((bal ++ (.stop name, size) :: more) ++ rest) = (.node node, s2, sizeOfTokens (bal ++ (.stop name, size) :: more))

theorem Closing.before {s s' : XmlStream} {l l'} (h : GoesOn query s l s') (h' : Closing P query s' l') : Closing P query s (l ++ l') := by
  obtain ⟨out, s1, s2, node, bal, ns, name, size, more, post, h1, h2, h3, h4⟩ := h'
  cases out with
  | nil => exact (h2 rfl).elim
  | cons x out =>
    refine ⟨(x.1, l ++ x.2) :: out, s1, s2, node, bal, ns, name, size, more, post, ?_, by simp, .before h h3, h4⟩
    rw [h1]; simp [flatTokens]

theorem Closing.after {s : XmlStream} {l} (h : Closing P query s l) (rest) : Closing P query s (l ++ rest) := by
  obtain ⟨out, s1, s2, node, bal, ns, name, size, more, post, h1, h2⟩ := h
  exact ⟨out, s1, s2, node, bal, ns, name, size, more, post ++ rest, by rw [h1]; simp, h2⟩

theorem Closing.record {l node} (h : RecordTokens P l node) {s : XmlStream} (hs : CleanStream P s) (hq : LooksFor query P) {l'} (h' : Closing P query (s.left query) l') :
    Closing P query s (l ++ l') := by
  obtain ⟨out, s1, s2, node', bal, ns, name, size, more, post, h1, h2, h3, h4⟩ := h'
  refine ⟨(node, l) :: out, s1, s2, node', bal, ns, name, size, more, post, ?_, by simp, .cons (by cases h <;> simp) (fun last rest => h.read hs hq last rest) hs.left.clean h3, h4⟩
  rw [h1]; simp [flatTokens]

/-- As `Scanned`, with the shape of what remains. -/
def ScannedT (P : String → List (String × Bytes) → Bool) (query : XmlQuery) (s : XmlStream) (l : List (XmlRaw × Nat)) (records : List XmlNode) (s' : XmlStream) : Prop :=
  ∃ out s1 tail, l = flatTokens out ++ tail ∧ XmlRuns P query s out s1 ∧ GoesOn query s1 tail s' ∧ out.map (·.1) = records ∧ TailShape P tail

theorem TailShape.after {tail l nodes} (ht : TailShape P tail) (h : XmlContent l nodes) (hn : recordsIn P nodes = []) : TailShape P (tail ++ l) := by
  obtain ⟨bal, ns, h1, h2, h3⟩ := ht
  rcases h3 with rfl | ⟨n, z, m, rfl⟩
  · exact ⟨_, _, h1.append h, by rw [recordsIn_append, h2, hn]; rfl, .inl rfl⟩
  · exact ⟨bal, ns, h1, h2, .inr ⟨n, z, m ++ l, by simp⟩⟩

theorem ScannedT.trans {s s' s'' : XmlStream} {l l' r nodes'} (h : ScannedT P query s l r s') (h' : ScannedT P query s' l' (recordsIn P nodes') s'') (hc : XmlContent l' nodes') :
    ScannedT P query s (l ++ l') (r ++ recordsIn P nodes') s'' := by
  obtain ⟨out, s1, tail, h1, h2, h3, h4, h5⟩ := h
  obtain ⟨out', s1', tail', g1, g2, g3, g4, g5⟩ := h'
  cases out' with
  | nil =>
    cases g2
    have e : l' = tail' := by rw [g1]; simp [flatTokens]
    subst e
    refine ⟨out, s1, tail ++ l', ?_, h2, h3.append g3, ?_, h5.after hc g4.symm⟩
    · rw [h1]; simp
    · rw [h4, ← g4]; simp
  | cons x out' =>
    obtain ⟨node, seg⟩ := x
    refine ⟨out ++ (node, tail ++ seg) :: out', s1', tail', ?_, h2.append (.before h3 g2), g3, ?_, g5⟩
    · rw [h1, g1]; simp [flatTokens]
    · rw [← h4, ← g4]; simp

theorem ScannedT.without {l nodes} (h : XmlContent l nodes) (hn : recordsIn P nodes = []) (hq : LooksFor query P) {s : XmlStream} (hs : CleanStream P s) :
    ScannedT P query s l [] (s.addAll nodes) := ⟨[], s, l, rfl, .nil, h.noRecords hq hs hn, rfl, l, nodes, h, hn, .inl rfl⟩

theorem ScannedT.record {l node} (h : RecordTokens P l node) {s : XmlStream} (hs : CleanStream P s) (hq : LooksFor query P) : ScannedT P query s l [node] (s.left query) := by
  refine ⟨[(node, l)], s.left query, [], by simp [flatTokens], .cons ?_ (fun last rest => h.read hs hq last rest) hs.left.clean .nil, .refl, rfl, [], [], .nil, rfl, .inl rfl⟩
  cases h <;> simp

theorem TailShape.stop {tail} (h : TailShape P tail) (name size more) : ∃ bal ns name' size' more', XmlContent bal ns ∧ recordsIn P ns = [] ∧
    tail ++ (.stop name, size) :: more = bal ++ (.stop name', size') :: more' := by
  obtain ⟨bal, ns, h1, h2, h3⟩ := h
  rcases h3 with rfl | ⟨n, z, m, rfl⟩
  · exact ⟨_, ns, name, size, more, h1, h2, rfl⟩
  · exact ⟨bal, ns, n, z, m ++ (.stop name, size) :: more, h1, h2, by simp⟩

theorem Spec.XmlContent.scannedT {l nodes} (h : XmlContent l nodes) (hq : LooksFor query P) : ∀ {s : XmlStream}, CleanStream P s →
    ∃ s', After P s s' ∧ ScannedT P query s l (recordsIn P nodes) s' := by
  induction h with
  | nil => intro s hs; exact ⟨s, ⟨hs, rfl⟩, [], s, [], rfl, .nil, .refl, rfl, [], [], .nil, rfl, .inl rfl⟩
  | @other kind data size tokens nodes h ih =>
    intro s hs
    have h2 := hs.after (nodes := [.other kind data]) rfl
    obtain ⟨s', g1, g2⟩ := ih h2.clean
    exact ⟨s', h2.trans g1, (ScannedT.without (.other (kind := kind) (data := data) (size := size) .nil) rfl hq hs).trans g2 h⟩
  | @closed name attr size tokens nodes h ih =>
    intro s hs
    cases hp : P name attr with
    | true =>
      obtain ⟨s', g1, g2⟩ := ih (hs.left (query := query)).clean
      refine ⟨s', hs.left.trans g1, ?_⟩
      have := (ScannedT.record (.closed (size := size) hp) hs hq).trans g2 h
      simpa [recordsIn, recordsOf, hp] using this
    | false =>
      have hn : recordsIn P [.element name attr []] = [] := by simp [recordsIn, recordsOf, hp]
      obtain ⟨s', g1, g2⟩ := ih (hs.after hn).clean
      refine ⟨s', (hs.after hn).trans g1, ?_⟩
      have := (ScannedT.without (.closed (size := size) .nil) hn hq hs).trans g2 h
      simpa [recordsIn, recordsOf, hp] using this
  | @element name attr size size' inner tokens children nodes h h' ih ih' =>
    intro s hs
    cases hp : P name attr with
    | true =>
      obtain ⟨s', g1, g2⟩ := ih' (hs.left (query := query)).clean
      refine ⟨s', hs.left.trans g1, ?_⟩
      have := (ScannedT.record (.element (size := size) (size' := size') hp h) hs hq).trans g2 h'
      simpa [recordsIn, recordsOf, hp] using this
    | false =>
      have h1 := hs.take_start hq name attr
      rw [if_neg (by simp [hp])] at h1
      obtain ⟨s0, g0, out, s1, tail, g1, g2, g3, g4, g5⟩ := ih (hs.push hp)
      obtain ⟨s2, k1, k2⟩ := hs.stop_step (query := query) g0
      have helement : ScannedT P query s ((.start name attr false, size) :: (inner ++ [(.stop name, size')])) (recordsIn P children) s2 := by
        cases out with
        | nil =>
          cases g2
          have e : inner = tail := by rw [g1]; simp [flatTokens]
          subst e
          exact ⟨[], s, _, rfl, .nil, .step h1 (g3.append (k2 _)), g4, _, _, .element h .nil, by simp [recordsIn, recordsOf, hp, ← g4], .inl rfl⟩
        | cons x out =>
          refine ⟨(x.1, (.start name attr false, size) :: x.2) :: out, s1, tail ++ [(.stop name, size')], ?_, .before (.step h1 .refl) g2, g3.append (k2 _), g4, ?_⟩
          · rw [g1]; simp [flatTokens]
          · obtain ⟨bal, ns, n, z, m, k1, k2, k3⟩ := g5.stop name size' []
            exact ⟨bal, ns, k1, k2, .inr ⟨n, z, m, k3⟩⟩
      obtain ⟨s3, m1, m2⟩ := ih' k1.clean
      refine ⟨s3, k1.trans m1, ?_⟩
      have := helement.trans m2 h'
      simpa [recordsIn, recordsOf, hp] using this

/-- In a document that is not straight, some read of the scan closes an element which was open before. -/
theorem Spec.XmlContent.closing {l nodes} (h : XmlContent l nodes) (hq : LooksFor query P) : ¬ Straight P nodes → ∀ {s : XmlStream}, CleanStream P s → Closing P query s l := by
  induction h with
  | nil => intro h; exact (h (.none rfl)).elim
  | @other kind data size tokens nodes h ih =>
    intro hns s hs
    exact .before (XmlContent.noRecords (.other (kind := kind) (data := data) (size := size) .nil) hq hs rfl) (ih (fun h => hns (.without rfl h)) (hs.addAll rfl))
  | @closed name attr size tokens nodes h ih =>
    intro hns s hs
    cases hp : P name attr with
    | true => exact .record (.closed hp) hs hq (ih (fun h => hns (.record hp h)) hs.left.clean)
    | false =>
      have hn : recordsOf P (.element name attr []) = [] := by simp [recordsOf, hp, recordsIn]
      have hn' : recordsIn P [.element name attr []] = [] := by simp [recordsIn, hn]
      exact .before (XmlContent.noRecords (.closed (size := size) .nil) hq hs hn') (ih (fun h => hns (.without hn h)) (hs.addAll hn'))
  | @element name attr size size' inner tokens children nodes h h' ih ih' =>
    intro hns s hs
    cases hp : P name attr with
    | true =>
      have := Closing.record (.element (size := size) (size' := size') hp h) hs hq (ih' (fun h => hns (.record hp h)) hs.left.clean)
      simpa using this
    | false =>
      by_cases hc : recordsIn P children = []
      · have hn : recordsOf P (.element name attr children) = [] := by simp [recordsOf, hp, hc]
        have hn' : recordsIn P [.element name attr children] = [] := by simp [recordsIn, hn]
        have := Closing.before (XmlContent.noRecords (.element (size := size) (size' := size') h .nil) hq hs hn') (ih' (fun h => hns (.without hn h)) (hs.addAll hn'))
        simpa using this
      · have h1 := hs.take_start hq name attr
        rw [if_neg (by simp [hp])] at h1
        by_cases hsc : Straight P children
        · have hr : recordsIn P nodes ≠ [] := fun hr => hns (.inside hp hsc hr)
          obtain ⟨s0, g0, out, s1, tail, g1, g2, g3, g4, g5⟩ := h.scannedT hq (hs.push hp)
          obtain ⟨s3, j1, j2⟩ := hs.stop_step (query := query) g0
          obtain ⟨_, _, out', s1', tail', k1, k2, k3, k4⟩ := h'.scanned hq j1.clean
          cases out with
          | nil => exact (hc g4.symm).elim
          | cons x out =>
            cases out' with
            | nil => exact (hr k4.symm).elim
            | cons y out' =>
              obtain ⟨bal, ns, n, z, m, e1, e2, e3⟩ := g5.stop name size' y.2
              have hread := XmlRuns.before (g3.append (j2 size')) k2
              cases hread with
              | @cons _ s2 _ _ _ _ _ r2 r3 r4 =>
                simp only [List.append_assoc, List.append_nil, List.cons_append, List.nil_append] at r2
                refine ⟨(x.1, (.start name attr false, size) :: x.2) :: out, s1, s2, y.1, bal, ns, n, z, m, flatTokens out' ++ tail', ?_, by simp, .before (.step h1 .refl) g2, e1, e2, r3, ?_⟩
                · rw [← e3, g1, k1]; simp [flatTokens]
                · intro last rest
                  rw [← e3]
                  simpa using r2 last rest
        · have := Closing.before (.step (size := size) h1 .refl) ((ih hsc (hs.push hp)).after ((.stop name, size') :: tokens))
          simpa using this


/-- The decoder has an error exactly if the step failed; it is not the end of the file. -/
def FineStep : XmlStep → Prop
  | .next s => s.failed = none
  | .found _ s => s.failed = none
  | .failed s => ∃ msg, s.failed = some (.bad msg)

/-- A read that did not end at the end of the file. -/
def FineRead (l : List (XmlRaw × Nat)) : XmlRead × XmlStream × Nat → Prop
  | (.eof, _, _) => False
  | (.bad _, _, _) => True
  | (.node _, s, size) => s.failed = none ∧ ∃ l1 l2, l = l1 ++ l2 ∧ size = sizeOfTokens l1

theorem closeTag_fine (forgets : Bool) (name : String) (top : List XmlNode) : ∀ (fs : List XmlFrame) (inner : List XmlNode) (target : Option Nat), FineStep (closeTag forgets name top inner fs target)
  | [], _, _ => ⟨_, rfl⟩
  | f :: fs, inner, target => by
    rw [closeTag]
    by_cases h : target = some 1
    · simp only [if_pos h]; rfl
    · by_cases h' : f.name = name
      · simp only [if_neg h, if_pos h']; rfl
      · simp only [if_neg h, if_neg h']; exact closeTag_fine forgets name top fs _ _

theorem XmlStream.take_fine {s : XmlStream} (hs : s.failed = none) (t : XmlRaw) : FineStep (s.take query t) := by
  cases t with
  | start name attr closed =>
    cases closed with
    | true => simp only [XmlStream.take, if_true]; exact closeTag_fine _ _ _ _ _ _
    | false => simp only [XmlStream.take, Bool.false_eq_true, if_false]; exact hs
  | stop name => exact closeTag_fine _ _ _ _ _ _
  | other _ data => simp only [XmlStream.take]; exact hs

theorem failed_ends {s : XmlStream} (h : FineStep (.failed s)) : ∃ msg, (s.ends (s.failed.getD .eof)).1 = .bad msg := by
  obtain ⟨m, hm⟩ := h
  exact ⟨m, by simp only [hm, Option.getD_some, XmlStream.ends]⟩

theorem readLoop_bad {msg} : ∀ {l : List (XmlRaw × Nat)} {s : XmlStream}, s.failed = none → FineRead l (readLoop query (.bad msg) s l)
  | [], s, _ => by simp [readLoop, XmlStream.ends, FineRead]
  | (t, size) :: rest, s, hs => by
    have htake := XmlStream.take_fine (query := query) hs t
    rw [readLoop]
    cases ht : s.take query t with
    | next s' =>
      rw [ht] at htake
      have := readLoop_bad (msg := msg) (l := rest) (s := s') htake
      simp only
      generalize readLoop query (.bad msg) s' rest = r at this ⊢
      obtain ⟨r1, r2, r3⟩ := r
      cases r1 with
      | eof => exact this
      | bad m => trivial
      | node n =>
        obtain ⟨g1, l1, l2, g2, g3⟩ := this
        exact ⟨g1, (t, size) :: l1, l2, by rw [g2]; rfl, by simp [sizeOfTokens, g3]⟩
    | found node s' =>
      rw [ht] at htake
      exact ⟨htake, [(t, size)], rest, rfl, by simp [sizeOfTokens]⟩
    | failed s' =>
      rw [ht] at htake
      obtain ⟨m, hm⟩ := failed_ends htake
      simp only [hm, FineRead]

theorem XmlStream.read_bad {lex : XmlLexer} {left l msg} (hlex : lex left = (l, .bad msg)) {s : XmlStream} (hs : s.failed = none) : FineRead l (s.read lex query left) := by
  simp only [XmlStream.read, hs, hlex]
  cases s.pending with
  | none => exact readLoop_bad hs
  | some name =>
    have := closeTag_fine query.forgets name s.top s.opened [] s.target
    simp only
    cases hc : closeTag query.forgets name s.top [] s.opened s.target with
    | next s' => rw [hc] at this; exact readLoop_bad this
    | found node s' => rw [hc] at this; exact ⟨this, [], l, rfl, rfl⟩
    | failed s' =>
      rw [hc] at this
      obtain ⟨m, hm⟩ := failed_ends this
      simp only [hm, FineRead]

/-! ### Every scan ends -/

theorem addNode_length (opened : List XmlFrame) (top : List XmlNode) (node : XmlNode) : (addNode opened top node).1.length = opened.length := by cases opened <;> rfl

theorem leave_length (forgets : Bool) (opened : List XmlFrame) (top : List XmlNode) : (leave forgets opened top).1.length = opened.length := by cases opened <;> rfl

theorem closeTag_length {forgets : Bool} {name : String} {top : List XmlNode} : ∀ {opened : List XmlFrame} {inner : List XmlNode} {target : Option Nat},
    (∀ s, closeTag forgets name top inner opened target = .next s → s.opened.length ≤ opened.length) ∧ ∀ node s, closeTag forgets name top inner opened target = .found node s → s.opened.length + 1 ≤ opened.length
  | [], _, _ => ⟨fun s h => by simp [closeTag] at h, fun node s h => by simp [closeTag] at h⟩
  | f :: fs, inner, target => by
    obtain ⟨h1, h2⟩ := closeTag_length (forgets := forgets) (name := name) (top := top) (opened := fs) (inner := [.element f.name f.attr (inner ++ f.children).reverse]) (target := target.map (· - 1))
    unfold closeTag
    simp only
    by_cases ht : target = some 1
    · rw [if_pos ht]
      exact ⟨fun s h => (by cases h), fun node s h => by cases h; simp [leave_length]⟩
    · rw [if_neg ht]
      by_cases hn : f.name = name
      · rw [if_pos hn]
        exact ⟨fun s h => (by cases h; simp [addNode_length]), fun node s h => by cases h⟩
      · rw [if_neg hn]
        exact ⟨fun s h => by have := h1 s h; simp only [List.length_cons]; omega, fun node s h => by have := h2 node s h; simp only [List.length_cons]; omega⟩

theorem take_length {s : XmlStream} {t : XmlRaw} : (∀ s', s.take query t = .next s' → s'.opened.length ≤ s.opened.length + 1) ∧
    ∀ node s', s.take query t = .found node s' → s'.opened.length ≤ s.opened.length := by
  cases t with
  | start name attr closed =>
    cases closed with
    | false => exact ⟨fun s' h => by cases h; simp, fun node s' h => by cases h⟩
    | true =>
      simp only [XmlStream.take, if_true]
      exact ⟨fun s' h => closeTag_length.1 s' h, fun node s' h => Nat.le_of_succ_le_succ (closeTag_length.2 node s' h)⟩
  | stop name =>
    simp only [XmlStream.take]
    exact ⟨fun s' h => Nat.le_succ_of_le (closeTag_length.1 s' h), fun node s' h => Nat.le_of_succ_le (closeTag_length.2 node s' h)⟩
  | other kind data => exact ⟨fun s' h => by cases h; simp [addNode_length], fun node s' h => by cases h⟩

theorem readLoop_node {last : XmlEnd} {node : XmlNode} {s' : XmlStream} {size : Nat} : ∀ {l : List (XmlRaw × Nat)} {s : XmlStream}, Rodb.readLoop query last s l = (.node node, s', size) →
    ∃ l1 l2, l = l1 ++ l2 ∧ size = sizeOfTokens l1 ∧ s'.opened.length + 1 ≤ s.opened.length + l1.length
  | [], s, h => by
    simp only [Rodb.readLoop, XmlStream.ends, Prod.mk.injEq] at h
    cases last with
    | bad msg => simp at h
    | eof => simp at h; split at h <;> simp at h
  | (t, n) :: l, s, h => by
    rw [Rodb.readLoop] at h
    split at h
    · rename_i s1 ht
      simp only [Prod.mk.injEq] at h
      obtain ⟨h1, h2, h3⟩ := h
      obtain ⟨l1, l2, g1, g2, g3⟩ := readLoop_node (l := l) (s := s1) (node := node) (s' := s') (size := (Rodb.readLoop query last s1 l).2.2) (by rw [← h1, ← h2])
      refine ⟨(t, n) :: l1, l2, by rw [g1]; rfl, by rw [← h3, g2]; simp [sizeOfTokens], ?_⟩
      have := take_length.1 s1 ht
      simp only [List.length_cons]
      omega
    · rename_i node' s1 ht
      cases h
      refine ⟨[(t, size)], l, rfl, by simp [sizeOfTokens], ?_⟩
      have := take_length.2 _ _ ht
      simp only [List.length_cons, List.length_nil]
      omega
    · simp only [Prod.mk.injEq, XmlStream.ends] at h
      split at h
      · simp at h
      · split at h <;> simp at h

theorem XmlStream.read_node {lex : XmlLexer} {s s' : XmlStream} {left : Bytes} {node : XmlNode} {size : Nat} (h : s.read lex query left = (.node node, s', size)) :
    ∃ l1 l2, (lex left).1 = l1 ++ l2 ∧ size = sizeOfTokens l1 ∧ s'.opened.length + 1 ≤ s.opened.length + l1.length := by
  have bad : ∀ (s1 s2 : XmlStream) e n, ((s1.ends e).1, s2, n) ≠ (XmlRead.node node, s', size) := by
    intro s1 s2 e n h
    simp only [Prod.mk.injEq, XmlStream.ends] at h
    cases e with
    | bad msg => simp at h
    | eof => simp at h; split at h <;> simp at h
  unfold XmlStream.read at h
  split at h
  · exact absurd h (bad _ _ _ _)
  · split at h
    · exact readLoop_node h
    · split at h
      · rename_i s1 hc
        obtain ⟨l1, l2, g1, g2, g3⟩ := readLoop_node h
        have := closeTag_length.1 s1 hc
        exact ⟨l1, l2, g1, g2, by omega⟩
      · rename_i node' s1 hc
        cases h
        exact ⟨[], _, rfl, rfl, closeTag_length.2 _ _ hc⟩
      · exact absurd h (bad _ _ _ _)

/-- The iterator ends, whatever the file has. -/
theorem xmlRecords_ends {lex : XmlLexer} (hl : SteadyLexer lex) {make : XmlNode → Int → Rec} {content : Bytes} : ∀ {fuel : Nat} {s : XmlStream} {offset : Nat},
    offset ≤ content.length → s.opened.length + (content.length - offset) < fuel →
    ∃ records : List Rec, records.length < fuel ∧ (xmlRecords lex query make content fuel s offset = records.map .ok ∨
      xmlRecords lex query make content fuel s offset = records.map .ok ++ [.error (.err "Cannot read xml data")])
  | 0, _, _, _, h => absurd h (Nat.not_lt_zero _)
  | fuel + 1, s, offset, ho, h => by
    rw [xmlRecords]
    generalize hr : s.read lex query (content.drop offset) = r
    obtain ⟨r1, r2, r3⟩ := r
    cases r1 with
    | eof => exact ⟨[], by simp, .inl rfl⟩
    | bad msg => exact ⟨[], by simp, .inr rfl⟩
    | node node =>
      obtain ⟨l1, l2, g1, g2, g3⟩ := XmlStream.read_node hr
      have hlex : lex (content.drop offset) = (l1 ++ l2, (lex (content.drop offset)).2) := by rw [← g1]
      obtain ⟨_, k2, k3⟩ := lex_drop hl hlex
      have hle : offset + r3 ≤ content.length := by
        by_cases hnil : l1 = []
        · rw [g2, hnil]; simpa [sizeOfTokens] using ho
        · rw [g2]; exact k3 hnil
      obtain ⟨records, e1, e2⟩ := xmlRecords_ends hl (make := make) (fuel := fuel) (s := r2) (offset := offset + r3) hle (by omega)
      refine ⟨make node offset :: records, by simp only [List.length_cons]; omega, ?_⟩
      rcases e2 with e2 | e2
      · exact .inl (by simp only [e2, List.map_cons])
      · exact .inr (by simp only [e2, List.map_cons, List.cons_append])

end Rodb
