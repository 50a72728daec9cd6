import Verif.Proofs.XPath
import Verif.Proofs.XPathText
import Verif.Props.XmlExprProps
import Verif.Props.XmlFilesProps
import Verif.Props.XmlTextProps
/-
  C122: the XPath expressions of XML inputs select what they say.
-/
namespace Rodb
open Spec

variable (rest : XPathRest) (others : XPathLib)

/-- The texts of the modelled expressions, and the expression that each of them is read as: an expression is written in one way only, and no other text is read as one. -/
theorem C122_syntax (text : String) (e : XExpr) : parseXExpr text.toList = some e ↔ IsExpr e text :=
  ⟨fun h => ⟨(parseXExpr_sound h).2, (parseXExpr_sound h).1.symm⟩, fun h => by rw [h.2]; exact parseXExpr_text h.1⟩

/-- What arrays and objects are made of: a path selects the elements that it leads to, each once. -/
theorem C122_selects (p : XPath) (text : String) (h : IsExpr (.path p) text) (ha : p.attr = none) (node : XmlNode) : Lists (LeadsTo p node) ((xpathLib rest others).select text node) := by
  have : (xpathLib rest others).select text node = p.elements node := by
    simp only [xpathLib, (C122_syntax text _).2 h, Option.bind_some, XExpr.select, ha, Option.getD_some]
  rw [this]
  exact elements_lists h.1.anywhere node

/-- They are in the order of the document, unless the path begins with `//` and has more steps than one. -/
theorem C122_selects_in_order (p : XPath) (text : String) (h : IsExpr (.path p) text) (ha : p.attr = none) (ho : p.start = .anywhere → p.steps.length = 1) (node : XmlNode) :
    ListsInOrder (LeadsTo p node) ((xpathLib rest others).select text node) := by
  have : (xpathLib rest others).select text node = p.elements node := by
    simp only [xpathLib, (C122_syntax text _).2 h, Option.bind_some, XExpr.select, ha, Option.getD_some]
  rw [this]
  exact elements_in_order ho node

/-- `string(path)`: the text at the first place. -/
theorem C122_string (p : XPath) (text : String) (h : IsExpr (.string p) text) (ho : p.start = .anywhere → p.steps.length = 1) (node : XmlNode) :
    ∃ t, (xpathLib rest others).eval text node = .str t ∧ FirstText p node t := by
  have hp : GoodXPath p := h.1
  refine ⟨(p.texts node).headD [], by simp only [xpathLib, (C122_syntax text _).2 h, Option.bind_some, XExpr.value, Option.getD_some], ?_⟩
  have ho' := placedTexts_pairwise (R := PlaceBefore) (placed_ordered ho node)
  rw [← placedTexts_snd]
  cases hl : p.placedTexts node with
  | nil =>
    refine .inr ⟨rfl, fun place t ht => ?_⟩
    have := (placedTexts_mem hp.anywhere).2 ht
    rw [hl] at this
    cases this
  | cons x l =>
    rw [hl] at ho'
    refine .inl ⟨x.1, (placedTexts_mem hp.anywhere).1 (by rw [hl]; exact .head _), fun place t ht => ?_⟩
    have := (placedTexts_mem hp.anywhere).2 ht
    rw [hl] at this
    cases this with
    | head => exact .inl rfl
    | tail _ hm => exact .inr ((List.pairwise_cons.1 ho').1 _ hm)

/-- `boolean(path)`: is there such a place? -/
theorem C122_boolean (p : XPath) (text : String) (h : IsExpr (.boolean p) text) (node : XmlNode) :
    ∃ b, (xpathLib rest others).eval text node = .bool b ∧ (b = true ↔ ∃ place t, LeadsToText p node place t) := by
  have hp : GoodXPath p := h.1
  refine ⟨!(p.texts node).isEmpty, by simp only [xpathLib, (C122_syntax text _).2 h, Option.bind_some, XExpr.value, Option.getD_some], ?_⟩
  rw [← placedTexts_snd, Bool.not_eq_true', List.isEmpty_eq_false_iff]
  constructor
  · intro hne
    cases hl : p.placedTexts node with
    | nil => rw [hl] at hne; exact absurd rfl hne
    | cons x l => exact ⟨x.1, x.2, (placedTexts_mem hp.anywhere).1 (by rw [hl]; exact .head _)⟩
  · rintro ⟨place, t, ht⟩ he
    have := (placedTexts_mem hp.anywhere).2 ht
    rw [List.map_eq_nil_iff.1 he] at this
    cases this

/-- `count(path)`: the number of the places. -/
theorem C122_count (p : XPath) (text : String) (h : IsExpr (.count p) text) (node : XmlNode) :
    ∃ n, (xpathLib rest others).eval text node = .num (rest.ofNat n) ∧ HowMany p node n := by
  have hp : GoodXPath p := h.1
  refine ⟨(p.texts node).length, by simp only [xpathLib, (C122_syntax text _).2 h, Option.bind_some, XExpr.value, Option.getD_some], (p.placedTexts node).map (·.1), ?_, ?_, fun place => ?_⟩
  · rw [← placedTexts_snd]; simp
  · exact (List.pairwise_map (f := fun x : List Nat × Bytes => x.1) (R := fun a b => a ≠ b)).2 (placedTexts_pairwise (R := fun a b => a ≠ b) (placed_nodup p node))
  · rw [List.mem_map]
    constructor
    · rintro ⟨x, hx, rfl⟩; exact ⟨x.2, (placedTexts_mem hp.anywhere).1 hx⟩
    · rintro ⟨t, ht⟩; exact ⟨(place, t), (placedTexts_mem hp.anywhere).2 ht, rfl⟩

/-- A path as the expression of a primitive property: the XML of the elements, one after the other. -/
theorem C122_nodes (p : XPath) (text : String) (h : IsExpr (.path p) text) (ha : p.attr = none) (ho : p.start = .anywhere → p.steps.length = 1) (node : XmlNode) :
    ∃ nodes, ListsInOrder (LeadsTo p node) nodes ∧ (xpathLib rest others).eval text node = .nodes (nodes.flatMap rest.output) :=
  ⟨p.elements node, elements_in_order ho node, by simp only [xpathLib, (C122_syntax text _).2 h, Option.bind_some, XExpr.value, ha, Option.getD_some]⟩

theorem xmlObject_fails {env : XmlEnv} {node : XmlNode} {q : XmlProp XmlNode} {e : Fail} (hq : xmlAllValues env q node = .error e) :
    ∀ {properties : List (XmlProp XmlNode)} {values : GoMap Value}, q ∈ properties → ∃ e, xmlObject env properties node values = .error e := by
  intro properties
  induction properties with
  | nil => intro values h; cases h
  | cons p ps ih =>
    intro values h
    rw [xmlObject]
    cases hp : xmlAllValues env p node with
    | error e => exact ⟨e, rfl⟩
    | ok v =>
      cases h with
      | head => rw [hq] at hp; cases hp
      | tail _ h => exact ih h

theorem xmlProps_mem {lib : XPathLib} {q : XmlPropDecl} : ∀ {properties : List XmlPropDecl}, q ∈ properties → q.prop lib ∈ xmlProps lib properties := by
  intro properties
  induction properties with
  | nil => intro h; cases h
  | cons p ps ih =>
    intro h
    rw [xmlProps]
    cases h with
    | head => exact .head _
    | tail _ h => exact .tail _ (ih h)

/-- A path is not a value: with `/Id` and an integer parser, as in the example of the documentation, no record can be read. -/
theorem C122_path_needs_string (p : XPath) (text : String) (h : IsExpr (.path p) text) (ha : p.attr = none) (types : String → Option ParserType) (functions : GoMap (Bytes → Res Value))
    (c : XmlDecl) (name parser : String) (items : Option XmlPropDecl) (properties : List XmlPropDecl) (hc : .mk name "primitive" parser text items properties ∈ c.properties)
    (ht : types parser ≠ some .string) (node : XmlNode) (position : Int) : ∃ e, (c.record (xpathLib rest others) types functions node position).all = .error e := by
  have hv : ∃ e, xmlAllValues { functions := functions, types := types, floatToInt := (xpathLib rest others).floatToInt }
      (XmlPropDecl.prop (xpathLib rest others) (.mk name "primitive" parser text items properties)) node = .error e := by
    rw [XmlPropDecl.prop, if_neg (by decide), if_neg (by decide), xmlAllValues]
    have : (xpathLib rest others).eval text node = .nodes ((p.elements node).flatMap rest.output) := by
      simp only [xpathLib, (C122_syntax text _).2 h, Option.bind_some, XExpr.value, ha, Option.getD_some]
    rw [this]
    simp only [XmlEnv.primitiveValue, XmlEnv.nodesValue]
    split
    · exact ⟨_, rfl⟩
    · rename_i h'; exact absurd h' ht
    · exact ⟨_, rfl⟩
  obtain ⟨e, hv⟩ := hv
  exact xmlObject_fails hv (xmlProps_mem hc)

theorem path_query_iff {p : XPath} {text : String} (h : IsExpr (.path p) text) (ha : p.attr = none) (doc : List XmlNode) :
    (xpathLib rest others).matching text doc = true ↔ ∃ place t, LeadsTo p (.element "" [] doc) place t := by
  have hp : GoodXPath p := h.1
  have : (xpathLib rest others).matching text doc = !(p.elements (.element "" [] doc)).isEmpty := by
    simp only [xpathLib, (C122_syntax text _).2 h, XExpr.select, ha]
  rw [this, ← placed_snd, Bool.not_eq_true', List.isEmpty_eq_false_iff]
  constructor
  · intro hne
    cases hl : p.placed (.element "" [] doc) with
    | nil => rw [hl] at hne; exact absurd rfl hne
    | cons x l => exact ⟨x.1, x.2, (placed_mem hp.anywhere).1 (by rw [hl]; exact .head _)⟩
  · rintro ⟨place, t, ht⟩ he
    have := (placed_mem hp.anywhere).2 ht
    rw [List.map_eq_nil_iff.1 he] at this
    cases this

/-- A path whose conditions look at attributes only, as the expression of the records: it looks for elements by their names and attributes and those of the elements they are in. -/
theorem C122_looks_along (p : XPath) (text : String) (h : IsExpr (.path p) text) (ha : p.attr = none) (hs : p.steps ≠ []) (hc : AttributesOnly p) :
    LooksAlong ((xpathLib rest others).matching text) (chainFits p) :=
  fun doc => (path_query_iff rest others h ha doc).trans (leads_iff_reached hc hs doc)

theorem occurs_iff {t : XmlNode} {doc : List XmlNode} : Occurs t doc ↔ ∃ place, place ≠ [] ∧ IsAt (.element "" [] doc) place t := by
  constructor
  · intro h
    induction h with
    | here hm =>
      obtain ⟨i, hi⟩ := List.mem_iff_getElem?.1 hm
      exact ⟨[i], by simp, .child hi .here⟩
    | @inside name attr children nodes hm _ ih =>
      obtain ⟨place, hne, hp⟩ := ih
      obtain ⟨i, hi⟩ := List.mem_iff_getElem?.1 hm
      cases hp with
      | here => exact absurd rfl hne
      | child hj hp => exact ⟨i :: _, by simp, .child hi (.child hj hp)⟩
  · rintro ⟨place, hne, h⟩
    cases place with
    | nil => exact absurd rfl hne
    | cons i place =>
      clear hne
      induction place generalizing i doc with
      | nil =>
        cases h with
        | child hi h => cases h; exact .here (List.mem_of_getElem? hi)
      | cons j place ih =>
        cases h with
        | child hi h =>
          cases h with
          | @child name attr children _ node _ _ hj h => exact .inside (List.mem_of_getElem? hi) (ih j (.child hj h))

/-- A path such as `//name[@a]`: it looks for elements with this name and such attributes anywhere in the document. -/
theorem C122_looks_for (s : XStep) (text : String) (h : IsExpr (.path ⟨.anywhere, [s], none⟩) text) (hc : ∀ name, .child name ∉ s.preds) :
    LooksFor ((xpathLib rest others).matching text) (fun name attr => stepFits s (name, attr)) := by
  intro doc
  rw [path_query_iff rest others h rfl]
  simp only [LeadsTo, if_true]
  constructor
  · rintro ⟨_, t, s', steps, above, below, found, he, rfl, h1, h2, h3, _⟩
    cases he
    obtain ⟨name, attr, children, rfl, _⟩ := id h3
    exact ⟨name, attr, children, (stepFits_iff hc).2 h3, occurs_iff.2 ⟨above, h1, h2⟩⟩
  · rintro ⟨name, attr, children, h1, h2⟩
    obtain ⟨place, h3, h4⟩ := occurs_iff.1 h2
    exact ⟨_, _, s, [], place, [], _, rfl, rfl, h3, h4, (stepFits_iff hc).1 h1, .here⟩

/-- The records of a well-formed document are the elements that the path leads to, in the order of the document, each with its position; what is inside of a record is part of it. -/
theorem C122_records (lex : XmlLexer) (hl : SteadyLexer lex) (p : XPath) (text : String) (h : IsExpr (.path p) text) (ha : p.attr = none) (hs : p.steps ≠ []) (hc : AttributesOnly p)
    (make : XmlNode → Int → Rec) (content : Bytes) (nodes : List XmlNode) (hd : IsDocument lex content nodes) :
    ∃ positions : List Nat, positions.length = (recordsAt (chainFits p) [] nodes).length ∧ positions.Pairwise (· < ·) ∧ (∀ q ∈ positions, q < content.length) ∧
      xmlScan lex ((xpathLib rest others).matching text) make content = .ok (Placed make (recordsAt (chainFits p) [] nodes) positions) :=
  C103_xml_path_partial lex hl _ _ (C122_looks_along rest others p text h ha hs hc) make content nodes hd

/-! ### The values of records -/

theorem placeBefore_asymm : ∀ {a b : List Nat}, PlaceBefore a b → ¬ PlaceBefore b a := by
  intro a b h
  induction h with
  | nil => intro h; cases h
  | rel h =>
    intro h'
    cases h' with
    | rel h' => omega
    | cons h' => omega
  | cons _ ih =>
    intro h'
    cases h' with
    | rel h' => omega
    | cons h' => exact ih h'

theorem pairwise_nodup {places : List (List Nat)} (h : places.Pairwise PlaceBefore) : places.Nodup := h.imp placeBefore_ne

theorem ordered_eq {a b : List (List Nat)} (ha : a.Pairwise PlaceBefore) (hb : b.Pairwise PlaceBefore) (h : ∀ x, x ∈ a ↔ x ∈ b) : a = b :=
  List.Perm.eq_of_pairwise (fun _ _ _ _ h1 h2 => absurd h2 (placeBefore_asymm h1)) ha hb ((List.perm_ext_iff_of_nodup (pairwise_nodup ha) (pairwise_nodup hb)).2 h)

theorem nodup_index {α : Type} {l : List α} (h : l.Nodup) {i j : Nat} {x : α} (hi : l[i]? = some x) (hj : l[j]? = some x) : i = j := by
  obtain ⟨hi', ei⟩ := List.getElem?_eq_some_iff.1 hi
  obtain ⟨hj', ej⟩ := List.getElem?_eq_some_iff.1 hj
  exact (List.getElem_inj h).1 (ei.trans ej.symm)

theorem listsInOrder_unique {P : List Nat → XmlNode → Prop} {a b : List XmlNode} (ha : ListsInOrder P a) (hb : ListsInOrder P b) : a = b := by
  obtain ⟨pa, la, oa, ma⟩ := ha
  obtain ⟨pb, lb, ob, mb⟩ := hb
  have mem : ∀ {ps : List (List Nat)} {ns : List XmlNode}, ps.length = ns.length → (∀ place target, P place target ↔ ∃ i : Nat, ps[i]? = some place ∧ ns[i]? = some target) →
      ∀ x, x ∈ ps ↔ ∃ t, P x t := by
    intro ps ns hl hm x
    constructor
    · intro hx
      obtain ⟨i, hi⟩ := List.mem_iff_getElem?.1 hx
      obtain ⟨hi', _⟩ := List.getElem?_eq_some_iff.1 hi
      exact ⟨ns[i]'(hl ▸ hi'), (hm _ _).2 ⟨i, hi, List.getElem?_eq_getElem _⟩⟩
    · rintro ⟨t, ht⟩
      obtain ⟨i, hi, _⟩ := (hm _ _).1 ht
      exact List.mem_of_getElem? hi
  have e := ordered_eq oa ob (fun x => (mem la ma x).trans (mem lb mb x).symm)
  subst e
  refine List.ext_getElem (la.symm.trans lb) (fun i h1 h2 => ?_)
  have hp := List.getElem?_eq_getElem (l := pa) (i := i) (by omega)
  have := (ma _ _).2 ⟨i, hp, List.getElem?_eq_getElem h1⟩
  obtain ⟨j, hj, hj'⟩ := (mb _ _).1 this
  rw [nodup_index (pairwise_nodup oa) hj hp] at hj'
  exact (Option.some.inj ((List.getElem?_eq_getElem h2).symm.trans hj')).symm

theorem pairwise_unique {β : Type} {l : List (List Nat × β)} (h : l.Pairwise (fun a b => a.1 ≠ b.1)) {place : List Nat} {x y : β} (hx : (place, x) ∈ l) (hy : (place, y) ∈ l) : x = y := by
  induction l with
  | nil => cases hx
  | cons a l ih =>
    obtain ⟨h1, h2⟩ := List.pairwise_cons.1 h
    cases hx with
    | head =>
      cases hy with
      | head => rfl
      | tail _ hy => exact absurd rfl (h1 (place, y) hy)
    | tail _ hx =>
      cases hy with
      | head => exact absurd rfl (h1 (place, x) hx)
      | tail _ hy => exact ih h2 hx hy

theorem firstText_unique {p : XPath} (hp : p.start = .anywhere → p.steps ≠ []) {node : XmlNode} {s t : Bytes} (hs : FirstText p node s) (ht : FirstText p node t) : s = t := by
  rcases hs with ⟨a, ha, ma⟩ | ⟨rfl, na⟩
  · rcases ht with ⟨b, hb, mb⟩ | ⟨_, nb⟩
    · have e : a = b := by
        rcases ma _ _ hb with h | h
        · exact h.symm
        · rcases mb _ _ ha with h' | h'
          · exact h'
          · exact absurd h' (placeBefore_asymm h)
      subst e
      exact pairwise_unique (placedTexts_pairwise (R := fun a b => a ≠ b) (placed_nodup p node)) ((placedTexts_mem hp).2 ha) ((placedTexts_mem hp).2 hb)
    · exact absurd ha (nb _ _)
  · rcases ht with ⟨b, hb, _⟩ | ⟨rfl, _⟩
    · exact absurd hb (na _ _)
    · rfl

theorem howMany_unique {p : XPath} {node : XmlNode} {m n : Nat} (hm : HowMany p node m) (hn : HowMany p node n) : m = n := by
  obtain ⟨a, rfl, da, ma⟩ := hm
  obtain ⟨b, rfl, db, mb⟩ := hn
  exact ((List.perm_ext_iff_of_nodup da db).2 (fun x => (ma x).trans (mb x).symm)).length_eq

theorem select_eq {p : XPath} {text : String} (h : IsExpr (.path p) text) (ha : p.attr = none) (node : XmlNode) : (xpathLib rest others).select text node = p.elements node := by
  simp only [xpathLib, (C122_syntax text _).2 h, Option.bind_some, XExpr.select, ha, Option.getD_some]

variable {rest others} in
mutual
theorem Spec.XPathReads.reads {types : String → Option ParserType} {functions : GoMap (Bytes → Res Value)} (hnum : ∀ n : Nat, n ≤ 2 ^ 53 → others.floatToInt (rest.ofNat n) = n) :
    ∀ {q : XmlPropDecl} {node : XmlNode} {v : Value}, XPathReads types functions q node v → XmlReads (xpathLib rest others) types functions q node v
  | _, node, v, .text (p := p) (t := t) h1 h2 h3 h4 h5 h6 => by
    obtain ⟨t', e, ht⟩ := C122_string rest others p _ h2 h3 node
    refine .primitive h1 ?_
    rw [e, firstText_unique h2.1.anywhere ht h4]
    exact .text h5 h6
  | _, node, _, .boolean (p := p) (b := b) h1 h2 h3 h4 => by
    obtain ⟨b', e, hb⟩ := C122_boolean rest others p _ h2 node
    refine .primitive h1 ?_
    rw [e, show b' = b from Bool.eq_iff_iff.2 (hb.trans h4.symm)]
    exact .boolean h3
  | _, node, _, .count (p := p) (n := n) h1 h2 h3 h4 h5 => by
    obtain ⟨n', e, hn⟩ := C122_count rest others p _ h2 node
    refine .primitive h1 ?_
    rw [e, howMany_unique hn h4]
    have : XmlPrimitive (xpathLib rest others) types functions (orText _ "string") (.num (rest.ofNat n)) (.int ((xpathLib rest others).floatToInt (rest.ofNat n))) := .integer h3
    rw [show (xpathLib rest others).floatToInt (rest.ofNat n) = n from hnum n h5] at this
    exact this
  | _, node, _, .array (p := p) h1 h2 h3 h4 h5 => by
    refine .array ?_
    rw [listsInOrder_unique (C122_selects_in_order rest others p _ h1 h2 h3 node) h4]
    exact Spec.XPathReadsEach.reads hnum h5
  | _, node, _, .absent (p := p) h1 h2 h3 => by
    refine .absent ?_
    rw [select_eq rest others h1 h2]
    obtain ⟨places, hl, _, hm⟩ := elements_lists (p := p) h1.1.anywhere node
    cases he : p.elements node with
    | nil => rfl
    | cons t l =>
      rw [he] at hl hm
      match places, hl with
      | place :: _, _ => exact absurd ((hm place t).2 ⟨0, rfl, rfl⟩) (h3 _ _)
  | _, node, _, .object (p := p) (child := child) (place := place) h1 h2 h3 h4 h5 => by
    refine .object (child := child) ?_ (Spec.XPathReadsObject.reads hnum h5)
    rw [select_eq rest others h1 h2]
    obtain ⟨places, hl, hd, hm⟩ := elements_lists (p := p) h1.1.anywhere node
    obtain ⟨i, hi, hi'⟩ := (hm _ _).1 h3
    have hone : ∀ x ∈ places, x = place := by
      intro x hx
      obtain ⟨j, hj⟩ := List.mem_iff_getElem?.1 hx
      obtain ⟨hj', _⟩ := List.getElem?_eq_some_iff.1 hj
      exact h4 x _ ((hm x _).2 ⟨j, hj, List.getElem?_eq_getElem (hl ▸ hj')⟩)
    match places, hl, hd, hi, hone with
    | [], _, _, hi, _ => simp at hi
    | [x], hl, _, hi, _ =>
      obtain ⟨t, ht⟩ := List.length_eq_one_iff.1 hl.symm
      rw [ht] at hi' ⊢
      cases i with
      | zero => simpa using hi'
      | succ i => simp at hi
    | x :: y :: l, _, hd, _, hone =>
      have e := (hone x (.head _)).trans (hone y (.tail _ (.head _))).symm
      exact absurd e ((List.pairwise_cons.1 hd).1 y (.head _))
theorem Spec.XPathReadsEach.reads {types : String → Option ParserType} {functions : GoMap (Bytes → Res Value)} (hnum : ∀ n : Nat, n ≤ 2 ^ 53 → others.floatToInt (rest.ofNat n) = n) :
    ∀ {q : XmlPropDecl} {nodes : List XmlNode} {values : List Value}, XPathReadsEach types functions q nodes values → XmlReadsEach (xpathLib rest others) types functions q nodes values
  | _, _, _, .nil => .nil
  | _, _, _, .cons h hs => .cons (Spec.XPathReads.reads hnum h) (Spec.XPathReadsEach.reads hnum hs)
theorem Spec.XPathReadsObject.reads {types : String → Option ParserType} {functions : GoMap (Bytes → Res Value)} (hnum : ∀ n : Nat, n ≤ 2 ^ 53 → others.floatToInt (rest.ofNat n) = n) :
    ∀ {qs : List XmlPropDecl} {node : XmlNode} {object : GoMap Value}, XPathReadsObject types functions qs node object → XmlReadsObject (xpathLib rest others) types functions qs node object
  | _, _, _, .nil => .nil
  | _, _, _, .cons h hs => .cons (Spec.XPathReads.reads hnum h) (Spec.XPathReadsObject.reads hnum hs)
end

variable {rest others} in
theorem Spec.XPathReadsAll.reads {types : String → Option ParserType} {functions : GoMap (Bytes → Res Value)} (hnum : ∀ n : Nat, n ≤ 2 ^ 53 → others.floatToInt (rest.ofNat n) = n)
    {qs : List XmlPropDecl} : ∀ {nodes : List XmlNode} {objects : List (GoMap Value)}, XPathReadsAll types functions qs nodes objects →
      XmlReadsAll (xpathLib rest others) types functions qs nodes objects
  | _, _, .nil => rfl
  | _, _, .cons h hs => ⟨_, _, h.reads hnum, hs.reads hnum, rfl⟩

/-- The record of a node has the values that its properties have on the node. `hnum`: Go's conversions from integers to floats and back, for numbers up to 2^53. -/
theorem C122_record_values (hnum : ∀ n : Nat, n ≤ 2 ^ 53 → others.floatToInt (rest.ofNat n) = n) (config : ConfigLib) (p : ParsedConfig) (d : XmlDecl) (hw : WellFormedInput config p (.xml d))
    (types : String → Option ParserType) (functions : GoMap (Bytes → Res Value)) (node : XmlNode) (position : Int) (object : GoMap Value)
    (h : XPathReadsObject types functions d.properties node object) :
    (XmlDecl.record (xpathLib rest others) { d with dieOnInputChange := some (d.dieOnInputChange.getD true), properties := completedProperties d.properties } types functions node position).all =
      .ok object := by
  obtain ⟨_, _, _, hn, hp⟩ := hw
  exact (h.reads hnum).values hn.1 hp [] (by simp)

/-- The bytes of the file: if it is an XML text, and the expressions are of this syntax, then everything that is proved of programs with XML inputs holds (C100, C87, C89, C97, C108). -/
theorem C122_xml_data (hnum : ∀ n : Nat, n ≤ 2 ^ 53 → others.floatToInt (rest.ofNat n) = n) (files : Files) (hlex : files.lexXml = xmlLexer) (hx : files.xpath = xpathLib rest others)
    (p : ParsedConfig) (functions : GoMap (Bytes → Res Value)) (d : XmlDecl) (asked : List String) (objects : List (GoMap Value))
    (h : XPathInputData files p functions d asked objects) : XmlInputData files p functions d asked objects := by
  obtain ⟨content, nodes, s, h1, h2, h3, h4, h5, h6⟩ := h.file
  exact { lexer := by rw [hlex]; exact xmlLexer_steady
          file := ⟨content, nodes, _, h1, by rw [hx]; exact C122_looks_for rest others s _ h3 h4, by rw [hlex]; exact h2.document, h5, by rw [hx]; exact h6.reads hnum⟩
          fetched := h.fetched, paths := h.paths, indexed := h.indexed, finite := h.finite, equality := h.equality }

namespace XPathExample

/-- `<u id="3"><n>x</n><g k="1"><n>y</n><n/></g></u>`. -/
def node : XmlNode := .element "u" [("id", [51])] [.element "n" [] [.other .text [120]], .element "g" [("k", [49])] [.element "n" [] [.other .text [121]], .element "n" [] []]]
/-- The number of nodes as a float. -/
def counts : XPathRest := { forgets := false, ofNat := fun n => .fin n, output := innerText }
def names : XPath := ⟨.anywhere, [⟨some "n".toList, []⟩], none⟩
/-- `/g[@k='1'][not(@l)][n]/*`. -/
def inner : XPath := ⟨.root, [⟨some "g".toList, [.equals "k".toList "1".toList, .lacks "l".toList, .child "n".toList]⟩, ⟨none, []⟩], none⟩
def id : XPath := ⟨.here, [], some "id".toList⟩
theorem is_names : IsExpr (.path names) "//n" := (C122_syntax _ _).1 (by decide +kernel)
theorem is_inner : IsExpr (.path inner) "/g[@k='1'][not(@l)][n]/*" := (C122_syntax _ _).1 (by decide +kernel)

example (others : XPathLib) : (xpathLib counts others).select "/g[@k='1'][not(@l)][n]/*" node = [.element "n" [] [.other .text [121]], .element "n" [] []] := by
  rw [xpathLib]; simp only [show parseXExpr "/g[@k='1'][not(@l)][n]/*".toList = some (.path inner) from (C122_syntax _ _).2 is_inner]; rfl
example (others : XPathLib) : ListsInOrder (LeadsTo inner node) ((xpathLib counts others).select "/g[@k='1'][not(@l)][n]/*" node) :=
  C122_selects_in_order counts others inner _ is_inner rfl (by decide) node
example : LeadsTo names node [1, 0] (.element "n" [] [.other .text [121]]) :=
  ⟨⟨some "n".toList, []⟩, [], [1, 0], [], _, rfl, rfl, by decide, .child rfl (.child rfl .here), ⟨_, _, _, rfl, (fun n h => by cases h; rfl), (fun q h => by cases h)⟩, .here⟩
example (others : XPathLib) : Lists (LeadsTo names node) ((xpathLib counts others).select "//n" node) := C122_selects counts others names _ is_names rfl node
/-- The text of the first `n` is `x`. -/
example (others : XPathLib) : (xpathLib counts others).eval "string(//n)" node = .str [120] := by
  rw [xpathLib]; simp only [show parseXExpr "string(//n)".toList = some (.string names) by decide +kernel]; rfl
example (others : XPathLib) : ∃ t, (xpathLib counts others).eval "string(//n)" node = .str t ∧ FirstText names node t :=
  C122_string counts others names _ ((C122_syntax _ _).1 (by decide +kernel)) (fun _ => rfl) node
example (others : XPathLib) : ∃ t, (xpathLib counts others).eval "string(@id)" node = .str t ∧ FirstText id node t :=
  C122_string counts others id _ ((C122_syntax _ _).1 (by decide +kernel)) (by decide) node
example (others : XPathLib) : ∃ b, (xpathLib counts others).eval "boolean(@id)" node = .bool b ∧ (b = true ↔ ∃ place t, LeadsToText id node place t) :=
  C122_boolean counts others id _ ((C122_syntax _ _).1 (by decide +kernel)) node
/-- There are three of them. -/
example (others : XPathLib) : (xpathLib counts others).eval "count(//n)" node = .num (.fin 3) := by
  rw [xpathLib]; simp only [show parseXExpr "count(//n)".toList = some (.count names) by decide +kernel]; rfl
example (others : XPathLib) : ∃ n, (xpathLib counts others).eval "count(//n)" node = .num (counts.ofNat n) ∧ HowMany names node n :=
  C122_count counts others names _ ((C122_syntax _ _).1 (by decide +kernel)) node
example (others : XPathLib) : ∃ nodes, ListsInOrder (LeadsTo names node) nodes ∧ (xpathLib counts others).eval "//n" node = .nodes (nodes.flatMap counts.output) :=
  C122_nodes counts others names _ is_names rfl (fun _ => rfl) node
/-- Other texts are not read as expressions of this kind. -/
example : parseXExpr "//n[1]".toList = none ∧ parseXExpr "number(/a)".toList = none ∧ parseXExpr "a//b".toList = none ∧ parseXExpr "".toList = none := by decide +kernel

/-- The first property of the example in docs/schema/inputs/xml.yaml. -/
def users : XmlDecl := { name := "users", path := "./users.xml", dieOnInputChange := none, recordXPath := "//User", properties := [.mk "id" "primitive" "integer" "/Id" none []] }
example (others : XPathLib) (functions : GoMap (Bytes → Res Value)) (node : XmlNode) (position : Int) :
    ∃ e, (users.record (xpathLib counts others) (fun name => if name = "integer" then some .integer else none) functions node position).all = .error e :=
  C122_path_needs_string counts others ⟨.root, [⟨some "Id".toList, []⟩], none⟩ "/Id" ((C122_syntax _ _).1 (by decide +kernel)) rfl _ _ users "id" "integer" none [] (.head _) (by decide) node position

def items : XPath := ⟨.root, [⟨some "r".toList, []⟩, ⟨none, []⟩], none⟩
/-- `/r/*` in `<r><i><j/></i></r>`: one record, the element `i`. -/
example (others : XPathLib) : recordsAt (chainFits items) [] XmlExprExample.nodes = [.element "i" [] [.element "j" [] []]] ∧
    ∃ positions : List Nat, positions.length = 1 ∧ positions.Pairwise (· < ·) ∧ (∀ p ∈ positions, p < XmlExprExample.content.length) ∧
    xmlScan xmlLexer ((xpathLib counts others).matching "/r/*") XmlExample.make XmlExprExample.content =
      .ok (Placed XmlExample.make [.element "i" [] [.element "j" [] []]] positions) :=
  ⟨by rfl, C122_records counts others xmlLexer xmlLexer_steady items "/r/*" ((C122_syntax _ _).1 (by decide +kernel)) rfl (by decide)
    (by intro s hs; simp only [items, List.mem_cons, List.not_mem_nil, or_false] at hs; rcases hs with rfl | rfl <;> simp) _ _ _ XmlExprExample.document⟩
example (others : XPathLib) : LooksFor ((xpathLib counts others).matching "//i[@id]") (fun name attr => stepFits ⟨some "i".toList, [.has "id".toList]⟩ (name, attr)) :=
  C122_looks_for counts others ⟨some "i".toList, [.has "id".toList]⟩ "//i[@id]" ((C122_syntax _ _).1 (by decide +kernel)) (by simp)


/-! The records `//i` of the document of C101, with the texts `string(@id)` and `string(.)`, the number `count(@id)`, and an object with the boolean `boolean(@x)`. -/

def dot : XPath := ⟨.here, [], none⟩
def x : XPath := ⟨.here, [], some "x".toList⟩
def decl : XmlDecl where
  name := "in"
  path := "in.xml"
  dieOnInputChange := none
  properties := [.mk "id" "" "" "string(@id)" none [], .mk "text" "primitive" "string" "string(.)" none [], .mk "n" "" "integer" "count(@id)" none [],
    .mk "o" "object" "" "." none [.mk "x" "" "boolean" "boolean(@x)" none []]]
  recordXPath := "//i"
def parsed : ParsedConfig where
  parsers := []
  inputs := [.xml decl]
  indexes := [.map { name := "map", input := "in", properties := ["id"] }]
  services := []
  outputs := []
def lib : XPathLib where
  matching _ := ⟨fun _ => false, false⟩
  select _ _ := []
  eval _ _ := .other
  floatToInt f := match f with
    | .fin k => k
    | _ => 0
def machine : Files where
  content path := if path = "in.xml" then some XmlTextExample.content else none
  modTimeNs _ := 0
  decodeJson := fun _ => (.bad, 0)
  lexXml := xmlLexer
  xpath := xpathLib counts lib
  fetchedXml _ _ := []
  ahead _ _ := []
  shared _ _ := (0, [], [])
def functions : GoMap (Bytes → Res Value) := [("string", fun b => .ok (.str b))]
def objects : List (GoMap Value) :=
  [[("id", .str (utf8 ['a', '>', '<', 'é'])), ("text", .str (utf8 ['x', '<', 'é', ']', ']', '\n'])), ("n", .int 1), ("o", .obj [("x", .bool true)])],
   [("id", .str []), ("text", .str []), ("n", .int 0), ("o", .obj [("x", .bool false)])]]

theorem only_here {attr : Option (List Char)} {node t : XmlNode} {place : List Nat} (h : LeadsTo ⟨.here, [], attr⟩ node place t) : place = [] ∧ t = node := by
  have h : Follows [] node place t := h
  cases h
  exact ⟨rfl, rfl⟩
theorem at_here {a : List Char} {name : String} {attr : List (String × Bytes)} {children : List XmlNode} {place : List Nat} {t : Bytes} :
    LeadsToText ⟨.here, [], some a⟩ (.element name attr children) place t ↔ place = [] ∧ attr.lookup (String.ofList a) = some t := by
  constructor
  · rintro ⟨target, h1, h2⟩
    obtain ⟨rfl, rfl⟩ := only_here h1
    obtain ⟨_, _, _, e, h⟩ := h2
    cases e
    exact ⟨rfl, h⟩
  · rintro ⟨rfl, h⟩
    exact ⟨_, Follows.here, _, _, _, rfl, h⟩
/-- The values of an element with these attributes. -/
theorem reads (types : String → Option ParserType) (h1 : types "integer" = some .integer) (h2 : types "boolean" = some .boolean) (name : String) (attr : List (String × Bytes))
    (children : List XmlNode) (text : Bytes) (h : HaveText children text) :
    XPathReadsObject types functions decl.properties (.element name attr children)
      [("id", .str ((attr.lookup "id").getD [])), ("text", .str text), ("n", .int (if (attr.lookup "id").isSome then 1 else 0 : Nat)), ("o", .obj [("x", .bool (attr.lookup "x").isSome)])] := by
  refine .cons (property := .mk "id" "" "" "string(@id)" none []) (.text (p := id) (.inl rfl) ((C122_syntax _ _).1 (by decide +kernel)) (by intro h; cases h) ?_ rfl rfl)
    (.cons (property := .mk "text" "primitive" "string" "string(.)" none []) (.text (p := dot) (.inr rfl) ((C122_syntax _ _).1 (by decide +kernel)) (by intro h; cases h) ?_ rfl rfl)
      (.cons (property := .mk "n" "" "integer" "count(@id)" none []) (.count (p := id) (.inl rfl) ((C122_syntax _ _).1 (by decide +kernel)) h1 ?_ ?_)
        (.cons (property := .mk "o" "object" "" "." none [.mk "x" "" "boolean" "boolean(@x)" none []])
          (.object (p := dot) (place := []) (child := .element name attr children) ((C122_syntax _ _).1 (by decide +kernel)) rfl Follows.here (fun _ _ h => (only_here h).1)
            (.cons (property := .mk "x" "" "boolean" "boolean(@x)" none []) (.boolean (p := x) (.inl rfl) ((C122_syntax _ _).1 (by decide +kernel)) h2 ?_) .nil)) .nil)))
  · cases ha : attr.lookup "id" with
    | none => exact .inr ⟨rfl, fun place t h => by cases (at_here.1 h).2.symm.trans ha⟩
    | some v => exact .inl ⟨[], at_here.2 ⟨rfl, ha⟩, fun _ _ h => .inl (at_here.1 h).1⟩
  · refine .inl ⟨[], ⟨_, Follows.here, .element h⟩, ?_⟩
    rintro place t ⟨_, h, _⟩
    exact .inl (only_here h).1
  · cases ha : attr.lookup "id" with
    | none =>
      refine ⟨[], rfl, .nil, fun place => ⟨(fun h => by cases h), ?_⟩⟩
      rintro ⟨t, h⟩
      cases (at_here.1 h).2.symm.trans ha
    | some v =>
      refine ⟨[[]], rfl, List.pairwise_singleton _ _, fun place => ⟨fun h => ?_, ?_⟩⟩
      · cases List.mem_singleton.1 h; exact ⟨v, at_here.2 ⟨rfl, ha⟩⟩
      · rintro ⟨t, h⟩
        exact List.mem_singleton.2 (at_here.1 h).1
  · split <;> decide
  · rw [Option.isSome_iff_exists]
    constructor
    · rintro ⟨v, h⟩; exact ⟨[], v, at_here.2 ⟨rfl, h⟩⟩
    · rintro ⟨_, v, h⟩; exact ⟨v, (at_here.1 h).2⟩
theorem value_at : ∀ o ∈ objects, (∃ v, ValueAt o "id" v ∧ Scalar v) ∧ ∃ v, ValueAt o "o.x" v := by
  intro o ho
  simp only [objects, List.mem_cons, List.not_mem_nil, or_false] at ho
  rcases ho with rfl | rfl
  · exact ⟨⟨.str _, (jsonRecord_get (position := 0) (by decide)).1 rfl, trivial⟩, .bool true, (jsonRecord_get (position := 0) (by decide)).1 rfl⟩
  · exact ⟨⟨.str _, (jsonRecord_get (position := 0) (by decide)).1 rfl, trivial⟩, .bool false, (jsonRecord_get (position := 0) (by decide)).1 rfl⟩
theorem data : XPathInputData machine parsed functions decl ["id", "o.x"] objects := by
  refine { file := ?_, fetched := ?_, paths := ?_, indexed := ?_, finite := ?_, equality := ?_ }
  · refine ⟨XmlTextExample.content, XmlTextExample.nodes, ⟨some "i".toList, []⟩, rfl, XmlTextExample.written, (C122_syntax _ _).1 (by decide +kernel), by simp, ?_, ?_⟩
    · exact .without rfl (.without rfl (.inside rfl (.without rfl (.record rfl (.record rfl (.none rfl)))) rfl))
    · have e : recordsIn (fun name attr => stepFits ⟨some "i".toList, []⟩ (name, attr)) XmlTextExample.nodes =
          [.element "i" [("id", utf8 ['a', '>', '<', 'é']), ("x", [])] [.other .text (utf8 ['x', '<', 'é', ']', ']', '\n'])], .element "i" [] []] := by rfl
      rw [e]
      have t : HaveText [.other .text (utf8 ['x', '<', 'é', ']', ']', '\n'])] (utf8 ['x', '<', 'é', ']', ']', '\n'] ++ []) := .cons .text .nil
      rw [List.append_nil] at t
      exact .cons (reads _ (by decide +kernel) (by decide +kernel) _ _ _ _ t) (.cons (reads _ (by decide +kernel) (by decide +kernel) _ _ _ _ .nil) .nil)
  · intro _ _ _ _ hb; cases hb
  · intro q hq
    simp only [List.mem_cons, List.not_mem_nil, or_false] at hq
    rcases hq with rfl | rfl
    · exact ⟨⟨"id", [], rfl, by decide⟩, fun o ho => (value_at o ho).1.elim fun v hv => ⟨v, hv.1⟩⟩
    · exact ⟨⟨"o", ["x"], rfl, by decide⟩, fun o ho => (value_at o ho).2⟩
  · intro m hm _ q hq
    cases List.mem_singleton.1 hm
    rw [List.mem_singleton.1 hq]
    exact ⟨⟨"id", [], rfl, by decide⟩, fun o ho => (value_at o ho).1⟩
  · intro o ho
    simp only [objects, List.mem_cons, List.not_mem_nil, or_false] at ho
    rcases ho with rfl | rfl <;>
    · intro h
      cases h with
      | @obj m k v hm hv =>
        simp at hm
        rcases hm with ⟨_, rfl⟩ | ⟨_, rfl⟩ | ⟨_, rfl⟩ | ⟨_, rfl⟩
        · cases hv
        · cases hv
        · cases hv
        · cases hv with | @obj m k v hm hv => simp at hm; rcases hm with ⟨_, rfl⟩; cases hv
  · intro i hi _
    rw [List.mem_singleton.1 hi]
    exact .inl ⟨_, rfl⟩
example : XmlInputData machine parsed functions decl ["id", "o.x"] objects := C122_xml_data counts lib (fun _ _ => rfl) machine rfl rfl parsed functions decl _ _ data
/-- The record of an element with other attributes. -/
example (position : Int) : (XmlDecl.record (xpathLib counts lib) { decl with dieOnInputChange := some true, properties := completedProperties decl.properties }
      (fun name => if name = "integer" then some .integer else some .boolean) functions (.element "i" [("x", [120])] [.other .cdata [121]]) position).all =
    .ok [("id", .str []), ("text", .str [121]), ("n", .int 0), ("o", .obj [("x", .bool true)])] := by
  have hl : ∃ c, loadConfig ConfigExample.lib parsed = .ok c := by
    have h : (match loadConfig ConfigExample.lib parsed with | .ok _ => true | .error _ => false) = true := by decide +kernel
    cases hc : loadConfig ConfigExample.lib parsed with
    | error e => rw [hc] at h; cases h
    | ok c => exact ⟨c, rfl⟩
  exact C122_record_values counts lib (fun _ _ => rfl) ConfigExample.lib parsed decl (((C76_accepted _ _).1 hl).inputs _ (.head _)) _ _ _ _ _
    (reads _ rfl rfl "i" [("x", [120])] _ [121] (.cons (text := [121]) .cdata .nil))

end XPathExample

end Rodb
