import Verif.Spec.XmlFiles
import Verif.Proofs.Files
import Verif.Props.XmlInputProps
/-
  From XML files to the records of the inputs.
-/
namespace Rodb
open Spec

/-! ### The properties of a declaration -/

theorem xmlProps_names (xpath : XPathLib) : ∀ ps : List XmlPropDecl, (xmlProps xpath (completedProperties ps)).map XmlProp.name = ps.map XmlPropDecl.name
  | [] => rfl
  | .mk name type parser expr items properties :: ps => by
    simp only [completedProperties, xmlProps, List.map_cons, xmlProps_names xpath ps, XmlPropDecl.name, completedXml, XmlPropDecl.prop]
    congr 1
    split
    · cases items <;> simp [completedItems, xmlItemsProp, XmlProp.name]
    · split <;> simp [XmlProp.name]

mutual
theorem XmlPropDecl.prop_valid {config : ConfigLib} {p : ParsedConfig} (xpath : XPathLib) : ∀ q : XmlPropDecl, (∀ x ∈ xmlWithNested q, WellFormedXml config p x) →
    ((completedXml q).prop xpath).valid = true
  | .mk name type parser expr items properties, h => by
    simp only [xmlWithNested, List.mem_cons, List.mem_append] at h
    have hw := (h _ (.inl rfl)).2
    simp only [completedXml, XmlPropDecl.prop]
    split
    · exact xmlItemsProp_valid xpath name expr items (fun x hx => h x (.inr (.inl hx)))
    · split
      · rename_i ht
        rcases hw with ⟨rfl | rfl, _⟩ | ⟨rfl, _⟩ | ⟨_, _, _, _, hn⟩
        · simp [orText] at ht
        · simp [orText] at ht
        · simp [orText] at ht
        · simp only [XmlProp.valid, Bool.and_eq_true, decide_eq_true_eq, xmlProps_names]
          exact ⟨xmlProps_valid xpath properties hn.2 (fun x hx => h x (.inr (.inr hx))), hn.1⟩
      · rfl
theorem xmlItemsProp_valid {config : ConfigLib} {p : ParsedConfig} (xpath : XPathLib) (name expr : String) : ∀ items : Option XmlPropDecl, (∀ x ∈ xmlItems items, WellFormedXml config p x) →
    (xmlItemsProp xpath name expr (completedItems items)).valid = true
  | none, _ => rfl
  | some q, h => by
    simp only [completedItems, xmlItemsProp, XmlProp.valid]
    exact XmlPropDecl.prop_valid xpath q h
theorem xmlProps_valid {config : ConfigLib} {p : ParsedConfig} (xpath : XPathLib) : ∀ ps : List XmlPropDecl, "" ∉ namesOfXml ps → (∀ x ∈ xmlAll ps, WellFormedXml config p x) →
    validXmlProps (xmlProps xpath (completedProperties ps)) = true
  | [], _, _ => rfl
  | q :: ps, hn, h => by
    simp only [namesOfXml, List.map_cons, List.mem_cons, not_or] at hn
    simp only [xmlAll, List.mem_append] at h
    have e := xmlProps_names xpath [q]
    simp only [completedProperties, xmlProps, List.map_cons, List.map_nil, List.cons.injEq, and_true] at e
    simp only [completedProperties, xmlProps, validXmlProps, Bool.and_eq_true, decide_eq_true_eq, e]
    exact ⟨⟨fun h => hn.1 h.symm, XmlPropDecl.prop_valid xpath q (fun x hx => h x (.inl hx))⟩, xmlProps_valid xpath ps hn.2 (fun x hx => h x (.inr hx))⟩
end

/-! ### The values of the properties -/

variable {xpath : XPathLib} {types : String → Option ParserType} {functions : GoMap (Bytes → Res Value)}

/-- The environment of the records. -/
def recordEnv (xpath : XPathLib) (types : String → Option ParserType) (functions : GoMap (Bytes → Res Value)) : XmlEnv :=
  { functions := functions, types := types, floatToInt := xpath.floatToInt }

theorem Spec.XmlPrimitive.value {parser : String} {r : XPathResult} {v : Value} (h : XmlPrimitive xpath types functions parser r v) :
    (recordEnv xpath types functions).primitiveValue parser r = .ok v := by
  cases h with
  | text h1 h2 => simp only [XmlEnv.primitiveValue, XmlEnv.stringValue, recordEnv, h1, h2]
  | float h => simp only [XmlEnv.primitiveValue, XmlEnv.numericValue, recordEnv, h]
  | integer h => simp only [XmlEnv.primitiveValue, XmlEnv.numericValue, recordEnv, h]
  | boolean h => simp only [XmlEnv.primitiveValue, XmlEnv.boolValue, recordEnv, h]
  | nodes h => simp only [XmlEnv.primitiveValue, XmlEnv.nodesValue, recordEnv, h]

theorem Spec.XmlReadsObject.keys : ∀ {properties : List XmlPropDecl} {node : XmlNode} {object : GoMap Value}, XmlReadsObject xpath types functions properties node object →
    object.map (·.1) = properties.map XmlPropDecl.name
  | _, _, _, .nil => rfl
  | _, _, _, .cons _ h => by simp only [List.map_cons, Spec.XmlReadsObject.keys h]

mutual
theorem Spec.XmlReads.value {config : ConfigLib} {p : ParsedConfig} : ∀ {q : XmlPropDecl} {node : XmlNode} {v : Value}, XmlReads xpath types functions q node v →
    (∀ x ∈ xmlWithNested q, WellFormedXml config p x) → xmlAllValues (recordEnv xpath types functions) ((completedXml q).prop xpath) node = .ok v
  | _, _, _, .primitive (name := name) (type := type) (parser := parser) (expr := expr) ht h, _ => by
    have ht' : orText type "primitive" = "primitive" := by rcases ht with rfl | rfl <;> rfl
    simp only [completedXml, ht', XmlPropDecl.prop, String.reduceEq, if_false, if_true, xmlAllValues]
    exact h.value
  | _, _, _, .array (expr := expr) h, hw => by
    have ht : orText "array" "primitive" = "array" := rfl
    simp only [completedXml, ht, XmlPropDecl.prop, if_true, completedItems, xmlItemsProp, xmlAllValues]
    rw [h.values (fun x hx => hw x (by simp [xmlWithNested, xmlItems, hx]))]
  | _, _, _, .absent h, _ => by
    have ht : orText "object" "primitive" = "object" := rfl
    simp only [completedXml, ht, XmlPropDecl.prop, String.reduceEq, if_false, if_true, xmlAllValues, h]
  | _, _, _, .object (name := name) (parser := parser) (expr := expr) (items := items) (properties := ps) h ho, hw => by
    have ht : orText "object" "primitive" = "object" := rfl
    have hn : GoodNames (namesOfXml ps) := by
      rcases (hw (.mk name "object" parser expr items ps) (by simp only [xmlWithNested]; exact .head _)).2 with ⟨h | h, _⟩ | ⟨h, _⟩ | ⟨_, _, _, _, hn⟩
      · simp at h
      · simp at h
      · simp at h
      · exact hn
    have := ho.values hn.1 (fun x hx => hw x (by simp [xmlWithNested, hx])) [] (by simp)
    simp only [completedXml, ht, XmlPropDecl.prop, String.reduceEq, if_false, if_true, xmlAllValues, h, this, List.nil_append]
theorem Spec.XmlReadsEach.values {config : ConfigLib} {p : ParsedConfig} : ∀ {q : XmlPropDecl} {nodes : List XmlNode} {values : List Value},
    XmlReadsEach xpath types functions q nodes values → (∀ x ∈ xmlWithNested q, WellFormedXml config p x) →
    xmlArray (xmlAllValues (recordEnv xpath types functions) ((completedXml q).prop xpath)) nodes = .ok values
  | _, _, _, .nil, _ => rfl
  | _, _, _, .cons h hs, hw => by simp only [xmlArray, h.value hw, hs.values hw]
theorem Spec.XmlReadsObject.values {config : ConfigLib} {p : ParsedConfig} : ∀ {properties : List XmlPropDecl} {node : XmlNode} {object : GoMap Value},
    XmlReadsObject xpath types functions properties node object → (namesOfXml properties).Nodup → (∀ x ∈ xmlAll properties, WellFormedXml config p x) →
    ∀ before : GoMap Value, (∀ name ∈ namesOfXml properties, name ∉ before.map (·.1)) →
    xmlObject (recordEnv xpath types functions) (xmlProps xpath (completedProperties properties)) node before = .ok (before ++ object)
  | _, _, _, .nil, _, _, before, _ => by simp [completedProperties, xmlProps, xmlObject]
  | _, _, _, .cons (property := q) (properties := ps) h hs, hn, hw, before, hb => by
    simp only [namesOfXml, List.map_cons, List.nodup_cons] at hn
    have e := xmlProps_names xpath [q]
    simp only [completedProperties, xmlProps, List.map_cons, List.map_nil, List.cons.injEq, and_true] at e
    simp only [completedProperties, xmlProps, xmlObject, h.value (fun x hx => hw x (by simp [xmlAll, hx])), e]
    rw [mapSet_absent _ (hb _ (.head _)), hs.values hn.2 (fun x hx => hw x (by simp [xmlAll, hx])), List.append_assoc]
    · rfl
    · intro name hname
      rw [List.map_append, List.mem_append, not_or]
      refine ⟨hb name (.tail _ hname), ?_⟩
      simp only [List.map_cons, List.map_nil, List.mem_singleton]
      rintro rfl
      exact hn.1 hname
end

/-- Paths in an XML record. -/
theorem xmlRecord_get {env : XmlEnv} {properties : List (XmlProp XmlNode)} {node : XmlNode} {position : Int} (hvalid : validXmlProps properties = true)
    (hnames : (properties.map XmlProp.name).Nodup) {m : GoMap Value} (hall : (xmlRecord env properties node position).all = .ok m) {path : String}
    (hin : ∃ name rest, splitPath path = name :: rest ∧ name ∈ properties.map XmlProp.name) (hat : ∃ v, ValueAt m path v) (v : Value) :
    (xmlRecord env properties node position).get path = .ok v ↔ ValueAt m path v := by
  obtain ⟨w, hw⟩ := hat
  have hlook := (C27_lookup (.obj m) (splitPath path)).1
  have hw' : getSubValue (.obj m) (splitPath path) = .ok w := (hlook w).2 hw
  have hblocked : ¬ Blocked (.obj m) (splitPath path) := by
    intro hb
    obtain ⟨msg, he⟩ := (C27_lookup (.obj m) (splitPath path)).2.2 hb
    rw [hw'] at he; cases he
  have hneg : ¬ NegativeIndex (.obj m) (splitPath path) := by
    intro hb
    obtain ⟨msg, he⟩ := (C28_panics_iff_negative_partial (.obj m) (splitPath path)).1.2 hb
    rw [hw'] at he; cases he
  obtain ⟨g1, g2, g3, g4⟩ := C29_xml_get_agrees env properties node position hvalid hnames m hall path
  have hok : ∀ x, (xmlRecord env properties node position).get path = .ok x → ValueAt m path x := by
    intro x hx
    rcases g2 x hx with h | ⟨rfl, h | ⟨k, h⟩⟩
    · exact .inl h
    · exact .inr ⟨rfl, h⟩
    · exact absurd ⟨.null, k, h, .inl (by simp)⟩ hblocked
  refine ⟨hok v, fun hv => ?_⟩
  have hvw : v = w := by
    have := (hlook v).2 hv
    rw [hw'] at this; cases this; rfl
  subst hvw
  cases hg : (xmlRecord env properties node position).get path with
  | ok x =>
    have := (hlook x).2 (hok x hg)
    rw [hw'] at this; cases this; rfl
  | error e =>
    cases e with
    | err msg =>
      rcases g3 msg hg with h | ⟨k, rest, hs, hk⟩
      · exact absurd h hblocked
      · obtain ⟨k', rest', hs', hk'⟩ := hin
        rw [hs] at hs'; cases hs'
        exact absurd hk' hk
    | panic msg => exact absurd (g4 msg hg) hneg
    | diverge =>
      exfalso
      obtain ⟨k, rest, hs, hk⟩ := hin
      obtain ⟨x, _, hspec⟩ := (xmlSubProps_spec env properties hvalid hnames node [] m hall).2 k hk rest (.error (.err "The path does not exist in this record."))
      refine hspec.diverge ?_
      simp only [xmlRecord, hs] at hg
      split at hg
      · cases hg
      · exact hg

/-- The records of the nodes. -/
theorem Spec.XmlReadsAll.records {config : ConfigLib} {p : ParsedConfig} {properties : List XmlPropDecl} (hn : GoodNames (namesOfXml properties))
    (hw : ∀ x ∈ xmlAll properties, WellFormedXml config p x) {make : XmlNode → Int → Rec}
    (hmake : make = xmlRecord (recordEnv xpath types functions) (xmlProps xpath (completedProperties properties))) :
    ∀ {nodes : List XmlNode} {objects : List (GoMap Value)} {positions : List Nat}, positions.length = nodes.length → XmlReadsAll xpath types functions properties nodes objects →
      ∀ records, records = (nodes.zip positions).map (fun x => make x.1 x.2) →
      records.map shownOf = objects ∧ records.map Rec.position = positions.map Int.ofNat ∧
      ∀ r ∈ records, r.all = .ok (shownOf r) ∧ ∀ q, InProperty properties q → (∃ v, ValueAt (shownOf r) q v) → ∀ v, r.get q = .ok v ↔ ValueAt (shownOf r) q v
  | [], objects, positions, hlen, h, records, hr => by
    simp only [XmlReadsAll] at h
    have : positions = [] := by simpa using hlen
    subst h this hr
    simp
  | node :: nodes, objects, [], hlen, h, records, hr => by simp at hlen
  | node :: nodes, objects, position :: positions, hlen, h, records, hr => by
    simp only [XmlReadsAll] at h
    obtain ⟨object, rest, h1, h2, rfl⟩ := h
    obtain ⟨g1, g2, g3⟩ := Spec.XmlReadsAll.records hn hw hmake (positions := positions) (by simpa using hlen) h2 _ rfl
    have k1 : (make node position).all = .ok object := by
      have := h1.values hn.1 hw [] (by simp)
      rw [hmake]
      rw [List.nil_append] at this
      exact this
    have hshown : shownOf (make node position) = object := by
      unfold shownOf; rw [k1]
    subst hr
    rw [List.zip_cons_cons, List.map_cons]
    refine ⟨by rw [List.map_cons, hshown, g1], by rw [List.map_cons, List.map_cons, g2, hmake]; rfl, ?_⟩
    intro r hr
    rcases List.mem_cons.1 hr with rfl | hr
    · rw [hshown]
      refine ⟨k1, ?_⟩
      rintro q ⟨name, rest, hs, hq⟩ hat v
      rw [hmake] at k1 ⊢
      exact xmlRecord_get (xmlProps_valid xpath properties hn.2 hw) (by rw [xmlProps_names]; exact hn.1) k1 ⟨name, rest, hs, by rw [xmlProps_names]; exact hq⟩ hat v
    · exact g3 r hr

end Rodb
