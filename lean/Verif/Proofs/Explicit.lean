import Verif.Spec.Explicit
import Verif.Props.UnindexedProps
/-
  Lemmas for C126 : defaults that are written out.
-/
namespace Rodb
open Spec

theorem orText_orText (a d : String) : orText (orText a d) d = orText a d := by
  unfold orText
  by_cases h : a = ""
  · simp only [h, if_true]; split <;> rfl
  · simp only [h, if_false]

theorem orNumber_orNumber (a d : Nat) : orNumber (orNumber a d) d = orNumber a d := by
  unfold orNumber
  by_cases h : a = 0
  · simp only [h, if_true]; split <;> rfl
  · simp only [h, if_false]

theorem completedParser_name' (x : ParserDecl) : (completedParser x).name = x.name := by
  unfold completedParser; split <;> rfl

theorem completedInput_name' (x : InputDecl) : (completedInput x).name = x.name := by cases x <;> rfl
theorem completedIndex_name' (lib : ConfigLib) (x : IndexDecl) : (completedIndex lib x).name = x.name := by cases x <;> rfl
theorem completedOutput_name' (x : OutputDecl) : (completedOutput x).name = x.name := by cases x <;> rfl

theorem completedParser_primitive' (x : ParserDecl) : (completedParser x).primitive = x.primitive := by
  cases x with
  | mk n k => cases k <;> rfl

theorem completedParser_twice (x : ParserDecl) : completedParser (completedParser x) = completedParser x := by
  cases x with
  | mk n k => cases k <;> rfl

theorem builtin_completed {b : ParserDecl} (h : b ∈ builtinParsers) : completedParser b = b := by
  simp only [builtinParsers, List.mem_cons, List.not_mem_nil, or_false] at h
  rcases h with rfl | rfl | rfl | rfl | rfl <;> rfl

/-! ### The components of the explicit configuration -/

section components
variable {lib : ConfigLib} {p : ParsedConfig}

theorem mem_explicit_parsers {y : ParserDecl} : y ∈ (explicit lib p).parsers ↔ ∃ x, IsParser p y.name x ∧ y = completedParser x := by
  simp only [explicit, List.mem_append, List.mem_map, List.mem_filter, Bool.not_eq_true', List.contains_eq_mem, decide_eq_false_iff_not]
  constructor
  · rintro (⟨x, hx, rfl⟩ | ⟨hb, hn⟩)
    · exact ⟨x, .inl ⟨hx, (completedParser_name' x).symm⟩, rfl⟩
    · exact ⟨y, .inr ⟨fun z hz e => hn ⟨z, hz, e⟩, hb, rfl⟩, (builtin_completed hb).symm⟩
  · rintro ⟨x, ⟨hx, e⟩ | ⟨hn, hb, e⟩, rfl⟩
    · exact .inl ⟨x, hx, rfl⟩
    · rw [builtin_completed hb] at hn ⊢
      exact .inr ⟨hb, fun ⟨z, hz, e⟩ => hn z hz e⟩

theorem mem_explicit_indexes {y : IndexDecl} : y ∈ (explicit lib p).indexes ↔ ∃ x, IsIndex p y.name x ∧ y = completedIndex lib x := by
  simp only [explicit, List.mem_append, List.mem_map]
  constructor
  · rintro (⟨x, hx, rfl⟩ | h)
    · exact ⟨x, .inl ⟨hx, (completedIndex_name' lib x).symm⟩, rfl⟩
    · split at h
      · cases h
      · rename_i hn
        rw [List.mem_singleton] at h
        subst h
        exact ⟨.noop "default", .inr ⟨fun z hz e => hn ⟨z, hz, e⟩, List.mem_singleton.2 rfl, rfl⟩, rfl⟩
  · rintro ⟨x, ⟨hx, e⟩ | ⟨hn, hb, e⟩, rfl⟩
    · exact .inl ⟨x, hx, rfl⟩
    · rw [List.mem_singleton] at hb
      subst hb
      refine .inr ?_
      rw [if_neg (fun ⟨z, hz, e⟩ => hn z hz e)]
      exact List.mem_singleton.2 rfl

theorem builtin_has (b : ParserDecl) (hb : b ∈ builtinParsers) (p : ParsedConfig) : ∃ x, IsParser p b.name x := by
  by_cases h : ∃ x ∈ p.parsers, x.name = b.name
  · obtain ⟨x, hx, e⟩ := h
    exact ⟨x, .inl ⟨hx, e⟩⟩
  · exact ⟨b, .inr ⟨fun y hy e => h ⟨y, hy, e⟩, hb, rfl⟩⟩

theorem explicit_isParser {n : String} {y : ParserDecl} : IsParser (explicit lib p) n y ↔ ∃ x, IsParser p n x ∧ y = completedParser x := by
  constructor
  · rintro (⟨h, rfl⟩ | ⟨h, hb, rfl⟩)
    · exact mem_explicit_parsers.1 h
    · obtain ⟨x, hx⟩ := builtin_has y hb p
      have e : (completedParser x).name = y.name := by
        rw [completedParser_name']
        rcases hx with ⟨_, e⟩ | ⟨_, _, e⟩ <;> exact e
      exact absurd e (h _ (mem_explicit_parsers.2 ⟨x, by rw [e]; exact hx, rfl⟩))
  · rintro ⟨x, hx, rfl⟩
    have e : (completedParser x).name = n := by
      rw [completedParser_name']
      rcases hx with ⟨_, e⟩ | ⟨_, _, e⟩ <;> exact e
    exact .inl ⟨mem_explicit_parsers.2 ⟨x, by rw [e]; exact hx, rfl⟩, e⟩

theorem explicit_isIndex {n : String} {y : IndexDecl} : IsIndex (explicit lib p) n y ↔ ∃ x, IsIndex p n x ∧ y = completedIndex lib x := by
  constructor
  · rintro (⟨h, rfl⟩ | ⟨h, hb, rfl⟩)
    · exact mem_explicit_indexes.1 h
    · rw [List.mem_singleton] at hb
      subst hb
      refine absurd rfl (h (.noop "default") ?_)
      by_cases hd : "default" ∈ p.indexes.map IndexDecl.name
      · obtain ⟨x, hx, e⟩ := List.mem_map.1 hd
        exact absurd (by rw [completedIndex_name']; exact e) (h (completedIndex lib x) (mem_explicit_indexes.2 ⟨x, .inl ⟨hx, (completedIndex_name' lib x).symm⟩, rfl⟩))
      · exact mem_explicit_indexes.2 ⟨.noop "default", .inr ⟨fun z hz e => hd (List.mem_map.2 ⟨z, hz, e⟩), List.mem_singleton.2 rfl, rfl⟩, rfl⟩
  · rintro ⟨x, hx, rfl⟩
    have e : (completedIndex lib x).name = n := by
      rw [completedIndex_name']
      rcases hx with ⟨_, e⟩ | ⟨_, _, e⟩ <;> exact e
    exact .inl ⟨mem_explicit_indexes.2 ⟨x, by rw [e]; exact hx, rfl⟩, e⟩

theorem explicit_hasParser {n : String} : (∃ x, IsParser (explicit lib p) n x) ↔ ∃ x, IsParser p n x :=
  ⟨fun ⟨_, h⟩ => let ⟨x, hx, _⟩ := explicit_isParser.1 h; ⟨x, hx⟩, fun ⟨x, h⟩ => ⟨_, explicit_isParser.2 ⟨x, h, rfl⟩⟩⟩

theorem explicit_parserName {n : String} : ParserName (explicit lib p) (orText n "string") ↔ ParserName p n := by
  unfold ParserName orText
  by_cases h : n = ""
  · simp only [h, if_true, true_or, iff_true]
    exact .inr (explicit_hasParser.2 (builtin_has ⟨"string", .string ""⟩ (by simp [builtinParsers]) p))
  · simp only [h, if_false, false_or]
    exact explicit_hasParser

theorem explicit_inputName {n : String} : InputName (explicit lib p) n ↔ InputName p n := by
  unfold InputName explicit
  simp only [List.mem_map]
  exact ⟨fun ⟨_, ⟨x, hx, e⟩, h⟩ => ⟨x, hx, by rw [← h, ← e, completedInput_name']⟩, fun ⟨x, hx, h⟩ => ⟨_, ⟨x, hx, rfl⟩, by rw [completedInput_name', h]⟩⟩

theorem explicit_outputName {n : String} : OutputName (explicit lib p) n ↔ OutputName p n := by
  unfold OutputName explicit
  simp only [List.mem_map]
  exact ⟨fun ⟨_, ⟨x, hx, e⟩, h⟩ => ⟨x, hx, by rw [← h, ← e, completedOutput_name']⟩, fun ⟨x, hx, h⟩ => ⟨_, ⟨x, hx, rfl⟩, by rw [completedOutput_name', h]⟩⟩

theorem completedIndex_searches {x : IndexDecl} {input property : String} : Searches (completedIndex lib x) input property ↔ Searches x input property := by
  cases x with
  | sqlite d =>
    simp only [completedIndex, Searches, List.mem_map]
    exact and_congr_right fun _ => ⟨fun ⟨_, ⟨q, hq, e⟩, h⟩ => ⟨q, hq, by rw [← h, ← e]⟩, fun ⟨q, hq, h⟩ => ⟨_, ⟨q, hq, rfl⟩, h⟩⟩
  | _ => exact Iff.rfl

theorem explicit_searchable {index input property : String} : Searchable (explicit lib p) (orText index "default") input property ↔ Searchable p index input property := by
  have e : (if orText index "default" = "" then "default" else orText index "default") = (if index = "" then "default" else index) := orText_orText index "default"
  unfold Searchable
  rw [e]
  exact ⟨fun ⟨_, hy, hs⟩ => let ⟨x, hx, e⟩ := explicit_isIndex.1 hy; ⟨x, hx, completedIndex_searches.1 (by rw [← e]; exact hs)⟩,
    fun ⟨x, hx, hs⟩ => ⟨_, explicit_isIndex.2 ⟨x, hx, rfl⟩, completedIndex_searches.2 hs⟩⟩

/-! ### Well-formedness, component by component -/

theorem explicit_parser {x : ParserDecl} : WellFormedParser lib (explicit lib p) (completedParser x) ↔ WellFormedParser lib p x := by
  cases x with
  | mk n k =>
    cases k with
    | split d r inner =>
      simp only [completedParser, WellFormedParser]
      refine exists_congr fun d' => and_congr_right fun _ => and_congr ?_ explicit_hasParser
      cases r with
      | none => simp
      | some r => exact Iff.rfl
    | _ => exact Iff.rfl

mutual
theorem xmlWithNested_completed : ∀ x : XmlPropDecl, xmlWithNested (completedXml x) = (xmlWithNested x).map completedXml
  | .mk name type parser xpath items properties => by
    simp only [completedXml, xmlWithNested, List.map_cons, List.map_append, xmlItems_completed items, xmlAll_completed properties]
theorem xmlItems_completed : ∀ x : Option XmlPropDecl, xmlItems (completedItems x) = (xmlItems x).map completedXml
  | none => by simp only [completedItems, xmlItems, List.map_nil]
  | some x => by simp only [completedItems, xmlItems, xmlWithNested_completed x]
theorem xmlAll_completed : ∀ l : List XmlPropDecl, xmlAll (completedProperties l) = (xmlAll l).map completedXml
  | [] => by simp only [completedProperties, xmlAll, List.map_nil]
  | x :: rest => by simp only [completedProperties, xmlAll, List.map_append, xmlWithNested_completed x, xmlAll_completed rest]
end

theorem completedProperties_nil {l : List XmlPropDecl} : completedProperties l = [] ↔ l = [] := by
  cases l with
  | nil => simp only [completedProperties]
  | cons x l => simp only [completedProperties, reduceCtorEq]

theorem completedItems_none {x : Option XmlPropDecl} : completedItems x = none ↔ x = none := by
  cases x with
  | none => simp only [completedItems]
  | some x => simp only [completedItems, reduceCtorEq]

theorem completedProperties_names : ∀ l : List XmlPropDecl, namesOfXml (completedProperties l) = namesOfXml l
  | [] => by simp only [completedProperties]
  | .mk name type parser xpath items properties :: rest => by
    have h := completedProperties_names rest
    simp only [completedProperties, completedXml, namesOfXml, List.map_cons, XmlPropDecl.name] at h ⊢
    rw [h]

theorem explicit_xml {x : XmlPropDecl} : WellFormedXml lib (explicit lib p) (completedXml x) ↔ WellFormedXml lib p x := by
  cases x with
  | mk name type parser xpath items properties =>
    simp only [completedXml, WellFormedXml, completedItems_none, completedProperties_nil, ne_eq, completedProperties_names]
    refine and_congr_right fun _ => ?_
    by_cases h : type = ""
    · subst h
      simp only [show orText "" "primitive" = "primitive" from rfl, if_true, explicit_parserName, true_or, or_true, true_and,
        show ("primitive" = "array") = False from by simp, show ("primitive" = "object") = False from by simp, show ("" = "array") = False from by simp,
        show ("" = "object") = False from by simp, false_and, or_false]
    · have e : orText type "primitive" = type := by unfold orText; rw [if_neg h]
      rw [e]
      by_cases h' : type = "primitive"
      · subst h'
        simp only [if_true, explicit_parserName, or_true, true_and,
          show ("primitive" = "array") = False from by simp, show ("primitive" = "object") = False from by simp, false_and, or_false]
      · simp only [h, h', if_false, false_and, false_or]

theorem explicit_input {x : InputDecl} : WellFormedInput lib (explicit lib p) (completedInput x) ↔ WellFormedInput lib p x := by
  cases x with
  | csv d =>
    simp only [completedInput, WellFormedInput, List.map_eq_nil_iff, List.map_map, List.mem_map, forall_exists_index, and_imp, forall_apply_eq_imp_iff₂, explicit_parserName]
    refine and_congr_right fun _ => and_congr_right fun _ => and_congr ?_ Iff.rfl
    unfold orText
    by_cases h : d.delimiter = ""
    · simp only [h, if_true]; decide
    · simp only [h, if_false]
  | xml d =>
    simp only [completedInput, WellFormedInput, ne_eq, completedProperties_nil, completedProperties_names, xmlAll_completed, List.mem_map, forall_exists_index, and_imp,
      forall_apply_eq_imp_iff₂, explicit_xml]
  | json d => exact Iff.rfl

theorem collate_upper {s : String} (h : s ∈ ["BINARY", "NOCASE", "RTIRM"]) : toUpper lib s = s := by
  simp only [List.mem_cons, List.not_mem_nil, or_false] at h
  rcases h with rfl | rfl | rfl <;> rfl

theorem explicit_index {x : IndexDecl} (h : WellFormedIndex lib p x) : WellFormedIndex lib (explicit lib p) (completedIndex lib x) := by
  cases x with
  | map d => exact ⟨explicit_inputName.2 h.1, h.2⟩
  | wildcard d => exact ⟨h.1, h.2.1, explicit_inputName.2 h.2.2.1, h.2.2.2⟩
  | sqlite d =>
    refine ⟨h.1, explicit_inputName.2 h.2.1, by simp only [List.map_map]; exact h.2.2.1, fun q hq => ?_⟩
    obtain ⟨q, hm, rfl⟩ := List.mem_map.1 hq
    refine .inr ?_
    rcases h.2.2.2 q hm with e | e
    · simp only [e, if_true]
      rw [collate_upper (List.mem_cons_self)]
      exact List.mem_cons_self
    · by_cases h0 : q.collate = ""
      · simp only [h0, if_true]
        rw [collate_upper (List.mem_cons_self)]
        exact List.mem_cons_self
      · simp only [h0, if_false]
        rw [collate_upper e]
        exact e
  | fts5 d => exact ⟨h.1, explicit_inputName.2 h.2.1, h.2.2⟩
  | noop n => trivial

theorem explicit_index_back (hup : ∀ s, toUpper lib (toUpper lib s) = toUpper lib s) (hempty : ∀ s, toUpper lib s = "" → s = "") {x : IndexDecl} (h : WellFormedIndex lib (explicit lib p) (completedIndex lib x)) :
    WellFormedIndex lib p x := by
  cases x with
  | map d => exact ⟨explicit_inputName.1 h.1, h.2⟩
  | wildcard d => exact ⟨h.1, h.2.1, explicit_inputName.1 h.2.2.1, h.2.2.2⟩
  | sqlite d =>
    refine ⟨h.1, explicit_inputName.1 h.2.1, by have := h.2.2.1; simp only [List.map_map] at this; exact this, fun q hq => ?_⟩
    have h := h.2.2.2 _ (List.mem_map_of_mem hq)
    by_cases h0 : q.collate = ""
    · exact .inl h0
    · simp only [h0, if_false, hup] at h
      rcases h with h | h
      · exact .inl (hempty _ h)
      · exact .inr h
  | fts5 d => exact ⟨h.1, explicit_inputName.1 h.2.1, h.2.2⟩
  | noop n => trivial

mutual
theorem relationshipWithNested_completed : ∀ r : Relationship, relationshipWithNested (completedRelationship r) = (relationshipWithNested r).map completedRelationship
  | .mk input isArray limit sort matching relationships => by
    simp only [completedRelationship, relationshipWithNested, List.map_cons, relationshipsAll_completed relationships]
theorem relationshipsAll_completed : ∀ l : List (String × Relationship), relationshipsAll (completedRelationships l) = (relationshipsAll l).map completedRelationship
  | [] => by simp only [completedRelationships, relationshipsAll, List.map_nil]
  | (_, r) :: rest => by simp only [completedRelationships, relationshipsAll, List.map_append, relationshipWithNested_completed r, relationshipsAll_completed rest]
end

theorem explicit_relationship {r : Relationship} : WellFormedRelationship (explicit lib p) (completedRelationship r) ↔ WellFormedRelationship p r := by
  cases r with
  | mk input isArray limit sort matching relationships =>
    simp only [completedRelationship, WellFormedRelationship, List.map_eq_nil_iff, ne_eq, List.map_map, List.mem_map, forall_exists_index, and_imp, forall_apply_eq_imp_iff₂,
      explicit_inputName, explicit_searchable]
    exact Iff.rfl

theorem explicit_parameter {input : String} {x : ParamConfig} : WellFormedParameter (explicit lib p) input (completedParameter x) ↔ WellFormedParameter p input x := by
  simp only [WellFormedParameter, completedParameter, explicit_searchable]
  refine and_congr_right fun _ => and_congr_right fun _ => ?_
  show (∃ y, IsParser (explicit lib p) (orText (orText x.parser "string") "string") y ∧ y.primitive = true) ↔ ∃ y, IsParser p (orText x.parser "string") y ∧ y.primitive = true
  rw [orText_orText]
  exact ⟨fun ⟨_, hy, hs⟩ => let ⟨x, hx, e⟩ := explicit_isParser.1 hy; ⟨x, hx, by rw [← completedParser_primitive', ← e]; exact hs⟩,
    fun ⟨x, hx, hs⟩ => ⟨_, explicit_isParser.2 ⟨x, hx, rfl⟩, by rw [completedParser_primitive']; exact hs⟩⟩

theorem explicit_output {x : OutputDecl} : WellFormedOutput (explicit lib p) (completedOutput x) ↔ WellFormedOutput p x := by
  have e1 : ∀ a d : Nat, (if orNumber a d = 0 then d else orNumber a d) = (if a = 0 then d else a) := orNumber_orNumber
  have e2 : ∀ a d : String, (if orText a d = "" then d else orText a d) = (if a = "" then d else a) := orText_orText
  cases x with
  | graphql n => exact Iff.rfl
  | array n d =>
    simp only [completedOutput, WellFormedOutput, explicit_inputName, e1, e2, relationshipsAll_completed, List.mem_map, forall_exists_index, and_imp, forall_apply_eq_imp_iff₂,
      explicit_relationship]
    refine and_congr_right fun _ => and_congr_right fun _ => and_congr_right fun _ => and_congr ?_ Iff.rfl
    constructor
    · intro h name param hm
      have h := h name _ (name, param) hm rfl
      exact ⟨explicit_parameter.1 h.1, h.2⟩
    · intro h name param e hm he
      cases he
      exact ⟨explicit_parameter.2 (h _ _ hm).1, (h _ _ hm).2⟩
  | object n d =>
    simp only [completedOutput, WellFormedOutput, explicit_inputName, relationshipsAll_completed, List.mem_map, forall_exists_index, and_imp, forall_apply_eq_imp_iff₂,
      explicit_relationship, ne_eq, List.map_eq_nil_iff]
    refine and_congr_right fun _ => and_congr_right fun _ => and_congr_right fun _ => and_congr ?_ Iff.rfl
    constructor
    · intro h name param hm
      exact explicit_parameter.1 (h name _ (name, param) hm rfl)
    · intro h name param e hm he
      cases he
      exact explicit_parameter.2 (h _ _ hm)

theorem explicit_service {s : ServiceDecl} : WellFormedService lib (explicit lib p) (completedService s) ↔ WellFormedService lib p s := by
  simp only [completedService, WellFormedService, explicit_outputName, ne_eq, Option.map_eq_none_iff, Option.map_eq_some_iff, forall_exists_index, and_imp, forall_apply_eq_imp_iff₂]
  refine and_congr ?_ Iff.rfl
  unfold orText
  by_cases h : s.errorsType = ""
  · simp only [h, if_true, or_true, true_or]
  · simp only [h, if_false, false_or]

theorem names_builtin : (builtinParsers.map ParserDecl.name).Nodup ∧ "" ∉ builtinParsers.map ParserDecl.name := by decide

theorem explicit_parserNames : GoodNames ((explicit lib p).parsers.map ParserDecl.name) ↔ GoodNames (p.parsers.map ParserDecl.name) := by
  have e : (p.parsers.map completedParser).map ParserDecl.name = p.parsers.map ParserDecl.name := by
    rw [List.map_map]; exact List.map_congr_left fun x _ => completedParser_name' x
  simp only [explicit, List.map_append, e]
  constructor
  · rintro ⟨h1, h2⟩
    exact ⟨(List.nodup_append.1 h1).1, fun h => h2 (List.mem_append_left _ h)⟩
  · rintro ⟨h1, h2⟩
    refine ⟨List.nodup_append.2 ⟨h1, names_builtin.1.sublist (List.filter_sublist.map _), fun a ha b hb e => ?_⟩, fun h => ?_⟩
    · obtain ⟨x, hx, rfl⟩ := List.mem_map.1 hb
      have h := (List.mem_filter.1 hx).2
      simp only [Bool.not_eq_true', List.contains_eq_mem, decide_eq_false_iff_not] at h
      exact h (e ▸ ha)
    · rcases List.mem_append.1 h with h | h
      · exact h2 h
      · exact names_builtin.2 ((List.filter_sublist.map _).subset h)

theorem explicit_indexNames : GoodNames ((explicit lib p).indexes.map IndexDecl.name) ↔ GoodNames (p.indexes.map IndexDecl.name) := by
  have e : (p.indexes.map (completedIndex lib)).map IndexDecl.name = p.indexes.map IndexDecl.name := by
    rw [List.map_map]; exact List.map_congr_left fun x _ => completedIndex_name' lib x
  simp only [explicit, List.map_append, e]
  by_cases hd : "default" ∈ p.indexes.map IndexDecl.name
  · simp only [hd, if_true, List.map_nil, List.append_nil]
  · simp only [hd, if_false, List.map_cons, List.map_nil]
    constructor
    · rintro ⟨h1, h2⟩
      exact ⟨(List.nodup_append.1 h1).1, fun h => h2 (List.mem_append_left _ h)⟩
    · rintro ⟨h1, h2⟩
      refine ⟨List.nodup_append.2 ⟨h1, List.pairwise_singleton _ _, fun a ha b hb e => ?_⟩, fun h => ?_⟩
      · rw [List.mem_singleton] at hb
        exact hd (by rw [← show b = "default" from hb, ← e]; exact ha)
      · rcases List.mem_append.1 h with h | h
        · exact h2 h
        · rw [List.mem_singleton] at h
          exact absurd h (by decide)

theorem explicit_wellFormed (h : WellFormed lib p) : WellFormed lib (explicit lib p) where
  parserNames := explicit_parserNames.2 h.parserNames
  inputNames := by
    have e : (explicit lib p).inputs.map InputDecl.name = p.inputs.map InputDecl.name := by
      simp only [explicit, List.map_map]; exact List.map_congr_left fun x _ => completedInput_name' x
    rw [e]; exact h.inputNames
  indexNames := explicit_indexNames.2 h.indexNames
  serviceNames := by
    have e : (explicit lib p).services.map ServiceDecl.name = p.services.map ServiceDecl.name := by
      simp only [explicit, List.map_map]; exact List.map_congr_left fun x _ => rfl
    rw [e]; exact h.serviceNames
  outputNames := by
    have e : (explicit lib p).outputs.map OutputDecl.name = p.outputs.map OutputDecl.name := by
      simp only [explicit, List.map_map]; exact List.map_congr_left fun x _ => completedOutput_name' x
    rw [e]; exact h.outputNames
  parsers := by
    intro y hy
    simp only [explicit, List.mem_append] at hy
    rcases hy with hy | hy
    · obtain ⟨x, hx, rfl⟩ := List.mem_map.1 hy
      exact explicit_parser.2 (h.parsers x hx)
    · have hb := (List.mem_filter.1 hy).1
      simp only [builtinParsers, List.mem_cons, List.not_mem_nil, or_false] at hb
      rcases hb with rfl | rfl | rfl | rfl | rfl <;> simp [WellFormedParser]
  inputs := by
    intro y hy
    obtain ⟨x, hx, rfl⟩ := List.mem_map.1 hy
    exact explicit_input.2 (h.inputs x hx)
  indexes := by
    intro y hy
    simp only [explicit, List.mem_append] at hy
    rcases hy with hy | hy
    · obtain ⟨x, hx, rfl⟩ := List.mem_map.1 hy
      exact explicit_index (h.indexes x hx)
    · split at hy
      · cases hy
      · rw [List.mem_singleton] at hy
        subst hy
        trivial
  services := by
    intro y hy
    obtain ⟨x, hx, rfl⟩ := List.mem_map.1 hy
    exact explicit_service.2 (h.services x hx)
  outputs := by
    intro y hy
    obtain ⟨x, hx, rfl⟩ := List.mem_map.1 hy
    exact explicit_output.2 (h.outputs x hx)

theorem wellFormed_of_explicit (hup : ∀ s, toUpper lib (toUpper lib s) = toUpper lib s) (hempty : ∀ s, toUpper lib s = "" → s = "") (h : WellFormed lib (explicit lib p)) : WellFormed lib p where
  parserNames := explicit_parserNames.1 h.parserNames
  inputNames := by
    have e : (explicit lib p).inputs.map InputDecl.name = p.inputs.map InputDecl.name := by
      simp only [explicit, List.map_map]; exact List.map_congr_left fun x _ => completedInput_name' x
    rw [← e]; exact h.inputNames
  indexNames := explicit_indexNames.1 h.indexNames
  serviceNames := by
    have e : (explicit lib p).services.map ServiceDecl.name = p.services.map ServiceDecl.name := by
      simp only [explicit, List.map_map]; exact List.map_congr_left fun x _ => rfl
    rw [← e]; exact h.serviceNames
  outputNames := by
    have e : (explicit lib p).outputs.map OutputDecl.name = p.outputs.map OutputDecl.name := by
      simp only [explicit, List.map_map]; exact List.map_congr_left fun x _ => completedOutput_name' x
    rw [← e]; exact h.outputNames
  parsers := fun x hx => explicit_parser.1 (h.parsers _ (List.mem_append_left _ (List.mem_map_of_mem hx)))
  inputs := fun x hx => explicit_input.1 (h.inputs _ (List.mem_map_of_mem hx))
  indexes := fun x hx => explicit_index_back hup hempty (h.indexes _ (List.mem_append_left _ (List.mem_map_of_mem hx)))
  services := fun x hx => explicit_service.1 (h.services _ (List.mem_map_of_mem hx))
  outputs := fun x hx => explicit_output.1 (h.outputs _ (List.mem_map_of_mem hx))

/-! ### The order in which components are declared -/

theorem isComponent_perm {α : Type} {name : α → String} {l l' defaults : List α} (h : l.Perm l') {n : String} {x : α} : IsComponent name l defaults n x ↔ IsComponent name l' defaults n x := by
  unfold IsComponent
  simp only [h.mem_iff]

/-- The declarations in another order. -/
structure DeclaredInOrder (p p' : ParsedConfig) : Prop where
  parsers : p.parsers.Perm p'.parsers
  inputs : p.inputs.Perm p'.inputs
  indexes : p.indexes.Perm p'.indexes
  services : p.services.Perm p'.services
  outputs : p.outputs.Perm p'.outputs

theorem goodNames_perm {α : Type} {name : α → String} {l l' : List α} (h : l.Perm l') (hg : GoodNames (l.map name)) : GoodNames (l'.map name) :=
  ⟨(h.map name).nodup_iff.1 hg.1, fun hm => hg.2 ((h.map name).mem_iff.2 hm)⟩

theorem DeclaredInOrder.wellFormed {p' : ParsedConfig} (o : DeclaredInOrder p p') (h : WellFormed lib p) : WellFormed lib p' := by
  have e1 : ∀ n x, IsParser p n x = IsParser p' n x := fun n x => propext (isComponent_perm o.parsers)
  have e2 : ∀ n x, IsIndex p n x = IsIndex p' n x := fun n x => propext (isComponent_perm o.indexes)
  have e3 : ∀ n, ParserName p n = ParserName p' n := fun n => by simp only [ParserName, e1]
  have e4 : ∀ n, InputName p n = InputName p' n := fun n => by simp only [InputName, o.inputs.mem_iff]
  have e5 : ∀ n, OutputName p n = OutputName p' n := fun n => by simp only [OutputName, o.outputs.mem_iff]
  have e6 : ∀ a b c, Searchable p a b c = Searchable p' a b c := fun a b c => by simp only [Searchable, e2]
  have e7 : ∀ q, WellFormedXml lib p q = WellFormedXml lib p' q := fun q => by cases q; simp only [WellFormedXml, e3]
  have e8 : ∀ r, WellFormedRelationship p r = WellFormedRelationship p' r := fun r => by cases r; simp only [WellFormedRelationship, e4, e6]
  have e9 : ∀ i r, WellFormedParameter p i r = WellFormedParameter p' i r := fun i r => by simp only [WellFormedParameter, e6, e1]
  constructor
  · exact goodNames_perm o.parsers h.parserNames
  · exact goodNames_perm o.inputs h.inputNames
  · exact goodNames_perm o.indexes h.indexNames
  · exact goodNames_perm o.services h.serviceNames
  · exact goodNames_perm o.outputs h.outputNames
  · intro x hx
    have h := h.parsers x (o.parsers.mem_iff.2 hx)
    simp only [WellFormedParser, e1] at h ⊢
    exact h
  · intro x hx
    have h := h.inputs x (o.inputs.mem_iff.2 hx)
    cases x <;> simp only [WellFormedInput, e3, e7] at h ⊢ <;> exact h
  · intro x hx
    have h := h.indexes x (o.indexes.mem_iff.2 hx)
    cases x <;> simp only [WellFormedIndex, e4] at h ⊢ <;> exact h
  · intro x hx
    have h := h.services x (o.services.mem_iff.2 hx)
    simp only [WellFormedService, e5] at h ⊢
    exact h
  · intro x hx
    have h := h.outputs x (o.outputs.mem_iff.2 hx)
    cases x <;> simp only [WellFormedOutput, e4, e8, e9] at h ⊢ <;> exact h
end components

end Rodb
