import Verif.Spec.Yaml
import Verif.Proofs.Config
/-
  The decoders of Model/Yaml do what Spec/Yaml says.
-/
namespace Rodb
open Spec

/-- The decoder accepts exactly the nodes that say something, and gives what they say. -/
class Decodes {α : Type} (decode : Yaml → Res α) (says : outParam (Yaml → α → Prop)) : Prop where
  iff : ∀ y v, decode y = .ok v ↔ says y v

instance : Decodes asText SaysText where
  iff y s := by
    cases y <;> simp [asText, SaysText, eq_comm]

instance : Decodes asBool SaysBool where
  iff y s := by
    cases y <;> simp [asBool, SaysBool, eq_comm]

instance : Decodes asUint SaysUint where
  iff y n := by
    cases y with
    | int v s =>
      simp only [asUint, SaysUint, reduceCtorEq, false_and, or_false, exists_const, Yaml.int.injEq]
      split
      · rename_i h
        simp only [ok_inj]
        constructor
        · rintro rfl; exact ⟨by omega, s, by omega, rfl⟩
        · rintro ⟨_, _, h, _⟩; omega
      · rename_i h
        simp only [reduceCtorEq, false_iff]
        rintro ⟨h1, _, h2, _⟩
        omega
    | float a b s => cases a <;> simp [asUint, SaysUint, eq_comm]
    | _ => simp [asUint, SaysUint, eq_comm]

instance : Decodes asInt SaysInt where
  iff y n := by
    cases y with
    | int v s =>
      simp only [asInt, SaysInt, reduceCtorEq, false_and, or_false, exists_const, Yaml.int.injEq]
      split
      · rename_i h
        simp only [ok_inj]
        constructor
        · rintro rfl; exact ⟨h.1, h.2, s, rfl, rfl⟩
        · rintro ⟨_, _, _, h, _⟩; exact h
      · rename_i h
        simp only [reduceCtorEq, false_iff]
        rintro ⟨h1, h2, _, rfl, _⟩
        exact h ⟨h1, h2⟩
    | float a b s => cases b <;> simp [asInt, SaysInt, eq_comm]
    | _ => simp [asInt, SaysInt, eq_comm]

instance {α : Type} (decode : Yaml → Res α) (says : Yaml → α → Prop) [Decodes decode says] : Decodes (asOptional decode) (SaysOptional says) where
  iff y v := by
    cases y <;> cases v <;> simp [asOptional, SaysOptional, bind_ok, Decodes.iff (decode := decode)]

instance {α : Type} (decode : Yaml → Res α) (says : Yaml → α → Prop) [Decodes decode says] : Decodes (asPresent decode) (SaysPresent says) where
  iff y v := by
    cases y <;> simp [asPresent, SaysPresent, Decodes.iff (decode := decode)]

theorem asElements_iff {α : Type} {decode : Yaml → Res α} {says : Yaml → α → Prop} [Decodes decode says] : ∀ ys vs, asElements decode ys = .ok vs ↔ Respectively says ys vs
  | [], vs => by cases vs <;> simp [asElements, Respectively]
  | y :: ys, vs => by
    simp only [asElements, bind_ok, ok_inj, Decodes.iff (decode := decode), asElements_iff ys]
    cases vs with
    | nil => simp [Respectively]
    | cons v vs => simp [Respectively]

instance {α : Type} (decode : Yaml → Res α) (says : Yaml → α → Prop) [Decodes decode says] : Decodes (asList decode) (SaysList says) where
  iff y v := by
    cases y <;> simp only [asList, SaysList, asElements_iff, ok_inj, reduceCtorEq, false_and, true_and, false_or, or_false, exists_const, Yaml.list.injEq, exists_eq_left', eq_comm (a := ([] : List α))]

theorem asEntries_iff {α : Type} {decode : Yaml → Res α} {says : Yaml → α → Prop} [Decodes decode says] : ∀ seen entries m,
    asEntries decode seen entries = .ok m ↔
      ((∀ k ∈ m.map (·.1), k ∉ seen) ∧ (m.map (·.1)).Nodup ∧ entries.map (·.1) = m.map (·.1) ∧ Respectively says (entries.map (·.2)) (m.map (·.2)))
  | seen, [], m => by cases m <;> simp [asEntries, Respectively]
  | seen, (k, y) :: rest, m => by
    simp only [asEntries, bind_ok, ok_inj, require_ok, exists_const, Decodes.iff (decode := decode), asEntries_iff (k :: seen) rest]
    cases m with
    | nil => simp
    | cons e m =>
      obtain ⟨k', v⟩ := e
      simp only [List.cons.injEq, Prod.mk.injEq, List.map_cons, List.mem_cons, forall_eq_or_imp, List.nodup_cons, Respectively, Bool.not_eq_true', List.contains_eq_mem, decide_eq_false_iff_not, not_or]
      constructor
      · rintro ⟨h1, v', h2, m', ⟨h3, h4, h5, h6⟩, ⟨rfl, rfl⟩, rfl⟩
        exact ⟨⟨h1, fun a ha => (h3 a ha).2⟩, ⟨fun h => (h3 k h).1 rfl, h4⟩, ⟨rfl, h5⟩, h2, h6⟩
      · rintro ⟨⟨h1, h2⟩, ⟨h3, h4⟩, ⟨rfl, h5⟩, h6, h7⟩
        exact ⟨h1, v, h6, m, ⟨fun a ha => ⟨fun e => h3 (e ▸ ha), h2 a ha⟩, h4, h5, h7⟩, ⟨rfl, rfl⟩, rfl⟩

instance {α : Type} (decode : Yaml → Res α) (says : Yaml → α → Prop) [Decodes decode says] : Decodes (asMap decode) (SaysMap says) where
  iff y v := by
    cases y <;> simp only [asMap, SaysMap, asEntries_iff, ok_inj, reduceCtorEq, false_and, true_and, false_or, or_false, exists_const, Yaml.map.injEq, exists_eq_left', eq_comm (a := ([] : GoMap α)), List.not_mem_nil, not_false_eq_true, implies_true]

theorem checkKeys_iff (lib : YamlLib) (known hidden : List String) : ∀ seen entries, checkKeys lib known hidden seen entries = .ok () ↔
    ((∀ k ∈ entries.map (·.1), k ∉ seen) ∧ (entries.map (·.1)).Nodup ∧ ∀ k v, (k, v) ∈ entries → k ∈ known ∨ (k ∈ hidden ∧ lib.hidden k v = true))
  | seen, [] => by simp [checkKeys]
  | seen, (k, y) :: rest => by
    simp only [checkKeys, bind_ok, require_ok, exists_const, checkKeys_iff lib known hidden (k :: seen) rest]
    simp only [List.map_cons, List.mem_cons, forall_eq_or_imp, List.nodup_cons, Bool.not_eq_true', List.contains_eq_mem, decide_eq_false_iff_not, not_or,
      Bool.or_eq_true, decide_eq_true_eq, Bool.and_eq_true]
    constructor
    · rintro ⟨h1, h2, h3, h4, h5⟩
      refine ⟨⟨h1, fun a ha => (h3 a ha).2⟩, ⟨fun h => (h3 k h).1 rfl, h4⟩, ?_⟩
      rintro k' v' (h | h)
      · cases h; exact h2
      · exact h5 k' v' h
    · rintro ⟨⟨h1, h2⟩, ⟨h3, h4⟩, h5⟩
      exact ⟨h1, h5 k y (.inl rfl), fun a ha => ⟨fun e => h3 (e ▸ ha), h2 a ha⟩, h4, fun k' v' h => h5 k' v' (.inr h)⟩

theorem structEntries_iff (lib : YamlLib) (known hidden : List String) (y : Yaml) (e : List (String × Yaml)) :
    structEntries lib known hidden y = .ok e ↔ Settings lib known hidden y e := by
  cases y with
  | map entries =>
    simp only [structEntries, bind_ok, ok_inj, Settings, reduceCtorEq, false_and, false_or, Yaml.map.injEq]
    constructor
    · rintro ⟨_, h, rfl⟩
      have := (checkKeys_iff lib known hidden [] entries).1 h
      exact ⟨rfl, this.2⟩
    · rintro ⟨rfl, h⟩
      exact ⟨⟨⟩, (checkKeys_iff lib known hidden [] entries).2 ⟨by simp, h⟩, rfl⟩
  | null => simp only [structEntries, Settings, ok_inj, reduceCtorEq, false_and, true_and, or_false, eq_comm]
  | _ => simp only [structEntries, Settings, reduceCtorEq, false_and, or_false]

theorem Spec.Settings.nodup {lib : YamlLib} {known hidden : List String} {y : Yaml} {e : List (String × Yaml)} (h : Settings lib known hidden y e) : (e.map (·.1)).Nodup := by
  rcases h with ⟨_, rfl⟩ | ⟨_, h, _⟩
  · simp
  · exact h

theorem setting_iff {α : Type} {decode : Yaml → Res α} {says : Yaml → α → Prop} [Decodes decode says] {e : List (String × Yaml)} (hn : (e.map (·.1)).Nodup) (key : String)
    (zero v : α) : setting e key decode zero = .ok v ↔ Setting e key says zero v := by
  simp only [setting, Setting]
  cases h : mapGet e key with
  | none =>
    have hno : ∀ y, (key, y) ∉ e := fun y hy => by rw [mapGet_nodup_mem hn hy] at h; cases h
    simp only [ok_inj]
    constructor
    · rintro rfl; exact .inr ⟨hno, rfl⟩
    · rintro (⟨y, hy, _⟩ | ⟨_, rfl⟩)
      · exact absurd hy (hno y)
      · rfl
  | some y =>
    have hm := mapGet_mem h
    simp only [Decodes.iff (decode := decode)]
    constructor
    · exact fun hs => .inl ⟨y, hm, hs⟩
    · rintro (⟨y', hy', hs⟩ | ⟨h', _⟩)
      · rw [mapGet_nodup_mem hn hy'] at h
        cases h
        exact hs
      · exact absurd hm (h' y)

instance (lib : YamlLib) : Decodes (decodeColumn lib) (DescribesColumn lib) where
  iff y d := by
    obtain ⟨a0, a1⟩ := d
    simp only [decodeColumn, DescribesColumn, bind_ok, structEntries_iff, ok_inj]
    refine exists_congr fun e => and_congr_right fun hs => ?_
    simp only [setting_iff hs.nodup, ColumnDecl.mk.injEq]
    grind

instance (lib : YamlLib) : Decodes (decodeSqliteProperty lib) (DescribesSqliteProperty lib) where
  iff y d := by
    obtain ⟨a0, a1⟩ := d
    simp only [decodeSqliteProperty, DescribesSqliteProperty, bind_ok, structEntries_iff, ok_inj]
    refine exists_congr fun e => and_congr_right fun hs => ?_
    simp only [setting_iff hs.nodup, SqlitePropertyDecl.mk.injEq]
    grind

instance (lib : YamlLib) : Decodes (decodeLimit lib) (DescribesLimit lib) where
  iff y d := by
    obtain ⟨a0, a1, a2⟩ := d
    simp only [decodeLimit, DescribesLimit, bind_ok, structEntries_iff, ok_inj]
    refine exists_congr fun e => and_congr_right fun hs => ?_
    simp only [setting_iff hs.nodup, LimitConfig.mk.injEq]
    grind

instance (lib : YamlLib) : Decodes (decodeOffset lib) (DescribesOffset lib) where
  iff y d := by
    simp only [decodeOffset, DescribesOffset, bind_ok, structEntries_iff]
    refine exists_congr fun e => and_congr_right fun hs => ?_
    simp only [setting_iff hs.nodup]

instance (lib : YamlLib) : Decodes (decodeParameter lib) (DescribesParameter lib) where
  iff y d := by
    obtain ⟨a0, a1, a2⟩ := d
    simp only [decodeParameter, DescribesParameter, bind_ok, structEntries_iff, ok_inj]
    refine exists_congr fun e => and_congr_right fun hs => ?_
    simp only [setting_iff hs.nodup, ParamConfig.mk.injEq]
    grind

instance (lib : YamlLib) : Decodes (decodeSort lib) (DescribesSort lib) where
  iff y d := by
    obtain ⟨a0, a1⟩ := d
    simp only [decodeSort, DescribesSort, bind_ok, structEntries_iff, ok_inj]
    refine exists_congr fun e => and_congr_right fun hs => ?_
    simp only [setting_iff hs.nodup, SortConfig.mk.injEq]
    grind

instance (lib : YamlLib) : Decodes (decodeMatch lib) (DescribesMatch lib) where
  iff y d := by
    obtain ⟨a0, a1, a2⟩ := d
    simp only [decodeMatch, DescribesMatch, bind_ok, structEntries_iff, ok_inj]
    refine exists_congr fun e => and_congr_right fun hs => ?_
    simp only [setting_iff hs.nodup, MatchConfig.mk.injEq]
    grind

instance (lib : YamlLib) : Decodes (decodeListen lib) (DescribesListen lib) where
  iff y d := by
    simp only [decodeListen, DescribesListen, bind_ok, structEntries_iff]
    refine exists_congr fun e => and_congr_right fun hs => ?_
    simp only [setting_iff hs.nodup]

instance (lib : YamlLib) : Decodes (decodeHttps lib) (DescribesHttps lib) where
  iff y d := by
    obtain ⟨a0, a1, a2⟩ := d
    simp only [decodeHttps, DescribesHttps, bind_ok, structEntries_iff, ok_inj]
    refine exists_congr fun e => and_congr_right fun hs => ?_
    simp only [setting_iff hs.nodup, HttpsDecl.mk.injEq]
    grind

instance (lib : YamlLib) : Decodes (decodeRoute lib) (DescribesRoute lib) where
  iff y d := by
    obtain ⟨a0, a1⟩ := d
    simp only [decodeRoute, DescribesRoute, bind_ok, structEntries_iff, ok_inj]
    refine exists_congr fun e => and_congr_right fun hs => ?_
    simp only [setting_iff hs.nodup, RouteDecl.mk.injEq]
    grind

/-! ### The structures with structures of their own kind inside -/

theorem setting_mem {α : Type} (decode : Yaml → Res α) {e : List (String × Yaml)} (hn : (e.map (·.1)).Nodup) (key : String) (zero v : α) :
    setting e key decode zero = .ok v ↔ (∃ y, (key, y) ∈ e ∧ decode y = .ok v) ∨ ((∀ y, (key, y) ∉ e) ∧ v = zero) :=
  haveI : Decodes decode (fun y v => decode y = .ok v) := ⟨fun _ _ => Iff.rfl⟩
  setting_iff (decode := decode) (says := fun y v => decode y = .ok v) hn key zero v

theorem asOptional_some {α : Type} (decode : Yaml → Res α) (y : Yaml) (v : α) : asOptional decode y = .ok (some v) ↔ y ≠ .null ∧ decode y = .ok v := by
  cases y <;> simp [asOptional, bind_ok]

theorem asOptional_none {α : Type} (decode : Yaml → Res α) (y : Yaml) : asOptional decode y = .ok none ↔ y = .null := by
  cases y <;> simp [asOptional, bind_ok]

theorem asPresent_ok {α : Type} (decode : Yaml → Res α) (y : Yaml) (v : α) : asPresent decode y = .ok v ↔ y ≠ .null ∧ decode y = .ok v := by
  cases y <;> simp [asPresent]

theorem asElements_cons {α : Type} (decode : Yaml → Res α) (ys : List Yaml) (v : α) (vs : List α) :
    asElements decode ys = .ok (v :: vs) ↔ ∃ y ys', ys = y :: ys' ∧ decode y = .ok v ∧ asElements decode ys' = .ok vs := by
  cases ys with
  | nil => simp [asElements]
  | cons y ys =>
    simp only [asElements, bind_ok, ok_inj, List.cons.injEq]
    constructor
    · rintro ⟨_, h1, _, h2, rfl, rfl⟩; exact ⟨_, _, ⟨rfl, rfl⟩, h1, h2⟩
    · rintro ⟨_, _, ⟨rfl, rfl⟩, h1, h2⟩; exact ⟨_, h1, _, h2, rfl, rfl⟩

theorem asElements_nil {α : Type} (decode : Yaml → Res α) (ys : List Yaml) : asElements decode ys = .ok [] ↔ ys = [] := by
  cases ys <;> simp [asElements, bind_ok]

theorem asList_cons {α : Type} (decode : Yaml → Res α) (y : Yaml) (v : α) (vs : List α) :
    asList decode y = .ok (v :: vs) ↔ ∃ y' ys, y = .list (y' :: ys) ∧ decode y' = .ok v ∧ asElements decode ys = .ok vs := by
  cases y with
  | list items => simp only [asList, asElements_cons, Yaml.list.injEq]
  | _ => simp [asList]

theorem asList_nil {α : Type} (decode : Yaml → Res α) (y : Yaml) : asList decode y = .ok [] ↔ y = .null ∨ y = .list [] := by
  cases y <;> simp [asList, asElements_nil]

theorem decodeXmlItems_eq (lib : YamlLib) : ∀ e, decodeXmlItems lib e = setting e "items" (asOptional (decodeXmlProp lib)) none
  | [] => by rw [decodeXmlItems]; rfl
  | (k, y) :: rest => by
    have ih := decodeXmlItems_eq lib rest
    simp only [setting] at ih
    by_cases hk : k = "items"
    · cases y <;> simp only [decodeXmlItems, setting, mapGet, hk, if_true, asOptional]
    · cases y <;> simp only [decodeXmlItems, setting, mapGet, hk, if_false, ih]

theorem decodeXmlList_eq (lib : YamlLib) : ∀ ys, decodeXmlList lib ys = asElements (asPresent (decodeXmlProp lib)) ys
  | [] => by rw [decodeXmlList]; rfl
  | y :: rest => by
    cases y <;> simp only [decodeXmlList, asElements, asPresent, decodeXmlList_eq lib rest] <;> rfl

theorem decodeXmlProperties_eq (lib : YamlLib) : ∀ e, decodeXmlProperties lib e = setting e "properties" (asList (asPresent (decodeXmlProp lib))) []
  | [] => by rw [decodeXmlProperties]; rfl
  | (k, y) :: rest => by
    have ih := decodeXmlProperties_eq lib rest
    simp only [setting] at ih
    by_cases hk : k = "properties"
    · cases y <;> simp only [decodeXmlProperties, setting, mapGet, hk, if_true, asList, decodeXmlList_eq]
    · cases y <;> simp only [decodeXmlProperties, setting, mapGet, hk, if_false, ih]

theorem decodeXmlProp_eq (lib : YamlLib) (y : Yaml) : decodeXmlProp lib y = (do
    let e ← structEntries lib ["name", "type", "parser", "xpath", "items", "properties"] ["compiledxpath"] y
    let name ← setting e "name" asText ""
    let type ← setting e "type" asText ""
    let parser ← setting e "parser" asText ""
    let xpath ← setting e "xpath" asText ""
    let items ← setting e "items" (asOptional (decodeXmlProp lib)) none
    let properties ← setting e "properties" (asList (asPresent (decodeXmlProp lib))) []
    .ok (.mk name type parser xpath items properties)) := by
  cases y with
  | map entries =>
    rw [decodeXmlProp, decodeXmlItems_eq, decodeXmlProperties_eq]
    simp only [structEntries]
    cases checkKeys lib ["name", "type", "parser", "xpath", "items", "properties"] ["compiledxpath"] [] entries <;> rfl
  | _ => simp only [decodeXmlProp] <;> rfl

mutual
theorem decodeXmlProp_iff (lib : YamlLib) : ∀ (q : XmlPropDecl) (y : Yaml), decodeXmlProp lib y = .ok q ↔ DescribesXmlProp lib y q
  | .mk name type parser xpath items properties, y => by
    rw [decodeXmlProp_eq, DescribesXmlProp]
    simp only [bind_ok, structEntries_iff, ok_inj]
    refine exists_congr fun e => and_congr_right fun hs => ?_
    rw [← decodeXmlItems_iff lib items e hs.nodup, ← decodeXmlProperties_iff lib properties e hs.nodup]
    simp only [setting_iff (decode := asText) hs.nodup, XmlPropDecl.mk.injEq]
    grind
theorem decodeXmlItems_iff (lib : YamlLib) : ∀ (items : Option XmlPropDecl) (e : List (String × Yaml)), (e.map (·.1)).Nodup →
    (setting e "items" (asOptional (decodeXmlProp lib)) none = .ok items ↔ DescribesXmlItems lib e items)
  | none, e, hn => by
    rw [setting_mem _ hn, DescribesXmlItems]
    simp only [asOptional_none, and_true, exists_eq_right]
  | some q, e, hn => by
    rw [setting_mem _ hn, DescribesXmlItems]
    simp only [asOptional_some, decodeXmlProp_iff lib q, reduceCtorEq, and_false, or_false]
theorem decodeXmlProperties_iff (lib : YamlLib) : ∀ (ps : List XmlPropDecl) (e : List (String × Yaml)), (e.map (·.1)).Nodup →
    (setting e "properties" (asList (asPresent (decodeXmlProp lib))) [] = .ok ps ↔ DescribesXmlProperties lib e ps)
  | [], e, hn => by
    rw [setting_mem _ hn, DescribesXmlProperties]
    simp only [asList_nil, and_true]
    grind
  | q :: rest, e, hn => by
    rw [setting_mem _ hn, DescribesXmlProperties]
    simp only [asList_cons, asPresent_ok, decodeXmlProp_iff lib q, decodeXmlList_iff lib rest, reduceCtorEq, and_false, or_false]
    grind
theorem decodeXmlList_iff (lib : YamlLib) : ∀ (ps : List XmlPropDecl) (ys : List Yaml), asElements (asPresent (decodeXmlProp lib)) ys = .ok ps ↔ DescribesXmlList lib ys ps
  | [], ys => by
    rw [asElements_nil, DescribesXmlList]
  | q :: rest, ys => by
    rw [asElements_cons, DescribesXmlList]
    simp only [asPresent_ok, decodeXmlProp_iff lib q, decodeXmlList_iff lib rest, and_assoc]
end

/-- The entries of a mapping and of a map. -/
def Entries {α : Type} (decode : Yaml → Res α) (entries : List (String × Yaml)) (m : List (String × α)) : Prop :=
  entries.map (·.1) = m.map (·.1) ∧ Respectively (fun y v => decode y = .ok v) (entries.map (·.2)) (m.map (·.2))

theorem entries_nil {α : Type} (decode : Yaml → Res α) (entries : List (String × Yaml)) : Entries decode entries [] ↔ entries = [] := by
  cases entries <;> simp [Entries, Respectively]

theorem entries_cons {α : Type} (decode : Yaml → Res α) (entries : List (String × Yaml)) (k : String) (v : α) (m : List (String × α)) :
    Entries decode entries ((k, v) :: m) ↔ ∃ y ys, entries = (k, y) :: ys ∧ decode y = .ok v ∧ Entries decode ys m := by
  cases entries with
  | nil => simp [Entries]
  | cons a entries =>
    obtain ⟨k', y⟩ := a
    simp only [Entries, List.map_cons, List.cons.injEq, Respectively, Prod.mk.injEq]
    grind

theorem asMap_ok {α : Type} (decode : Yaml → Res α) (y : Yaml) (m : List (String × α)) :
    asMap decode y = .ok m ↔ (y = .null ∧ m = []) ∨ ∃ entries, y = .map entries ∧ (m.map (·.1)).Nodup ∧ Entries decode entries m :=
  haveI : Decodes decode (fun y v => decode y = .ok v) := ⟨fun _ _ => Iff.rfl⟩
  Decodes.iff (decode := asMap decode) y m

theorem decodeRelationshipMap_eq (lib : YamlLib) : ∀ seen ys, decodeRelationshipMap lib seen ys = asEntries (asPresent (decodeRelationship lib)) seen ys
  | _, [] => by rw [decodeRelationshipMap]; rfl
  | seen, (k, y) :: rest => by
    cases y <;> simp only [decodeRelationshipMap, asEntries, asPresent, decodeRelationshipMap_eq lib (k :: seen) rest] <;> rfl

theorem decodeRelationships_eq (lib : YamlLib) : ∀ e, decodeRelationships lib e = setting e "relationships" (asMap (asPresent (decodeRelationship lib))) []
  | [] => by rw [decodeRelationships]; rfl
  | (k, y) :: rest => by
    have ih := decodeRelationships_eq lib rest
    simp only [setting] at ih
    by_cases hk : k = "relationships"
    · cases y <;> simp only [decodeRelationships, setting, mapGet, hk, if_true, asMap, decodeRelationshipMap_eq]
    · cases y <;> simp only [decodeRelationships, setting, mapGet, hk, if_false, ih]

theorem decodeRelationship_eq (lib : YamlLib) (y : Yaml) : decodeRelationship lib y = (do
    let e ← structEntries lib ["input", "isArray", "limit", "sort", "match", "relationships"] [] y
    let input ← setting e "input" asText ""
    let isArray ← setting e "isArray" asBool false
    let limit ← setting e "limit" asUint 0
    let sort ← setting e "sort" (asList (asPresent (decodeSort lib))) []
    let matching ← setting e "match" (asList (asPresent (decodeMatch lib))) []
    let relationships ← setting e "relationships" (asMap (asPresent (decodeRelationship lib))) []
    .ok (.mk input isArray limit sort matching relationships)) := by
  cases y with
  | map entries =>
    rw [decodeRelationship, decodeRelationships_eq]
    simp only [structEntries]
    cases checkKeys lib ["input", "isArray", "limit", "sort", "match", "relationships"] [] [] entries <;> rfl
  | _ => simp only [decodeRelationship] <;> rfl

mutual
theorem decodeRelationship_iff (lib : YamlLib) : ∀ (r : Relationship) (y : Yaml), decodeRelationship lib y = .ok r ↔ DescribesRelationship lib y r
  | .mk input isArray limit sort matching relationships, y => by
    rw [decodeRelationship_eq, DescribesRelationship]
    simp only [bind_ok, structEntries_iff, ok_inj]
    refine exists_congr fun e => and_congr_right fun hs => ?_
    have hr := decodeRelationships_iff lib relationships e hs.nodup
    simp only [setting_iff (decode := asText) hs.nodup, setting_iff (decode := asBool) hs.nodup, setting_iff (decode := asUint) hs.nodup,
      setting_iff (decode := asList (asPresent (decodeSort lib))) hs.nodup, setting_iff (decode := asList (asPresent (decodeMatch lib))) hs.nodup, Relationship.mk.injEq]
    grind
theorem decodeRelationships_iff (lib : YamlLib) : ∀ (m : List (String × Relationship)) (e : List (String × Yaml)), (e.map (·.1)).Nodup →
    (setting e "relationships" (asMap (asPresent (decodeRelationship lib))) [] = .ok m ↔ (m.map (·.1)).Nodup ∧ DescribesRelationships lib e m)
  | [], e, hn => by
    rw [setting_mem _ hn, DescribesRelationships]
    simp only [asMap_ok, entries_nil, and_true]
    simp only [List.map_nil, List.nodup_nil, true_and]
    grind
  | (k, r) :: rest, e, hn => by
    rw [setting_mem _ hn, DescribesRelationships]
    simp only [asMap_ok, entries_cons, asPresent_ok, decodeRelationship_iff lib r, decodeRelationshipMap_iff lib rest, reduceCtorEq, and_false, or_false, false_or]
    grind
theorem decodeRelationshipMap_iff (lib : YamlLib) : ∀ (m : List (String × Relationship)) (ys : List (String × Yaml)),
    Entries (asPresent (decodeRelationship lib)) ys m ↔ DescribesRelationshipMap lib ys m
  | [], ys => by
    rw [entries_nil, DescribesRelationshipMap]
  | (k, r) :: rest, ys => by
    rw [entries_cons, DescribesRelationshipMap]
    simp only [asPresent_ok, decodeRelationship_iff lib r, decodeRelationshipMap_iff lib rest, and_assoc]
end

/-! ### Components -/

theorem componentType_of {y : Yaml} {t : String} (h : componentType y = .ok t) : OfType y t := by
  cases y with
  | map entries =>
    simp only [componentType] at h
    split at h
    · cases h
    · rename_i s hs
      split at h
      · cases h
      · cases h; exact ⟨entries, rfl, mapGet_mem hs⟩
    · cases h
  | _ => cases h

theorem componentType_iff {lib : YamlLib} {known hidden : List String} {y : Yaml} {e : List (String × Yaml)} (hs : Settings lib known hidden y e) {t : String} (ht : t ≠ "")
    (h : OfType y t) : componentType y = .ok t := by
  obtain ⟨entries, rfl, h⟩ := h
  rcases hs with ⟨h', _⟩ | ⟨h', hn, _⟩
  · cases h'
  · cases h'
    simp only [componentType, mapGet_nodup_mem hn h, if_neg ht]

instance (lib : YamlLib) : Decodes (decodeParser lib) (DescribesParser lib) where
  iff y d := by
    obtain ⟨name, kind⟩ := d
    constructor
    · intro h
      simp only [decodeParser, bind_ok] at h
      obtain ⟨t, ht, h⟩ := h
      replace ht := componentType_of ht
      split at h
      · simp only [decodeInteger, bind_ok, structEntries_iff, ok_inj, ParserDecl.mk.injEq] at h
        obtain ⟨e, hs, h⟩ := h
        simp only [setting_iff hs.nodup] at h
        obtain ⟨_, h1, _, h2, rfl, rfl⟩ := h
        exact ⟨ht, e, hs, h1, h2⟩
      · simp only [decodeFloat, bind_ok, structEntries_iff, ok_inj, ParserDecl.mk.injEq] at h
        obtain ⟨e, hs, h⟩ := h
        simp only [setting_iff hs.nodup] at h
        obtain ⟨_, h1, _, h2, _, h3, rfl, rfl⟩ := h
        exact ⟨ht, e, hs, h1, h2, h3⟩
      · simp only [decodeBoolean, bind_ok, structEntries_iff, ok_inj, ParserDecl.mk.injEq] at h
        obtain ⟨e, hs, h⟩ := h
        simp only [setting_iff hs.nodup] at h
        obtain ⟨_, h1, _, h2, _, h3, rfl, rfl⟩ := h
        exact ⟨ht, e, hs, h1, h2, h3⟩
      · simp only [decodeString, bind_ok, structEntries_iff, ok_inj, ParserDecl.mk.injEq] at h
        obtain ⟨e, hs, h⟩ := h
        simp only [setting_iff hs.nodup] at h
        obtain ⟨_, h1, _, h2, rfl, rfl⟩ := h
        exact ⟨ht, e, hs, h1, h2⟩
      · simp only [decodeJsonParser, bind_ok, structEntries_iff, ok_inj, ParserDecl.mk.injEq] at h
        obtain ⟨e, hs, h⟩ := h
        simp only [setting_iff hs.nodup] at h
        obtain ⟨_, h1, rfl, rfl⟩ := h
        exact ⟨ht, e, hs, h1⟩
      · simp only [decodeSplit, bind_ok, structEntries_iff, ok_inj, ParserDecl.mk.injEq] at h
        obtain ⟨e, hs, h⟩ := h
        simp only [setting_iff hs.nodup] at h
        obtain ⟨_, h1, _, h2, _, h3, _, h4, rfl, rfl⟩ := h
        exact ⟨ht, e, hs, h1, h2, h3, h4⟩
      · cases h
    · intro h
      cases kind with
      | integer ignore =>
        obtain ⟨ht, e, hs, h⟩ := h
        rw [decodeParser, componentType_iff hs (by decide) ht]
        show decodeInteger lib y = _
        simp only [decodeInteger, bind_ok, structEntries_iff, ok_inj]
        refine ⟨e, hs, ?_⟩
        simp only [setting_iff hs.nodup]
        exact ⟨_, h.1, _, h.2, rfl⟩
      | float separator ignore =>
        obtain ⟨ht, e, hs, h⟩ := h
        rw [decodeParser, componentType_iff hs (by decide) ht]
        show decodeFloat lib y = _
        simp only [decodeFloat, bind_ok, structEntries_iff, ok_inj]
        refine ⟨e, hs, ?_⟩
        simp only [setting_iff hs.nodup]
        exact ⟨_, h.1, _, h.2.1, _, h.2.2, rfl⟩
      | boolean t f =>
        obtain ⟨ht, e, hs, h⟩ := h
        rw [decodeParser, componentType_iff hs (by decide) ht]
        show decodeBoolean lib y = _
        simp only [decodeBoolean, bind_ok, structEntries_iff, ok_inj]
        refine ⟨e, hs, ?_⟩
        simp only [setting_iff hs.nodup]
        exact ⟨_, h.1, _, h.2.1, _, h.2.2, rfl⟩
      | string charset =>
        obtain ⟨ht, e, hs, h⟩ := h
        rw [decodeParser, componentType_iff hs (by decide) ht]
        show decodeString lib y = _
        simp only [decodeString, bind_ok, structEntries_iff, ok_inj]
        refine ⟨e, hs, ?_⟩
        simp only [setting_iff hs.nodup]
        exact ⟨_, h.1, _, h.2, rfl⟩
      | json =>
        obtain ⟨ht, e, hs, h⟩ := h
        rw [decodeParser, componentType_iff hs (by decide) ht]
        show decodeJsonParser lib y = _
        simp only [decodeJsonParser, bind_ok, structEntries_iff, ok_inj]
        refine ⟨e, hs, ?_⟩
        simp only [setting_iff hs.nodup]
        exact ⟨_, h, rfl⟩
      | split delimiter isRegexp parser =>
        obtain ⟨ht, e, hs, h⟩ := h
        rw [decodeParser, componentType_iff hs (by decide) ht]
        show decodeSplit lib y = _
        simp only [decodeSplit, bind_ok, structEntries_iff, ok_inj]
        refine ⟨e, hs, ?_⟩
        simp only [setting_iff hs.nodup]
        exact ⟨_, h.1, _, h.2.1, _, h.2.2.1, _, h.2.2.2, rfl⟩

instance (lib : YamlLib) : Decodes (decodeInput lib) (DescribesInput lib) where
  iff y d := by
    constructor
    · intro h
      simp only [decodeInput, bind_ok] at h
      obtain ⟨t, ht, h⟩ := h
      replace ht := componentType_of ht
      split at h
      · simp only [decodeCsv, bind_ok, structEntries_iff, ok_inj] at h
        obtain ⟨_, ⟨e, hs, h⟩, rfl⟩ := h
        simp only [setting_iff hs.nodup] at h
        obtain ⟨_, h0, _, h1, _, h2, _, h3, _, h4, _, h5, _, h6, rfl⟩ := h
        exact ⟨ht, e, hs, h0, h1, h2, h3, h4, h5, h6⟩
      · simp only [decodeXml, bind_ok, structEntries_iff, ok_inj] at h
        obtain ⟨_, ⟨e, hs, h⟩, rfl⟩ := h
        simp only [decodeXmlProperties_eq, decodeXmlProperties_iff lib _ _ hs.nodup] at h
        simp only [setting_iff hs.nodup] at h
        obtain ⟨_, h0, _, h1, _, h2, _, h3, _, h4, rfl⟩ := h
        exact ⟨ht, e, hs, h0, h1, h2, h3, h4⟩
      · simp only [decodeJsonInput, bind_ok, structEntries_iff, ok_inj] at h
        obtain ⟨_, ⟨e, hs, h⟩, rfl⟩ := h
        simp only [setting_iff hs.nodup] at h
        obtain ⟨_, h0, _, h1, _, h2, rfl⟩ := h
        exact ⟨ht, e, hs, h0, h1, h2⟩
      · cases h
    · intro h
      cases d with
      | csv d =>
        obtain ⟨ht, e, hs, h0, h1, h2, h3, h4, h5, h6⟩ := h
        rw [decodeInput, componentType_iff hs (by decide) ht]
        show (decodeCsv lib y >>= fun d => .ok (InputDecl.csv d)) = _
        simp only [decodeCsv, bind_ok, structEntries_iff, ok_inj]
        refine ⟨d, ⟨e, hs, ?_⟩, rfl⟩
        simp only [setting_iff hs.nodup]
        exact ⟨_, h0, _, h1, _, h2, _, h3, _, h4, _, h5, _, h6, rfl⟩
      | xml d =>
        obtain ⟨ht, e, hs, h0, h1, h2, h3, h4⟩ := h
        rw [decodeInput, componentType_iff hs (by decide) ht]
        show (decodeXml lib y >>= fun d => .ok (InputDecl.xml d)) = _
        simp only [decodeXml, bind_ok, structEntries_iff, ok_inj]
        refine ⟨d, ⟨e, hs, ?_⟩, rfl⟩
        simp only [decodeXmlProperties_eq, decodeXmlProperties_iff lib _ _ hs.nodup]
        simp only [setting_iff hs.nodup]
        exact ⟨_, h0, _, h1, _, h2, _, h3, _, h4, rfl⟩
      | json d =>
        obtain ⟨ht, e, hs, h0, h1, h2⟩ := h
        rw [decodeInput, componentType_iff hs (by decide) ht]
        show (decodeJsonInput lib y >>= fun d => .ok (InputDecl.json d)) = _
        simp only [decodeJsonInput, bind_ok, structEntries_iff, ok_inj]
        refine ⟨d, ⟨e, hs, ?_⟩, rfl⟩
        simp only [setting_iff hs.nodup]
        exact ⟨_, h0, _, h1, _, h2, rfl⟩

instance (lib : YamlLib) : Decodes (decodeIndex lib) (DescribesIndex lib) where
  iff y d := by
    constructor
    · intro h
      simp only [decodeIndex, bind_ok] at h
      obtain ⟨t, ht, h⟩ := h
      replace ht := componentType_of ht
      split at h
      · simp only [decodeMapIndex, bind_ok, structEntries_iff, ok_inj] at h
        obtain ⟨_, ⟨e, hs, h⟩, rfl⟩ := h
        simp only [setting_iff hs.nodup] at h
        obtain ⟨_, h0, _, h1, _, h2, rfl⟩ := h
        exact ⟨ht, e, hs, h0, h1, h2⟩
      · simp only [decodeWildcard, bind_ok, structEntries_iff, ok_inj] at h
        obtain ⟨_, ⟨e, hs, h⟩, rfl⟩ := h
        simp only [setting_iff hs.nodup] at h
        obtain ⟨_, h0, _, h1, _, h2, _, h3, _, h4, rfl⟩ := h
        exact ⟨ht, e, hs, h0, h1, h2, h3, h4⟩
      · simp only [decodeSqlite, bind_ok, structEntries_iff, ok_inj] at h
        obtain ⟨_, ⟨e, hs, h⟩, rfl⟩ := h
        simp only [setting_iff hs.nodup] at h
        obtain ⟨_, h0, _, h1, _, h2, _, h3, rfl⟩ := h
        exact ⟨ht, e, hs, h0, h1, h2, h3⟩
      · simp only [decodeFts5, bind_ok, structEntries_iff, ok_inj] at h
        obtain ⟨_, ⟨e, hs, h⟩, rfl⟩ := h
        simp only [setting_iff hs.nodup] at h
        obtain ⟨_, h0, _, h1, _, h2, _, h3, _, h4, _, h5, rfl⟩ := h
        exact ⟨ht, e, hs, h0, h1, h2, h3, h4, h5⟩
      · simp only [decodeNoop, bind_ok, structEntries_iff, ok_inj] at h
        obtain ⟨_, ⟨e, hs, h⟩, rfl⟩ := h
        simp only [setting_iff hs.nodup] at h
        exact ⟨ht, e, hs, h⟩
      · cases h
    · intro h
      cases d with
      | map d =>
        obtain ⟨ht, e, hs, h0, h1, h2⟩ := h
        rw [decodeIndex, componentType_iff hs (by decide) ht]
        show (decodeMapIndex lib y >>= fun d => .ok (IndexDecl.map d)) = _
        simp only [decodeMapIndex, bind_ok, structEntries_iff, ok_inj]
        refine ⟨d, ⟨e, hs, ?_⟩, rfl⟩
        simp only [setting_iff hs.nodup]
        exact ⟨_, h0, _, h1, _, h2, rfl⟩
      | wildcard d =>
        obtain ⟨ht, e, hs, h0, h1, h2, h3, h4⟩ := h
        rw [decodeIndex, componentType_iff hs (by decide) ht]
        show (decodeWildcard lib y >>= fun d => .ok (IndexDecl.wildcard d)) = _
        simp only [decodeWildcard, bind_ok, structEntries_iff, ok_inj]
        refine ⟨d, ⟨e, hs, ?_⟩, rfl⟩
        simp only [setting_iff hs.nodup]
        exact ⟨_, h0, _, h1, _, h2, _, h3, _, h4, rfl⟩
      | sqlite d =>
        obtain ⟨ht, e, hs, h0, h1, h2, h3⟩ := h
        rw [decodeIndex, componentType_iff hs (by decide) ht]
        show (decodeSqlite lib y >>= fun d => .ok (IndexDecl.sqlite d)) = _
        simp only [decodeSqlite, bind_ok, structEntries_iff, ok_inj]
        refine ⟨d, ⟨e, hs, ?_⟩, rfl⟩
        simp only [setting_iff hs.nodup]
        exact ⟨_, h0, _, h1, _, h2, _, h3, rfl⟩
      | fts5 d =>
        obtain ⟨ht, e, hs, h0, h1, h2, h3, h4, h5⟩ := h
        rw [decodeIndex, componentType_iff hs (by decide) ht]
        show (decodeFts5 lib y >>= fun d => .ok (IndexDecl.fts5 d)) = _
        simp only [decodeFts5, bind_ok, structEntries_iff, ok_inj]
        refine ⟨d, ⟨e, hs, ?_⟩, rfl⟩
        simp only [setting_iff hs.nodup]
        exact ⟨_, h0, _, h1, _, h2, _, h3, _, h4, _, h5, rfl⟩
      | noop d =>
        obtain ⟨ht, e, hs, h⟩ := h
        rw [decodeIndex, componentType_iff hs (by decide) ht]
        show (decodeNoop lib y >>= fun d => .ok (IndexDecl.noop d)) = _
        simp only [decodeNoop, bind_ok, structEntries_iff, ok_inj]
        refine ⟨d, ⟨e, hs, ?_⟩, rfl⟩
        rw [setting_iff hs.nodup]
        exact h

instance (lib : YamlLib) : Decodes (decodeOutput lib) (DescribesOutput lib) where
  iff y d := by
    constructor
    · intro h
      simp only [decodeOutput, bind_ok] at h
      obtain ⟨t, ht, h⟩ := h
      replace ht := componentType_of ht
      split at h
      · simp only [decodeGraphql, bind_ok, structEntries_iff, ok_inj] at h
        obtain ⟨_, ⟨e, hs, h⟩, rfl⟩ := h
        simp only [setting_iff hs.nodup] at h
        exact ⟨ht, e, hs, h⟩
      · simp only [decodeArrayOutput, bind_ok, structEntries_iff, ok_inj, decodeRelationships_eq] at h
        obtain ⟨_, ⟨e, hs, h⟩, rfl⟩ := h
        obtain ⟨_, h1, _, h2, _, h3, _, h4, _, h5, _, h6, rfl⟩ := h
        rw [decodeRelationships_iff lib _ _ hs.nodup] at h6
        rw [setting_iff hs.nodup] at h1 h2 h3 h4 h5
        exact ⟨ht, e, hs, h1, h2, h3, h4, h5, h6⟩
      · simp only [decodeObjectOutput, bind_ok, structEntries_iff, ok_inj, decodeRelationships_eq] at h
        obtain ⟨_, ⟨e, hs, h⟩, rfl⟩ := h
        obtain ⟨_, h1, _, h2, _, h3, _, h6, rfl⟩ := h
        rw [decodeRelationships_iff lib _ _ hs.nodup] at h6
        rw [setting_iff hs.nodup] at h1 h2 h3
        exact ⟨ht, e, hs, h1, h2, h3, h6⟩
      · cases h
    · intro h
      cases d with
      | graphql name =>
        obtain ⟨ht, e, hs, h⟩ := h
        rw [decodeOutput, componentType_iff hs (by decide) ht]
        show (decodeGraphql lib y >>= fun d => .ok (OutputDecl.graphql d)) = _
        simp only [decodeGraphql, bind_ok, structEntries_iff, ok_inj]
        refine ⟨_, ⟨e, hs, ?_⟩, rfl⟩
        rw [setting_iff hs.nodup]
        exact h
      | array name d =>
        obtain ⟨ht, e, hs, h1, h2, h3, h4, h5, h6⟩ := h
        rw [decodeOutput, componentType_iff hs (by decide) ht]
        show (decodeArrayOutput lib y >>= fun d => .ok (OutputDecl.array d.1 d.2)) = _
        simp only [decodeArrayOutput, bind_ok, structEntries_iff, ok_inj, decodeRelationships_eq]
        rw [← decodeRelationships_iff lib _ _ hs.nodup] at h6
        exact ⟨(name, d), ⟨e, hs, _, (setting_iff hs.nodup _ _ _).2 h1, _, (setting_iff hs.nodup _ _ _).2 h2, _, (setting_iff hs.nodup _ _ _).2 h3,
          _, (setting_iff hs.nodup _ _ _).2 h4, _, (setting_iff hs.nodup _ _ _).2 h5, _, h6, rfl⟩, rfl⟩
      | object name d =>
        obtain ⟨ht, e, hs, h1, h2, h3, h6⟩ := h
        rw [decodeOutput, componentType_iff hs (by decide) ht]
        show (decodeObjectOutput lib y >>= fun d => .ok (OutputDecl.object d.1 d.2)) = _
        simp only [decodeObjectOutput, bind_ok, structEntries_iff, ok_inj, decodeRelationships_eq]
        rw [← decodeRelationships_iff lib _ _ hs.nodup] at h6
        exact ⟨(name, d), ⟨e, hs, _, (setting_iff hs.nodup _ _ _).2 h1, _, (setting_iff hs.nodup _ _ _).2 h2, _, (setting_iff hs.nodup _ _ _).2 h3, _, h6, rfl⟩, rfl⟩

instance (lib : YamlLib) : Decodes (decodeService lib) (DescribesService lib) where
  iff y d := by
    constructor
    · intro h
      simp only [decodeService, bind_ok] at h
      obtain ⟨t, ht, h⟩ := h
      replace ht := componentType_of ht
      split at h
      · simp only [decodeHttp, bind_ok, structEntries_iff, ok_inj] at h
        obtain ⟨e, hs, h⟩ := h
        simp only [setting_iff hs.nodup] at h
        obtain ⟨_, h1, _, h2, _, h3, _, h4, _, h5, rfl⟩ := h
        exact ⟨ht, e, hs, h1, h2, h3, h4, h5⟩
      · cases h
    · rintro ⟨ht, e, hs, h1, h2, h3, h4, h5⟩
      rw [decodeService, componentType_iff hs (by decide) ht]
      show decodeHttp lib y = _
      simp only [decodeHttp, bind_ok, structEntries_iff, ok_inj]
      refine ⟨e, hs, ?_⟩
      simp only [setting_iff hs.nodup]
      exact ⟨_, h1, _, h2, _, h3, _, h4, _, h5, rfl⟩

theorem decodeConfig_iff (lib : YamlLib) (y : Yaml) (p : ParsedConfig) : decodeConfig lib y = .ok p ↔ Describes lib y p := by
  simp only [decodeConfig, Describes, bind_ok, structEntries_iff, ok_inj]
  refine exists_congr fun e => and_congr_right fun hs => ?_
  simp only [setting_iff hs.nodup]
  constructor
  · rintro ⟨_, h1, _, h2, _, h3, _, h4, _, h5, rfl⟩
    exact ⟨h1, h2, h3, h4, h5⟩
  · rintro ⟨h1, h2, h3, h4, h5⟩
    exact ⟨_, h1, _, h2, _, h3, _, h4, _, h5, rfl⟩

end Rodb
