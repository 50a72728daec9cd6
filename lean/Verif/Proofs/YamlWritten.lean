import Verif.Proofs.Yaml
import Verif.Spec.YamlWritten
/-
  The document that was written for a configuration describes it.
-/
namespace Rodb
open Spec

theorem settings_written {lib : YamlLib} {known hidden : List String} {e : List (String × Yaml)} (h1 : (e.map (·.1)).Nodup) (h2 : ∀ k ∈ e.map (·.1), k ∈ known) :
    Settings lib known hidden (.map e) e :=
  .inr ⟨rfl, h1, fun k _ hk => .inl (h2 k (List.mem_map_of_mem (f := (·.1)) hk))⟩

theorem given {α : Type} {e : List (String × Yaml)} {key : String} {y : Yaml} {says : Yaml → α → Prop} {zero v : α} (h : (key, y) ∈ e) (hs : says y v) :
    Setting e key says zero v := .inl ⟨y, h, hs⟩

theorem says_text (s : String) : SaysText (.text s) s := .inl rfl
theorem says_bool (b : Bool) : SaysBool (writeBool b) b := .inl ⟨_, rfl⟩
theorem says_uint {n : Nat} (h : n < 2 ^ 64) : SaysUint (writeNumber n) n := .inl ⟨h, _, rfl⟩
theorem says_int {v : Int} (h : -2 ^ 63 ≤ v ∧ v < 2 ^ 63) : SaysInt (writeNumber v) v := .inl ⟨h.1, h.2, _, rfl⟩

theorem says_optional {α : Type} {says : Yaml → α → Prop} {write : α → Yaml} (hw : ∀ v, write v ≠ .null) (h : ∀ v, says (write v) v) (o : Option α) :
    SaysOptional says (writeOptional write o) o := by
  cases o with
  | none => rfl
  | some v => exact ⟨hw v, h v⟩

theorem respectively_written {α : Type} {says : Yaml → α → Prop} {write : α → Yaml} : ∀ (vs : List α), (∀ v ∈ vs, says (write v) v) → Respectively says (vs.map write) vs
  | [], _ => trivial
  | v :: vs, h => ⟨h v (.head _), respectively_written vs (fun w hw => h w (.tail _ hw))⟩

theorem says_list {α : Type} {says : Yaml → α → Prop} {write : α → Yaml} {vs : List α} (h : ∀ v ∈ vs, says (write v) v) : SaysList says (writeList write vs) vs :=
  .inr ⟨_, rfl, respectively_written vs h⟩

theorem says_map {α : Type} {says : Yaml → α → Prop} {write : α → Yaml} {m : List (String × α)} (hn : (m.map (·.1)).Nodup) (h : ∀ v, says (write v) v) :
    SaysMap says (writeMap write m) m := by
  refine .inr ⟨_, rfl, hn, by simp [Function.comp_def], ?_⟩
  rw [List.map_map]
  have := respectively_written (says := says) (write := write) (m.map (·.2)) (fun v _ => h v)
  rw [List.map_map] at this
  exact this

theorem describes_parser (lib : YamlLib) (p : ParserDecl) : DescribesParser lib (writeParser p) p := by
  obtain ⟨name, kind⟩ := p
  have hb : ∀ b, writeBool b ≠ .null := fun _ h => by cases h
  cases kind with
  | integer ignore => exact ⟨⟨_, rfl, by simp⟩, _, settings_written (by simp) (by simp), given (by simp) (says_text _), given (by simp) (says_text _)⟩
  | float separator ignore =>
    exact ⟨⟨_, rfl, by simp⟩, _, settings_written (by simp) (by simp), given (by simp) (says_text _), given (by simp) (says_text _), given (by simp) (says_text _)⟩
  | boolean t f =>
    exact ⟨⟨_, rfl, by simp⟩, _, settings_written (by simp) (by simp), given (by simp) (says_text _), given (by simp) (says_list (fun _ _ => says_text _)),
      given (by simp) (says_list (fun _ _ => says_text _))⟩
  | string charset => exact ⟨⟨_, rfl, by simp⟩, _, settings_written (by simp) (by simp), given (by simp) (says_text _), given (by simp) (says_text _)⟩
  | json => exact ⟨⟨_, rfl, by simp⟩, _, settings_written (by simp) (by simp), given (by simp) (says_text _)⟩
  | split delimiter isRegexp parser =>
    exact ⟨⟨_, rfl, by simp⟩, _, settings_written (by simp) (by simp), given (by simp) (says_text _),
      given (by simp) (says_optional (fun _ h => by cases h) says_text _), given (by simp) (says_optional hb says_bool _), given (by simp) (says_text _)⟩


theorem describes_xmlProperties {lib : YamlLib} {e : List (String × Yaml)} : ∀ {ys : List Yaml} {qs : List XmlPropDecl}, DescribesXmlList lib ys qs → ("properties", .list ys) ∈ e →
    DescribesXmlProperties lib e qs
  | _, [], h, he => by
    cases h
    exact .inr (.inl he)
  | _, _ :: _, ⟨y, ys', h, h'⟩, he => by
    subst h
    exact ⟨y, ys', he, h'⟩

mutual
theorem describes_xmlProp (lib : YamlLib) : ∀ q, DescribesXmlProp lib (writeXmlProp q) q
  | .mk name type parser xpath items properties => by
    have hi := describes_xmlItems lib items
    have hp := describes_xmlProps lib properties
    refine ⟨_, settings_written (by simp) (by simp), given (by simp) (says_text _), given (by simp) (says_text _), given (by simp) (says_text _), given (by simp) (says_text _), ?_, ?_⟩
    · exact hi _ (by simp)
    · exact describes_xmlProperties hp (by simp)
theorem describes_xmlItems (lib : YamlLib) : ∀ items e, ("items", writeXmlItems items) ∈ e → DescribesXmlItems lib e items
  | none, _, h => .inl h
  | some (.mk name type parser xpath items properties), _, h => by
    refine ⟨_, h, by simp [writeXmlItems, writeXmlProp], ?_⟩
    rw [writeXmlItems]
    exact describes_xmlProp lib _
theorem describes_xmlProps (lib : YamlLib) : ∀ qs, DescribesXmlList lib (writeXmlProps qs) qs
  | [] => rfl
  | .mk name type parser xpath items properties :: rest => by
    refine ⟨_, _, by rw [writeXmlProps], by simp [writeXmlProp], describes_xmlProp lib _, describes_xmlProps lib rest⟩
end

theorem describes_column (lib : YamlLib) (c : ColumnDecl) : SaysPresent (DescribesColumn lib) (writeColumn c) c :=
  ⟨fun h => by (cases h), _, settings_written (by simp) (by simp), given (by simp) (says_text _), given (by simp) (says_text _)⟩

theorem describes_input (lib : YamlLib) (i : InputDecl) : DescribesInput lib (writeInput i) i := by
  have hb : ∀ b, writeBool b ≠ .null := fun _ h => by cases h
  cases i with
  | csv d =>
    exact ⟨⟨_, rfl, by simp⟩, _, settings_written (by simp) (by simp), given (by simp) (says_text _), given (by simp) (says_text _),
      given (by simp) (says_optional hb says_bool _), given (by simp) (says_bool _), given (by simp) (says_bool _), given (by simp) (says_text _),
      given (by simp) (says_list (fun c _ => describes_column lib c))⟩
  | xml d =>
    exact ⟨⟨_, rfl, by simp⟩, _, settings_written (by simp) (by simp), given (by simp) (says_text _), given (by simp) (says_text _),
      given (by simp) (says_optional hb says_bool _), describes_xmlProperties (describes_xmlProps lib _) (by simp), given (by simp) (says_text _)⟩
  | json d =>
    exact ⟨⟨_, rfl, by simp⟩, _, settings_written (by simp) (by simp), given (by simp) (says_text _), given (by simp) (says_text _),
      given (by simp) (says_optional hb says_bool _)⟩

theorem describes_sqliteProperty (lib : YamlLib) (q : SqlitePropertyDecl) : SaysPresent (DescribesSqliteProperty lib) (writeSqliteProperty q) q :=
  ⟨fun h => by (cases h), _, settings_written (by simp) (by simp), given (by simp) (says_text _), given (by simp) (says_text _)⟩

theorem describes_index (lib : YamlLib) (i : IndexDecl) (hr : ∀ d, i = .fts5 d → ∀ v ∈ d.prefixes, -2 ^ 63 ≤ v ∧ v < 2 ^ 63) : DescribesIndex lib (writeIndex i) i := by
  have hb : ∀ b, writeBool b ≠ .null := fun _ h => by cases h
  cases i with
  | map d =>
    exact ⟨⟨_, rfl, by simp⟩, _, settings_written (by simp) (by simp), given (by simp) (says_text _), given (by simp) (says_text _),
      given (by simp) (says_list (fun _ _ => says_text _))⟩
  | wildcard d =>
    exact ⟨⟨_, rfl, by simp⟩, _, settings_written (by simp) (by simp), given (by simp) (says_text _), given (by simp) (says_text _), given (by simp) (says_text _),
      given (by simp) (says_list (fun _ _ => says_text _)), given (by simp) (says_optional hb says_bool _)⟩
  | sqlite d =>
    exact ⟨⟨_, rfl, by simp⟩, _, settings_written (by simp) (by simp), given (by simp) (says_text _), given (by simp) (says_text _), given (by simp) (says_text _),
      given (by simp) (says_list (fun q _ => describes_sqliteProperty lib q))⟩
  | fts5 d =>
    exact ⟨⟨_, rfl, by simp⟩, _, settings_written (by simp) (by simp), given (by simp) (says_text _), given (by simp) (says_text _), given (by simp) (says_text _),
      given (by simp) (says_list (fun v hv => says_int (hr d rfl v hv))), given (by simp) (says_text _), given (by simp) (says_list (fun _ _ => says_text _))⟩
  | noop name => exact ⟨⟨_, rfl, by simp⟩, _, settings_written (by simp) (by simp), given (by simp) (says_text _)⟩

theorem describes_relationshipsOf {lib : YamlLib} {e : List (String × Yaml)} : ∀ {ys : List (String × Yaml)} {m : List (String × Relationship)}, DescribesRelationshipMap lib ys m →
    ("relationships", .map ys) ∈ e → DescribesRelationships lib e m
  | _, [], h, he => by
    cases h
    exact .inr (.inl he)
  | _, (k, _) :: _, ⟨y, ys', h, h'⟩, he => by
    subst h
    exact ⟨y, ys', he, h'⟩

theorem describes_sort (lib : YamlLib) (s : SortConfig) : SaysPresent (DescribesSort lib) (writeSort s) s :=
  ⟨fun h => by (cases h), _, settings_written (by simp) (by simp), given (by simp) (says_text _), given (by simp) (says_optional (fun _ h => by cases h) says_bool _)⟩

theorem describes_match (lib : YamlLib) (m : MatchConfig) : SaysPresent (DescribesMatch lib) (writeMatch m) m :=
  ⟨fun h => by (cases h), _, settings_written (by simp) (by simp), given (by simp) (says_text _), given (by simp) (says_text _), given (by simp) (says_text _)⟩

theorem describes_parameter (lib : YamlLib) (p : ParamConfig) : SaysPresent (DescribesParameter lib) (writeParameter p) p :=
  ⟨fun h => by (cases h), _, settings_written (by simp) (by simp), given (by simp) (says_text _), given (by simp) (says_text _), given (by simp) (says_text _)⟩

mutual
theorem describes_relationship (lib : YamlLib) : ∀ r, InRange r → DescribesRelationship lib (writeRelationship r) r
  | .mk input isArray limit sort matching relationships, h => by
    rw [InRange] at h
    exact ⟨_, settings_written (by simp) (by simp), given (by simp) (says_text _), given (by simp) (says_bool _), given (by simp) (says_uint h.1),
      given (by simp) (says_list (fun s _ => describes_sort lib s)), given (by simp) (says_list (fun m _ => describes_match lib m)), h.2.1,
      describes_relationshipsOf (describes_relationshipMap lib relationships h.2.2) (by simp)⟩
theorem describes_relationshipMap (lib : YamlLib) : ∀ m, AllInRange m → DescribesRelationshipMap lib (writeRelationships m) m
  | [], _ => rfl
  | (k, .mk input isArray limit sort matching relationships) :: rest, h => by
    rw [AllInRange] at h
    exact ⟨_, _, by rw [writeRelationships], by simp [writeRelationship], describes_relationship lib _ h.1, describes_relationshipMap lib rest h.2⟩
end

theorem describes_output (lib : YamlLib) (o : OutputDecl)
    (ha : ∀ name d, o = .array name d → d.limit.default < 2 ^ 64 ∧ d.limit.max < 2 ^ 64 ∧ (d.parameters.map (·.1)).Nodup ∧
      (d.relationships.map (·.1)).Nodup ∧ AllInRange d.relationships)
    (ho : ∀ name d, o = .object name d → (d.parameters.map (·.1)).Nodup ∧ (d.relationships.map (·.1)).Nodup ∧ AllInRange d.relationships) :
    DescribesOutput lib (writeOutput o) o := by
  cases o with
  | graphql name => exact ⟨⟨_, rfl, by simp⟩, _, settings_written (by simp) (by simp), given (by simp) (says_text _)⟩
  | array name d =>
    obtain ⟨h1, h2, h3, h4, h5⟩ := ha name d rfl
    refine ⟨⟨_, rfl, by simp⟩, _, settings_written (by simp) (by simp), given (by simp) (says_text _), given (by simp) (says_text _), .inl ⟨_, by simp; exact rfl, ?_⟩,
      .inl ⟨_, by simp; exact rfl, ?_⟩, given (by simp) (says_map h3 (describes_parameter lib)), h4, describes_relationshipsOf (describes_relationshipMap lib _ h5) (by simp)⟩
    · exact ⟨_, settings_written (by simp) (by simp), given (by simp) (says_uint h1), given (by simp) (says_uint h2), given (by simp) (says_text _)⟩
    · exact ⟨_, settings_written (by simp) (by simp), given (by simp) (says_text _)⟩
  | object name d =>
    obtain ⟨h3, h4, h5⟩ := ho name d rfl
    exact ⟨⟨_, rfl, by simp⟩, _, settings_written (by simp) (by simp), given (by simp) (says_text _), given (by simp) (says_text _),
      given (by simp) (says_map h3 (describes_parameter lib)), h4, describes_relationshipsOf (describes_relationshipMap lib _ h5) (by simp)⟩

theorem describes_listen (lib : YamlLib) (listen : String) : DescribesListen lib (writeListen listen) listen :=
  ⟨_, settings_written (by simp) (by simp), given (by simp) (says_text _)⟩

theorem describes_https (lib : YamlLib) (d : HttpsDecl) : DescribesHttps lib (writeHttps d) d :=
  ⟨_, settings_written (by simp) (by simp), given (by simp) (says_text _), given (by simp) (says_text _), given (by simp) (says_text _)⟩

theorem describes_route (lib : YamlLib) (r : RouteDecl) : SaysPresent (DescribesRoute lib) (writeRoute r) r :=
  ⟨fun h => by (cases h), _, settings_written (by simp) (by simp), given (by simp) (says_text _), given (by simp) (says_text _)⟩

theorem describes_service (lib : YamlLib) (s : ServiceDecl) : DescribesService lib (writeService s) s :=
  ⟨⟨_, rfl, by simp⟩, _, settings_written (by simp) (by simp), given (by simp) (says_text _),
    given (by simp) (says_optional (fun _ h => by simp [writeListen] at h) (describes_listen lib) _),
    given (by simp) (says_optional (fun _ h => by simp [writeHttps] at h) (describes_https lib) _), given (by simp) (says_text _),
    given (by simp) (says_list (fun r _ => describes_route lib r))⟩

theorem describes_document (lib : YamlLib) {p : ParsedConfig} (h : Representable p) : Describes lib (documentOf p) p :=
  ⟨_, settings_written (by simp) (by simp), given (by simp) (says_list (fun q _ => describes_parser lib q)), given (by simp) (says_list (fun q _ => describes_input lib q)),
    given (by simp) (says_list (fun q hq => describes_index lib q (fun d hd => h.prefixes d (hd ▸ hq)))),
    given (by simp) (says_list (fun q _ => describes_service lib q)),
    given (by simp) (says_list (fun q hq => describes_output lib q (fun n d hd => h.arrays n d (hd ▸ hq)) (fun n d hd => h.objects n d (hd ▸ hq))))⟩

theorem documented_of {lib : YamlLib} {known hidden settings : List String} {part type : String} {y : Yaml} (ht : OfType y type) (hd : (part, type, settings) ∈ documented)
    (hk : ∀ k ∈ known, k ∈ settings) (hh : ∀ k ∈ hidden, k ∈ undocumented) (hs : ∃ e, Settings lib known hidden y e) :
    ∃ type settings fields, (part, type, settings) ∈ documented ∧ y = .map fields ∧ ("type", .text type) ∈ fields ∧ (fields.map (·.1)).Nodup ∧
      ∀ k v, (k, v) ∈ fields → k ∈ settings ∨ k ∈ undocumented := by
  obtain ⟨fields, hy, ht⟩ := ht
  obtain ⟨e, h | ⟨h, hn, hk'⟩⟩ := hs
  · rw [h.1] at hy
    cases hy
  · rw [h] at hy
    cases hy
    exact ⟨type, settings, _, hd, h, ht, hn, fun k v hkv => (hk' k v hkv).imp (hk k) (fun h => hh k h.1)⟩

theorem respectively_mem {α : Type} {says : Yaml → α → Prop} : ∀ {ys : List Yaml} {vs : List α}, Respectively says ys vs → ∀ y ∈ ys, ∃ v, says y v
  | [], [], _, _, h => by cases h
  | y :: ys, v :: vs, ⟨h1, h2⟩, z, hz => by
    rcases List.mem_cons.1 hz with rfl | hz
    · exact ⟨v, h1⟩
    · exact respectively_mem h2 z hz

end Rodb
