import Verif.Proofs.Yaml
import Verif.Proofs.ConfigOrder
import Verif.Spec.ConfigFile
/-
  A document without empty elements is never the reason for a panic.
-/
namespace Rodb
open Spec

theorem calm_text (y : Yaml) : Calm (asText y) := by cases y <;> first | exact calm_ok _ | exact calm_err _
theorem calm_bool (y : Yaml) : Calm (asBool y) := by cases y <;> first | exact calm_ok _ | exact calm_err _
theorem calm_uint (y : Yaml) : Calm (asUint y) := by
  cases y with
  | int v s => simp only [asUint]; split <;> first | exact calm_ok _ | exact calm_err _
  | float a b s => cases a <;> first | exact calm_ok _ | exact calm_err _
  | _ => first | exact calm_ok _ | exact calm_err _
theorem calm_int (y : Yaml) : Calm (asInt y) := by
  cases y with
  | int v s => simp only [asInt]; split <;> first | exact calm_ok _ | exact calm_err _
  | float a b s => cases b <;> first | exact calm_ok _ | exact calm_err _
  | _ => first | exact calm_ok _ | exact calm_err _

theorem calm_optional {α : Type} {decode : Yaml → Res α} {y : Yaml} (h : Calm (decode y)) : Calm (asOptional decode y) := by
  cases y <;> first | exact calm_ok _ | exact calm_bind h (fun _ => calm_ok _)

theorem filledList_mem : ∀ {items : List Yaml}, FilledList items → ∀ y ∈ items, y ≠ .null ∧ Filled y
  | [], _, _, h => by cases h
  | z :: rest, h, y, hy => by
    rw [FilledList] at h
    rcases List.mem_cons.1 hy with rfl | hy
    · exact ⟨h.1, h.2.1⟩
    · exact filledList_mem h.2.2 y hy

theorem filledMap_mem : ∀ {entries : List (String × Yaml)}, FilledMap entries → ∀ k y, (k, y) ∈ entries →
    Filled y ∧ (k = "parameters" ∨ k = "relationships" → ∀ m, y = .map m → ∀ e ∈ m, e.2 ≠ .null)
  | [], _, _, _, h => by cases h
  | (k', z) :: rest, h, k, y, hy => by
    rw [FilledMap] at h
    rcases List.mem_cons.1 hy with he | hy
    · cases he
      exact ⟨h.1, h.2.1⟩
    · exact filledMap_mem h.2.2 k y hy

theorem calm_elements {α : Type} {decode : Yaml → Res α} : ∀ {items : List Yaml}, (∀ y ∈ items, Calm (decode y)) → Calm (asElements decode items)
  | [], _ => calm_ok _
  | _ :: _, h => calm_bind (h _ (.head _)) (fun _ => calm_bind (calm_elements (fun y hy => h y (.tail _ hy))) (fun _ => calm_ok _))

theorem calm_list {α : Type} {decode : Yaml → Res α} {y : Yaml} (hy : Filled y) (h : ∀ y, y ≠ .null → Filled y → Calm (decode y)) : Calm (asList decode y) := by
  cases y with
  | list items =>
    rw [Filled] at hy
    exact calm_elements (fun y hm => h y (filledList_mem hy y hm).1 (filledList_mem hy y hm).2)
  | _ => first | exact calm_ok _ | exact calm_err _

theorem calm_present {α : Type} {decode : Yaml → Res α} {y : Yaml} (hy : y ≠ .null) (h : Calm (decode y)) : Calm (asPresent decode y) := by
  cases y <;> first | exact absurd rfl hy | exact h

theorem calm_entries {α : Type} {decode : Yaml → Res α} : ∀ (seen : List String) {entries : List (String × Yaml)}, (∀ e ∈ entries, Calm (decode e.2)) →
    Calm (asEntries decode seen entries)
  | _, [], _ => calm_ok _
  | _, _ :: _, h => calm_bind (calm_require _ _) (fun _ => calm_bind (h _ (.head _)) (fun _ => calm_bind (calm_entries _ (fun e he => h e (.tail _ he))) (fun _ => calm_ok _)))

theorem calm_map {α : Type} {decode : Yaml → Res α} {y : Yaml} (h : ∀ entries, y = .map entries → ∀ e ∈ entries, Calm (decode e.2)) : Calm (asMap decode y) := by
  cases y with
  | map entries => exact calm_entries _ (h entries rfl)
  | _ => first | exact calm_ok _ | exact calm_err _

theorem calm_checkKeys (lib : YamlLib) (known hidden : List String) : ∀ seen entries, Calm (checkKeys lib known hidden seen entries)
  | _, [] => calm_ok _
  | _, _ :: _ => calm_bind (calm_require _ _) (fun _ => calm_bind (calm_require _ _) (fun _ => calm_checkKeys lib known hidden _ _))

theorem calm_struct {α : Type} {lib : YamlLib} {known hidden : List String} {y : Yaml} (hy : Filled y) {f : List (String × Yaml) → Res α} (h : ∀ e, FilledMap e → Calm (f e)) :
    Calm (structEntries lib known hidden y >>= f) := by
  cases y with
  | map entries =>
    rw [Filled] at hy
    intro e he
    simp only [structEntries] at he
    cases hk : checkKeys lib known hidden [] entries with
    | ok u => rw [hk] at he; exact h entries hy e he
    | error e' => rw [hk] at he; cases he; exact calm_checkKeys lib known hidden [] entries _ hk
  | null => exact h [] trivial
  | _ => exact calm_err _

theorem calm_setting {α : Type} {e : List (String × Yaml)} {key : String} {decode : Yaml → Res α} {zero : α} (h : ∀ y, (key, y) ∈ e → Calm (decode y)) :
    Calm (setting e key decode zero) := by
  unfold setting
  split
  · exact calm_ok _
  · rename_i y hy
    exact h y (mapGet_mem hy)

theorem calm_settingText {e : List (String × Yaml)} {key : String} {zero : String} : Calm (setting e key asText zero) := calm_setting (fun _ _ => calm_text _)
theorem calm_settingBool {e : List (String × Yaml)} {key : String} {zero : Bool} : Calm (setting e key asBool zero) := calm_setting (fun _ _ => calm_bool _)
theorem calm_settingUint {e : List (String × Yaml)} {key : String} {n : Nat} : Calm (setting e key asUint n) := calm_setting (fun _ _ => calm_uint _)
theorem calm_settingOptText {e : List (String × Yaml)} {key : String} {zero : Option String} : Calm (setting e key (asOptional asText) zero) :=
  calm_setting (fun _ _ => calm_optional (calm_text _))
theorem calm_settingOptBool {e : List (String × Yaml)} {key : String} {zero : Option Bool} : Calm (setting e key (asOptional asBool) zero) :=
  calm_setting (fun _ _ => calm_optional (calm_bool _))
theorem calm_settingTexts {e : List (String × Yaml)} (he : FilledMap e) {key : String} {zero : List String} : Calm (setting e key (asList asText) zero) :=
  calm_setting (fun _ hy => calm_list (filledMap_mem he _ _ hy).1 (fun _ _ _ => calm_text _))
theorem calm_settingInts {e : List (String × Yaml)} (he : FilledMap e) {key : String} {zero : List Int} : Calm (setting e key (asList asInt) zero) :=
  calm_setting (fun _ hy => calm_list (filledMap_mem he _ _ hy).1 (fun _ _ _ => calm_int _))
theorem calm_settingList {α : Type} {e : List (String × Yaml)} (he : FilledMap e) {key : String} {decode : Yaml → Res α} {zero : List α} (h : ∀ y, Filled y → Calm (decode y)) :
    Calm (setting e key (asList (asPresent decode)) zero) :=
  calm_setting (fun _ hy => calm_list (filledMap_mem he _ _ hy).1 (fun y hn hf => calm_present hn (h y hf)))

/-- The settings of a structure, one after the other. -/
macro "calm_settings" : tactic => `(tactic| (
  refine calm_struct ‹_› (fun e he => ?_)
  repeat' first
    | exact calm_ok _
    | exact calm_settingText
    | refine calm_bind calm_settingText (fun _ => ?_)
    | refine calm_bind calm_settingBool (fun _ => ?_)
    | refine calm_bind calm_settingUint (fun _ => ?_)
    | refine calm_bind calm_settingOptText (fun _ => ?_)
    | refine calm_bind calm_settingOptBool (fun _ => ?_)
    | refine calm_bind (calm_settingTexts he) (fun _ => ?_)
    | refine calm_bind (calm_settingInts he) (fun _ => ?_)
    | fail))

theorem calm_componentType {y : Yaml} (h : y ≠ .null) : Calm (componentType y) := by
  cases y with
  | null => exact absurd rfl h
  | map entries =>
    simp only [componentType]
    split
    · exact calm_err _
    · exact calm_ite (calm_err _) (calm_ok _)
    · exact calm_err _
  | _ => exact calm_err _

theorem calm_parser (lib : YamlLib) {y : Yaml} (hn : y ≠ .null) (hy : Filled y) : Calm (decodeParser lib y) := by
  refine calm_bind (calm_componentType hn) (fun t => ?_)
  split
  · unfold decodeInteger; calm_settings
  · unfold decodeFloat; calm_settings
  · unfold decodeBoolean; calm_settings
  · unfold decodeString; calm_settings
  · unfold decodeJsonParser; calm_settings
  · unfold decodeSplit; calm_settings
  · exact calm_err _

theorem calm_column (lib : YamlLib) (y : Yaml) (hy : Filled y) : Calm (decodeColumn lib y) := by
  unfold decodeColumn; calm_settings

mutual
theorem calm_yamlXmlProp (lib : YamlLib) : ∀ y, Filled y → Calm (decodeXmlProp lib y)
  | .map entries, hy => by
    rw [Filled] at hy
    rw [decodeXmlProp]
    refine calm_bind ?_ fun e => calm_bind calm_settingText fun _ => calm_bind calm_settingText fun _ => calm_bind calm_settingText fun _ => calm_bind calm_settingText fun _ =>
      calm_bind (calm_yamlXmlItems lib entries hy) fun _ => calm_bind (calm_yamlXmlProperties lib entries hy) fun _ => calm_ok _
    exact calm_bind (calm_checkKeys _ _ _ _ _) (fun _ => calm_ok _)
  | .null, _ => by rw [decodeXmlProp]; exact calm_ok _
  | .text _, _ => by rw [decodeXmlProp] <;> first | exact calm_err _ | simp
  | .bool _ _, _ => by rw [decodeXmlProp] <;> first | exact calm_err _ | simp
  | .int _ _, _ => by rw [decodeXmlProp] <;> first | exact calm_err _ | simp
  | .float _ _ _, _ => by rw [decodeXmlProp] <;> first | exact calm_err _ | simp
  | .list _, _ => by rw [decodeXmlProp] <;> first | exact calm_err _ | simp
theorem calm_yamlXmlItems (lib : YamlLib) : ∀ entries, FilledMap entries → Calm (decodeXmlItems lib entries)
  | [], _ => by rw [decodeXmlItems]; exact calm_ok _
  | (k, y) :: rest, h => by
    rw [FilledMap] at h
    have h1 := calm_yamlXmlProp lib y h.1
    have h2 := calm_yamlXmlItems lib rest h.2.2
    by_cases hk : k = "items"
    · cases y <;> simp only [decodeXmlItems, hk, if_true] <;> first | exact calm_ok _ | exact calm_bind h1 fun _ => calm_ok _
    · cases y <;> simp only [decodeXmlItems, hk, if_false] <;> exact h2
theorem calm_yamlXmlProperties (lib : YamlLib) : ∀ entries, FilledMap entries → Calm (decodeXmlProperties lib entries)
  | [], _ => by rw [decodeXmlProperties]; exact calm_ok _
  | (k, .list items) :: rest, h => by
    rw [FilledMap, Filled] at h
    have h1 := calm_yamlXmlList lib items h.1
    have h2 := calm_yamlXmlProperties lib rest h.2.2
    by_cases hk : k = "properties"
    · simp only [decodeXmlProperties, hk, if_true]; exact h1
    · simp only [decodeXmlProperties, hk, if_false]; exact h2
  | (k, .null) :: rest, h => by
    rw [FilledMap] at h
    have h2 := calm_yamlXmlProperties lib rest h.2.2
    by_cases hk : k = "properties" <;> simp only [decodeXmlProperties, hk, if_true, if_false] <;> first | exact h2 | exact calm_ok _
  | (k, .text _) :: rest, h => by
    rw [FilledMap] at h
    have h2 := calm_yamlXmlProperties lib rest h.2.2
    by_cases hk : k = "properties" <;> simp only [decodeXmlProperties, hk, if_true, if_false] <;> first | exact h2 | exact calm_err _
  | (k, .bool _ _) :: rest, h => by
    rw [FilledMap] at h
    have h2 := calm_yamlXmlProperties lib rest h.2.2
    by_cases hk : k = "properties" <;> simp only [decodeXmlProperties, hk, if_true, if_false] <;> first | exact h2 | exact calm_err _
  | (k, .int _ _) :: rest, h => by
    rw [FilledMap] at h
    have h2 := calm_yamlXmlProperties lib rest h.2.2
    by_cases hk : k = "properties" <;> simp only [decodeXmlProperties, hk, if_true, if_false] <;> first | exact h2 | exact calm_err _
  | (k, .float _ _ _) :: rest, h => by
    rw [FilledMap] at h
    have h2 := calm_yamlXmlProperties lib rest h.2.2
    by_cases hk : k = "properties" <;> simp only [decodeXmlProperties, hk, if_true, if_false] <;> first | exact h2 | exact calm_err _
  | (k, .map _) :: rest, h => by
    rw [FilledMap] at h
    have h2 := calm_yamlXmlProperties lib rest h.2.2
    by_cases hk : k = "properties" <;> simp only [decodeXmlProperties, hk, if_true, if_false] <;> first | exact h2 | exact calm_err _
theorem calm_yamlXmlList (lib : YamlLib) : ∀ items, FilledList items → Calm (decodeXmlList lib items)
  | [], _ => by rw [decodeXmlList]; exact calm_ok _
  | y :: rest, h => by
    rw [FilledList] at h
    have h1 := calm_yamlXmlProp lib y h.2.1
    have h2 := calm_yamlXmlList lib rest h.2.2
    have h0 := h.1
    cases y <;> simp only [decodeXmlList] <;> first | exact absurd rfl h0 | exact calm_bind h1 fun _ => calm_bind h2 fun _ => calm_ok _
end

theorem calm_input (lib : YamlLib) {y : Yaml} (hn : y ≠ .null) (hy : Filled y) : Calm (decodeInput lib y) := by
  refine calm_bind (calm_componentType hn) (fun t => ?_)
  split
  · refine calm_bind ?_ (fun _ => calm_ok _)
    unfold decodeCsv; calm_settings
    rename_i he _ _ _ _ _ _
    exact calm_bind (calm_settingList he (calm_column lib)) (fun _ => calm_ok _)
  · refine calm_bind ?_ (fun _ => calm_ok _)
    unfold decodeXml; calm_settings
    rename_i he _ _ _
    exact calm_bind (calm_yamlXmlProperties lib _ he) (fun _ => calm_bind calm_settingText fun _ => calm_ok _)
  · refine calm_bind ?_ (fun _ => calm_ok _)
    unfold decodeJsonInput; calm_settings
  · exact calm_err _

theorem calm_index (lib : YamlLib) {y : Yaml} (hn : y ≠ .null) (hy : Filled y) : Calm (decodeIndex lib y) := by
  refine calm_bind (calm_componentType hn) (fun t => ?_)
  split
  · refine calm_bind ?_ (fun _ => calm_ok _)
    unfold decodeMapIndex; calm_settings
  · refine calm_bind ?_ (fun _ => calm_ok _)
    unfold decodeWildcard; calm_settings
  · refine calm_bind ?_ (fun _ => calm_ok _)
    unfold decodeSqlite; calm_settings
    rename_i he _ _ _
    refine calm_bind (calm_settingList he (fun z hz => ?_)) (fun _ => calm_ok _)
    unfold decodeSqliteProperty; calm_settings
  · refine calm_bind ?_ (fun _ => calm_ok _)
    unfold decodeFts5; calm_settings
  · refine calm_bind ?_ (fun _ => calm_ok _)
    unfold decodeNoop; calm_settings
  · exact calm_err _

theorem calm_sort (lib : YamlLib) (y : Yaml) (hy : Filled y) : Calm (decodeSort lib y) := by unfold decodeSort; calm_settings

theorem calm_match (lib : YamlLib) (y : Yaml) (hy : Filled y) : Calm (decodeMatch lib y) := by unfold decodeMatch; calm_settings

theorem calm_parameter (lib : YamlLib) (y : Yaml) (hy : Filled y) : Calm (decodeParameter lib y) := by unfold decodeParameter; calm_settings

mutual
theorem calm_yamlRelationship (lib : YamlLib) : ∀ y, Filled y → Calm (decodeRelationship lib y)
  | .map entries, hy => by
    rw [Filled] at hy
    have hr := calm_yamlRelationships lib entries hy
    rw [decodeRelationship]
    refine calm_struct (y := .map entries) (by rw [Filled]; exact hy) fun e he => ?_
    exact calm_bind calm_settingText fun _ => calm_bind calm_settingBool fun _ => calm_bind calm_settingUint fun _ => calm_bind (calm_settingList he (calm_sort lib)) fun _ =>
      calm_bind (calm_settingList he (calm_match lib)) fun _ => calm_bind hr fun _ => calm_ok _
  | .null, _ => by rw [decodeRelationship]; exact calm_ok _
  | .text _, _ => by rw [decodeRelationship] <;> first | exact calm_err _ | simp
  | .bool _ _, _ => by rw [decodeRelationship] <;> first | exact calm_err _ | simp
  | .int _ _, _ => by rw [decodeRelationship] <;> first | exact calm_err _ | simp
  | .float _ _ _, _ => by rw [decodeRelationship] <;> first | exact calm_err _ | simp
  | .list _, _ => by rw [decodeRelationship] <;> first | exact calm_err _ | simp
theorem calm_yamlRelationships (lib : YamlLib) : ∀ entries, FilledMap entries → Calm (decodeRelationships lib entries)
  | [], _ => by rw [decodeRelationships]; exact calm_ok _
  | (k, .map m) :: rest, h => by
    rw [FilledMap, Filled] at h
    have h2 := calm_yamlRelationships lib rest h.2.2
    by_cases hk : k = "relationships"
    · have h1 := calm_yamlRelationshipMap lib [] m h.1 (h.2.1 (.inr hk) m rfl)
      simp only [decodeRelationships, hk, if_true]; exact h1
    · simp only [decodeRelationships, hk, if_false]; exact h2
  | (k, .null) :: rest, h => by
    rw [FilledMap] at h
    have h2 := calm_yamlRelationships lib rest h.2.2
    by_cases hk : k = "relationships" <;> simp only [decodeRelationships, hk, if_true, if_false] <;> first | exact h2 | exact calm_ok _
  | (k, .text _) :: rest, h => by
    rw [FilledMap] at h
    have h2 := calm_yamlRelationships lib rest h.2.2
    by_cases hk : k = "relationships" <;> simp only [decodeRelationships, hk, if_true, if_false] <;> first | exact h2 | exact calm_err _
  | (k, .bool _ _) :: rest, h => by
    rw [FilledMap] at h
    have h2 := calm_yamlRelationships lib rest h.2.2
    by_cases hk : k = "relationships" <;> simp only [decodeRelationships, hk, if_true, if_false] <;> first | exact h2 | exact calm_err _
  | (k, .int _ _) :: rest, h => by
    rw [FilledMap] at h
    have h2 := calm_yamlRelationships lib rest h.2.2
    by_cases hk : k = "relationships" <;> simp only [decodeRelationships, hk, if_true, if_false] <;> first | exact h2 | exact calm_err _
  | (k, .float _ _ _) :: rest, h => by
    rw [FilledMap] at h
    have h2 := calm_yamlRelationships lib rest h.2.2
    by_cases hk : k = "relationships" <;> simp only [decodeRelationships, hk, if_true, if_false] <;> first | exact h2 | exact calm_err _
  | (k, .list _) :: rest, h => by
    rw [FilledMap] at h
    have h2 := calm_yamlRelationships lib rest h.2.2
    by_cases hk : k = "relationships" <;> simp only [decodeRelationships, hk, if_true, if_false] <;> first | exact h2 | exact calm_err _
theorem calm_yamlRelationshipMap (lib : YamlLib) : ∀ seen entries, FilledMap entries → (∀ e ∈ entries, e.2 ≠ Yaml.null) → Calm (decodeRelationshipMap lib seen entries)
  | _, [], _, _ => by rw [decodeRelationshipMap]; exact calm_ok _
  | seen, (k, y) :: rest, h, hn => by
    rw [FilledMap] at h
    have h1 := calm_yamlRelationship lib y h.1
    have h2 := calm_yamlRelationshipMap lib (k :: seen) rest h.2.2 (fun e he => hn e (.tail _ he))
    have h0 := hn _ (.head _)
    cases y <;> simp only [decodeRelationshipMap] <;> first | exact absurd rfl h0 |
      exact calm_bind (calm_require _ _) fun _ => calm_bind h1 fun _ => calm_bind h2 fun _ => calm_ok _
end

theorem calm_parameters (lib : YamlLib) {e : List (String × Yaml)} (he : FilledMap e) : Calm (setting e "parameters" (asMap (asPresent (decodeParameter lib))) []) := by
  refine calm_setting fun y hy => calm_map fun entries hm x hx => ?_
  obtain ⟨h1, h2⟩ := filledMap_mem he _ _ hy
  subst hm
  rw [Filled] at h1
  exact calm_present (h2 (.inl rfl) _ rfl x hx) (calm_parameter lib _ (filledMap_mem h1 x.1 x.2 hx).1)

theorem calm_output (lib : YamlLib) {y : Yaml} (hn : y ≠ .null) (hy : Filled y) : Calm (decodeOutput lib y) := by
  refine calm_bind (calm_componentType hn) (fun t => ?_)
  split
  · refine calm_bind ?_ (fun _ => calm_ok _)
    unfold decodeGraphql; calm_settings
  · refine calm_bind ?_ (fun _ => calm_ok _)
    unfold decodeArrayOutput; calm_settings
    rename_i he _ _
    refine calm_bind (calm_setting fun z hz => ?_) fun _ => calm_bind (calm_setting fun z hz => ?_) fun _ => calm_bind (calm_parameters lib he) fun _ =>
      calm_bind (calm_yamlRelationships lib _ he) fun _ => calm_ok _
    · have := (filledMap_mem he _ _ hz).1
      unfold decodeLimit; calm_settings
    · have := (filledMap_mem he _ _ hz).1
      unfold decodeOffset; calm_settings
  · refine calm_bind ?_ (fun _ => calm_ok _)
    unfold decodeObjectOutput; calm_settings
    rename_i he _ _
    exact calm_bind (calm_parameters lib he) fun _ => calm_bind (calm_yamlRelationships lib _ he) fun _ => calm_ok _
  · exact calm_err _

theorem calm_service (lib : YamlLib) {y : Yaml} (hn : y ≠ .null) (hy : Filled y) : Calm (decodeService lib y) := by
  refine calm_bind (calm_componentType hn) (fun t => ?_)
  split
  · unfold decodeHttp; calm_settings
    rename_i he _
    refine calm_bind (calm_setting fun z hz => calm_optional ?_) fun _ => calm_bind (calm_setting fun z hz => calm_optional ?_) fun _ => calm_bind calm_settingText fun _ =>
      calm_bind (calm_settingList he fun z hz => ?_) fun _ => calm_ok _
    · have := (filledMap_mem he _ _ hz).1
      unfold decodeListen; calm_settings
    · have := (filledMap_mem he _ _ hz).1
      unfold decodeHttps; calm_settings
    · unfold decodeRoute; calm_settings
  · exact calm_err _

theorem calm_document (lib : YamlLib) {y : Yaml} (hy : Filled y) : Calm (decodeConfig lib y) := by
  refine calm_struct hy fun e he => ?_
  have hl : ∀ {α : Type} {key : String} {decode : Yaml → Res α}, (∀ {y}, y ≠ .null → Filled y → Calm (decode y)) → Calm (setting e key (asList decode) []) :=
    fun h => calm_setting fun y hy => calm_list (filledMap_mem he _ _ hy).1 fun _ => h
  exact calm_bind (hl (calm_parser lib)) fun _ => calm_bind (hl (calm_input lib)) fun _ => calm_bind (hl (calm_index lib)) fun _ => calm_bind (hl (calm_service lib)) fun _ =>
    calm_bind (hl (calm_output lib)) fun _ => calm_ok _

end Rodb
