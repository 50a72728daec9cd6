import Verif.Proofs.YamlWritten
/-
  From a YAML document to the configuration.
-/
namespace Rodb
open Spec

/-- **C92** A document is read as a configuration exactly if it describes it. -/
theorem C92_document (lib : YamlLib) (y : Yaml) (p : ParsedConfig) : decodeConfig lib y = .ok p ↔ Describes lib y p := decodeConfig_iff lib y p

/-- **C92** Every configuration can be written, and is read as it was written. -/
theorem C92_written_is_read (lib : YamlLib) (p : ParsedConfig) (h : Representable p) : decodeConfig lib (documentOf p) = .ok p :=
  (decodeConfig_iff lib _ _).2 (describes_document lib h)

/-! ### Other settings are refused -/

/-- **C92** The file has the five lists only, each at most once, and each component in them is a mapping with a documented `type` and the settings documented for this type only, each
at most once (three fields of the program, which have no setting, are the exception). -/
theorem C92_only_documented_settings (lib : YamlLib) (y : Yaml) (p : ParsedConfig) (h : decodeConfig lib y = .ok p) :
    (y = .null ∧ p = { parsers := [], inputs := [], indexes := [], outputs := [], services := [] }) ∨
    ∃ entries, y = .map entries ∧ (entries.map (·.1)).Nodup ∧
      ∀ part v, (part, v) ∈ entries → part ∈ ["parsers", "inputs", "indexes", "outputs", "services"] ∧ (v = .null ∨ ∃ components, v = .list components ∧
        ∀ c ∈ components, ∃ type settings fields, (part, type, settings) ∈ documented ∧ c = .map fields ∧ ("type", .text type) ∈ fields ∧ (fields.map (·.1)).Nodup ∧
          ∀ k v, (k, v) ∈ fields → k ∈ settings ∨ k ∈ undocumented) := by
  obtain ⟨e, hs, h1, h2, h3, h4, h5⟩ := (decodeConfig_iff lib y p).1 h
  rcases hs with ⟨hy, he⟩ | ⟨hy, hn, hk⟩
  · subst he
    refine .inl ⟨hy, ?_⟩
    simp only [Setting, List.not_mem_nil, false_and, exists_false, not_false_eq_true, implies_true, true_and, false_or] at h1 h2 h3 h4 h5
    cases p
    simp_all
  · refine .inr ⟨e, hy, hn, fun part v hv => ?_⟩
    have hlist : ∀ {α : Type} {says : Yaml → α → Prop} {vs : List α}, Setting e part (SaysList says) [] vs → v = .null ∨ ∃ components, v = .list components ∧ ∀ c ∈ components, ∃ w, says c w := by
      intro α says vs hs
      rcases hs with ⟨w, hw, h⟩ | ⟨h, _⟩
      · have : w = v := by
          have h1 := mapGet_nodup_mem hn hw
          have h2 := mapGet_nodup_mem hn hv
          rw [h1] at h2
          exact Option.some.inj h2
        subst this
        rcases h with ⟨h, _⟩ | ⟨ys, h, hr⟩
        · exact .inl h
        · exact .inr ⟨ys, h, respectively_mem hr⟩
      · exact absurd hv (h _)
    rcases hk part v hv with hk | ⟨hk, _⟩
    · refine ⟨by simp only [List.mem_cons, List.not_mem_nil, or_false] at hk ⊢; rcases hk with h | h | h | h | h <;> simp [h], ?_⟩
      simp only [List.mem_cons, List.not_mem_nil, or_false] at hk
      rcases hk with rfl | rfl | rfl | rfl | rfl
      · refine (hlist h1).imp id (fun ⟨cs, hc, h⟩ => ⟨cs, hc, fun c hm => ?_⟩)
        obtain ⟨⟨name, kind⟩, hd⟩ := h c hm
        cases kind <;> exact documented_of hd.1 (by unfold documented; simp) (fun _ => id) (by simp [undocumented]) (let ⟨_, e, he, _⟩ := hd; ⟨e, he⟩)
      · refine (hlist h2).imp id (fun ⟨cs, hc, h⟩ => ⟨cs, hc, fun c hm => ?_⟩)
        obtain ⟨d, hd⟩ := h c hm
        cases d <;> exact documented_of hd.1 (by simp [documented]; exact rfl) (by simp) (by simp [undocumented]) (let ⟨_, e, he, _⟩ := hd; ⟨e, he⟩)
      · refine (hlist h3).imp id (fun ⟨cs, hc, h⟩ => ⟨cs, hc, fun c hm => ?_⟩)
        obtain ⟨d, hd⟩ := h c hm
        cases d <;> exact documented_of hd.1 (by simp [documented]; exact rfl) (by simp) (by simp [undocumented]) (let ⟨_, e, he, _⟩ := hd; ⟨e, he⟩)
      · refine (hlist h4).imp id (fun ⟨cs, hc, h⟩ => ⟨cs, hc, fun c hm => ?_⟩)
        obtain ⟨d, hd⟩ := h c hm
        exact documented_of hd.1 (by simp [documented]; exact rfl) (by simp) (by simp [undocumented]) (let ⟨_, e, he, _⟩ := hd; ⟨e, he⟩)
      · refine (hlist h5).imp id (fun ⟨cs, hc, h⟩ => ⟨cs, hc, fun c hm => ?_⟩)
        obtain ⟨d, hd⟩ := h c hm
        cases d <;> exact documented_of hd.1 (by simp [documented]; exact rfl) (by simp) (by simp [undocumented]) (let ⟨_, e, he, _⟩ := hd; ⟨e, he⟩)
    · cases hk

/-! ### Examples -/

namespace YamlExample

def lib : YamlLib := { hidden := fun _ _ => false }

/-- The file
```
inputs:
  - name: people
    type: csv
    path: people.csv
    autodetectColumns: true
indexes:
  - {name: ids, type: map, input: people, properties: [id]}
outputs:
  - {name: list, type: jsonArray, input: people, limit: {max: 50}, parameters: {id: {property: id, index: ids, parser: string}}}
services:
  - {name: server, type: http, http: {listen: ":8080"}, routes: [{path: /people, output: list}]}
``` -/
def document : Yaml :=
  .map [
    ("inputs", .list [.map [("name", .text "people"), ("type", .text "csv"), ("path", .text "people.csv"), ("autodetectColumns", .bool true "true")]]),
    ("indexes", .list [.map [("name", .text "ids"), ("type", .text "map"), ("input", .text "people"), ("properties", .list [.text "id"])]]),
    ("outputs", .list [.map [("name", .text "list"), ("type", .text "jsonArray"), ("input", .text "people"), ("limit", .map [("max", .int 50 "50")]),
      ("parameters", .map [("id", .map [("property", .text "id"), ("index", .text "ids"), ("parser", .text "string")])])]]),
    ("services", .list [.map [("name", .text "server"), ("type", .text "http"), ("http", .map [("listen", .text ":8080")]),
      ("routes", .list [.map [("path", .text "/people"), ("output", .text "list")]])]])]

def config : ParsedConfig :=
  { parsers := []
    inputs := [.csv { name := "people", path := "people.csv", dieOnInputChange := none, ignoreFirstRow := false, autodetectColumns := true, delimiter := "", columns := [] }]
    indexes := [.map { name := "ids", input := "people", properties := ["id"] }]
    outputs := [.array "list" ⟨"people", { default := 0, max := 50, parameter := "" }, "", [("id", { property := "id", index := "ids", parser := "string" })], []⟩]
    services := [{ name := "server", http := some ":8080", https := none, errorsType := "", routes := [{ output := "list", path := "/people" }] }] }

/-- The document describes the configuration. -/
example : Describes lib document config := (C92_document _ _ _).1 (by rfl)

/-- It is the hypothesis of the last theorem. -/
example : decodeConfig lib document = .ok config := by rfl

/-- The hypothesis of the second one. -/
example : Representable config :=
  ⟨by simp [config], by simp [config, AllInRange], by simp [config]⟩

/-- The document that is written for it has all the settings, but says the same. -/
example : documentOf config ≠ document ∧ decodeConfig lib (documentOf config) = .ok config := ⟨fun h => by injection h with h; simp at h, by rfl⟩

def refused (r : Res ParsedConfig) : Bool :=
  match r with
  | .error (.err _) => true
  | _ => false

/-- A misspelled setting, a setting given twice, an unknown type, a component that is not a mapping: refused. -/
example : refused (decodeConfig lib (.map [("inputs", .list [.map [("type", .text "csv"), ("paht", .text "people.csv")]])])) = true ∧
    refused (decodeConfig lib (.map [("inputs", .list [.map [("type", .text "csv"), ("path", .text "a.csv"), ("path", .text "b.csv")]])])) = true ∧
    refused (decodeConfig lib (.map [("inputs", .list [.map [("type", .text "tsv")]])])) = true ∧
    refused (decodeConfig lib (.map [("inputs", .list [.text "people.csv"])])) = true := by decide +kernel

end YamlExample

end Rodb
