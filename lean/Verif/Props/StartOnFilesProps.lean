import Verif.Props.ConfigProps
import Verif.Props.WellFormedProps
import Verif.Model.Inputs

namespace Rodb
open Rodb.Spec

/-- The file of an input. -/
def Spec.fileOf : InputDecl → String
  | .csv d => d.path
  | .xml d => d.path
  | .json d => d.path

theorem delimiter_there {lib : ConfigLib} {p : ParsedConfig} {c : Config} (h : loadConfig lib p = .ok c) {n : String} {d : CsvDecl} (hd : (n, .csv d) ∈ c.inputs) :
    d.delimiter ≠ "" := by
  have hn := (loadConfig_ok h).2.2.1.1
  obtain ⟨x, _, _, hx⟩ := ((C77_defaults lib p c h n).2.1 (.csv d)).1 (mapGet_nodup_mem hn hd)
  cases x with
  | csv e =>
    simp only [completedInput, InputDecl.csv.injEq] at hx
    subst hx
    simp only [orText]
    split <;> simp_all
  | xml e => simp [completedInput] at hx
  | json e => simp [completedInput] at hx

theorem comma_there {d : CsvDecl} (h : d.delimiter ≠ "") : ∃ comma, d.comma = .ok comma := by
  unfold CsvDecl.comma
  cases hl : d.delimiter.toList with
  | nil => exact absurd (String.toList_eq_nil_iff.1 hl) h
  | cons a l => exact ⟨_, rfl⟩

/-- **C58** An input of a loaded configuration can be opened exactly when its file is there, whatever the file holds (it may be empty, and it need not be a CSV,
JSON or XML text). -/
theorem C58_opens (lib : ConfigLib) (p : ParsedConfig) (c : Config) (h : loadConfig lib p = .ok c) (rest : StartLib) (files : Files) :
    (∀ n d, (n, .csv d) ∈ c.inputs → ((rest.onFiles files).openCsv d = .ok () ↔ ∃ content, files.content d.path = some content)) ∧
    ∀ n d, (n, d) ∈ c.inputs → ∀ d', SameFile d d' → ∀ types parsers,
      ((∃ input, (rest.onFiles files).input d' types parsers = .ok input) ↔ ∃ content, files.content (fileOf d) = some content) := by
  refine ⟨fun n d hd => ?_, fun n d hd d' hs types parsers => ?_⟩
  · simp only [StartLib.onFiles, openCsvFile]
    cases files.content d.path <;> simp
  · simp only [StartLib.onFiles]
    cases d with
    | csv d =>
      obtain ⟨columns, rfl⟩ := hs
      obtain ⟨comma, hc⟩ := comma_there (delimiter_there h hd)
      have hc : CsvDecl.comma { d with columns := columns } = .ok comma := hc
      simp only [openInput, openCsvInput, fileOf, hc]
      cases files.content d.path <;> simp [bind, Except.bind]
    | xml d =>
      obtain rfl : d' = .xml d := hs
      simp only [openInput, openXmlInput, fileOf]
      cases files.content d.path <;> simp
    | json d =>
      obtain rfl : d' = .json d := hs
      simp only [openInput, openJsonInput, fileOf]
      cases files.content d.path <;> simp

/-- **C58** A loaded configuration starts on the files of its inputs if they are there, if detected columns have different non-empty names, if it has no GraphQL output, if the paths of
its routes are plain texts with placeholders named after parameters of the output, and if the character sets, the indexes and the addresses are available.
Partial: see `C58_starts_partial`. -/
theorem C58_on_files_partial (lib : ConfigLib) (p : ParsedConfig) (c : Config) (h : loadConfig lib p = .ok c) (c' : Config) (ho : Reordered c c')
    (hg : ∀ n m, (n, OutputDecl.graphql m) ∉ c.outputs) (hroutes : ∀ n s, (n, s) ∈ c.services → ∀ r ∈ s.routes, GoodRoute c r)
    (rest : StartLib) (files : Files)
    (hfiles : ∀ n d, (n, d) ∈ c.inputs → ∃ content, files.content (fileOf d) = some content)
    (hfirst : ∀ n d, (n, .csv d) ∈ c.inputs → d.autodetectColumns = true → ∃ row, firstCsvRow files d = .ok row ∧ row.Nodup ∧ "" ∉ row)
    (hcharset : ∀ n p charset, (n, p) ∈ c.parsers → p.kind = .string charset → charset ≠ "" → ∃ f, rest.charset charset = .ok f)
    (hmap : ∀ n d, (n, IndexDecl.map d) ∈ c.indexes → ∀ e, (d.input, e) ∈ c.inputs → ∀ e', SameFile e e' → ∀ types parsers input,
      openInput files e' types parsers = .ok input → ∃ index, newMap { properties := d.properties } input = .ok index)
    (hindex : ∀ n i, (n, i) ∈ c.indexes → ∀ input, ∃ index, rest.index i input = .ok index)
    (hlisten : ∀ n s, (n, s) ∈ c.services → rest.listen s = .ok ()) :
    ∃ services, start (rest.onFiles files) c' = .ok services := by
  have ho' := C58_opens lib p c h rest files
  exact C58_starts_partial lib p c h c' ho hg hroutes (rest.onFiles files)
    { charset := hcharset
      openCsv := fun n d hd => (ho'.1 n d hd).2 (hfiles n (.csv d) hd)
      firstRow := hfirst
      input := fun n d hd d' hs types parsers => (ho'.2 n d hd d' hs types parsers).2 (hfiles n d hd)
      map := hmap
      index := hindex
      listen := hlisten }

/-! ### An example -/

namespace EmptyFileExample
/-- `people.csv` is there, and empty. -/
def files (decodeJson : JsonDecoder) (lexXml : XmlLexer) (xpath : XPathLib) : Files where
  content path := if path = "people.csv" then some [] else none
  modTimeNs _ := 5
  decodeJson := decodeJson
  lexXml := lexXml
  xpath := xpath
  ahead _ _ := []
  shared _ _ := (0, [], [])
  fetchedXml _ _ := []

/-- The example configuration without its map index, and one route. -/
def parsed : ParsedConfig := { ConfigExample.parsed with
  indexes := []
  services := [{ name := "web", http := some "", https := none, errorsType := "", routes := [⟨"one", "/people/{n}"⟩] }]
  outputs := [.object "one" { input := "people", parameters := [("n", { property := "n", index := "", parser := "amount" })], relationships := [] }] }
def loaded : Config := { ConfigExample.loaded with
  indexes := [("default", .noop "default")]
  services := [("web", { name := "web", http := some "127.0.0.1:0", https := none, errorsType := "application/json", routes := [⟨"one", "/people/{n}"⟩] })]
  outputs := [("one", .object "one" { input := "people", parameters := [("n", { property := "n", index := "default", parser := "amount" })], relationships := [] })] }
theorem loads : loadConfig ConfigExample.lib parsed = .ok loaded := by rfl
end EmptyFileExample

/-- This configuration starts on an empty file. -/
example (parserLib : ParserLib) (decodeJson : JsonDecoder) (lexXml : XmlLexer) (xpath : XPathLib) :
    ∃ services, start ((ConfigExample.startLib parserLib).onFiles (EmptyFileExample.files decodeJson lexXml xpath)) EmptyFileExample.loaded = .ok services := by
  refine C58_on_files_partial _ _ _ EmptyFileExample.loads _ ⟨.refl _, .refl _, .refl _, .refl _, .refl _⟩ ?_ ?_ _ _ ?_ ?_ (ConfigExample.available parserLib).charset
    ?_ (fun _ _ _ _ => ⟨_, rfl⟩) (fun _ _ _ => rfl)
  · intro n m hm
    simp [EmptyFileExample.loaded] at hm
  · intro n s hs r hr
    simp only [EmptyFileExample.loaded, ConfigExample.loaded, List.mem_cons, Prod.mk.injEq, List.not_mem_nil, or_false] at hs
    rw [hs.2] at hr
    simp only [List.mem_cons, List.not_mem_nil, or_false] at hr
    subst hr
    · refine ⟨"/people/".toList, [("n".toList, [])], by decide, ⟨by simp [PlainText], by simp [PlainText], by simp⟩, ?_⟩
      intro o ho p hp
      rw [List.mem_singleton.1 hp]
      have hm : mapGet EmptyFileExample.loaded.outputs "one" = some o := ho
      simp [EmptyFileExample.loaded, ConfigExample.loaded, mapGet] at hm
      subst hm
      refine ⟨{ property := "n", index := "default", parser := "amount" }, rfl, fun parser hparser => ?_⟩
      have : parser = ⟨"amount", .integer ","⟩ := by
        have h : mapGet EmptyFileExample.loaded.parsers "amount" = some parser := hparser
        simp [EmptyFileExample.loaded, ConfigExample.loaded, mapGet] at h
        exact h.symm
      subst this
      simp [HyphenFree]
  · intro n d hd
    simp only [EmptyFileExample.loaded, ConfigExample.loaded, List.mem_cons, Prod.mk.injEq, List.not_mem_nil, or_false] at hd
    rw [hd.2]
    exact ⟨[], rfl⟩
  · intro n d hd ha
    simp only [EmptyFileExample.loaded, ConfigExample.loaded, List.mem_cons, Prod.mk.injEq, InputDecl.csv.injEq, List.not_mem_nil, or_false] at hd
    rw [hd.2] at ha; cases ha
  · intro n d hd
    simp [EmptyFileExample.loaded] at hd

end Rodb
