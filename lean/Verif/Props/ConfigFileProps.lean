import Verif.Proofs.YamlCalm
import Verif.Props.YamlProps
import Verif.Props.WellFormedProps
import Verif.Props.RunningProps
/-
  From the configuration file to the running program.
-/
namespace Rodb
open Spec

theorem loadConfigFile_iff (lib : ConfigFileLib) (config : ConfigLib) (path : String) (c : Config) :
    loadConfigFile lib config path = .ok c ↔ ∃ p, FileDescribes lib path p ∧ loadConfig config p = .ok c := by
  unfold loadConfigFile FileDescribes
  cases hr : lib.read path with
  | none => simp
  | some text =>
    simp only [Option.some.injEq]
    cases hp : lib.parse (expandEnv lib.env text) with
    | none => simp [hp]
    | some y =>
      simp only [bind_ok, decodeConfig_iff]
      constructor
      · rintro ⟨p, h1, h2⟩
        exact ⟨p, ⟨text, y, rfl, hp, h1⟩, h2⟩
      · rintro ⟨p, ⟨_, y', rfl, hy, h1⟩, h2⟩
        rw [hp] at hy
        cases hy
        exact ⟨p, h1, h2⟩

/-- A file describes at most one configuration. -/
theorem Spec.FileDescribes.unique {lib : ConfigFileLib} {path : String} {p q : ParsedConfig} (h1 : FileDescribes lib path p) (h2 : FileDescribes lib path q) : p = q := by
  obtain ⟨t1, y1, a1, b1, c1⟩ := h1
  obtain ⟨t2, y2, a2, b2, c2⟩ := h2
  rw [a1] at a2
  cases a2
  rw [b1] at b2
  cases b2
  rw [← decodeConfig_iff] at c1 c2
  rw [c1] at c2
  cases c2
  rfl

/-- **C93** The configuration file is accepted exactly if, with the values of the environment variables in it, it is a YAML document that describes a well-formed configuration. -/
theorem C93_accepted (lib : ConfigFileLib) (config : ConfigLib) (path : String) :
    (∃ c, loadConfigFile lib config path = .ok c) ↔ ∃ p, FileDescribes lib path p ∧ WellFormed config p := by
  simp only [loadConfigFile_iff, ← C76_accepted config]
  grind

/-- **C93** A program that runs, runs with what its configuration file describes. -/
theorem C93_running (lib : ConfigFileLib) (config : ConfigLib) (start' : StartLib) (path : String) (c c' : Config) (hload : loadConfigFile lib config path = .ok c)
    (hre : Reordered c c') (running : GoMap (String × List Route)) (hstart : start start' c' = .ok running) :
    ∃ p, FileDescribes lib path p ∧ WellFormed config p ∧ ∃ texts env apis, Running config start' p texts env apis running := by
  obtain ⟨p, h1, h2⟩ := (loadConfigFile_iff lib config path c).1 hload
  exact ⟨p, h1, (C76_accepted config p).1 ⟨c, h2⟩, C78_running config start' p c c' h2 hre running hstart⟩

/-- **C93** Every well-formed configuration can be given in a file: if the parser reads `text` as the document with all settings, the file is accepted, and is that configuration. -/
theorem C93_written (lib : ConfigFileLib) (config : ConfigLib) (path : String) (p : ParsedConfig) (hp : Representable p) (hw : WellFormed config p) (text : Bytes)
    (hread : lib.read path = some text) (hparse : lib.parse (expandEnv lib.env text) = some (documentOf p)) :
    FileDescribes lib path p ∧ ∃ c, loadConfigFile lib config path = .ok c ∧ loadConfig config p = .ok c := by
  have h : FileDescribes lib path p := ⟨text, _, hread, hparse, describes_document lib.yaml hp⟩
  obtain ⟨c, hc⟩ := (C76_accepted config p).2 hw
  exact ⟨h, c, (loadConfigFile_iff lib config path c).2 ⟨p, h, hc⟩, hc⟩

/-- **C93** Reading the file never panics, if each of the files that it names exists, does not exist or is a directory, and the document has no empty elements.
Partial: see `C93_false` for empty elements, and `C74_false`. -/
theorem C93_no_panic_partial (lib : ConfigFileLib) (config : ConfigLib) (path : String)
    (hstat : ∀ p, FileDescribes lib path p → ∀ f ∈ filesOf p, config.stat f ≠ .failed)
    (hfilled : ∀ text y, lib.read path = some text → lib.parse (expandEnv lib.env text) = some y → Filled y) :
    (∃ c, loadConfigFile lib config path = .ok c) ∨ ∃ message, loadConfigFile lib config path = .error (.err message) := by
  have hc : Calm (loadConfigFile lib config path) := by
    unfold loadConfigFile
    split
    · exact calm_err _
    · rename_i text hr
      split
      · exact calm_err _
      · rename_i y hp
        cases hd : decodeConfig lib.yaml y with
        | error e => intro e' he; cases he; exact calm_document lib.yaml (hfilled text y hr hp) _ hd
        | ok p => exact loadConfig_calm (hstat p ⟨text, y, hr, hp, (decodeConfig_iff lib.yaml y p).1 hd⟩)
  cases hl : loadConfigFile lib config path with
  | ok c => exact .inl ⟨c, rfl⟩
  | error e =>
    obtain ⟨m, rfl⟩ := hc e hl
    exact .inr ⟨m, rfl⟩

/-- **C93** is false with an empty element: a file with an empty component panics. -/
theorem C93_false (lib : ConfigFileLib) (config : ConfigLib) (path part : String) (text : Bytes) (hread : lib.read path = some text)
    (hpart : part ∈ ["parsers", "inputs", "indexes", "outputs", "services"]) (hparse : lib.parse (expandEnv lib.env text) = some (.map [(part, .list [.null])])) :
    ∃ message, loadConfigFile lib config path = .error (.panic message) := by
  refine ⟨"invalid memory address or nil pointer dereference", ?_⟩
  simp only [loadConfigFile, hread, hparse]
  simp only [List.mem_cons, List.not_mem_nil, or_false] at hpart
  rcases hpart with rfl | rfl | rfl | rfl | rfl <;> rfl

namespace ConfigFileExample

/-- A file with the text `$P`, where the variable `P` is the text of a document: that of the example (`good`), or that of a list with an empty element. -/
def lib (good : Bool) : ConfigFileLib where
  read path := if path = "rodb.yaml" then some [36, 80] else none
  env name := if name = [80] then [112] else []
  parse text := if text = [112] then some (if good then documentOf ConfigExample.parsed else .map [("inputs", .list [.null])]) else none
  yaml := YamlExample.lib

theorem representable : Representable ConfigExample.parsed :=
  ⟨by simp [ConfigExample.parsed], by simp [ConfigExample.parsed, AllInRange], by simp [ConfigExample.parsed, AllInRange, InRange]⟩

theorem reads (good : Bool) : (lib good).read "rodb.yaml" = some [36, 80] := by simp [lib]

theorem parses (good : Bool) : (lib good).parse (expandEnv (lib good).env [36, 80]) = some (if good then documentOf ConfigExample.parsed else .map [("inputs", .list [.null])]) := by
  simp [lib, expandEnv, expandLoop, shellName, isShellSpecial, isAlphaNum]

/-- The hypotheses of `C93_written`; the file is accepted, and is the configuration of the example. -/
theorem accepted : FileDescribes (lib true) "rodb.yaml" ConfigExample.parsed ∧ loadConfigFile (lib true) ConfigExample.lib "rodb.yaml" = .ok ConfigExample.loaded := by
  have hw := (C76_accepted ConfigExample.lib ConfigExample.parsed).1 ⟨_, ConfigExample.loads⟩
  obtain ⟨h1, c, h2, h3⟩ := C93_written (lib true) ConfigExample.lib "rodb.yaml" _ representable hw _ (reads true) (by rw [parses]; rfl)
  rw [ConfigExample.loads] at h3
  cases h3
  exact ⟨h1, h2⟩

/-- Those of `C93_running`: the program starts with it. -/
example (parserLib : ParserLib) : ∃ running, start (ConfigExample.startLib parserLib) ConfigExample.loaded = .ok running ∧
    ∃ p, FileDescribes (lib true) "rodb.yaml" p ∧ WellFormed ConfigExample.lib p ∧
      ∃ texts env apis, Running ConfigExample.lib (ConfigExample.startLib parserLib) p texts env apis running := by
  have h : ∃ running, start (ConfigExample.startLib parserLib) ConfigExample.loaded = .ok running := ⟨_, rfl⟩
  obtain ⟨running, h⟩ := h
  exact ⟨running, h, C93_running _ _ _ _ _ _ accepted.2 ⟨.refl _, .refl _, .refl _, .refl _, .refl _⟩ running h⟩

/-- Those of `C93_no_panic_partial`. -/
example : (∀ p, FileDescribes (lib true) "rodb.yaml" p → ∀ f ∈ filesOf p, ConfigExample.lib.stat f ≠ .failed) ∧ ∀ text y, (lib true).read "rodb.yaml" = some text → (lib true).parse (expandEnv (lib true).env text) = some y → Filled y := by
  refine ⟨(fun _ _ _ _ h => (by cases h)), ?_⟩
  intro text y h1 h2
  rw [reads] at h1
  cases h1
  rw [parses] at h2
  cases h2
  simp [documentOf, writeList, ConfigExample.parsed, writeParser, writeInput, writeIndex, writeOutput, writeService, Filled, FilledList, FilledMap, writeOptional, writeBool,
    writeColumn, writeMap, writeParameter, writeRelationships, writeRelationship, writeListen, writeRoute, writeSort, writeMatch, writeNumber]

/-- Those of `C93_false`. -/
example (config : ConfigLib) : ∃ message, loadConfigFile (lib false) config "rodb.yaml" = .error (.panic message) :=
  C93_false (lib false) config "rodb.yaml" "inputs" _ (reads false) (by simp) (by rw [parses]; rfl)

end ConfigFileExample

end Rodb
