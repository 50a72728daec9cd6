import Verif.Proofs.Explicit
/-
  C126 : defaults that are written out.
-/
namespace Rodb
open Spec

/-- **C126** A configuration is accepted with its defaults written out if and only if it is accepted without them. (From right to left, upper case must be what it is for Go: a text in upper case
is left as it is, and only the empty text becomes empty.) -/
theorem C126_accepted (config : ConfigLib) (p : ParsedConfig) :
    ((∃ c, loadConfig config p = .ok c) → ∃ c', loadConfig config (explicit config p) = .ok c') ∧
    ((∀ s, toUpper config (toUpper config s) = toUpper config s) → (∀ s, toUpper config s = "" → s = "") →
      (∃ c', loadConfig config (explicit config p) = .ok c') → ∃ c, loadConfig config p = .ok c) :=
  ⟨fun h => (C76_accepted config _).2 (explicit_wellFormed ((C76_accepted config p).1 h)),
   fun hup hempty h => (C76_accepted config _).2 (wellFormed_of_explicit hup hempty ((C76_accepted config _).1 h))⟩

/-- **C126** Of two configurations that say the same, whichever defaults each writes out and in whichever order, both are accepted or none. -/
theorem C126_both_accepted (config : ConfigLib) (hup : ∀ s, toUpper config (toUpper config s) = toUpper config s) (hempty : ∀ s, toUpper config s = "" → s = "") (p p' : ParsedConfig)
    (h : SaysTheSame config p p') : (∃ c, loadConfig config p = .ok c) ↔ ∃ c', loadConfig config p' = .ok c' := by
  simp only [C76_accepted]
  exact ⟨fun hw => wellFormed_of_explicit hup hempty (DeclaredInOrder.wellFormed ⟨h.parsers, h.inputs, h.indexes, h.services, h.outputs⟩ (explicit_wellFormed hw)),
    fun hw => wellFormed_of_explicit hup hempty (DeclaredInOrder.wellFormed ⟨h.parsers.symm, h.inputs.symm, h.indexes.symm, h.services.symm, h.outputs.symm⟩ (explicit_wellFormed hw))⟩

theorem loaded_explicit {config : ConfigLib} {p : ParsedConfig} {c : Config} (hc : loadConfig config p = .ok c) (n : String) :
    (∀ y, mapGet c.parsers n = some y ↔ y ∈ (explicit config p).parsers ∧ y.name = n) ∧
    (∀ y, mapGet c.inputs n = some y ↔ y ∈ (explicit config p).inputs ∧ y.name = n) ∧
    (∀ y, mapGet c.indexes n = some y ↔ y ∈ (explicit config p).indexes ∧ y.name = n) ∧
    (∀ y, mapGet c.services n = some y ↔ y ∈ (explicit config p).services ∧ y.name = n) ∧
    (∀ y, mapGet c.outputs n = some y ↔ y ∈ (explicit config p).outputs ∧ y.name = n) := by
  obtain ⟨h1, h2, h3, h4, h5⟩ := C77_defaults config p c hc n
  refine ⟨fun y => ?_, fun y => ?_, fun y => ?_, fun y => ?_, fun y => ?_⟩
  · rw [h1 y, mem_explicit_parsers]
    constructor
    · rintro ⟨x, hx, rfl⟩
      have e : (completedParser x).name = n := by
        rw [completedParser_name']
        rcases hx with ⟨_, e⟩ | ⟨_, _, e⟩ <;> exact e
      exact ⟨⟨x, by rw [e]; exact hx, rfl⟩, e⟩
    · rintro ⟨h, rfl⟩
      exact h
  · rw [h2 y]
    simp only [explicit, List.mem_map]
    exact ⟨fun ⟨x, hx, hn, e⟩ => ⟨⟨x, hx, e.symm⟩, by rw [e, completedInput_name', hn]⟩, fun ⟨⟨x, hx, e⟩, hn⟩ => ⟨x, hx, by rw [← hn, ← e, completedInput_name'], e.symm⟩⟩
  · rw [h3 y, mem_explicit_indexes]
    constructor
    · rintro ⟨x, hx, rfl⟩
      have e : (completedIndex config x).name = n := by
        rw [completedIndex_name']
        rcases hx with ⟨_, e⟩ | ⟨_, _, e⟩ <;> exact e
      exact ⟨⟨x, by rw [e]; exact hx, rfl⟩, e⟩
    · rintro ⟨h, rfl⟩
      exact h
  · rw [h4 y]
    simp only [explicit, List.mem_map]
    exact ⟨fun ⟨x, hx, hn, e⟩ => ⟨⟨x, hx, e.symm⟩, by rw [e]; exact hn⟩, fun ⟨⟨x, hx, e⟩, hn⟩ => ⟨x, hx, by rw [← hn, ← e]; rfl, e.symm⟩⟩
  · rw [h5 y]
    simp only [explicit, List.mem_map]
    exact ⟨fun ⟨x, hx, hn, e⟩ => ⟨⟨x, hx, e.symm⟩, by rw [e, completedOutput_name', hn]⟩, fun ⟨⟨x, hx, e⟩, hn⟩ => ⟨x, hx, by rw [← hn, ← e, completedOutput_name'], e.symm⟩⟩

/-- **C126** Two accepted configurations that say the same are loaded with the same components. -/
theorem C126_loaded (config : ConfigLib) (p p' : ParsedConfig) (h : SaysTheSame config p p') (c c' : Config) (hc : loadConfig config p = .ok c) (hc' : loadConfig config p' = .ok c') :
    Reordered c c' := by
  obtain ⟨_, r1, r2, r3, r4, r5, _, _⟩ := loadConfig_ok hc
  obtain ⟨_, t1, t2, t3, t4, t5, _, _⟩ := loadConfig_ok hc'
  have k := loaded_explicit hc
  have k' := loaded_explicit hc'
  constructor
  · exact perm_of_mapGet (fun n => Option.ext fun y => by rw [(k n).1 y, (k' n).1 y, h.parsers.mem_iff]) r1.1 t1.1
  · exact perm_of_mapGet (fun n => Option.ext fun y => by rw [(k n).2.1 y, (k' n).2.1 y, h.inputs.mem_iff]) r2.1 t2.1
  · exact perm_of_mapGet (fun n => Option.ext fun y => by rw [(k n).2.2.1 y, (k' n).2.2.1 y, h.indexes.mem_iff]) r3.1 t3.1
  · exact perm_of_mapGet (fun n => Option.ext fun y => by rw [(k n).2.2.2.1 y, (k' n).2.2.2.1 y, h.services.mem_iff]) r4.1 t4.1
  · exact perm_of_mapGet (fun n => Option.ext fun y => by rw [(k n).2.2.2.2 y, (k' n).2.2.2.2 y, h.outputs.mem_iff]) r5.1 t5.1

theorem scannedIndex_none (x : IndexDecl) : scannedIndex (fun _ => false) x = x := by
  cases x <;> rfl

theorem withoutMaps_none (p : ParsedConfig) : withoutMaps (fun _ => false) p = p := by
  cases p with
  | mk parsers inputs indexes services outputs =>
    simp only [withoutMaps]
    congr 1
    rw [List.map_congr_left (fun x _ => scannedIndex_none x), List.map_id']

mutual
theorem plainMatches_none {inputs : GoMap Input} : ∀ (r : Relationship) {parent : String} {names : List String}, PlainMatches inputs (fun _ => false) parent names r
  | .mk input isArray limit sort matching relationships, parent, names => by
    simp only [PlainMatches]
    exact ⟨fun _ _ h => (nomatch h), allPlainMatches_none relationships⟩
theorem allPlainMatches_none {inputs : GoMap Input} : ∀ (l : List (String × Relationship)) {parent : String} {names : List String}, AllPlainMatches inputs (fun _ => false) parent names l
  | [], _, _ => by simp only [AllPlainMatches]
  | (_, r) :: rest, _, _ => by
    simp only [AllPlainMatches]
    exact ⟨plainMatches_none r, allPlainMatches_none rest⟩
end

/-- **C126** Two accepted configurations that say the same run in the same way: if the program starts with one, it starts with the other, has the same services, and each answers every request in
the same way, body and status. -/
theorem C126_answers (config : ConfigLib) (p p' : ParsedConfig) (h : SaysTheSame config p p') (c c' : Config) (hc : loadConfig config p = .ok c) (hc' : loadConfig config p' = .ok c')
    (rest : StartLib) (files : Files) (hsort : SortContract rest.sort) (hvisit : ∀ path (α : Type) (l : List α), (rest.visit path l).Perm l) (d d' : Config) (ho : Reordered c d)
    (ho' : Reordered c' d') (running : GoMap (String × List Route)) (hstart : start (rest.onFiles files) d = .ok running) :
    ∃ running', start (rest.onFiles files) d' = .ok running' ∧ (∀ name, mapGet running' name = none ↔ mapGet running name = none) ∧
      ∀ name errorsType routes, mapGet running name = some (errorsType, routes) → ∃ routes', mapGet running' name = some (errorsType, routes') ∧
        ∀ (service : ServiceLib) old visit method contentType target body,
          serveTarget service errorsType routes' old visit method contentType target body = serveTarget service errorsType routes old visit method contentType target body := by
  have hr := C126_loaded config p p' h c c' hc hc'
  have ho2 : Reordered c d' := ⟨hr.parsers.trans ho'.parsers, hr.inputs.trans ho'.inputs, hr.indexes.trans ho'.indexes, hr.services.trans ho'.services, hr.outputs.trans ho'.outputs⟩
  obtain ⟨_, _, _, _, k⟩ := C124_answers config p (fun _ => false) rfl c c hc (by rw [withoutMaps_none]; exact hc) rest files hsort hvisit d d' ho ho2 running hstart
  exact k (fun _ _ h => (nomatch h)) (fun _ _ _ _ => allPlainMatches_none _)

/-! ### Example -/

namespace ExplicitExample
/-- Some of the defaults of the example are written out, a parser that need not be declared is declared, and the outputs are in the other order. -/
def written : ParsedConfig where
  parsers := [⟨"words", .split (some " ") (some false) "string"⟩, ⟨"float", .float "." ""⟩, ⟨"amount", .integer ","⟩]
  inputs := [.csv { name := "people", path := "people.csv", dieOnInputChange := some true, ignoreFirstRow := true, autodetectColumns := false, delimiter := ",",
                    columns := [⟨"n", "amount"⟩, ⟨"s", ""⟩] }]
  indexes := [.noop "default", .map { name := "map", input := "people", properties := ["n"] }]
  services := [{ name := "web", http := some "", https := none, errorsType := "application/json", routes := [⟨"list", "/people"⟩, ⟨"one", "/people/{n}"⟩] }]
  outputs := [.object "one" { input := "people", parameters := [("n", { property := "n", index := "default", parser := "amount" })],
                              relationships := [("same", .mk "people" true 0 [⟨"n", some true⟩] [{ parentProperty := "s", childProperty := "s", childIndex := "" }] [])] },
              .array "list" { input := "people", limit := ⟨100, 0, ""⟩, offsetParameter := "offset",
                              parameters := [("n", { property := "n", index := "map", parser := "amount" })], relationships := [] }]

theorem same : SaysTheSame ConfigExample.lib ConfigExample.parsed written where
  parsers := by
    show List.Perm (α := ParserDecl) [⟨"amount", .integer ","⟩, ⟨"words", .split (some " ") (some false) "string"⟩, ⟨"string", .string ""⟩, ⟨"integer", .integer ""⟩, ⟨"float", .float "." ""⟩,
      ⟨"boolean", .boolean ["true", "1", "TRUE"] ["false", "0", "FALSE"]⟩, ⟨"json", .json⟩]
      [⟨"words", .split (some " ") (some false) "string"⟩, ⟨"float", .float "." ""⟩, ⟨"amount", .integer ","⟩, ⟨"string", .string ""⟩, ⟨"integer", .integer ""⟩,
      ⟨"boolean", .boolean ["true", "1", "TRUE"] ["false", "0", "FALSE"]⟩, ⟨"json", .json⟩]
    refine (List.Perm.swap _ _ _).trans (.cons _ ?_)
    refine (List.perm_middle (l₁ := [_, _, _])).trans (.cons _ ?_)
    exact .refl _
  inputs := .refl _
  indexes := by
    show List.Perm [IndexDecl.map { name := "map", input := "people", properties := ["n"] }, .noop "default"] [.noop "default", .map { name := "map", input := "people", properties := ["n"] }]
    exact .swap _ _ _
  services := .refl _
  outputs := by
    show List.Perm [completedOutput _, completedOutput _] [completedOutput _, completedOutput _]
    exact .swap _ _ _

theorem loads : ∃ c', loadConfig ConfigExample.lib written = .ok c' := ⟨_, rfl⟩
end ExplicitExample

/-- With some of the defaults written out, the example is answered in the same way. -/
example : ∃ c' running running', loadConfig ConfigExample.lib ExplicitExample.written = .ok c' ∧
    start (UnindexedExample.library.onFiles AddedExample.machine) ConfigExample.loaded = .ok running ∧ start (UnindexedExample.library.onFiles AddedExample.machine) c' = .ok running' ∧
    ∀ name errorsType routes, mapGet running name = some (errorsType, routes) → ∃ routes', mapGet running' name = some (errorsType, routes') ∧
      ∀ (service : ServiceLib) old visit method contentType target body,
        serveTarget service errorsType routes' old visit method contentType target body = serveTarget service errorsType routes old visit method contentType target body := by
  obtain ⟨running, hrun⟩ := UnindexedExample.runs
  obtain ⟨c', hc'⟩ := ExplicitExample.loads
  obtain ⟨running', hs, _, h⟩ := C126_answers ConfigExample.lib _ _ ExplicitExample.same _ c' ConfigExample.loads hc' UnindexedExample.library AddedExample.machine goInsertionSort_contract
    (fun _ _ _ => .refl _) _ _ ⟨.refl _, .refl _, .refl _, .refl _, .refl _⟩ ⟨.refl _, .refl _, .refl _, .refl _, .refl _⟩ running hrun
  exact ⟨c', running, running', hc', hrun, hs, h⟩

/-- The explicit example is accepted, and has seven parsers. -/
example : (∃ c', loadConfig ConfigExample.lib (explicit ConfigExample.lib ConfigExample.parsed) = .ok c') ∧ (explicit ConfigExample.lib ConfigExample.parsed).parsers.length = 7 :=
  ⟨(C126_accepted _ _).1 ⟨_, ConfigExample.loads⟩, by decide⟩

end Rodb
