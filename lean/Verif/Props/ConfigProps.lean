import Verif.Proofs.Startup
import Verif.Proofs.ConfigOrder
/-
  C57-C59, C72-C75: configurations.
-/
namespace Rodb
open Spec

/-! ### An example configuration -/

namespace ConfigExample
/-- Every path is a file, every expression compiles. -/
def lib : ConfigLib := { stat := fun _ => .file, regexpCompiles := fun _ => true, xpathCompiles := fun _ => true, upper := id }

/-- A CSV file of people with a map index, a list and an object output with a relationship to the people of the same city, and
a service with two routes. -/
def parsed : ParsedConfig where
  parsers := [⟨"amount", .integer ","⟩, ⟨"words", .split (some " ") none "string"⟩]
  inputs := [.csv { name := "people", path := "people.csv", dieOnInputChange := none, ignoreFirstRow := true, autodetectColumns := false, delimiter := "",
                    columns := [⟨"n", "amount"⟩, ⟨"s", ""⟩] }]
  indexes := [.map { name := "map", input := "people", properties := ["n"] }]
  services := [{ name := "web", http := some "", https := none, errorsType := "", routes := [⟨"list", "/people"⟩, ⟨"one", "/people/{n}"⟩] }]
  outputs := [.array "list" { input := "people", limit := ⟨0, 0, ""⟩, offsetParameter := "",
                              parameters := [("n", { property := "n", index := "map", parser := "amount" })], relationships := [] },
              .object "one" { input := "people", parameters := [("n", { property := "n", index := "", parser := "amount" })],
                              relationships := [("same", .mk "people" true 0 [⟨"n", none⟩] [{ parentProperty := "s", childProperty := "s", childIndex := "" }] [])] }]

/-- The same after validation, with all the defaults. -/
def loaded : Config where
  parsers := [("amount", ⟨"amount", .integer ","⟩), ("words", ⟨"words", .split (some " ") (some false) "string"⟩), ("string", ⟨"string", .string ""⟩),
    ("integer", ⟨"integer", .integer ""⟩), ("float", ⟨"float", .float "." ""⟩),
    ("boolean", ⟨"boolean", .boolean ["true", "1", "TRUE"] ["false", "0", "FALSE"]⟩), ("json", ⟨"json", .json⟩)]
  inputs := [("people", .csv { name := "people", path := "people.csv", dieOnInputChange := some true, ignoreFirstRow := true, autodetectColumns := false,
                               delimiter := ",", columns := [⟨"n", "amount"⟩, ⟨"s", "string"⟩] })]
  indexes := [("map", .map { name := "map", input := "people", properties := ["n"] }), ("default", .noop "default")]
  services := [("web", { name := "web", http := some "127.0.0.1:0", https := none, errorsType := "application/json",
                         routes := [⟨"list", "/people"⟩, ⟨"one", "/people/{n}"⟩] })]
  outputs := [("list", .array "list" { input := "people", limit := ⟨100, 1000, "limit"⟩, offsetParameter := "offset",
                                           parameters := [("n", { property := "n", index := "map", parser := "amount" })], relationships := [] }),
              ("one", .object "one" { input := "people", parameters := [("n", { property := "n", index := "default", parser := "amount" })],
                                           relationships := [("same", .mk "people" true 0 [⟨"n", some true⟩] [{ parentProperty := "s", childProperty := "s", childIndex := "default" }] [])] })]

theorem loads : loadConfig lib parsed = .ok loaded := by rfl

/-- A machine where everything can be opened: the file of people has two records. -/
def people : Input :=
  { name := "people", size := .ok 12, modTimeNs := .ok 5, fetch := fun _ => .error (.err "none"),
    scan := .ok [.ok { position := 0, all := .ok [("n", .int 1)], get := fun _ => .ok (.int 1) }, .ok { position := 4, all := .ok [("n", .int 2)], get := fun _ => .ok (.int 2) }] }
def startLib (parserLib : ParserLib) : StartLib where
  parserLib := parserLib
  charset _ := .error (.err "unknown")
  regexpSplit _ t := [t]
  openCsv _ := .ok ()
  firstRow _ := .error (.err "empty")
  input _ _ _ := .ok people
  index _ _ := .ok noopGetRecordPositions
  listen _ := .ok ()
  sort _ l := l
  visit _ _ l := l

theorem available (parserLib : ParserLib) : Available (startLib parserLib) loaded where
  charset n p charset hp hk hc := by
    simp only [loaded, List.mem_cons, Prod.mk.injEq, List.not_mem_nil, or_false] at hp
    rcases hp with ⟨-, rfl⟩ | ⟨-, rfl⟩ | ⟨-, rfl⟩ | ⟨-, rfl⟩ | ⟨-, rfl⟩ | ⟨-, rfl⟩ | ⟨-, rfl⟩ <;> first | (cases hk; exact (hc rfl).elim) | cases hk
  openCsv _ _ _ := rfl
  firstRow n d hd ha := by
    simp only [loaded, List.mem_cons, Prod.mk.injEq, InputDecl.csv.injEq, List.not_mem_nil, or_false] at hd
    rw [hd.2] at ha; cases ha
  input _ _ _ _ _ _ _ := ⟨people, rfl⟩
  map n d hd e _ e' _ _ ps input hi := by
    simp only [loaded, List.mem_cons, Prod.mk.injEq, IndexDecl.map.injEq, List.not_mem_nil, or_false] at hd
    cases hi
    rcases hd with ⟨-, rfl⟩ | ⟨-, hd⟩
    · exact ⟨_, rfl⟩
    · cases hd
  index _ _ _ _ := ⟨_, rfl⟩
  listen _ _ _ := rfl
end ConfigExample

/-! ### C57: names and defaults -/

/-- **C57** The components of a file can be put together iff no two of one kind have the same name. -/
theorem C57_different_names (p : ParsedConfig) : (∃ c, newConfig p = .ok c) ↔
    DifferentNames ParserDecl.name p.parsers ∧ DifferentNames InputDecl.name p.inputs ∧ DifferentNames IndexDecl.name p.indexes ∧
    DifferentNames ServiceDecl.name p.services ∧ DifferentNames OutputDecl.name p.outputs := (newConfig_ok p).2

/-- **C57** A configuration with two components of one kind and one name is refused. -/
theorem C57_refused (lib : ConfigLib) (p : ParsedConfig) (h : ¬ (DifferentNames ParserDecl.name p.parsers ∧ DifferentNames InputDecl.name p.inputs ∧
    DifferentNames IndexDecl.name p.indexes ∧ DifferentNames ServiceDecl.name p.services ∧ DifferentNames OutputDecl.name p.outputs)) :
    ∀ c, loadConfig lib p ≠ .ok c := by
  intro c hc
  simp only [loadConfig, bind_ok] at hc
  obtain ⟨c0, h0, _⟩ := hc
  exact h ((newConfig_ok p).2.1 ⟨c0, h0⟩)

/-- **C57** Before validation every name stands for the declared component with this name or, if none is declared, for the default one. -/
theorem C57_components (p : ParsedConfig) (c : Config) (h : newConfig p = .ok c) (n : String) :
    (∀ x, mapGet (addDefaults c).parsers n = some x ↔ IsComponent ParserDecl.name p.parsers builtinParsers n x) ∧
    (∀ x, mapGet (addDefaults c).inputs n = some x ↔ IsComponent InputDecl.name p.inputs [] n x) ∧
    (∀ x, mapGet (addDefaults c).indexes n = some x ↔ IsComponent IndexDecl.name p.indexes [.noop "default"] n x) ∧
    (∀ x, mapGet (addDefaults c).services n = some x ↔ IsComponent ServiceDecl.name p.services [] n x) ∧
    (∀ x, mapGet (addDefaults c).outputs n = some x ↔ IsComponent OutputDecl.name p.outputs [] n x) := by
  obtain ⟨h1, h2, h3, h4, h5⟩ := (newConfig_ok p).2.1 ⟨c, h⟩
  have hc := (newConfig_ok p).1 c h
  subst hc
  have base : ∀ {α : Type} (name : α → String) (l : List α), DifferentNames name l → ∀ n x,
      mapGet (l.map (fun x => (name x, x))) n = some x ↔ IsComponent name l [] n x := by
    intro α name l hl n x
    rw [mapGet_named hl]
    simp [IsComponent]
  refine ⟨?_, base _ _ h2 n, ?_, base _ _ h4 n, base _ _ h5 n⟩
  · exact addDefaults_get defaultParsers [] _ (base _ _ h1) (by decide) n
  · intro x
    exact addDefault_get (defaults := []) (base IndexDecl.name p.indexes h3) (by simp) n x

/-- **C57** In a loaded configuration every name stands for the validated form of that component. -/
theorem C57_loaded (lib : ConfigLib) (p : ParsedConfig) (c : Config) (h : loadConfig lib p = .ok c) (n : String) :
    (∀ y, mapGet c.parsers n = some y → ∃ x, IsComponent ParserDecl.name p.parsers builtinParsers n x ∧ y.name = n) ∧
    (∀ x, IsComponent ParserDecl.name p.parsers builtinParsers n x → ∃ y, mapGet c.parsers n = some y ∧ y.primitive = x.primitive) ∧
    (∀ x, IsComponent InputDecl.name p.inputs [] n x → ∃ y, mapGet c.inputs n = some y ∧ y.name = n) ∧
    (∀ x, IsComponent IndexDecl.name p.indexes [.noop "default"] n x → ∃ y, mapGet c.indexes n = some y ∧
      ∀ input property, Searches x input property ↔ Searches y input property) ∧
    (∀ x, IsComponent ServiceDecl.name p.services [] n x → ∃ y, mapGet c.services n = some y ∧ y.routes = x.routes) ∧
    (∀ x, IsComponent OutputDecl.name p.outputs [] n x → ∃ y, mapGet c.outputs n = some y ∧ y.name = n) := by
  simp only [loadConfig, bind_ok] at h
  obtain ⟨c0, h0, h⟩ := h
  obtain ⟨g1, g2, g3, g4, g5⟩ := C57_components p c0 h0 n
  obtain ⟨_, r2, _, _, r5⟩ := addDefaults_registered h0
  generalize addDefaults c0 = c1 at h g1 g2 g3 g4 g5 r2 r5
  have hr : ∀ k x, mapGet c1.inputs k = some x → x.name = k := fun k x hx => r2.2 k x (mapGet_mem hx)
  simp only [Config.validate, bind_ok, ok_inj] at h
  obtain ⟨parsers, h1, inputs, h2, indexes, h3, services, h4, outputs, h5, rfl⟩ := h
  refine ⟨fun y hy => ?_, fun x hx => ?_, fun x hx => ?_, fun x hx => ?_, fun x hx => ?_, fun x hx => ?_⟩
  · obtain ⟨x, hx, hv⟩ := validateMap_mem h1 (mapGet_mem hy)
    cases hg : mapGet c1.parsers n with
    | none => exact (mapGet_none_not_mem hg x hx).elim
    | some z =>
      obtain ⟨w, hw, hv'⟩ := validateMap_get h1 hg
      have : w = y := by rw [hy] at hw; cases hw; rfl
      subst this
      refine ⟨z, (g1 z).1 hg, ?_⟩
      rw [(ParserDecl.validate_ok hv').1]
      rcases (g1 z).1 hg with h | h
      · exact h.2
      · exact h.2.2
  · obtain ⟨y, hy, hv⟩ := validateMap_get h1 ((g1 x).2 hx)
    exact ⟨y, hy, (ParserDecl.validate_ok hv).2.2.1⟩
  · obtain ⟨y, hy, hv⟩ := validateMap_get h2 ((g2 x).2 hx)
    exact ⟨y, hy, by rw [(InputDecl.validate_ok hv).1]; exact hr _ _ ((g2 x).2 hx)⟩
  · obtain ⟨y, hy, hv⟩ := validateMap_get h3 ((g3 x).2 hx)
    exact ⟨y, hy, (IndexDecl.validate_ok hv).2.2.2⟩
  · obtain ⟨y, hy, hv⟩ := validateMap_get h4 ((g4 x).2 hx)
    exact ⟨y, hy, (ServiceDecl.validate_ok hv).2.2.2.2.1⟩
  · obtain ⟨y, hy, hv⟩ := validateMap_get h5 ((g5 x).2 hx)
    exact ⟨y, hy, by rw [(OutputDecl.validate_ok hr hv).1]; exact r5.2 _ _ (mapGet_mem ((g5 x).2 hx))⟩

/-- The example configuration has different names and loads. -/
example : (∃ c, newConfig ConfigExample.parsed = .ok c) ∧ ∃ c, loadConfig ConfigExample.lib ConfigExample.parsed = .ok c := ⟨⟨_, rfl⟩, _, ConfigExample.loads⟩

/-- Two parsers with one name. -/
example : ∀ c, loadConfig ConfigExample.lib { ConfigExample.parsed with parsers := [⟨"a", .json⟩, ⟨"b", .integer ""⟩, ⟨"a", .integer ""⟩] } ≠ .ok c :=
  C57_refused _ _ (fun h => absurd h.1 (by simp [DifferentNames]))

/-- A declared parser called "integer" is kept. -/
example : ∃ c, newConfig { ConfigExample.parsed with parsers := [⟨"integer", .integer " "⟩] } = .ok c ∧
    mapGet (addDefaults c).parsers "integer" = some ⟨"integer", .integer " "⟩ ∧ mapGet (addDefaults c).parsers "float" = some ⟨"float", .float "." ""⟩ := by
  obtain ⟨c, hc⟩ : ∃ c, newConfig { ConfigExample.parsed with parsers := [⟨"integer", .integer " "⟩] } = .ok c := ⟨_, rfl⟩
  refine ⟨c, hc, ((C57_components _ c hc "integer").1 _).2 (.inl ⟨by simp, rfl⟩), ((C57_components _ c hc "float").1 _).2 (.inr ⟨by simp, by simp [builtinParsers], rfl⟩)⟩

/-! ### C58: validated configurations start -/

/-- **C58** In a loaded configuration every reference leads to a component that can be used there. -/
theorem C58_references (lib : ConfigLib) (p : ParsedConfig) (c : Config) (h : loadConfig lib p = .ok c) : References c := (loadConfig_ok h).1

/-- **C58** A loaded configuration starts, whatever the order of its maps, if it has no GraphQL output, if the paths of its routes are plain texts with
placeholders named after parameters of the output, and if what it needs outside of rodb is available.
Partial: without the conditions on the outputs and on the paths it is false, see `C58_graphql_false` and `C58_route_false`. -/
theorem C58_starts_partial (lib : ConfigLib) (p : ParsedConfig) (c : Config) (h : loadConfig lib p = .ok c) (c' : Config) (ho : Reordered c c')
    (hg : ∀ n m, (n, OutputDecl.graphql m) ∉ c.outputs) (hroutes : ∀ n s, (n, s) ∈ c.services → ∀ r ∈ s.routes, GoodRoute c r)
    (startLib : StartLib) (ha : Available startLib c) : ∃ services, start startLib c' = .ok services := by
  obtain ⟨hr, r1, r2, r3, _, r5, hb, hk⟩ := loadConfig_ok h
  have hs : Known c.parsers "string" := hb ⟨"string", .string ""⟩ (by simp [builtinParsers])
  refine start_ok (References.reorder ho r1.1 r2.1 r3.1 r5.1 hr) ?_ (fun n p hp => hk n p (ho.parsers.symm.subset hp)) (Available.reorder ho ha)
    (fun n m hm => hg n m (ho.outputs.symm.subset hm)) (fun n s hs r hr => GoodRoute.reorder ho r1.1 r5.1 (hroutes n s (ho.services.symm.subset hs) r hr))
  obtain ⟨x, hx⟩ := hs
  exact ⟨x, by rw [← mapGet_perm ho.parsers r1.1]; exact hx⟩

/-- The example configuration starts, also with its parsers in another order. -/
example (parserLib : ParserLib) : ∃ services, start (ConfigExample.startLib parserLib)
    { ConfigExample.loaded with parsers := ConfigExample.loaded.parsers.reverse, outputs := ConfigExample.loaded.outputs.reverse } = .ok services := by
  refine C58_starts_partial _ _ _ ConfigExample.loads { ConfigExample.loaded with parsers := ConfigExample.loaded.parsers.reverse, outputs := ConfigExample.loaded.outputs.reverse } ⟨(List.reverse_perm _).symm, .refl _, .refl _, .refl _, (List.reverse_perm _).symm⟩ ?_ ?_ _ (ConfigExample.available parserLib)
  · intro n m hm
    simp [ConfigExample.loaded] at hm
  · intro n s hs r hr
    simp only [ConfigExample.loaded, List.mem_cons, Prod.mk.injEq, List.not_mem_nil, or_false] at hs
    rw [hs.2] at hr
    simp only [List.mem_cons, List.not_mem_nil, or_false] at hr
    rcases hr with rfl | rfl
    · exact ⟨"/people".toList, [], by decide, ⟨by simp [PlainText], by simp, by simp⟩, by simp⟩
    · refine ⟨"/people/".toList, [("n".toList, [])], by decide, ⟨by simp [PlainText], by simp [PlainText], by simp⟩, ?_⟩
      intro o ho p hp
      rw [List.mem_singleton.1 hp]
      have hm : mapGet ConfigExample.loaded.outputs "one" = some o := ho
      simp [ConfigExample.loaded, mapGet] at hm
      subst hm
      refine ⟨{ property := "n", index := "default", parser := "amount" }, rfl, fun parser hparser => ?_⟩
      have : parser = ⟨"amount", .integer ","⟩ := by
        have h : mapGet ConfigExample.loaded.parsers "amount" = some parser := hparser
        simp [ConfigExample.loaded, mapGet] at h
        exact h.symm
      subst this
      simp [HyphenFree]

namespace ConfigExample
/-- A configuration with a GraphQL output. -/
def graphql : ParsedConfig := { parsed with outputs := [.graphql "list", .graphql "one"] }
/-- A route with a placeholder that is not a parameter of its output. -/
def badRoute : ParsedConfig := { parsed with services := [{ name := "web", http := some "", https := none, errorsType := "", routes := [⟨"one", "/people/{city}"⟩] }] }
end ConfigExample

/-- **C58 is false of the code**: a configuration with a GraphQL output is accepted, and never starts. -/
theorem C58_graphql_false : ∃ lib p c, loadConfig lib p = .ok c ∧ ∀ startLib services, start startLib c ≠ .ok services := by
  refine ⟨ConfigExample.lib, ConfigExample.graphql, { ConfigExample.loaded with outputs := [("list", .graphql "list"), ("one", .graphql "one")] }, rfl, ?_⟩
  intro startLib services h
  simp only [start, bind_ok] at h
  obtain ⟨_, _, _, _, _, _, outputs, h, _⟩ := h
  simp only [instantiateMap, bind_ok] at h
  obtain ⟨o, h, _⟩ := h
  simp only [OutputDecl.instantiate] at h
  split at h <;> cases h

namespace ConfigExample
def badLoaded : Config :=
  { loaded with services := [("web", { name := "web", http := some "127.0.0.1:0", https := none, errorsType := "application/json",
                                       routes := [⟨"one", "/people/{city}"⟩] })] }
theorem badLoads : loadConfig lib badRoute = .ok badLoaded := by rfl
end ConfigExample

/-- **C58 is false of the code**: a route with a placeholder that is not the name of a parameter is accepted, and never starts. -/
theorem C58_route_false : ∃ lib p c, loadConfig lib p = .ok c ∧ ∀ startLib services, start startLib c ≠ .ok services := by
  refine ⟨ConfigExample.lib, ConfigExample.badRoute, ConfigExample.badLoaded, ConfigExample.badLoads, ?_⟩
  intro startLib services h
  simp only [start, bind_ok] at h
  obtain ⟨parsers, _, inputs, _, indexes, _, outputs, h1, h2⟩ := h
  have h3 : ∃ o2, mapGet outputs "one" = some o2 ∧ ∃ e, o2.parameterParser "city" = .error e := by
    have hg : mapGet ConfigExample.badLoaded.outputs "one" = some (.object "one" _) := rfl
    obtain ⟨o2, h3, h4⟩ := instantiateMap_get h1 hg
    refine ⟨o2, h3, ?_⟩
    simp only [OutputDecl.instantiate] at h4
    split at h4
    · cases h4
    · simp only [bind_ok, require_ok, exists_const, ok_inj] at h4
      obtain ⟨_, _, _, _, rfl⟩ := h4
      exact ⟨_, rfl⟩
  obtain ⟨o2, h3, e, h5⟩ := h3
  have h6 : createPathRegexp "/people/{city}".toList o2 = .error e := by
    have hs : splitTemplate "/people/{city}".toList.length "/people/{city}".toList = ("/people/".toList, [("city".toList, [])]) := by decide
    simp only [createPathRegexp, hs, pathPattern]
    rw [show String.ofList "city".toList = "city" from rfl, h5]
  have h7 : createRoute outputs "one" "/people/{city}".toList = .error e := by simp only [createRoute, h3, h6]
  have h8 := instantiateMap_ok.1 ⟨services, h2⟩ "web" _ List.mem_cons_self
  obtain ⟨y, h8⟩ := h8
  simp only [ServiceDecl.instantiate, bind_ok] at h8
  obtain ⟨routes, h8, _⟩ := h8
  simp only [List.map_cons, List.map_nil, createRoutes] at h8
  rw [h7] at h8
  cases h8

/-! ### C59: collations -/

theorem upper_of_lower {c l : Char} (h : c.toLower = l) (hl : 'a' ≤ l ∧ l ≤ 'z') : asciiUpper c = asciiUpper l ∧ c.toNat < 128 := by
  have hl1 : 97 ≤ l.val.toNat := hl.1
  have hl2 : l.val.toNat ≤ 122 := hl.2
  by_cases hc : c.val ≥ 'A'.val ∧ c.val ≤ 'Z'.val
  · have h1 : 65 ≤ c.val.toNat := hc.1
    have h2 : c.val.toNat ≤ 90 := hc.2
    have h3 : l.val.toNat = c.val.toNat + 32 := by
      rw [← h]
      simp only [Char.toLower, dif_pos hc]
      rw [UInt32.toNat_add]
      have : ('a'.val - 'A'.val).toNat = 32 := rfl
      omega
    refine ⟨?_, by show c.val.toNat < 128; omega⟩
    have hnc : ¬ ('a' ≤ c ∧ c ≤ 'z') := fun h => by
      have : 97 ≤ c.val.toNat := h.1
      omega
    rw [asciiUpper, if_neg hnc, asciiUpper, if_pos hl]
    have : l.toNat - 32 = c.toNat := by show l.val.toNat - 32 = c.val.toNat; omega
    rw [this, Char.ofNat_toNat]
  · have h1 : c = l := by rw [← h, Char.toLower, dif_neg hc]
    subst h1
    exact ⟨rfl, by show c.val.toNat < 128; omega⟩

theorem toUpper_anyCase {lib : ConfigLib} {text spelling : String} (ht : ∀ c ∈ text.toList, 'a' ≤ c ∧ c ≤ 'z') (h : AnyCase text spelling) :
    toUpper lib spelling = String.ofList (text.toList.map asciiUpper) := by
  have key : ∀ (s t : List Char), (∀ c ∈ t, 'a' ≤ c ∧ c ≤ 'z') → s.map Char.toLower = t →
      s.map asciiUpper = t.map asciiUpper ∧ s.all (fun c => decide (c.toNat < 128)) = true := by
    intro s
    induction s with
    | nil => intro t _ h; subst h; exact ⟨rfl, rfl⟩
    | cons c s ih =>
      intro t ht h
      cases t with
      | nil => simp at h
      | cons d t =>
        simp only [List.map_cons, List.cons.injEq] at h
        obtain ⟨h1, h2⟩ := upper_of_lower h.1 (ht d List.mem_cons_self)
        obtain ⟨h3, h4⟩ := ih t (fun c hc => ht c (List.mem_cons_of_mem _ hc)) h.2
        exact ⟨by simp [h1, h3], by simp [h2]; simpa using h4⟩
  obtain ⟨h1, h2⟩ := key _ _ ht h
  rw [toUpper, if_pos h2, h1]

/-- **C59** The documented collations `binary` and `nocase` are accepted in any letter case, as `BINARY` and `NOCASE`.
Partial: the third documented one, `rtrim`, is not, see `C59_false`. -/
theorem C59_collations_partial (lib : ConfigLib) (name collate spelling : String) (hn : name ≠ "") (hc : collate = "binary" ∨ collate = "nocase")
    (hs : AnyCase collate spelling) :
    collate ∈ documentedCollations ∧ SqlitePropertyDecl.validate lib { name := name, collate := spelling } =
      .ok { name := name, collate := if collate = "binary" then "BINARY" else "NOCASE" } := by
  have hne : spelling ≠ "" := by
    rintro rfl
    rcases hc with rfl | rfl <;> simp [AnyCase] at hs
  have hu : toUpper lib spelling = if collate = "binary" then "BINARY" else "NOCASE" := by
    rcases hc with rfl | rfl
    · rw [toUpper_anyCase (by decide) hs]; decide
    · rw [toUpper_anyCase (by decide) hs]; decide
  refine ⟨by rcases hc with rfl | rfl <;> simp [documentedCollations], ?_⟩
  simp only [SqlitePropertyDecl.validate, hne, if_false, hu, bind_ok, require_ok, exists_const]
  refine ⟨by simp [hn], ?_, trivial⟩
  rcases hc with rfl | rfl <;> decide

/-- `NoCase` is a spelling of `nocase`. -/
example : AnyCase "nocase" "NoCase" := by unfold AnyCase; decide +kernel

/-- **C59 is false of the code**: `rtrim` is refused, in every letter case (the allowed value is misspelled `RTIRM`). -/
theorem C59_false (lib : ConfigLib) (name spelling : String) (hs : AnyCase "rtrim" spelling) :
    "rtrim" ∈ documentedCollations ∧ ∀ p, SqlitePropertyDecl.validate lib { name := name, collate := spelling } ≠ .ok p := by
  have hne : spelling ≠ "" := by
    rintro rfl
    simp [AnyCase] at hs
  have hu : toUpper lib spelling = "RTRIM" := by
    rw [toUpper_anyCase (by decide) hs]; decide
  refine ⟨by simp [documentedCollations], fun p hp => ?_⟩
  simp only [SqlitePropertyDecl.validate, hne, if_false, hu, bind_ok, require_ok, exists_const, ok_inj] at hp
  exact absurd hp.2.1 (by decide)

example : AnyCase "rtrim" "RTrim" := by unfold AnyCase; decide +kernel

/-! ### C72: order -/

/-- **C72** Whether a configuration is accepted, and what it becomes, does not depend on the order in which its maps are visited. -/
theorem C72_order (lib : ConfigLib) (p : ParsedConfig) (c : Config) (hc : newConfig p = .ok c) (c' : Config) (ho : Reordered (addDefaults c) c') :
    ((∃ d, (addDefaults c).validate lib = .ok d) ↔ ∃ d', c'.validate lib = .ok d') ∧
    ∀ d d', (addDefaults c).validate lib = .ok d → c'.validate lib = .ok d' → Reordered d d' := by
  obtain ⟨r1, r2, r3, _, r5⟩ := addDefaults_registered hc
  have ho' : Reordered c' (addDefaults c) := ⟨ho.parsers.symm, ho.inputs.symm, ho.indexes.symm, ho.services.symm, ho.outputs.symm⟩
  refine ⟨⟨?_, ?_⟩, ?_⟩
  · rintro ⟨d, hd⟩
    obtain ⟨d', h, _⟩ := validate_reordered ho r1.1 r2.1 r3.1 r5.1 hd
    exact ⟨d', h⟩
  · rintro ⟨d', hd'⟩
    obtain ⟨d, h, _⟩ := validate_reordered ho' ((ho.parsers.map _).nodup_iff.1 r1.1) ((ho.inputs.map _).nodup_iff.1 r2.1)
      ((ho.indexes.map _).nodup_iff.1 r3.1) ((ho.outputs.map _).nodup_iff.1 r5.1) hd'
    exact ⟨d, h⟩
  · intro d d' hd hd'
    obtain ⟨d'', h, hp⟩ := validate_reordered ho r1.1 r2.1 r3.1 r5.1 hd
    rw [hd'] at h
    cases h
    exact hp

/-- The parsers of the example in another order. -/
example : ∃ c d, newConfig ConfigExample.parsed = .ok c ∧ Config.validate ConfigExample.lib { addDefaults c with parsers := (addDefaults c).parsers.reverse } = .ok d := by
  obtain ⟨c, hc⟩ : ∃ c, newConfig ConfigExample.parsed = .ok c := ⟨_, rfl⟩
  obtain ⟨d, hd⟩ := (C72_order ConfigExample.lib _ c hc { addDefaults c with parsers := (addDefaults c).parsers.reverse }
    ⟨(List.reverse_perm _).symm, .refl _, .refl _, .refl _, .refl _⟩).1.1 (by
      have h := ConfigExample.loads
      simp only [loadConfig, bind_ok] at h
      obtain ⟨c1, h1, h⟩ := h
      rw [hc] at h1
      cases h1
      exact ⟨_, h⟩)
  exact ⟨c, d, hc, hd⟩

/-! ### C73: paging -/

/-- **C73** A list output of a loaded configuration returns at least one and at most `max` records by default, and no filter has the name of the
limit or offset parameter.
Partial: the limit and the offset may still have one name, see `C73_false`. -/
theorem C73_paging_partial (lib : ConfigLib) (p : ParsedConfig) (c : Config) (h : loadConfig lib p = .ok c) (n m : String) (d : ArrayConfig)
    (hd : (n, .array m d) ∈ c.outputs) :
    0 < d.limit.default ∧ d.limit.default ≤ d.limit.max ∧ d.limit.parameter ≠ "" ∧ d.offsetParameter ≠ "" ∧
    ∀ name param, mapGet d.parameters name = some param → name ≠ d.limit.parameter ∧ name ≠ d.offsetParameter := by
  simp only [loadConfig, bind_ok] at h
  obtain ⟨c0, h0, h⟩ := h
  obtain ⟨_, r2, _, _, _⟩ := addDefaults_registered h0
  generalize addDefaults c0 = c1 at h r2
  simp only [Config.validate, bind_ok, ok_inj] at h
  obtain ⟨parsers, h1, inputs, h2, indexes, h3, services, h4, outputs, h5, rfl⟩ := h
  obtain ⟨x, _, hx⟩ := validateMap_mem h5 hd
  obtain ⟨limit, h6, h7⟩ := (OutputDecl.validate_ok (fun k x hx => r2.2 k x (mapGet_mem hx)) hx).2.2.2.2.1 m d rfl
  have hoff : d.offsetParameter ≠ "" := by
    cases x with
    | graphql n => simp only [OutputDecl.validate, bind_ok, ok_inj] at hx; obtain ⟨_, _, hx⟩ := hx; cases hx
    | object n c => simp only [OutputDecl.validate, bind_ok, ok_inj] at hx; obtain ⟨_, _, hx⟩ := hx; cases hx
    | array n c =>
      simp only [OutputDecl.validate, ArrayConfig.validate, bind_ok, require_ok, exists_const, ok_inj] at hx
      obtain ⟨d', ⟨_, _, hx⟩, e⟩ := hx
      cases e
      split at hx
      · cases hx
      · split at hx
        · cases hx
        · simp only [bind_ok, ok_inj] at hx
          obtain ⟨_, _, _, _, rfl⟩ := hx
          by_cases he : c.offsetParameter = "" <;> simp [he]
  simp only [LimitConfig.validate] at h6
  by_cases hle : (if limit.default = 0 then 100 else limit.default) > (if limit.max = 0 then 1000 else limit.max)
  · rw [if_pos hle] at h6
    cases h6
  · rw [if_neg hle] at h6
    have hl := (Option.some.inj h6).symm
    rw [hl] at h7 ⊢
    refine ⟨?_, Nat.le_of_not_gt hle, ?_, hoff, fun name param hp => h7 name (List.mem_map_of_mem (mapGet_mem hp))⟩
    · show 0 < if limit.default = 0 then 100 else limit.default
      split <;> omega
    · show (if limit.parameter = "" then "limit" else limit.parameter) ≠ ""
      split
      · decide
      · assumption

example : ∃ d, ("list", OutputDecl.array "list" d) ∈ ConfigExample.loaded.outputs ∧ 0 < d.limit.default := by
  have h : ("list", OutputDecl.array "list" { input := "people", limit := ⟨100, 1000, "limit"⟩, offsetParameter := "offset", parameters := [("n", { property := "n", index := "map", parser := "amount" })], relationships := [] }) ∈ ConfigExample.loaded.outputs := by
    simp [ConfigExample.loaded]
  exact ⟨_, h, (C73_paging_partial _ _ _ ConfigExample.loads _ _ _ h).1⟩

/-- **C73 is false of the code**: the limit and the offset can have one name. -/
theorem C73_false : ∃ lib p c d, loadConfig lib p = .ok c ∧ ("list", .array "list" d) ∈ c.outputs ∧ d.limit.parameter = d.offsetParameter := by
  refine ⟨ConfigExample.lib, { ConfigExample.parsed with outputs := [.array "list" { input := "people", limit := ⟨0, 0, "page"⟩, offsetParameter := "page", parameters := [], relationships := [] }], services := [] },
    { ConfigExample.loaded with outputs := [("list", .array "list" { input := "people", limit := ⟨100, 1000, "page"⟩, offsetParameter := "page", parameters := [], relationships := [] })], services := [] },
    _, rfl, by simp; rfl, rfl⟩

/-! ### C74: panics -/

/-- **C74** Loading a configuration never panics, if each of its files exists, does not exist or is a directory: whatever the operating system says about other paths.
Partial: see `C74_false` for the other errors. -/
theorem C74_no_panic_partial (lib : ConfigLib) (p : ParsedConfig) (h : ∀ f ∈ filesOf p, lib.stat f ≠ .failed) :
    (∃ c, loadConfig lib p = .ok c) ∨ ∃ message, loadConfig lib p = .error (.err message) := by
  cases hl : loadConfig lib p with
  | ok c => exact .inl ⟨c, rfl⟩
  | error e =>
    obtain ⟨m, rfl⟩ := loadConfig_calm h e hl
    exact .inr ⟨m, rfl⟩

/-- The file of the example can be looked at. -/
example : (∃ c, loadConfig ConfigExample.lib ConfigExample.parsed = .ok c) ∧ ∀ f ∈ filesOf ConfigExample.parsed, ConfigExample.lib.stat f ≠ .failed :=
  ⟨⟨_, ConfigExample.loads⟩, fun _ _ h => by cases h⟩

namespace ConfigExample
def json (path : String) : InputDecl := .json { name := "in", path := path, dieOnInputChange := none }
/-- Only a JSON input. -/
def jsonOnly (path : String) : ParsedConfig := { parsers := [], inputs := [json path], indexes := [], services := [], outputs := [] }
def jsonConfig (path : String) : Config := { parsers := [], inputs := [("in", json path)], indexes := [], services := [], outputs := [] }
end ConfigExample

/-- **C74 is false of the code**: an input whose path cannot be looked at (for instance one below a regular file) makes loading panic. -/
theorem C74_false (lib : ConfigLib) (path : String) (h : lib.stat path = .failed) :
    ∃ p message, loadConfig lib p = .error (.panic message) := by
  refine ⟨ConfigExample.jsonOnly path, "invalid memory address or nil pointer dereference", ?_⟩
  have hj : ∀ ps, InputDecl.validate lib ps (ConfigExample.json path) = .error (.panic "invalid memory address or nil pointer dereference") := by
    intro ps
    simp only [ConfigExample.json, InputDecl.validate, JsonDecl.validate, checkFile, h]
    rfl
  have hp : ∃ ps, validateMap (fun _ p => ParserDecl.validate lib (addDefaults (ConfigExample.jsonConfig path)).parsers p)
      (addDefaults (ConfigExample.jsonConfig path)).parsers = .ok ps := ⟨_, rfl⟩
  obtain ⟨ps, hp⟩ := hp
  show Config.validate lib (addDefaults (ConfigExample.jsonConfig path)) = _
  unfold Config.validate
  rw [hp]
  show (validateMap _ [("in", ConfigExample.json path)] >>= _) = _
  simp only [validateMap, hj]
  rfl

example : ∃ lib : ConfigLib, lib.stat "file.csv/data.json" = .failed := ⟨{ ConfigExample.lib with stat := fun _ => .failed }, rfl⟩

/-! ### C75: repetitions -/

/-- **C75** Nothing is listed twice in a loaded configuration: columns, properties of XML inputs and of objects in them, properties of indexes,
sorted and matched properties of relationships at any depth, paths of routes. -/
theorem C75_no_repetition (lib : ConfigLib) (p : ParsedConfig) (c : Config) (h : loadConfig lib p = .ok c) : NoRepetition c := loadConfig_noRepetition h

example : NoRepetition ConfigExample.loaded := C75_no_repetition _ _ _ ConfigExample.loads

/-- A column that is listed twice is refused. -/
example : ∀ c, loadConfig ConfigExample.lib { ConfigExample.parsed with
    inputs := [.csv { name := "people", path := "people.csv", dieOnInputChange := none, ignoreFirstRow := true, autodetectColumns := false, delimiter := "",
                      columns := [⟨"n", "amount"⟩, ⟨"s", ""⟩, ⟨"n", ""⟩] }] } ≠ .ok c := by
  intro c h
  have : loadConfig ConfigExample.lib { ConfigExample.parsed with
    inputs := [.csv { name := "people", path := "people.csv", dieOnInputChange := none, ignoreFirstRow := true, autodetectColumns := false, delimiter := "",
                      columns := [⟨"n", "amount"⟩, ⟨"s", ""⟩, ⟨"n", ""⟩] }] } = .error (.err "Column names must be unique.") := rfl
  rw [this] at h
  cases h

end Rodb
