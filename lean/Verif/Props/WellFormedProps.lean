import Verif.Props.ConfigProps
import Verif.Proofs.WellFormed
import Verif.Proofs.LoadPanic
import Verif.Proofs.Rearranged
/-
  C76, C77: which configurations are accepted, and the defaults. C74: which ones panic.
-/
namespace Rodb
open Spec

theorem holds_of_components {p : ParsedConfig} {c : Config} (h : newConfig p = .ok c) :
    Holds p (addDefaults c).parsers (addDefaults c).inputs (addDefaults c).indexes (addDefaults c).outputs where
  parsers n := (C57_components p c h n).1
  inputs n x := by rw [(C57_components p c h n).2.1 x]; simp [IsComponent]
  indexes n := (C57_components p c h n).2.2.1
  outputs n x := by rw [(C57_components p c h n).2.2.2.2 x]; simp [IsComponent]

theorem goodNames_iff {α : Type} {name : α → String} {l : List α} {Q : α → Prop} :
    ((l.map name).Nodup ∧ ∀ x ∈ l, name x ≠ "" ∧ Q x) ↔ GoodNames (l.map name) ∧ ∀ x ∈ l, Q x := by
  simp only [GoodNames, List.mem_map, not_exists, not_and]
  exact ⟨fun ⟨a, b⟩ => ⟨⟨a, fun x hx => (b x hx).1⟩, fun x hx => (b x hx).2⟩, fun ⟨⟨a, b⟩, c⟩ => ⟨a, fun x hx => ⟨b x hx, c x hx⟩⟩⟩

/-- Validation of what was put together succeeds iff the declared components are well-formed. -/
theorem validate_iff {lib : ConfigLib} {p : ParsedConfig} {c : Config} (h : newConfig p = .ok c) : (∃ c', (addDefaults c).validate lib = .ok c') ↔
    (∀ x ∈ p.parsers, x.name ≠ "" ∧ WellFormedParser lib p x) ∧ (∀ x ∈ p.inputs, x.name ≠ "" ∧ WellFormedInput lib p x) ∧
    (∀ x ∈ p.indexes, x.name ≠ "" ∧ WellFormedIndex lib p x) ∧ (∀ x ∈ p.services, x.name ≠ "" ∧ WellFormedService lib p x) ∧
    (∀ x ∈ p.outputs, x.name ≠ "" ∧ WellFormedOutput p x) := by
  have hh := holds_of_components h
  obtain ⟨⟨k1, _⟩, ⟨k2, _⟩, ⟨k3, _⟩, ⟨k4, _⟩, ⟨k5, _⟩⟩ := addDefaults_registered h
  simp only [Config.validate, exists_bind_ok, exists_ok, and_true, exists_and_right, validateMap_ok, ParserDecl.validate_iff hh, InputDecl.validate_iff hh,
    IndexDecl.validate_iff hh, ServiceDecl.validate_iff hh, OutputDecl.validate_iff hh]
  rw [all_components k1 (fun n x => (C57_components p c h n).1 x) (builtin_wellFormed lib p),
    all_components k2 (fun n x => (C57_components p c h n).2.1 x) (by simp),
    all_components k3 (fun n x => (C57_components p c h n).2.2.1 x) (by simp [IndexDecl.name, WellFormedIndex]),
    all_components k4 (fun n x => (C57_components p c h n).2.2.2.1 x) (by simp),
    all_components k5 (fun n x => (C57_components p c h n).2.2.2.2 x) (by simp)]

/-! ### C76: which configurations are accepted -/

/-- **C76** A configuration is accepted iff it is well-formed. -/
theorem C76_accepted (lib : ConfigLib) (p : ParsedConfig) : (∃ c, loadConfig lib p = .ok c) ↔ WellFormed lib p := by
  simp only [loadConfig]
  rw [exists_bind_ok]
  constructor
  · rintro ⟨c, hc, h⟩
    obtain ⟨n1, n2, n3, n4, n5⟩ := (newConfig_ok p).2.1 ⟨c, hc⟩
    obtain ⟨h1, h2, h3, h4, h5⟩ := (validate_iff hc).1 h
    obtain ⟨g1, w1⟩ := goodNames_iff.1 ⟨n1, h1⟩
    obtain ⟨g2, w2⟩ := goodNames_iff.1 ⟨n2, h2⟩
    obtain ⟨g3, w3⟩ := goodNames_iff.1 ⟨n3, h3⟩
    obtain ⟨g4, w4⟩ := goodNames_iff.1 ⟨n4, h4⟩
    obtain ⟨g5, w5⟩ := goodNames_iff.1 ⟨n5, h5⟩
    exact ⟨g1, g2, g3, g4, g5, w1, w2, w3, w4, w5⟩
  · rintro ⟨g1, g2, g3, g4, g5, w1, w2, w3, w4, w5⟩
    obtain ⟨c, hc⟩ := (newConfig_ok p).2.2 ⟨g1.1, g2.1, g3.1, g4.1, g5.1⟩
    exact ⟨c, hc, (validate_iff hc).2 ⟨(goodNames_iff.2 ⟨g1, w1⟩).2, (goodNames_iff.2 ⟨g2, w2⟩).2, (goodNames_iff.2 ⟨g3, w3⟩).2,
      (goodNames_iff.2 ⟨g4, w4⟩).2, (goodNames_iff.2 ⟨g5, w5⟩).2⟩⟩

/-- The example configuration is well-formed. -/
example : WellFormed ConfigExample.lib ConfigExample.parsed := (C76_accepted _ _).1 ⟨_, ConfigExample.loads⟩

/-- With a route to an output that does not exist it is not, and it is refused. -/
example : ¬ ∃ c, loadConfig ConfigExample.lib { ConfigExample.parsed with
    services := [{ name := "web", http := some "", https := none, errorsType := "", routes := [⟨"nothing", "/people"⟩] }] } = .ok c := by
  rw [C76_accepted]
  intro h
  obtain ⟨_, _, _, _, _, h⟩ := h.services _ (.head _)
  obtain ⟨_, o, ho, e⟩ := h _ (.head _)
  simp only [ConfigExample.parsed, List.mem_cons, List.not_mem_nil, or_false] at ho
  rcases ho with rfl | rfl
  · exact absurd e (by decide)
  · exact absurd e (by decide)

/-! ### C77: the defaults -/

/-- **C77** In an accepted configuration every name stands for the declared component with this name (or the default one), as it was declared,
with the documented defaults for the settings that are not given. -/
theorem C77_defaults (lib : ConfigLib) (p : ParsedConfig) (c : Config) (h : loadConfig lib p = .ok c) (n : String) :
    (∀ y, mapGet c.parsers n = some y ↔ ∃ x, IsParser p n x ∧ y = completedParser x) ∧
    (∀ y, mapGet c.inputs n = some y ↔ ∃ x ∈ p.inputs, x.name = n ∧ y = completedInput x) ∧
    (∀ y, mapGet c.indexes n = some y ↔ ∃ x, IsIndex p n x ∧ y = completedIndex lib x) ∧
    (∀ y, mapGet c.services n = some y ↔ ∃ x ∈ p.services, x.name = n ∧ y = completedService x) ∧
    (∀ y, mapGet c.outputs n = some y ↔ ∃ x ∈ p.outputs, x.name = n ∧ y = completedOutput x) := by
  simp only [loadConfig, bind_ok] at h
  obtain ⟨c0, h0, h⟩ := h
  have hc := C57_components p c0 h0 n
  generalize addDefaults c0 = c1 at h hc
  simp only [Config.validate, bind_ok, ok_inj] at h
  obtain ⟨parsers, h1, inputs, h2, indexes, h3, services, h4, outputs, h5, rfl⟩ := h
  have key : ∀ {α : Type} (g : α → α) (m : GoMap α) (y : α), mapGet (m.map (fun e => (e.1, g e.2))) n = some y ↔ ∃ x, mapGet m n = some x ∧ y = g x := by
    intro α g m y
    induction m with
    | nil => simp [mapGet]
    | cons e m ih =>
      obtain ⟨k, x⟩ := e
      simp only [List.map_cons, mapGet]
      by_cases hk : k = n
      · simp only [hk, if_true, Option.some.injEq, exists_eq_left']
        exact eq_comm
      · simp only [hk, if_false, ih]
  rw [validateMap_value (fun _ _ _ h => ParserDecl.validate_value h) h1, validateMap_value (fun _ _ _ h => InputDecl.validate_value h) h2,
    validateMap_value (fun _ _ _ h => IndexDecl.validate_value h) h3, validateMap_value (fun _ _ _ h => ServiceDecl.validate_value h) h4,
    validateMap_value (fun _ _ _ h => OutputDecl.validate_value h) h5]
  refine ⟨fun y => ?_, fun y => ?_, fun y => ?_, fun y => ?_, fun y => ?_⟩
  · rw [key]; simp only [hc.1]; rfl
  · rw [key]; simp only [hc.2.1, IsComponent, List.not_mem_nil, false_and, and_false, or_false, and_assoc]
  · rw [key]; simp only [hc.2.2.1]; rfl
  · rw [key]; simp only [hc.2.2.2.1, IsComponent, List.not_mem_nil, false_and, and_false, or_false, and_assoc]
  · rw [key]; simp only [hc.2.2.2.2, IsComponent, List.not_mem_nil, false_and, and_false, or_false, and_assoc]

/-- The example has defaults to be filled in, and they are. -/
example : mapGet ConfigExample.loaded.services "web" = some (completedService
    { name := "web", http := some "", https := none, errorsType := "", routes := [⟨"list", "/people"⟩, ⟨"one", "/people/{n}"⟩] }) := by
  rw [(C77_defaults _ _ _ ConfigExample.loads "web").2.2.2.1]
  exact ⟨_, .head _, rfl, rfl⟩

/-! ### C74: which configurations panic -/

theorem wellFormed_files {lib : ConfigLib} {p : ParsedConfig} (h : WellFormed lib p) : ∀ f ∈ filesOf p, lib.stat f = .file := by
  intro f hf
  rcases List.mem_append.1 hf with hf | hf
  · obtain ⟨i, hi, rfl⟩ := List.mem_map.1 hf
    have := h.inputs i hi
    cases i with
    | csv d => exact this.1
    | xml d => exact this.1
    | json d => exact this
  · obtain ⟨s, hs, hf⟩ := List.mem_flatMap.1 hf
    cases ht : s.https with
    | none => rw [ht] at hf; cases hf
    | some d =>
      rw [ht] at hf
      obtain ⟨_, h1, _, h2⟩ := (h.services s hs).2.2.1 d ht
      simp only [httpsFiles, List.mem_cons, List.not_mem_nil, or_false] at hf
      rcases hf with rfl | rfl
      · exact h1
      · exact h2

/-- **C74** Of the configurations that are right in everything else (that would be accepted if those of their files that cannot be looked at were there), exactly those panic that have
a file that cannot be looked at. The other ones are accepted.
Partial: see `C74_false`. A wildcard index whose path cannot be looked at is refused with an error; this is left out here. -/
theorem C74_exactly_partial (lib : ConfigLib) (p : ParsedConfig)
    (hw : WellFormed { lib with stat := fun f => if f ∈ filesOf p ∧ lib.stat f = .failed then .file else lib.stat f } p)
    (hi : ∀ d, .wildcard d ∈ p.indexes → lib.stat d.path ≠ .failed) :
    ((∃ message, loadConfig lib p = .error (.panic message)) ↔ ∃ f ∈ filesOf p, lib.stat f = .failed) ∧
    ((∃ c, loadConfig lib p = .ok c) ↔ ∀ f ∈ filesOf p, lib.stat f = .file) := by
  obtain ⟨c, hc⟩ := (C76_accepted _ p).2 hw
  have hs := loadConfig_sop (lib := lib) (p := p) (filesOf p) hi
  have hfiles := wellFormed_files hw
  have hcases : ∀ f ∈ filesOf p, lib.stat f = .failed ∨ lib.stat f = .file := by
    intro f hf
    have := hfiles f hf
    by_cases hfail : lib.stat f = .failed
    · exact .inl hfail
    · right; simpa [hfail] using this
  have hok : (∃ c, loadConfig lib p = .ok c) ↔ ∀ f ∈ filesOf p, lib.stat f = .file := by
    constructor
    · intro h
      exact wellFormed_files ((C76_accepted lib p).1 h)
    · intro h
      rcases hs with he | ⟨m, hm⟩
      · exact ⟨c, he.trans hc⟩
      · obtain ⟨m', e⟩ := loadConfig_calm (lib := lib) (p := p) (fun f hf => by rw [h f hf]; decide) _ hm
        cases e
  refine ⟨⟨?_, ?_⟩, hok⟩
  · rintro ⟨m, hm⟩
    apply Classical.byContradiction
    intro hn
    obtain ⟨c', hc'⟩ := hok.2 (fun f hf => (hcases f hf).resolve_left (fun e => hn ⟨f, hf, e⟩))
    rw [hm] at hc'
    cases hc'
  · rintro ⟨f, hf, hfail⟩
    rcases hs with he | h
    · have := hok.1 ⟨c, he.trans hc⟩ f hf
      rw [hfail] at this
      cases this
    · exact h

/-- The example, if nothing can be looked at. -/
example : ∃ message, loadConfig { ConfigExample.lib with stat := fun _ => .failed } ConfigExample.parsed = .error (.panic message) := by
  refine (C74_exactly_partial { ConfigExample.lib with stat := fun _ => .failed } ConfigExample.parsed ?_ ?_).1.2 ⟨"people.csv", by simp [filesOf, ConfigExample.parsed, dataFile], rfl⟩
  · refine (C76_accepted _ _).1 ⟨_, (?_ : loadConfig _ _ = .ok ConfigExample.loaded)⟩
    rfl
  · simp [ConfigExample.parsed]

/-! ### C72: the maps inside of outputs -/

/-- **C72** Nor does it depend on the order of the maps inside of the outputs: those of their parameters, of their relationships, and of the relationships inside of these. -/
theorem C72_inside (lib : ConfigLib) (p : ParsedConfig) (outputs : List OutputDecl) (h : RearrangedOutputs p.outputs outputs) :
    ((∃ c, loadConfig lib p = .ok c) ↔ ∃ c', loadConfig lib { p with outputs := outputs } = .ok c') ∧
    ∀ c c', loadConfig lib p = .ok c → loadConfig lib { p with outputs := outputs } = .ok c' →
      c.parsers = c'.parsers ∧ c.inputs = c'.inputs ∧ c.indexes = c'.indexes ∧ c.services = c'.services ∧
      ∀ n o o', mapGet c.outputs n = some o → mapGet c'.outputs n = some o' → RearrangedOutput o o' := by
  refine ⟨?_, fun c c' hc hc' => ?_⟩
  · rw [C76_accepted, C76_accepted]
    exact ⟨wellFormed_rearranged h, wellFormed_rearranged (p := { p with outputs := outputs }) h.symm⟩
  · have hout : ∀ n o o', mapGet c.outputs n = some o → mapGet c'.outputs n = some o' → RearrangedOutput o o' := by
      intro n o o' ho ho'
      obtain ⟨x, hx, hn, rfl⟩ := ((C77_defaults lib p c hc n).2.2.2.2 o).1 ho
      obtain ⟨x', hx', hn', rfl⟩ := ((C77_defaults lib _ c' hc' n).2.2.2.2 o').1 ho'
      have hnd := ((C76_accepted _ _).1 ⟨c', hc'⟩).outputNames.1
      obtain ⟨y, hy, hxy⟩ := h.mem hx
      have : y = x' := eq_of_names hnd hy hx' (by rw [← hxy.name, hn, hn'])
      subst this
      exact hxy.completed
    simp only [loadConfig, newConfig, bind_ok, ok_inj] at hc hc'
    obtain ⟨_, ⟨p1, a1, i1, a2, x1, a3, s1, a4, o1, a5, rfl⟩, hc⟩ := hc
    obtain ⟨_, ⟨p2, b1, i2, b2, x2, b3, s2, b4, o2, b5, rfl⟩, hc'⟩ := hc'
    rw [a1] at b1; rw [a2] at b2; rw [a3] at b3; rw [a4] at b4
    cases b1; cases b2; cases b3; cases b4
    simp only [Config.validate, bind_ok, ok_inj] at hc hc'
    obtain ⟨_, c1, _, c2, _, c3, _, c4, _, c5, rfl⟩ := hc
    obtain ⟨_, d1, _, d2, _, d3, _, d4, _, d5, rfl⟩ := hc'
    simp only [addDefaults] at c1 c2 c3 c4 d1 d2 d3 d4
    rw [c1] at d1; rw [c2] at d2; rw [c3] at d3
    cases d1; cases d2; cases d3
    refine ⟨rfl, rfl, rfl, ?_, hout⟩
    rw [validateMap_value (fun _ _ _ h => ServiceDecl.validate_value h) c4, validateMap_value (fun _ _ _ h => ServiceDecl.validate_value h) d4]

namespace RearrangedExample
def one (parameters : GoMap ParamConfig) (relationships : List (String × Relationship)) : OutputDecl :=
  .object "one" { input := "people", parameters := parameters, relationships := relationships }
def same (relationships : List (String × Relationship)) : Relationship :=
  .mk "people" true 0 [] [{ parentProperty := "s", childProperty := "s", childIndex := "" }] relationships
def n : String × ParamConfig := ("n", { property := "n", index := "", parser := "amount" })
def s : String × ParamConfig := ("s", { property := "s", index := "", parser := "" })

/-- An object with two parameters, with two relationships, one of them with two more inside of it: everything in another order. -/
theorem rearranged : RearrangedOutputs [one [n, s] [("a", same [("c", same []), ("d", same [])]), ("b", same [])]]
    [one [s, n] [("b", same []), ("a", same [("d", same []), ("c", same [])])]] :=
  .cons (.object _ rfl (.swap _ _ _) (.trans (.swap _ _ _) (.cons (Spec.Rearranged.refl _) (.cons (.mk (.swap _ _ _)) .nil)))) .nil

example : ∃ c, loadConfig ConfigExample.lib { ConfigExample.parsed with services := [], outputs := [one [s, n] [("b", same []), ("a", same [("d", same []), ("c", same [])])]] } = .ok c :=
  (C72_inside ConfigExample.lib { ConfigExample.parsed with services := [], outputs := [one [n, s] [("a", same [("c", same []), ("d", same [])]), ("b", same [])]] } _ rearranged).1.1 ⟨_, rfl⟩
end RearrangedExample

/-! ### C73: when the limit and the offset have one name -/

/-- **C73** In an accepted configuration the limit and the offset of a list have one name exactly if they are declared with one name, or one of them is declared with the default name
of the other one. -/
theorem C73_exactly_partial (lib : ConfigLib) (p : ParsedConfig) (c : Config) (h : loadConfig lib p = .ok c) (n m : String) (d : ArrayConfig)
    (hd : mapGet c.outputs n = some (.array m d)) :
    ∃ x, .array n x ∈ p.outputs ∧ (d.limit.parameter = d.offsetParameter ↔
      (x.limit.parameter = x.offsetParameter ∧ x.limit.parameter ≠ "") ∨ (x.limit.parameter = "offset" ∧ x.offsetParameter = "") ∨
      (x.limit.parameter = "" ∧ x.offsetParameter = "limit")) := by
  obtain ⟨x, hx, hn, he⟩ := ((C77_defaults lib p c h n).2.2.2.2 _).1 hd
  cases x with
  | graphql a => cases he
  | object a x => cases he
  | array a x =>
    cases he
    cases hn
    refine ⟨x, hx, ?_⟩
    simp only [orText]
    by_cases h1 : x.limit.parameter = "" <;> by_cases h2 : x.offsetParameter = ""
    · simp [h1, h2]
    · simp only [h1, h2, if_true, if_false, ne_eq, not_true, and_false, false_or, true_and]
      rw [eq_comm]
    · simp [h1, h2]
    · simp [h1, h2]

example : ∃ x, OutputDecl.array "list" x ∈ ConfigExample.parsed.outputs ∧ ¬ (x.limit.parameter = x.offsetParameter ∧ x.limit.parameter ≠ "") := by
  obtain ⟨x, hx, hi⟩ := C73_exactly_partial _ _ _ ConfigExample.loads "list" "list" _ rfl
  exact ⟨x, hx, fun h => absurd (hi.2 (.inl h)) (by decide)⟩

end Rodb
