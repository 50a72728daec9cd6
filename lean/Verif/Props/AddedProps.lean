import Verif.Proofs.AddedStart
import Verif.Props.FilesProps
import Verif.Model.Url
/-
  C123 : adding components to a configuration.
-/
namespace Rodb
open Spec

theorem isComponent_adds {α : Type} {name : α → String} {declared declared' defaults : List α} (hs : declared ⊆ declared')
    (hnew : ∀ x ∈ declared', x ∉ declared → ∀ b ∈ defaults, name x ≠ name b) {n : String} {x : α} (h : IsComponent name declared defaults n x) : IsComponent name declared' defaults n x := by
  rcases h with ⟨h, he⟩ | ⟨h, hd, he⟩
  · exact .inl ⟨hs h, he⟩
  · refine .inr ⟨fun y hy hny => ?_, hd, he⟩
    by_cases hm : y ∈ declared
    · exact h y hm hny
    · exact hnew y hy hm x hd (by rw [hny, he])

theorem loaded_keeps {lib : ConfigLib} {p p' : ParsedConfig} (hadd : AddsTo p p') {c c' : Config} (hc : loadConfig lib p = .ok c) (hc' : loadConfig lib p' = .ok c') : ConfigKeeps c c' := by
  constructor
  · intro n y hy
    obtain ⟨x, hx, e⟩ := ((C77_defaults lib p c hc n).1 y).1 hy
    exact ((C77_defaults lib p' c' hc' n).1 y).2 ⟨x, isComponent_adds hadd.parsers hadd.newParsers hx, e⟩
  · intro n y hy
    obtain ⟨x, hx, e⟩ := ((C77_defaults lib p c hc n).2.1 y).1 hy
    exact ((C77_defaults lib p' c' hc' n).2.1 y).2 ⟨x, hadd.inputs hx, e⟩
  · intro n y hy
    obtain ⟨x, hx, e⟩ := ((C77_defaults lib p c hc n).2.2.1 y).1 hy
    refine ((C77_defaults lib p' c' hc' n).2.2.1 y).2 ⟨x, isComponent_adds hadd.indexes (fun x hx hm b hb => ?_) hx, e⟩
    rw [List.mem_singleton] at hb
    subst hb
    exact hadd.newIndexes x hx hm
  · intro n y hy
    obtain ⟨x, hx, e⟩ := ((C77_defaults lib p c hc n).2.2.2.1 y).1 hy
    exact ((C77_defaults lib p' c' hc' n).2.2.2.1 y).2 ⟨x, hadd.services hx, e⟩
  · intro n y hy
    obtain ⟨x, hx, e⟩ := ((C77_defaults lib p c hc n).2.2.2.2 y).1 hy
    exact ((C77_defaults lib p' c' hc' n).2.2.2.2 y).2 ⟨x, hadd.outputs hx, e⟩

theorem splitsEnd_perm {a b : GoMap ParserDecl} (h : ∀ n, mapGet a n = mapGet b n) {n : String} (hn : SplitsEnd a n) : SplitsEnd b n := by
  induction hn with
  | plain hx hp => exact .plain (by rw [← h]; exact hx) hp
  | next hx hk _ ih => exact .next (by rw [← h]; exact hx) hk ih

section mono
variable {lib : ConfigLib} {p p' : ParsedConfig}

theorem Spec.AddsTo.isParser (h : AddsTo p p') {n : String} {x : ParserDecl} (hx : IsParser p n x) : IsParser p' n x := isComponent_adds h.parsers h.newParsers hx

theorem Spec.AddsTo.isIndex (h : AddsTo p p') {n : String} {x : IndexDecl} (hx : IsIndex p n x) : IsIndex p' n x :=
  isComponent_adds h.indexes (fun x hx hm b hb => by
    rw [List.mem_singleton] at hb
    subst hb
    exact h.newIndexes x hx hm) hx

theorem Spec.AddsTo.parserName (h : AddsTo p p') {n : String} (hn : ParserName p n) : ParserName p' n := hn.imp id (fun ⟨x, hx⟩ => ⟨x, h.isParser hx⟩)

theorem Spec.AddsTo.inputName (h : AddsTo p p') {n : String} (hn : InputName p n) : InputName p' n := hn.imp (fun _ hx => ⟨h.inputs hx.1, hx.2⟩)

theorem Spec.AddsTo.outputName (h : AddsTo p p') {n : String} (hn : OutputName p n) : OutputName p' n := hn.imp (fun _ hx => ⟨h.outputs hx.1, hx.2⟩)

theorem Spec.AddsTo.searchable (h : AddsTo p p') {index input property : String} (hs : Searchable p index input property) : Searchable p' index input property :=
  hs.imp (fun _ hx => ⟨h.isIndex hx.1, hx.2⟩)

theorem Spec.AddsTo.wellFormedParser (h : AddsTo p p') {x : ParserDecl} (hx : WellFormedParser lib p x) : WellFormedParser lib p' x := by
  unfold WellFormedParser at hx ⊢
  split at hx
  · exact hx
  · exact hx
  · obtain ⟨d, h1, h2, y, hy⟩ := hx
    exact ⟨d, h1, h2, y, h.isParser hy⟩
  · trivial

theorem Spec.AddsTo.wellFormedXml (h : AddsTo p p') {x : XmlPropDecl} (hx : WellFormedXml lib p x) : WellFormedXml lib p' x := by
  cases x with
  | mk name type parser xpath items properties => exact ⟨hx.1, hx.2.imp (fun ⟨a, b, c⟩ => ⟨a, h.parserName b, c⟩) id⟩

theorem Spec.AddsTo.wellFormedInput (h : AddsTo p p') {x : InputDecl} (hx : WellFormedInput lib p x) : WellFormedInput lib p' x := by
  cases x with
  | csv d => exact ⟨hx.1, hx.2.1, hx.2.2.1, hx.2.2.2.1, fun c hc => h.parserName (hx.2.2.2.2 c hc)⟩
  | xml d => exact ⟨hx.1, hx.2.1, hx.2.2.1, hx.2.2.2.1, fun q hq => h.wellFormedXml (hx.2.2.2.2 q hq)⟩
  | json d => exact hx

theorem Spec.AddsTo.wellFormedIndex (h : AddsTo p p') {x : IndexDecl} (hx : WellFormedIndex lib p x) : WellFormedIndex lib p' x := by
  cases x with
  | map d => exact ⟨h.inputName hx.1, hx.2⟩
  | wildcard d => exact ⟨hx.1, hx.2.1, h.inputName hx.2.2.1, hx.2.2.2⟩
  | sqlite d => exact ⟨hx.1, h.inputName hx.2.1, hx.2.2⟩
  | fts5 d => exact ⟨hx.1, h.inputName hx.2.1, hx.2.2⟩
  | noop n => trivial

theorem Spec.AddsTo.wellFormedRelationship (h : AddsTo p p') {x : Relationship} (hx : WellFormedRelationship p x) : WellFormedRelationship p' x := by
  cases x with
  | mk input isArray limit sort matching relationships =>
    exact ⟨h.inputName hx.1, hx.2.1, hx.2.2.1, hx.2.2.2.1, hx.2.2.2.2.1, fun m hm => h.searchable (hx.2.2.2.2.2 m hm)⟩

theorem Spec.AddsTo.wellFormedParameter (h : AddsTo p p') {input : String} {x : ParamConfig} (hx : WellFormedParameter p input x) : WellFormedParameter p' input x :=
  ⟨hx.1, h.searchable hx.2.1, hx.2.2.imp (fun _ hy => ⟨h.isParser hy.1, hy.2⟩)⟩

theorem Spec.AddsTo.wellFormedOutput (h : AddsTo p p') {x : OutputDecl} (hx : WellFormedOutput p x) : WellFormedOutput p' x := by
  cases x with
  | graphql n => trivial
  | array n d => exact ⟨hx.1, h.inputName hx.2.1, hx.2.2.1, fun name param hp => ⟨h.wellFormedParameter (hx.2.2.2.1 name param hp).1, (hx.2.2.2.1 name param hp).2⟩,
      fun r hr => h.wellFormedRelationship (hx.2.2.2.2 r hr)⟩
  | object n d => exact ⟨hx.1, h.inputName hx.2.1, hx.2.2.1, fun name param hp => h.wellFormedParameter (hx.2.2.2.1 name param hp), fun r hr => h.wellFormedRelationship (hx.2.2.2.2 r hr)⟩

theorem Spec.AddsTo.wellFormedService (h : AddsTo p p') {x : ServiceDecl} (hx : WellFormedService lib p x) : WellFormedService lib p' x :=
  ⟨hx.1, hx.2.1, hx.2.2.1, hx.2.2.2.1, hx.2.2.2.2.1, fun r hr => ⟨(hx.2.2.2.2.2 r hr).1, h.outputName (hx.2.2.2.2.2 r hr).2⟩⟩

end mono

/-- **C123** Components can be added to an accepted configuration: it stays accepted exactly when the names are still different and not empty, and each of the new components is well formed. -/
theorem C123_accepted (lib : ConfigLib) (p p' : ParsedConfig) (hadd : AddsTo p p') (c : Config) (hc : loadConfig lib p = .ok c) :
    (∃ c', loadConfig lib p' = .ok c') ↔
      (GoodNames (p'.parsers.map ParserDecl.name) ∧ GoodNames (p'.inputs.map InputDecl.name) ∧ GoodNames (p'.indexes.map IndexDecl.name) ∧
        GoodNames (p'.services.map ServiceDecl.name) ∧ GoodNames (p'.outputs.map OutputDecl.name)) ∧
      (∀ x ∈ p'.parsers, x ∉ p.parsers → WellFormedParser lib p' x) ∧ (∀ x ∈ p'.inputs, x ∉ p.inputs → WellFormedInput lib p' x) ∧
      (∀ x ∈ p'.indexes, x ∉ p.indexes → WellFormedIndex lib p' x) ∧ (∀ x ∈ p'.services, x ∉ p.services → WellFormedService lib p' x) ∧
      (∀ x ∈ p'.outputs, x ∉ p.outputs → WellFormedOutput p' x) := by
  rw [C76_accepted]
  have hw := (C76_accepted lib p).1 ⟨c, hc⟩
  constructor
  · intro h
    exact ⟨⟨h.parserNames, h.inputNames, h.indexNames, h.serviceNames, h.outputNames⟩, fun x hx _ => h.parsers x hx, fun x hx _ => h.inputs x hx, fun x hx _ => h.indexes x hx,
      fun x hx _ => h.services x hx, fun x hx _ => h.outputs x hx⟩
  · rintro ⟨⟨g1, g2, g3, g4, g5⟩, h1, h2, h3, h4, h5⟩
    refine ⟨g1, g2, g3, g4, g5, fun x hx => ?_, fun x hx => ?_, fun x hx => ?_, fun x hx => ?_, fun x hx => ?_⟩
    · by_cases hm : x ∈ p.parsers
      · exact hadd.wellFormedParser (hw.parsers x hm)
      · exact h1 x hx hm
    · by_cases hm : x ∈ p.inputs
      · exact hadd.wellFormedInput (hw.inputs x hm)
      · exact h2 x hx hm
    · by_cases hm : x ∈ p.indexes
      · exact hadd.wellFormedIndex (hw.indexes x hm)
      · exact h3 x hx hm
    · by_cases hm : x ∈ p.services
      · exact hadd.wellFormedService (hw.services x hm)
      · exact h4 x hx hm
    · by_cases hm : x ∈ p.outputs
      · exact hadd.wellFormedOutput (hw.outputs x hm)
      · exact h5 x hx hm

/-- **C123** If components are added to a configuration, and the program starts with them, then it also starts without them, and every service of the smaller configuration answers every request
in the same way in both programs. What is added must not be called like a parser or index that need not be declared. Split parsers must not lead back to themselves. -/
theorem C123_answers (lib : ConfigLib) (p p' : ParsedConfig) (hadd : AddsTo p p') (c c' : Config) (hc : loadConfig lib p = .ok c) (hc' : loadConfig lib p' = .ok c')
    (hends : ∀ n, Known c.parsers n → SplitsEnd c.parsers n) (rest : StartLib) (files : Files) (hvisit : ∀ path (α : Type) (l : List α), (rest.visit path l).Perm l)
    (d d' : Config) (ho : Reordered c d) (ho' : Reordered c' d') (more : GoMap (String × List Route)) (hstart : start (rest.onFiles files) d' = .ok more) :
    ∃ running, start (rest.onFiles files) d = .ok running ∧ ∀ name errorsType routes, mapGet running name = some (errorsType, routes) →
      ∃ routes', mapGet more name = some (errorsType, routes') ∧ ∀ (service : ServiceLib) old visit method contentType target body,
        serveTarget service errorsType routes' old visit method contentType target body = serveTarget service errorsType routes old visit method contentType target body := by
  obtain ⟨hr, r1, r2, r3, r4, r5, hb, _⟩ := loadConfig_ok hc
  obtain ⟨_, t1, t2, t3, t4, t5, _, _⟩ := loadConfig_ok hc'
  have hk := loaded_keeps hadd hc hc'
  have e1 := mapGet_perm ho.parsers r1.1
  have e2 := mapGet_perm ho.inputs r2.1
  have e3 := mapGet_perm ho.indexes r3.1
  have e4 := mapGet_perm ho.services r4.1
  have e5 := mapGet_perm ho.outputs r5.1
  have hk' : ConfigKeeps d d' := by
    constructor
    · intro n x hx; rw [← mapGet_perm ho'.parsers t1.1]; exact hk.parsers n x (by rw [e1]; exact hx)
    · intro n x hx; rw [← mapGet_perm ho'.inputs t2.1]; exact hk.inputs n x (by rw [e2]; exact hx)
    · intro n x hx; rw [← mapGet_perm ho'.indexes t3.1]; exact hk.indexes n x (by rw [e3]; exact hx)
    · intro n x hx; rw [← mapGet_perm ho'.services t4.1]; exact hk.services n x (by rw [e4]; exact hx)
    · intro n x hx; rw [← mapGet_perm ho'.outputs t5.1]; exact hk.outputs n x (by rw [e5]; exact hx)
  have known : ∀ n, Known c.parsers n → Known d.parsers n := fun n ⟨x, hx⟩ => ⟨x, by rw [← e1]; exact hx⟩
  have hw := (C76_accepted lib p).1 ⟨c, hc⟩
  have hP : ∀ n, ParserName p n → Known d.parsers (orText n "string") := by
    intro n hn
    refine known _ ?_
    have get : ∀ n x, IsParser p n x → Known c.parsers n := fun n x hx => ⟨_, ((C77_defaults lib p c hc n).1 _).2 ⟨x, hx, rfl⟩⟩
    rcases hn with rfl | ⟨x, hx⟩
    · obtain ⟨x, hx⟩ := string_isParser p
      exact get _ x hx
    · by_cases h : n = ""
      · subst h
        obtain ⟨x, hx⟩ := string_isParser p
        exact get _ x hx
      · simp only [orText, h, if_false]
        exact get _ x hx
  obtain ⟨running, hs, hkeeps⟩ := start_added (lib := rest.onFiles files) (files := files) rfl hvisit (References.reorder ho r1.1 r2.1 r3.1 r5.1 hr) hk'
    ((ho.parsers.map _).nodup_iff.1 r1.1) ((ho.inputs.map _).nodup_iff.1 r2.1) ((ho.indexes.map _).nodup_iff.1 r3.1) ((ho.outputs.map _).nodup_iff.1 r5.1) ((ho.services.map _).nodup_iff.1 r4.1)
    (known _ (hb ⟨"string", .string ""⟩ (by simp [builtinParsers])))
    (fun n ⟨x, hx⟩ => splitsEnd_perm e1 (hends n ⟨x, by rw [e1]; exact hx⟩)) (fun n x hx => by
      rw [← e2] at hx
      obtain ⟨y, hy, _, e⟩ := ((C77_defaults lib p c hc n).2.1 _).1 hx
      cases y with
      | csv y => cases e
      | json y => cases e
      | xml y =>
        cases e
        exact xmlAllParsersOk_completed hP files.xpath y.properties (hw.inputs _ hy).2.2.2.2) hstart
  exact ⟨running, hs, fun name errorsType routes h => ⟨routes, hkeeps name _ h, fun _ _ _ _ _ _ _ => rfl⟩⟩

namespace AddedExample
/-- The configuration of `ConfigExample` with one more of everything. -/
def more : ParsedConfig where
  parsers := ⟨"lines", .split (some ";") none "words"⟩ :: ConfigExample.parsed.parsers
  inputs := ConfigExample.parsed.inputs ++ [.csv { name := "cities", path := "cities.csv", dieOnInputChange := none, ignoreFirstRow := true, autodetectColumns := true, delimiter := "", columns := [] }]
  indexes := .map { name := "cities", input := "cities", properties := ["s"] } :: ConfigExample.parsed.indexes
  services := ConfigExample.parsed.services ++ [{ name := "other", http := some "", https := none, errorsType := "", routes := [⟨"cities", "/people"⟩] }]
  outputs := .array "cities" { input := "cities", limit := ⟨0, 0, ""⟩, offsetParameter := "", parameters := [("s", { property := "s", index := "cities", parser := "" })], relationships := [] } ::
    ConfigExample.parsed.outputs

theorem adds : AddsTo ConfigExample.parsed more where
  parsers := fun _ h => .tail _ h
  inputs := fun _ h => List.mem_append_left _ h
  indexes := fun _ h => .tail _ h
  services := fun _ h => List.mem_append_left _ h
  outputs := fun _ h => .tail _ h
  newParsers := by
    intro x hx hn b hb
    rcases List.mem_cons.1 hx with rfl | hx
    · simp only [builtinParsers, List.mem_cons, List.not_mem_nil, or_false] at hb
      rcases hb with rfl | rfl | rfl | rfl | rfl <;> decide
    · exact absurd hx hn
  newIndexes := by
    intro x hx hn
    rcases List.mem_cons.1 hx with rfl | hx
    · decide
    · exact absurd hx hn

/-- Both data files have the content of the file of `FilesExample`. -/
def machine : Files := { FilesExample.machine with content := fun _ => FilesExample.machine.content "in.csv" }

theorem starts : ∃ c', loadConfig ConfigExample.lib more = .ok c' ∧ ∃ running, start ((ConfigExample.startLib FilesExample.noParsers).onFiles machine) c' = .ok running := by
  have h : (match loadConfig ConfigExample.lib more with
      | .ok c => (match start ((ConfigExample.startLib FilesExample.noParsers).onFiles machine) c with | .ok _ => true | .error _ => false)
      | .error _ => false) = true := by decide +kernel
  cases hc : loadConfig ConfigExample.lib more with
  | error e => rw [hc] at h; cases h
  | ok c =>
    rw [hc] at h
    simp only at h
    refine ⟨c, rfl, ?_⟩
    cases hs : start ((ConfigExample.startLib FilesExample.noParsers).onFiles machine) c with
    | error e => rw [hs] at h; cases h
    | ok running => exact ⟨running, rfl⟩

theorem ends : ∀ n, Known ConfigExample.loaded.parsers n → SplitsEnd ConfigExample.loaded.parsers n := by
  intro n ⟨x, hx⟩
  by_cases hw : ∃ d r inner, x.kind = .split d r inner
  · obtain ⟨d, r, inner, hk⟩ := hw
    have hm := mapGet_mem hx
    simp only [ConfigExample.loaded, List.mem_cons, Prod.mk.injEq, List.not_mem_nil, or_false] at hm
    rcases hm with ⟨_, rfl⟩ | ⟨_, rfl⟩ | ⟨_, rfl⟩ | ⟨_, rfl⟩ | ⟨_, rfl⟩ | ⟨_, rfl⟩ | ⟨_, rfl⟩ <;> first | cases hk | skip
    exact .next hx rfl (.plain (x := ⟨"string", .string ""⟩) rfl (by intro d r i h; cases h))
  · exact .plain hx (fun d r inner hk => hw ⟨d, r, inner, hk⟩)
end AddedExample

/-- The service of the people answers in the same way when there are cities too, and another service with the same path. -/
example : ∃ c' more, loadConfig ConfigExample.lib AddedExample.more = .ok c' ∧ start ((ConfigExample.startLib FilesExample.noParsers).onFiles AddedExample.machine) c' = .ok more ∧
    ∃ running, start ((ConfigExample.startLib FilesExample.noParsers).onFiles AddedExample.machine) ConfigExample.loaded = .ok running ∧
      ∀ name errorsType routes, mapGet running name = some (errorsType, routes) → ∃ routes', mapGet more name = some (errorsType, routes') ∧
        ∀ (service : ServiceLib) old visit method contentType target body,
          serveTarget service errorsType routes' old visit method contentType target body = serveTarget service errorsType routes old visit method contentType target body := by
  obtain ⟨c', hc', more, hs⟩ := AddedExample.starts
  exact ⟨c', more, hc', hs, C123_answers _ _ _ AddedExample.adds _ _ ConfigExample.loads hc' AddedExample.ends _ _ (fun _ _ _ => .refl _) _ _
    ⟨.refl _, .refl _, .refl _, .refl _, .refl _⟩ ⟨.refl _, .refl _, .refl _, .refl _, .refl _⟩ more hs⟩

/-- The new components of the example are well formed. -/
example : ∀ x ∈ AddedExample.more.outputs, x ∉ ConfigExample.parsed.outputs → WellFormedOutput AddedExample.more x := by
  obtain ⟨c', hc', _⟩ := AddedExample.starts
  exact ((C123_accepted ConfigExample.lib _ _ AddedExample.adds _ ConfigExample.loads).1 ⟨c', hc'⟩).2.2.2.2.2

end Rodb
