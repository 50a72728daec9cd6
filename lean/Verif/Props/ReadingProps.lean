import Verif.Spec.Reading
import Verif.Proofs.Added
import Verif.Props.ParserProps
import Verif.Props.RunningProps
import Verif.Props.AddedProps
/-
  C125 : what the declared parsers read.
-/
namespace Rodb
open Spec

section
variable {config : ConfigLib} {lib : StartLib} {p : ParsedConfig} {texts : GoMap TextParser} {env : OutputEnv} {apis : GoMap OutputApi} {running : GoMap (String × List Route)}

theorem running_parser (hrun : Running config lib p texts env apis running) {n : String} {x : ParserDecl} (hx : IsParser p n x) :
    ∃ t, mapGet texts n = some t ∧ RunsParser lib (completedParser x) t ∧
      mapGet env.parsers n = some (parse lib.parserLib (texts.map (fun q => (q.1, q.2.config))) texts.length t.config) := by
  obtain ⟨t, ht, hr⟩ := hrun.parsers n x hx
  refine ⟨t, ht, hr, ?_⟩
  rw [hrun.functions]
  simp only [parseFunctions]
  rw [mapGet_mapValues (g := fun q : TextParser => parse lib.parserLib (texts.map (fun q => (q.1, q.2.config))) texts.length q.config), ht]
  rfl

/-- Reading with a split parser, and with the one that it names. -/
theorem running_split {decls : GoMap ParserDecl} (hinst : instantiateMap (ParserDecl.instantiate lib) decls = .ok texts) (hrun : Running config lib p texts env apis running) {n inner : String}
    (hends : SplitsEnd decls n) {t : TextParser} {d : Delimiter} (ht : mapGet texts n = some t) (hc : t.config = .split d inner) (bytes : Bytes) :
    ∃ g, mapGet env.parsers inner = some g ∧
      ReadsPieces (parse lib.parserLib (texts.map (fun q => (q.1, q.2.config))) texts.length t.config) g bytes (d.pieces lib.parserLib bytes) := by
  obtain ⟨l, hchain, hnd⟩ := splitsEnd_chain hinst hends
  have hlen := nodup_subset_length hnd (fun m hm => hchain.known m hm)
  have hn : mapGet (texts.map (fun q => (q.1, q.2.config))) n = some (.split d inner) := by rw [mapGet_mapValues, ht, ← hc]; rfl
  simp only [List.length_cons, List.length_map] at hlen
  have step : ∃ rest, l = inner :: rest ∧ SplitChain (texts.map (fun q => (q.1, q.2.config))) (inner :: rest) := by
    cases hchain with
    | plain h hp =>
      rw [hn] at h
      cases h
      exact absurd rfl (hp d inner)
    | next h hrest =>
      rw [hn] at h
      cases h
      exact ⟨_, rfl, hrest⟩
  obtain ⟨rest, rfl, hrest⟩ := step
  obtain ⟨z, hz⟩ : ∃ z, mapGet (texts.map (fun q => (q.1, q.2.config))) inner = some z := by
    cases hrest with
    | plain h _ => exact ⟨_, h⟩
    | next h _ => exact ⟨_, h⟩
  obtain ⟨u, hu, hz'⟩ : ∃ u, mapGet texts inner = some u ∧ z = u.config := by
    rw [mapGet_mapValues] at hz
    cases hu : mapGet texts inner with
    | none => rw [hu] at hz; cases hz
    | some u => rw [hu] at hz; cases hz; exact ⟨u, rfl, rfl⟩
  simp only [List.length_cons] at hlen
  obtain ⟨fuel, hfuel⟩ : ∃ fuel, texts.length = fuel + 1 := ⟨texts.length - 1, by omega⟩
  have hsame : parse lib.parserLib (texts.map (fun q => (q.1, q.2.config))) texts.length z = parse lib.parserLib (texts.map (fun q => (q.1, q.2.config))) fuel z :=
    funext (hrest.parse (fun _ _ h => h) rfl hz fuel texts.length (by omega) (by omega))
  refine ⟨parse lib.parserLib (texts.map (fun q => (q.1, q.2.config))) texts.length z, ?_, ?_⟩
  · rw [hrun.functions]
    simp only [parseFunctions]
    rw [mapGet_mapValues (g := fun q : TextParser => parse lib.parserLib (texts.map (fun q => (q.1, q.2.config))) texts.length q.config), hu, hz']
    rfl
  · rw [hc, hsame, hfuel]
    exact C33_split_elements lib.parserLib _ fuel d inner z hz bytes
end

/-- **C125** The parsers of a running program read what their declarations in the configuration say. Split parsers that lead back to themselves are left out. -/
theorem C125_parsers (config : ConfigLib) (lib : StartLib) (p : ParsedConfig) (c c' : Config) (hload : loadConfig config p = .ok c) (hre : Reordered c c')
    (running : GoMap (String × List Route)) (hstart : start lib c' = .ok running) :
    ∃ texts env apis, Running config lib p texts env apis running ∧ ReadsAsDeclared lib p c env.parsers := by
  obtain ⟨texts, env, apis, hinst, _, hrun⟩ := start_runs hload hre hstart
  obtain ⟨_, r1, _⟩ := loadConfig_ok hload
  have e1 := mapGet_perm hre.parsers r1.1
  refine ⟨texts, env, apis, hrun, ?_⟩
  constructor
  · rintro n ⟨name, kind⟩ hx rfl
    obtain ⟨t, ht, hr, hf⟩ := running_parser hrun hx
    refine ⟨_, hf, fun bytes => ?_⟩
    simp only [completedParser, RunsParser] at hr
    rcases hr with ⟨_, rfl⟩ | ⟨h, _⟩
    · simp only [TextParser.config, parse, stringParse]
    · exact (h rfl).elim
  · rintro n ⟨name, kind⟩ charset hx rfl hne
    obtain ⟨t, ht, hr, hf⟩ := running_parser hrun hx
    simp only [completedParser, RunsParser] at hr
    rcases hr with ⟨h, _⟩ | ⟨_, convert, hcv, rfl⟩
    · exact (hne h).elim
    · refine ⟨_, convert, hf, hcv, fun bytes => ?_⟩
      simp only [TextParser.config, parse, stringParse]
      cases convert bytes <;> rfl
  · rintro n ⟨name, kind⟩ ignore hx rfl
    obtain ⟨t, ht, hr, hf⟩ := running_parser hrun hx
    simp only [completedParser, RunsParser] at hr
    subst hr
    refine ⟨_, hf, fun text => ?_⟩
    simp only [TextParser.config, parse]
    exact C30_integer_parser ignore.toList text
  · rintro n ⟨name, kind⟩ separator ignore s hx rfl hs
    obtain ⟨t, ht, hr, hf⟩ := running_parser hrun hx
    simp only [completedParser, RunsParser] at hr
    subst hr
    refine ⟨_, hf, fun text => ?_⟩
    simp only [TextParser.config, parse, hs]
    have e : utf8 [s] = String.utf8EncodeChar s := by simp [utf8]
    rw [e]
    exact C65_float_parser lib.parserLib ignore.toList text s
  · rintro n ⟨name, kind⟩ yes no hx rfl
    obtain ⟨t, ht, hr, hf⟩ := running_parser hrun hx
    simp only [completedParser, RunsParser] at hr
    subst hr
    refine ⟨_, hf, fun bytes => ?_⟩
    simp only [TextParser.config, parse, List.map_map]
    exact C32_boolean_parser (yes.map encoded) (no.map encoded) bytes
  · rintro n ⟨name, kind⟩ hx rfl
    obtain ⟨t, ht, hr, hf⟩ := running_parser hrun hx
    simp only [completedParser, RunsParser] at hr
    subst hr
    exact ⟨_, hf, fun bytes => by simp only [TextParser.config, parse]⟩
  · rintro n ⟨name, kind⟩ d regexp inner hx rfl hnr hne hends
    obtain ⟨t, ht, hr, hf⟩ := running_parser hrun hx
    simp only [completedParser, RunsParser] at hr
    obtain ⟨d', hd, ⟨h, _⟩ | ⟨_, rfl⟩⟩ := hr
    · cases regexp with
      | none => cases h
      | some b => exact (hnr h).elim
    · cases hd
      obtain ⟨g, hg, _⟩ := running_split hinst hrun (splitsEnd_perm e1 hends) ht rfl []
      refine ⟨_, g, hf, hg, fun bytes => ?_⟩
      obtain ⟨g', hg', h⟩ := running_split hinst hrun (splitsEnd_perm e1 hends) ht rfl bytes
      rw [hg] at hg'
      cases hg'
      have hne' : utf8 d.toList ≠ [] := by
        intro h0
        refine hne (String.toList_injective ?_)
        cases hd : d.toList with
        | nil => rfl
        | cons ch rest =>
          rw [hd] at h0
          simp only [utf8, List.flatMap_cons, List.append_eq_nil_iff] at h0
          exact absurd (congrArg List.length h0.1) (by have := String.length_utf8EncodeChar ch; have := Char.utf8Size_pos ch; simp only [List.length_nil]; omega)
      exact ⟨_, (C33_split_pieces lib.parserLib bytes _ hne').1, h⟩
  · rintro n ⟨name, kind⟩ d inner hx rfl hends
    obtain ⟨t, ht, hr, hf⟩ := running_parser hrun hx
    simp only [completedParser, RunsParser] at hr
    obtain ⟨d', hd, ⟨_, rfl⟩ | ⟨h, _⟩⟩ := hr
    · cases hd
      obtain ⟨g, hg, _⟩ := running_split hinst hrun (splitsEnd_perm e1 hends) ht rfl []
      refine ⟨_, g, hf, hg, fun bytes => ?_⟩
      obtain ⟨g', hg', h⟩ := running_split hinst hrun (splitsEnd_perm e1 hends) ht rfl bytes
      rw [hg] at hg'
      cases hg'
      exact h
    · exact (h rfl).elim

/-- In the example, "words" reads the texts between spaces, "amount" integers with commas, and "boolean" what it reads without being declared. -/
example (parserLib : ParserLib) (running : GoMap (String × List Route)) (hstart : start (ConfigExample.startLib parserLib) ConfigExample.loaded = .ok running) :
    ∃ functions : GoMap (Bytes → Res Value), ∃ words amount boolean, mapGet functions "words" = some words ∧ mapGet functions "amount" = some amount ∧ mapGet functions "boolean" = some boolean ∧
      words [97, 32, 98, 99] = .ok (.arr [.str [97], .str [98, 99]]) ∧ amount (utf8 ['-', '1', ',', '2']) = .ok (.int (-12)) ∧ boolean (encoded "TRUE") = .ok (.bool true) ∧
      boolean (encoded "0") = .ok (.bool false) ∧ ∃ msg, boolean (encoded "maybe") = .error (.err msg) := by
  obtain ⟨texts, env, apis, hrun, h⟩ := C125_parsers _ _ _ _ _ ConfigExample.loads ⟨.refl _, .refl _, .refl _, .refl _, .refl _⟩ running hstart
  have hwords : IsParser ConfigExample.parsed "words" ⟨"words", .split (some " ") none "string"⟩ := .inl ⟨by decide, rfl⟩
  have hamount : IsParser ConfigExample.parsed "amount" ⟨"amount", .integer ","⟩ := .inl ⟨by decide, rfl⟩
  have hbool : IsParser ConfigExample.parsed "boolean" ⟨"boolean", .boolean ["true", "1", "TRUE"] ["false", "0", "FALSE"]⟩ := .inr ⟨by decide, by decide, rfl⟩
  have hstring : IsParser ConfigExample.parsed "string" ⟨"string", .string ""⟩ := .inr ⟨by decide, by decide, rfl⟩
  obtain ⟨words, g, h1, hg, hw⟩ := h.split _ _ " " none "string" hwords rfl (by simp) (by decide) (AddedExample.ends _ ⟨_, rfl⟩)
  obtain ⟨amount, h2, ha⟩ := h.integer _ _ _ hamount rfl
  obtain ⟨boolean, h3, hb⟩ := h.boolean _ _ _ _ hbool rfl
  obtain ⟨g', hg', hs⟩ := h.text _ _ hstring rfl
  rw [hg] at hg'
  cases hg'
  refine ⟨env.parsers, words, amount, boolean, h1, h2, h3, ?_, ?_, (hb _).1.2 (by decide +kernel), (hb _).2.1.2 ⟨by decide +kernel, by decide +kernel⟩,
    (hb _).2.2.2 ⟨by decide +kernel, by decide +kernel⟩⟩
  · obtain ⟨pieces, hp, hr⟩ := hw [97, 32, 98, 99]
    have hpieces : pieces = [[97], [98, 99]] := by
      have hun := (C33_split_pieces parserLib [97, 32, 98, 99] (encoded " ") (by decide +kernel)).2.2.2 pieces hp
      rw [hun, show encoded " " = [32] by decide +kernel]
      show splitBytes [97, 32, 98, 99] [32] = _
      decide +kernel
    subst hpieces
    refine (hr.1 _).2 ⟨_, rfl, rfl, fun i h h' => ?_⟩
    match i, h with
    | 0, _ => exact hs _
    | 1, _ => exact hs _
  · refine ((ha _).1 _).2 ?_
    exact ⟨by unfold Int64Range; decide, utf8 ['1', '2'], ⟨by decide, by decide⟩, .inr ⟨by decide, by decide⟩⟩

end Rodb
