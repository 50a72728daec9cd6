import Verif.Props.ServiceProps
import Verif.Props.ParserProps
/-
  More properties of routes: the order of the configuration (C52), refused routes (C70), and the texts that placeholders
  stand for compared with those that their parsers read (C71).
-/
namespace Rodb
open Spec

/-- **C52** The routes of a service are the configured ones in the configured order, and the startup fails if one of them cannot be
created. -/
theorem C52_configured_order (outputs : GoMap OutputApi) (configured : List (String × List Char)) :
    (∀ routes, createRoutes outputs configured = .ok routes ↔ routes.length = configured.length ∧
      ∀ k (h : k < configured.length) (h' : k < routes.length), createRoute outputs configured[k].1 configured[k].2 = .ok routes[k]) ∧
    ((∃ e, createRoutes outputs configured = .error e) ↔ ∃ c ∈ configured, ∃ e, createRoute outputs c.1 c.2 = .error e) := by
  induction configured with
  | nil =>
    refine ⟨fun routes => ⟨fun h => ?_, fun h => ?_⟩, ⟨fun ⟨e, h⟩ => ?_, fun ⟨c, h, _⟩ => ?_⟩⟩
    · cases h; simp
    · rw [List.length_eq_zero_iff.1 h.1]; rfl
    · cases h
    · cases h
  | cons x configured ih =>
    obtain ⟨output, path⟩ := x
    simp only [createRoutes]
    cases hr : createRoute outputs output path with
    | error e =>
      refine ⟨fun routes => ⟨fun h => (by cases h), fun ⟨h1, h2⟩ => ?_⟩, ⟨fun _ => ⟨_, List.mem_cons_self, e, hr⟩, fun _ => ⟨e, rfl⟩⟩⟩
      have := h2 0 (by simp) (by simp [h1])
      simp only [List.getElem_cons_zero, hr] at this
      cases this
    | ok route =>
      cases hrs : createRoutes outputs configured with
      | error e =>
        refine ⟨fun routes => ⟨fun h => (by cases h), fun ⟨h1, h2⟩ => ?_⟩, ⟨fun _ => ?_, fun _ => ⟨e, rfl⟩⟩⟩
        · match routes, h1, h2 with
          | r :: routes, h1, h2 =>
            have := (ih.1 routes).2 ⟨by simpa using h1, fun k h h' => by
              have := h2 (k + 1) (by simpa using h) (by simpa using h')
              simpa using this⟩
            rw [hrs] at this
            cases this
        · obtain ⟨c, hc, e', he⟩ := ih.2.1 ⟨e, hrs⟩
          exact ⟨c, List.mem_cons_of_mem _ hc, e', he⟩
      | ok rest =>
        refine ⟨fun routes => ⟨fun h => ?_, fun ⟨h1, h2⟩ => ?_⟩, ⟨fun ⟨e, h⟩ => (by cases h), fun ⟨c, hc, e, he⟩ => ?_⟩⟩
        · cases h
          obtain ⟨g1, g2⟩ := (ih.1 rest).1 hrs
          refine ⟨by simp [g1], fun k h h' => ?_⟩
          cases k with
          | zero => exact hr
          | succ k => exact g2 k (by simpa using h) (by simpa using h')
        · match routes, h1, h2 with
          | r :: routes, h1, h2 =>
            have h0 := h2 0 (by simp) (by simp)
            simp only [List.getElem_cons_zero, hr] at h0
            cases h0
            have := (ih.1 routes).2 ⟨by simpa using h1, fun k h h' => by
              have := h2 (k + 1) (by simpa using h) (by simpa using h')
              simpa using this⟩
            rw [hrs] at this
            cases this
            rfl
        · rcases List.mem_cons.1 hc with rfl | hc
          · rw [hr] at he; cases he
          · obtain ⟨e', he'⟩ := ih.2.2 ⟨c, hc, e, he⟩
            rw [hrs] at he'; cases he'

example : ∃ routes, createRoutes [("out", ServiceExample.output)] [("out", "/all".toList), ("out", "/true".toList)] = .ok routes ∧
    routes.map Route.path = ["/all".toList, "/true".toList] := ⟨_, rfl, rfl⟩

theorem pathPattern_primitive {output : OutputApi} : ∀ {placeholders : List (List Char × List Char)} {pattern : List Char},
    pathPattern output placeholders = .ok pattern →
    ∀ p ∈ placeholders, ∃ parser, output.parameterParser (String.ofList p.1) = .ok parser ∧ parser.config.primitive = true
  | [], _, _ => by simp
  | (name, literal) :: rest, pattern, h => by
    simp only [pathPattern] at h
    cases hp : output.parameterParser (String.ofList name) with
    | error e => rw [hp] at h; cases h
    | ok parser =>
      rw [hp] at h
      by_cases hprim : parser.config.primitive = true
      · simp only [if_pos hprim] at h
        cases hr : pathPattern output rest with
        | error e => rw [hr] at h; cases h
        | ok pat =>
          intro p hp'
          rcases List.mem_cons.1 hp' with rfl | hp'
          · exact ⟨parser, hp, hprim⟩
          · exact pathPattern_primitive hr p hp'
      · simp only [if_neg hprim] at h
        cases h

theorem created_route {outputs : GoMap OutputApi} {name : String} {path : List Char} {route : Route}
    (h : createRoute outputs name path = .ok route) :
    mapGet outputs name = some route.output ∧ route.parameters = (splitTemplate path.length path).2.map (fun p => String.ofList p.1) ∧
      ∀ n ∈ route.parameters,
        route.output.hasParameter n = true ∧ ∃ parser, route.output.parameterParser n = .ok parser ∧ parser.config.primitive = true := by
  simp only [createRoute] at h
  cases ho : mapGet outputs name with
  | none => rw [ho] at h; cases h
  | some output =>
    rw [ho] at h
    simp only [createPathRegexp] at h
    generalize splitTemplate path.length path = split at h
    obtain ⟨first, placeholders⟩ := split
    simp only at h
    cases hpat : pathPattern output placeholders with
    | error e => rw [hpat] at h; cases h
    | ok pattern =>
      rw [hpat] at h
      simp only at h
      cases hc : compilePattern ('^' :: (first ++ pattern) ++ ['$']) with
      | none => rw [hc] at h; cases h
      | some r =>
        rw [hc] at h
        simp only at h
        split at h
        · rename_i hall
          cases h
          refine ⟨rfl, rfl, fun n hn => ⟨List.all_eq_true.1 hall n hn, ?_⟩⟩
          obtain ⟨p, hp, rfl⟩ := List.mem_map.1 hn
          exact pathPattern_primitive hpat p hp
        · cases h

/-- **C70** Every parameter of a route that is created, with any path, is one of its output, with a parser for primitive values. -/
theorem C70_route_parameters (outputs : GoMap OutputApi) (name : String) (path : List Char) (route : Route)
    (h : createRoute outputs name path = .ok route) :
    mapGet outputs name = some route.output ∧ ∀ n ∈ route.parameters,
      route.output.hasParameter n = true ∧ ∃ parser, route.output.parameterParser n = .ok parser ∧ parser.config.primitive = true :=
  ⟨(created_route h).1, (created_route h).2.2⟩

theorem closesName_split {rest : List Char} {c : Char} {after : List Char} (h : rest.dropWhile (· ≠ '}') = c :: after) :
    c = '}' ∧ '}' ∉ rest.takeWhile (· ≠ '}') ∧ rest = rest.takeWhile (· ≠ '}') ++ '}' :: after := by
  have h1 : c = '}' := by
    have := List.head?_dropWhile_not (fun x => decide (x ≠ '}')) rest
    rw [h] at this
    simpa using this
  subst h1
  refine ⟨rfl, fun hm => ?_, ?_⟩
  · have := List.all_takeWhile (l := rest) (p := fun x => decide (x ≠ '}'))
    have := List.all_eq_true.1 this _ hm
    simp at this
  · rw [← h]
    exact List.takeWhile_append_dropWhile.symm

theorem substituted_of_split {output : OutputApi} : ∀ (fuel : Nat) (path : List Char), path.length ≤ fuel → ∀ first placeholders pattern,
    splitTemplate fuel path = (first, placeholders) → pathPattern output placeholders = .ok pattern →
    (∀ p ∈ placeholders, output.hasParameter (String.ofList p.1) = true) →
    Substituted output path (first ++ pattern) (placeholders.map (fun p => String.ofList p.1))
  | fuel, [], _, first, placeholders, pattern, h1, h2, _ => by
    have h1' : ([], []) = (first, placeholders) := by
      rw [← h1]; cases fuel <;> rfl
    cases h1'
    cases h2
    exact .done
  | 0, _ :: _, hn, _, _, _, _, _, _ => by simp at hn
  | fuel + 1, c :: rest, hn, first, placeholders, pattern, h1, h2, h3 => by
    simp only [List.length_cons, Nat.add_le_add_iff_right] at hn
    simp only [splitTemplate] at h1
    split at h1
    · rename_i d after hd
      obtain ⟨rfl, h4, h5⟩ := closesName_split hd
      by_cases hc : c = '{' ∧ rest.takeWhile (· ≠ '}') ≠ []
      · rw [if_pos hc] at h1
        generalize rest.takeWhile (· ≠ '}') = name at *
        rcases hs : splitTemplate fuel after with ⟨literal, more⟩
        rw [hs] at h1
        cases h1
        have hl : after.length ≤ fuel := by rw [h5] at hn; simp at hn; omega
        simp only [pathPattern] at h2
        cases hp : output.parameterParser (String.ofList name) with
        | error e => rw [hp] at h2; cases h2
        | ok parser =>
          rw [hp] at h2
          by_cases hprim : parser.config.primitive = true
          · simp only [if_pos hprim] at h2
            cases hr : pathPattern output more with
            | error e => rw [hr] at h2; cases h2
            | ok pat =>
              rw [hr] at h2
              cases h2
              have ih := substituted_of_split fuel after hl literal more pat hs hr (fun p hp => h3 p (List.mem_cons_of_mem _ hp))
              have := Substituted.placeholder hc.2 h4 (h3 _ List.mem_cons_self) hp hprim ih
              rw [hc.1, h5]
              simpa using this
          · simp only [if_neg hprim] at h2
            cases h2
      · rw [if_neg hc] at h1
        rcases hs : splitTemplate fuel rest with ⟨literal, more⟩
        rw [hs] at h1
        cases h1
        refine .text ?_ (substituted_of_split fuel rest hn literal _ pattern hs h2 h3)
        rintro e ⟨name, after', g1, g2, g3⟩
        refine hc ⟨e, ?_⟩
        rw [g3, takeWhile_name g2]
        exact g1
    · rename_i hd
      rcases hs : splitTemplate fuel rest with ⟨literal, more⟩
      rw [hs] at h1
      cases h1
      refine .text ?_ (substituted_of_split fuel rest hn literal _ pattern hs h2 h3)
      rintro e ⟨name, after', g1, g2, g3⟩
      rw [g3, dropWhile_name g2] at hd
      cases hd

theorem split_of_substituted {output : OutputApi} {path text : List Char} {names : List String} (h : Substituted output path text names) : ∀ fuel, path.length ≤ fuel →
    ∃ first placeholders pattern, splitTemplate fuel path = (first, placeholders) ∧ pathPattern output placeholders = .ok pattern ∧ text = first ++ pattern ∧
      names = placeholders.map (fun p => String.ofList p.1) ∧ ∀ p ∈ placeholders, output.hasParameter (String.ofList p.1) = true := by
  induction h with
  | done => intro fuel _; exact ⟨[], [], [], by cases fuel <;> rfl, rfl, rfl, rfl, by simp⟩
  | @text c rest t names hc h ih =>
    intro fuel hn
    cases fuel with
    | zero => simp at hn
    | succ fuel =>
      simp only [List.length_cons, Nat.add_le_add_iff_right] at hn
      obtain ⟨first, placeholders, pattern, h1, h2, rfl, rfl, h3⟩ := ih fuel hn
      refine ⟨c :: first, placeholders, pattern, ?_, h2, rfl, rfl, h3⟩
      simp only [splitTemplate]
      split
      · rename_i d after hd
        obtain ⟨rfl, h4, h5⟩ := closesName_split hd
        rw [if_neg (fun g => hc g.1 ⟨_, after, g.2, h4, h5⟩), h1]
      · rw [h1]
  | @placeholder name after t names parser hne hbrace hhas hparser hprim h ih =>
    intro fuel hn
    cases fuel with
    | zero => simp at hn
    | succ fuel =>
      obtain ⟨first, placeholders, pattern, h1, h2, rfl, rfl, h3⟩ := ih fuel (by simp at hn; omega)
      refine ⟨[], (name, first) :: placeholders, '(' :: parser.pattern ++ ')' :: first ++ pattern, ?_, ?_, by simp, rfl, ?_⟩
      · simp only [List.cons_append, splitTemplate, takeWhile_name hbrace, dropWhile_name hbrace, h1]
        rw [if_pos (by simpa using hne)]
      · simp only [pathPattern, hparser, if_pos hprim, h2]
      · intro p hp
        rcases List.mem_cons.1 hp with rfl | hp
        · exact hhas
        · exact h3 p hp

/-- **C70** Exactly these routes can be created, with any path: the output exists, the placeholders of the path are parameters of it with parsers of primitive values, and what results when the patterns
of the parsers replace the placeholders is a regular expression. -/
theorem C70_created (outputs : GoMap OutputApi) (name : String) (path : List Char) (route : Route) :
    createRoute outputs name path = .ok route ↔ ∃ output text names r, mapGet outputs name = some output ∧ Substituted output path text names ∧
      compilePattern ('^' :: text ++ ['$']) = some r ∧ route = { path := path, regexp := r, parameters := names, output := output } := by
  constructor
  · intro h
    simp only [createRoute] at h
    cases ho : mapGet outputs name with
    | none => rw [ho] at h; cases h
    | some output =>
      rw [ho] at h
      simp only [createPathRegexp] at h
      rcases hs : splitTemplate path.length path with ⟨first, placeholders⟩
      rw [hs] at h
      simp only at h
      cases hpat : pathPattern output placeholders with
      | error e => rw [hpat] at h; cases h
      | ok pattern =>
        rw [hpat] at h
        simp only at h
        cases hc : compilePattern ('^' :: (first ++ pattern) ++ ['$']) with
        | none => rw [hc] at h; cases h
        | some r =>
          rw [hc] at h
          simp only at h
          split at h
          · rename_i hall
            cases h
            exact ⟨output, first ++ pattern, _, r, rfl, substituted_of_split _ path (Nat.le_refl _) first placeholders pattern hs hpat
              (fun p hp => List.all_eq_true.1 hall _ (List.mem_map.2 ⟨p, hp, rfl⟩)), hc, rfl⟩
          · cases h
  · rintro ⟨output, text, names, r, ho, h, hc, rfl⟩
    obtain ⟨first, placeholders, pattern, h1, h2, rfl, rfl, h3⟩ := split_of_substituted h path.length (Nat.le_refl _)
    simp only [createRoute, createPathRegexp, ho, h1, h2, hc]
    rw [if_pos]
    rw [List.all_eq_true]
    intro n hn
    obtain ⟨p, hp, rfl⟩ := List.mem_map.1 hn
    exact h3 p hp

/-- The route /items/{id} can be created; and in "/{}{id}" the empty braces are characters. -/
example : ∃ text names r, Substituted ServiceExample.output "/items/{id}".toList text names ∧ names = ["id"] ∧ compilePattern ('^' :: text ++ ['$']) = some r := by
  obtain ⟨route, h⟩ : ∃ route, createRoute [("out", ServiceExample.output)] "out" "/items/{id}".toList = .ok route := ⟨_, rfl⟩
  obtain ⟨output, text, names, r, h1, h2, h3, _⟩ := (C70_created _ _ _ _).1 h
  have h1' : ServiceExample.output = output := by simpa [mapGet] using h1
  subst h1'
  obtain ⟨first, placeholders, pattern, g1, g2, rfl, rfl, g3⟩ := split_of_substituted h2 _ (Nat.le_refl _)
  have : splitTemplate "/items/{id}".toList.length "/items/{id}".toList = ("/items/".toList, [("id".toList, [])]) := by decide
  rw [this] at g1
  cases g1
  exact ⟨_, _, r, h2, rfl, h3⟩
example : ∃ text, Substituted ServiceExample.output ['/', '{', '}', '{', 'i', 'd', '}'] ('/' :: '{' :: '}' :: text) ["id"] := by
  have hc : '{' = '{' → ¬ ClosesName ['}', '{', 'i', 'd', '}'] := by
    rintro _ ⟨name, after, h1, h2, h3⟩
    rcases name with _ | ⟨c, name⟩
    · exact h1 rfl
    · rw [List.cons_append] at h3
      injection h3 with h4 h5
      exact h2 (by rw [← h4]; exact List.mem_cons_self)
  exact ⟨_, .text (fun h => absurd h (by decide)) (.text hc (.text (fun h => absurd h (by decide)) (.placeholder (name := ['i', 'd']) (after := []) (by decide) (by decide) (by decide) rfl rfl .done)))⟩

theorem created_parameters {outputs : GoMap OutputApi} {name : String} {first : List Char} {placeholders : List (List Char × List Char)}
    {route : Route} (hg : GoodTemplate first placeholders) (h : createRoute outputs name (template first placeholders) = .ok route) :
    route.parameters = placeholders.map (fun p => String.ofList p.1) := by
  have nobrace : ∀ {text : List Char}, PlainText text → '{' ∉ text := fun h hm => by simpa using h '{' hm
  have hsplit := splitTemplate_template placeholders first (nobrace hg.first)
    (fun p hp => ⟨(hg.names p hp).1, (hg.names p hp).2, nobrace (hg.texts p hp)⟩) _ (Nat.le_refl _)
  rw [(created_route h).2.1, hsplit]

/-- **C70** A route of a list output is refused at startup if a placeholder is not a parameter of the output, or has a parser of lists or objects. -/
theorem C70_array_refused (env : OutputEnv) (c : ArrayConfig) (parsers : GoMap TextParser) (outputs : GoMap OutputApi) (name : String)
    (ho : mapGet outputs name = some (arrayApi env c parsers)) (first : List Char) (placeholders : List (List Char × List Char))
    (hg : GoodTemplate first placeholders) (p : List Char × List Char) (hp : p ∈ placeholders)
    (hbad : mapGet c.parameters (String.ofList p.1) = none ∨
      ∃ param parser, mapGet c.parameters (String.ofList p.1) = some param ∧ mapGet parsers param.parser = some parser ∧
        parser.config.primitive = false) :
    ∃ e, createRoute outputs name (template first placeholders) = .error e := by
  cases h : createRoute outputs name (template first placeholders) with
  | error e => exact ⟨e, rfl⟩
  | ok route =>
    exfalso
    obtain ⟨h1, h2⟩ := C70_route_parameters outputs name _ route h
    obtain ⟨h3, parser, h4, h5⟩ := h2 (String.ofList p.1) (by rw [created_parameters hg h]; exact List.mem_map.2 ⟨p, hp, rfl⟩)
    rw [ho, Option.some.injEq] at h1
    rw [← h1] at h3 h4
    simp only [arrayApi] at h3 h4
    rcases hbad with hnone | ⟨param, parser', g1, g2, g3⟩
    · rw [hnone] at h3; cases h3
    · simp only [g1, g2, Except.ok.injEq] at h4
      rw [← h4, g3] at h5; cases h5

/-- **C70** The same for an object output. -/
theorem C70_object_refused (env : OutputEnv) (c : ObjectConfig) (parsers : GoMap TextParser) (outputs : GoMap OutputApi) (name : String)
    (ho : mapGet outputs name = some (objectApi env c parsers)) (first : List Char) (placeholders : List (List Char × List Char))
    (hg : GoodTemplate first placeholders) (p : List Char × List Char) (hp : p ∈ placeholders)
    (hbad : mapGet c.parameters (String.ofList p.1) = none ∨
      ∃ param parser, mapGet c.parameters (String.ofList p.1) = some param ∧ mapGet parsers param.parser = some parser ∧
        parser.config.primitive = false) :
    ∃ e, createRoute outputs name (template first placeholders) = .error e := by
  cases h : createRoute outputs name (template first placeholders) with
  | error e => exact ⟨e, rfl⟩
  | ok route =>
    exfalso
    obtain ⟨h1, h2⟩ := C70_route_parameters outputs name _ route h
    obtain ⟨h3, parser, h4, h5⟩ := h2 (String.ofList p.1) (by rw [created_parameters hg h]; exact List.mem_map.2 ⟨p, hp, rfl⟩)
    rw [ho, Option.some.injEq] at h1
    rw [← h1] at h3 h4
    simp only [objectApi] at h3 h4
    rcases hbad with hnone | ⟨param, parser', g1, g2, g3⟩
    · rw [hnone] at h3; cases h3
    · simp only [g1, g2, Except.ok.injEq] at h4
      rw [← h4, g3] at h5; cases h5

/-- /by/{unknown} and a parameter whose parser is the json parser. -/
example : GoodTemplate "/by/".toList [("unknown".toList, [])] ∧
    mapGet (ServiceExample.tagArray []).parameters (String.ofList "unknown".toList) = none ∧
    (TextParser.nonPrimitive .json).config.primitive = false :=
  ⟨⟨by unfold PlainText; decide, by unfold PlainText; decide, by decide⟩, rfl, rfl⟩

/-! ### Placeholders and parsers -/

/-- **C71** A boolean placeholder stands for exactly the texts that its parser reads. -/
theorem C71_boolean (t f : List (List Char)) (text : List Char) :
    PlaceholderText (.boolean t f) text ↔ ∃ v, booleanParse (t.map utf8) (f.map utf8) (utf8 text) = .ok v := by
  have mem : ∀ l : List (List Char), utf8 text ∈ l.map utf8 ↔ text ∈ l := by
    intro l
    constructor
    · intro h
      obtain ⟨x, hx, he⟩ := List.mem_map.1 h
      rwa [← utf8_inj he]
    · intro h; exact List.mem_map.2 ⟨text, h, rfl⟩
  obtain ⟨h1, h2, h3⟩ := C32_boolean_parser (t.map utf8) (f.map utf8) (utf8 text)
  rw [mem] at h1 h2 h3
  rw [mem] at h2 h3
  simp only [PlaceholderText]
  constructor
  · intro h
    by_cases ht : text ∈ t
    · exact ⟨_, h1.2 ht⟩
    · exact ⟨_, h2.2 ⟨h.resolve_left ht, ht⟩⟩
  · rintro ⟨v, hv⟩
    by_cases ht : text ∈ t
    · exact .inl ht
    · by_cases hf : text ∈ f
      · exact .inr hf
      · obtain ⟨m, hm⟩ := h3.2 ⟨ht, hf⟩
        rw [hv] at hm; cases hm

theorem enc_ascii {c : Char} (hc : c.toNat < 128) : String.utf8EncodeChar c = [UInt8.ofNat c.toNat] := by
  have : c.val.toNat ≤ 127 := by have : c.val.toNat = c.toNat := rfl; omega
  unfold String.utf8EncodeChar
  simp only [this, if_true]
  rfl

/-- The character of an ASCII byte. -/
def asciiChar (b : UInt8) : Char := Char.ofNat b.toNat

theorem asciiChar_toNat {b : UInt8} (h : b.toNat < 128) : (asciiChar b).toNat = b.toNat := by
  unfold asciiChar Char.ofNat
  have : b.toNat.isValidChar := .inl (by omega)
  rw [dif_pos this]
  rfl

theorem utf8_ascii : ∀ (bs : Bytes), (∀ b ∈ bs, b.toNat < 128) → utf8 (bs.map asciiChar) = bs
  | [], _ => rfl
  | b :: bs, h => by
    have hb := h b List.mem_cons_self
    rw [List.map_cons, utf8_cons, enc_ascii (by rw [asciiChar_toNat hb]; exact hb), asciiChar_toNat hb,
      utf8_ascii bs (fun b' h' => h b' (List.mem_cons_of_mem _ h'))]
    simp

theorem isDigitChar_iff (c : Char) : isDigitChar c ↔ 48 ≤ c.toNat ∧ c.toNat ≤ 57 := Iff.rfl

/-- A text of which digits remain without the ignored characters: ignored characters, then digits and ignored characters. -/
theorem filter_digits (ignore : List Char) : ∀ text : List Char, text.filter (fun c => decide (c ∉ ignore)) ≠ [] →
    (∀ c ∈ text.filter (fun c => decide (c ∉ ignore)), isDigitChar c) →
    text ≠ [] ∧ ∀ c ∈ text, isDigitChar c ∨ c ∈ ignore := by
  intro text hne h
  refine ⟨fun he => hne (by rw [he]; rfl), fun c hc => ?_⟩
  by_cases hi : c ∈ ignore
  · exact .inr hi
  · exact .inl (h c (List.mem_filter.2 ⟨hc, by simpa using hi⟩))

theorem filter_cons (ignore : List Char) {c : Char} {rest : List Char} : ∀ text : List Char,
    text.filter (fun c => decide (c ∉ ignore)) = c :: rest →
    ∃ lead body, text = lead ++ c :: body ∧ (∀ d ∈ lead, d ∈ ignore) ∧ body.filter (fun c => decide (c ∉ ignore)) = rest
  | [], h => by cases h
  | d :: text, h => by
    by_cases hd : d ∈ ignore
    · rw [List.filter_cons_of_neg (by simpa using hd)] at h
      obtain ⟨lead, body, rfl, h1, h2⟩ := filter_cons ignore text h
      exact ⟨d :: lead, body, rfl, fun x hx => by
        rcases List.mem_cons.1 hx with rfl | hx
        · exact hd
        · exact h1 x hx, h2⟩
    · rw [List.filter_cons_of_pos (by simpa using hd)] at h
      cases h
      exact ⟨[], text, rfl, by simp, rfl⟩

/-- **C71** (partial) An integer placeholder stands for every text that its parser reads and in which no plus sign is left without the ignored
characters. Missing: a plus sign (`C71_false`). -/
theorem C71_integer_partial (ignore text : List Char) (v : Value) (h : integerParse ignore (utf8 text) = .ok v)
    (hplus : '+' ∉ text ∨ '+' ∈ ignore) : PlaceholderText (.integer ignore) text := by
  have hint : ∃ i, v = .int i := by
    unfold integerParse at h
    split at h
    · cases h; exact ⟨_, rfl⟩
    · cases h
  obtain ⟨i, rfl⟩ := hint
  obtain ⟨_, ds, ⟨hne, hds⟩, hs⟩ := ((C30_integer_parser ignore text).1 i).1 h
  have hascii : ∀ b ∈ ds, b.toNat < 128 := fun b hb => by have := (hds b hb).2; omega
  have hdigit : ∀ c ∈ ds.map asciiChar, isDigitChar c := by
    intro c hc
    obtain ⟨b, hb, rfl⟩ := List.mem_map.1 hc
    rw [isDigitChar_iff, asciiChar_toNat (hascii b hb)]
    exact hds b hb
  rcases hs with ⟨hs | hs, _⟩ | ⟨hs, _⟩
  · have hf : text.filter (fun c => decide (c ∉ ignore)) = ds.map asciiChar := utf8_inj (by rw [hs, utf8_ascii ds hascii])
    obtain ⟨g1, g2⟩ := filter_digits ignore text (by rw [hf]; simpa using hne) (by rw [hf]; exact hdigit)
    exact ⟨[], [], text, by simp, by simp, .inl rfl, g1, g2⟩
  · exfalso
    have hf : text.filter (fun c => decide (c ∉ ignore)) = '+' :: ds.map asciiChar := utf8_inj (by
      rw [hs, utf8_cons, utf8_ascii ds hascii]; rfl)
    have hmem : '+' ∈ text.filter (fun c => decide (c ∉ ignore)) := by rw [hf]; simp
    have := List.mem_filter.1 hmem
    rcases hplus with hp | hp
    · exact hp this.1
    · simp [hp] at this
  · have hf : text.filter (fun c => decide (c ∉ ignore)) = '-' :: ds.map asciiChar := utf8_inj (by
      rw [hs, utf8_cons, utf8_ascii ds hascii]; rfl)
    obtain ⟨lead, body, rfl, h1, h2⟩ := filter_cons ignore text hf
    obtain ⟨g1, g2⟩ := filter_digits ignore body (by rw [h2]; simpa using hne) (by rw [h2]; exact hdigit)
    exact ⟨lead, ['-'], body, by simp, h1, .inr rfl, g1, g2⟩

theorem decimalValue_lt : ∀ (n : Nat) (ds : Bytes), ds.length ≤ n → (∀ d ∈ ds, 48 ≤ d.toNat ∧ d.toNat ≤ 57) → decimalValue ds < 10 ^ n := by
  intro n
  induction n with
  | zero =>
    intro ds hl _
    rw [List.length_eq_zero_iff.1 (Nat.le_zero.1 hl)]
    decide
  | succ n ih =>
    intro ds hl hd
    rcases List.eq_nil_or_concat ds with rfl | ⟨ds', d, rfl⟩
    · exact Nat.pow_pos (by decide)
    · rw [List.concat_eq_append] at hl hd ⊢
      rw [decimalValue_snoc]
      have h1 := ih ds' (by simpa using hl) (fun d' h' => hd d' (List.mem_append_left _ h'))
      have h2 := hd d (by simp)
      rw [Nat.pow_succ]
      omega

/-- **C71** The other way round: a text that an integer placeholder stands for is read by the parser if, without the ignored characters, it has a
digit and at most 18 characters. (No digit at all, or more digits, may make the request fail with status 500.) -/
theorem C71_integer_read (ignore text : List Char) (hminus : '-' ∉ ignore) (h : PlaceholderText (.integer ignore) text)
    (hsome : ∃ c ∈ text, isDigitChar c ∧ c ∉ ignore) (hshort : (text.filter (fun c => decide (c ∉ ignore))).length ≤ 18) :
    ∃ i, integerParse ignore (utf8 text) = .ok (.int i) := by
  obtain ⟨lead, sign, body, rfl, h1, h2, h3, h4⟩ := h
  have hlead : lead.filter (fun c => decide (c ∉ ignore)) = [] := List.filter_eq_nil_iff.2 (fun c hc => by simpa using h1 c hc)
  have hsign : sign.filter (fun c => decide (c ∉ ignore)) = sign := by
    rcases h2 with rfl | rfl
    · rfl
    · simp [hminus]
  have hkept : (lead ++ sign ++ body).filter (fun c => decide (c ∉ ignore)) = sign ++ body.filter (fun c => decide (c ∉ ignore)) := by
    rw [List.filter_append, List.filter_append, hlead, hsign, List.nil_append]
  have hds : ∀ c ∈ body.filter (fun c => decide (c ∉ ignore)), isDigitChar c := by
    intro c hc
    obtain ⟨hc1, hc2⟩ := List.mem_filter.1 hc
    exact (h4 c hc1).resolve_right (by simpa using hc2)
  have hne : body.filter (fun c => decide (c ∉ ignore)) ≠ [] := by
    obtain ⟨c, hc, hd, hi⟩ := hsome
    rcases List.mem_append.1 hc with hc | hc
    · rcases List.mem_append.1 hc with hc | hc
      · exact absurd (h1 c hc) hi
      · rcases h2 with rfl | rfl
        · cases hc
        · rw [List.mem_singleton.1 hc, isDigitChar_iff] at hd
          exact absurd hd (by decide)
    · exact List.ne_nil_of_mem (List.mem_filter.2 ⟨hc, by simpa using hi⟩)
  rw [hkept] at hshort
  generalize hb : body.filter (fun c => decide (c ∉ ignore)) = digits at *
  have hu : utf8 digits = digits.map (fun c => UInt8.ofNat c.toNat) := by
    clear hb hkept hne hshort
    induction digits with
    | nil => rfl
    | cons c digits ih =>
      have := (isDigitChar_iff c).1 (hds c List.mem_cons_self)
      rw [utf8_cons, enc_ascii (by omega), ih (fun c' h' => hds c' (List.mem_cons_of_mem _ h'))]
      rfl
  have hbytes : ∀ d ∈ utf8 digits, 48 ≤ d.toNat ∧ d.toNat ≤ 57 := by
    intro d hd
    rw [hu] at hd
    obtain ⟨c, hc, rfl⟩ := List.mem_map.1 hd
    have := (isDigitChar_iff c).1 (hds c hc)
    rw [UInt8.toNat_ofNat']
    omega
  have hlen : (utf8 digits).length ≤ 18 := by
    rw [hu, List.length_map]
    rw [List.length_append] at hshort
    omega
  have hlt := decimalValue_lt 18 _ hlen hbytes
  have hnil : utf8 digits ≠ [] := by rw [hu]; simpa using hne
  rcases h2 with rfl | rfl
  · refine ⟨decimalValue (utf8 digits), ((C30_integer_parser ignore _).1 _).2 ?_⟩
    rw [hkept]
    exact ⟨by unfold Int64Range; omega, utf8 digits, ⟨hnil, hbytes⟩, .inl ⟨.inl rfl, rfl⟩⟩
  · refine ⟨-decimalValue (utf8 digits), ((C30_integer_parser ignore _).1 _).2 ?_⟩
    rw [hkept]
    exact ⟨by unfold Int64Range; omega, utf8 digits, ⟨hnil, hbytes⟩, .inr ⟨rfl, rfl⟩⟩

/-- -1,000 and a text of ignored characters only, which the placeholder also stands for. -/
example : PlaceholderText (.integer [',']) "-1,000".toList ∧ (∃ i, integerParse [','] (utf8 "-1,000".toList) = .ok (.int i)) ∧
    PlaceholderText (.integer [',']) [','] ∧ ∃ m, integerParse [','] (utf8 [',']) = .error (.err m) := by
  have h : PlaceholderText (.integer [',']) "-1,000".toList := ⟨[], ['-'], "1,000".toList, by decide, by simp, .inr rfl, by decide, by
    unfold isDigitChar; decide⟩
  exact ⟨h, C71_integer_read _ _ (by decide) h ⟨'1', by decide, by unfold isDigitChar; decide, by decide⟩ (by decide),
    ⟨[], [], [','], rfl, by simp, .inl rfl, by simp, by simp⟩, _, rfl⟩

/-- **C71 is false** of a plus sign: the parser reads "+5", but the placeholder does not stand for it. -/
theorem C71_false : integerParse [] (utf8 ['+', '5']) = .ok (.int 5) ∧ ¬ PlaceholderText (.integer []) ['+', '5'] := by
  refine ⟨((C30_integer_parser [] ['+', '5']).1 5).2 ⟨by unfold Int64Range; decide, [53], ⟨by decide, by decide⟩, .inl ⟨.inr (by decide), by decide⟩⟩, ?_⟩
  rintro ⟨lead, sign, body, h, h1, h2, h3, h4⟩
  have hlead : lead = [] := by
    cases lead with
    | nil => rfl
    | cons c lead => exact absurd (h1 c List.mem_cons_self) (by simp)
  subst hlead
  rcases h2 with rfl | rfl
  · rw [List.nil_append, List.nil_append] at h
    subst h
    have := h4 '+' (by simp)
    simp [isDigitChar_iff] at this
  · simp at h

/-- A decimal number: a minus sign or nothing, digits, and nothing or a separator and digits. -/
def DecimalText (separator : Char) (text : List Char) : Prop :=
  ∃ sign digits fraction, text = sign ++ digits ++ fraction ∧ (sign = [] ∨ sign = ['-']) ∧ (digits ≠ [] ∧ ∀ c ∈ digits, isDigitChar c) ∧
    (fraction = [] ∨ ∃ more, fraction = separator :: more ∧ more ≠ [] ∧ ∀ c ∈ more, isDigitChar c)

/-- **C71** (partial) A float placeholder stands for every text that is a decimal number without the ignored characters. Missing: the other texts that
`strconv.ParseFloat` reads, like "1e5" (`C71_float_false`). -/
theorem C71_float_partial (separator : Char) (ignore text : List Char)
    (h : DecimalText separator (text.filter (fun c => decide (c ∉ ignore)))) : PlaceholderText (.float [separator] ignore) text := by
  obtain ⟨sign, digits, fraction, h1, h2, ⟨h3, h4⟩, h5⟩ := h
  rw [List.append_assoc] at h1
  obtain ⟨signText, rest, rfl, k1, k2⟩ := List.filter_eq_append_iff.1 h1
  obtain ⟨body, end', rfl, k3, k4⟩ := List.filter_eq_append_iff.1 k2
  have hbody := filter_digits ignore body (by rw [k3]; exact h3) (by rw [k3]; exact h4)
  -- the part with the sign: ignored characters, the sign, ignored characters
  have hsign : ∃ lead sign' more, signText = lead ++ sign' ++ more ∧ (∀ c ∈ lead, c ∈ ignore) ∧ (sign' = [] ∨ sign' = ['-']) ∧ ∀ c ∈ more, c ∈ ignore := by
    rcases h2 with rfl | rfl
    · exact ⟨signText, [], [], by simp, fun c hc => by simpa using List.filter_eq_nil_iff.1 k1 c hc, .inl rfl, by simp⟩
    · obtain ⟨lead, more, e, g1, g2⟩ := filter_cons ignore signText k1
      exact ⟨lead, ['-'], more, by simp [e], g1, .inr rfl, fun c hc => by simpa using List.filter_eq_nil_iff.1 g2 c hc⟩
  obtain ⟨lead, sign', more, rfl, g1, g2, g3⟩ := hsign
  have hmore : ∀ c ∈ more ++ body, isDigitChar c ∨ c ∈ ignore := fun c hc => by
    rcases List.mem_append.1 hc with hc | hc
    · exact .inr (g3 c hc)
    · exact hbody.2 c hc
  rcases h5 with rfl | ⟨fs, rfl, hne, hfs⟩
  · refine ⟨lead, sign', more ++ body ++ end', [], by simp, g1, g2, ⟨by simp [hbody.1], fun c hc => ?_⟩, .inl rfl⟩
    rcases List.mem_append.1 hc with hc | hc
    · exact hmore c hc
    · exact .inr (by simpa using List.filter_eq_nil_iff.1 k4 c hc)
  · obtain ⟨before, after, rfl, e1, e2⟩ := filter_cons ignore end' k4
    have hafter := filter_digits ignore after (by rw [e2]; exact hne) (by rw [e2]; exact hfs)
    refine ⟨lead, sign', more ++ body ++ before, separator :: after, by simp, g1, g2, ⟨by simp [hbody.1], fun c hc => ?_⟩,
      .inr ⟨separator, after, rfl, by simp, hafter.1, hafter.2⟩⟩
    rcases List.mem_append.1 hc with hc | hc
    · exact hmore c hc
    · exact .inr (e1 c hc)

theorem filter_digits_only (ignore : List Char) (text : List Char) (h : ∀ c ∈ text, isDigitChar c ∨ c ∈ ignore) :
    ∀ c ∈ text.filter (fun c => decide (c ∉ ignore)), isDigitChar c := by
  intro c hc
  obtain ⟨h1, h2⟩ := List.mem_filter.1 hc
  exact (h c h1).resolve_right (by simpa using h2)

/-- **C71** The other way round: of a text that a float placeholder stands for, if it has a digit before the separator, and after it if there is one, the
library is asked to read a decimal number with a point; so the request fails with status 500 only if that number is out of range. -/
theorem C71_float_read (lib : ParserLib) (separator : Char) (ignore text : List Char) (hminus : '-' ∉ ignore) (hsep : separator ∉ ignore)
    (hplain : ¬ isDigitChar separator ∧ separator ≠ '-') (h : PlaceholderText (.float [separator] ignore) text)
    (hbefore : ∃ c ∈ text.takeWhile (fun c => c ≠ separator), isDigitChar c ∧ c ∉ ignore)
    (hafter : separator ∈ text → ∃ c ∈ text.dropWhile (fun c => c ≠ separator), isDigitChar c ∧ c ∉ ignore) :
    ∃ decimal, DecimalText '.' decimal ∧
      decimal = (text.filter (fun c => decide (c ∉ ignore))).map (fun c => if c = separator then '.' else c) ∧
      floatParse lib (String.utf8EncodeChar separator) ignore (utf8 text) = (lib.parseFloat (utf8 decimal)).map Value.float := by
  refine ⟨_, ?_, rfl, C65_float_parser lib ignore text separator⟩
  obtain ⟨lead, sign, body, fraction, rfl, h1, h2, ⟨h3, h4⟩, h5⟩ := h
  have hno : ∀ c ∈ lead ++ sign ++ body, c ≠ separator := by
    intro c hc e
    subst e
    rcases List.mem_append.1 hc with hc | hc
    · rcases List.mem_append.1 hc with hc | hc
      · exact hsep (h1 _ hc)
      · rcases h2 with rfl | rfl
        · cases hc
        · exact hplain.2 (List.mem_singleton.1 hc)
    · rcases h4 _ hc with h | h
      · exact hplain.1 h
      · exact hsep h
  have hlead : lead.filter (fun c => decide (c ∉ ignore)) = [] := List.filter_eq_nil_iff.2 (fun c hc => by simpa using h1 c hc)
  have hsign : sign.filter (fun c => decide (c ∉ ignore)) = sign := by
    rcases h2 with rfl | rfl
    · rfl
    · simp [hminus]
  have hbodyDigits := filter_digits_only ignore body h4
  have notsep : ∀ c, isDigitChar c → c ≠ separator := fun c hc e => hplain.1 (e ▸ hc)
  have keep : ∀ l : List Char, (∀ c ∈ l, isDigitChar c) → l.map (fun c => if c = separator then '.' else c) = l := by
    intro l hl
    conv => rhs; rw [← List.map_id l]
    exact List.map_congr_left (fun c hc => by rw [if_neg (notsep c (hl c hc))]; rfl)
  have keepSign : sign.map (fun c => if c = separator then '.' else c) = sign := by
    rcases h2 with rfl | rfl
    · rfl
    · simp [Ne.symm hplain.2]
  have hbody : body.filter (fun c => decide (c ∉ ignore)) ≠ [] := by
    obtain ⟨c, hc, hd, hi⟩ := hbefore
    have hc' : c ∈ lead ++ sign ++ body := by
      rcases h5 with rfl | ⟨point, digits, rfl, hp, _⟩
      · rw [List.append_nil] at hc; exact (List.takeWhile_prefix _).subset hc
      · rw [List.mem_singleton] at hp
        subst hp
        rw [List.takeWhile_append_of_pos (by simpa using hno), List.takeWhile_cons_of_neg (by simp), List.append_nil] at hc
        exact hc
    rcases List.mem_append.1 hc' with hc' | hc'
    · rcases List.mem_append.1 hc' with hc' | hc'
      · exact absurd (h1 c hc') hi
      · rcases h2 with rfl | rfl
        · cases hc'
        · rw [List.mem_singleton] at hc'
          subst hc'
          exact absurd hd (by unfold isDigitChar; decide)
    · exact List.ne_nil_of_mem (List.mem_filter.2 ⟨hc', by simpa using hi⟩)
  refine ⟨sign, body.filter (fun c => decide (c ∉ ignore)), (fraction.filter (fun c => decide (c ∉ ignore))).map (fun c => if c = separator then '.' else c),
    ?_, h2, ⟨hbody, hbodyDigits⟩, ?_⟩
  · rw [List.filter_append, List.filter_append, List.filter_append, hlead, hsign, List.nil_append, List.map_append, List.map_append, keepSign,
      keep _ hbodyDigits]
  · rcases h5 with rfl | ⟨point, digits, rfl, hp, hne, hdig⟩
    · exact .inl rfl
    · rw [List.mem_singleton] at hp
      subst hp
      have hd := filter_digits_only ignore digits hdig
      refine .inr ⟨digits.filter (fun c => decide (c ∉ ignore)), ?_, ?_, hd⟩
      · rw [List.filter_cons_of_pos (by simpa using hsep), List.map_cons, if_pos rfl, keep _ hd]
      · obtain ⟨c, hc, hcd, hi⟩ := hafter (by simp)
        rw [List.dropWhile_append_of_pos (by simpa using hno), List.dropWhile_cons_of_neg (by simp)] at hc
        rcases List.mem_cons.1 hc with rfl | hc
        · exact absurd hcd hplain.1
        · exact List.ne_nil_of_mem (List.mem_filter.2 ⟨hc, by simpa using hi⟩)

/-- "-1,234.50" is a decimal number without its commas. -/
example : PlaceholderText (.float ['.'] [',']) "-1,234.50".toList :=
  C71_float_partial '.' [','] _ ⟨['-'], "1234".toList, ".50".toList, by decide, .inr rfl, ⟨by decide, by unfold isDigitChar; decide⟩,
    .inr ⟨"50".toList, by decide, by decide, by unfold isDigitChar; decide⟩⟩

/-- The library is asked to read "-1234.50". -/
example (lib : ParserLib) : floatParse lib (String.utf8EncodeChar ';') [','] (utf8 "-1,234;50".toList) =
    (lib.parseFloat (utf8 "-1234.50".toList)).map Value.float := by
  obtain ⟨decimal, _, h1, h2⟩ := C71_float_read lib ';' [','] "-1,234;50".toList (by decide) (by decide) ⟨by unfold isDigitChar; decide, by decide⟩
    (C71_float_partial ';' [','] _ ⟨['-'], "1234".toList, ";50".toList, by decide, .inr rfl, ⟨by decide, by unfold isDigitChar; decide⟩,
      .inr ⟨"50".toList, by decide, by decide, by unfold isDigitChar; decide⟩⟩)
    ⟨'1', by decide, by unfold isDigitChar; decide, by decide⟩ (fun _ => ⟨'5', by decide, by unfold isDigitChar; decide, by decide⟩)
  rw [h2, h1]
  rfl

/-- **C71 is false** of exponents: if the library reads "1e5", the parser reads it, but the placeholder does not stand for it. -/
theorem C71_float_false (lib : ParserLib) (f : GoFloat) (h : lib.parseFloat (utf8 ['1', 'e', '5']) = .ok f) :
    floatParse lib (String.utf8EncodeChar '.') [] (utf8 ['1', 'e', '5']) = .ok (.float f) ∧ ¬ PlaceholderText (.float ['.'] []) ['1', 'e', '5'] := by
  constructor
  · rw [C65_float_parser]
    have : (['1', 'e', '5'].filter (fun c => decide (c ∉ ([] : List Char)))).map (fun c => if c = '.' then '.' else c) = ['1', 'e', '5'] := by decide
    rw [this, h]
    rfl
  · rintro ⟨lead, sign, body, fraction, he, h1, h2, ⟨h3, h4⟩, h5⟩
    have hmem : 'e' ∈ lead ++ sign ++ body ++ fraction := by rw [← he]; simp
    simp only [List.mem_append] at hmem
    have hnd : ¬ isDigitChar 'e' := by unfold isDigitChar; decide
    rcases hmem with ((hm | hm) | hm) | hm
    · exact absurd (h1 _ hm) (by simp)
    · rcases h2 with rfl | rfl
      · cases hm
      · simp at hm
    · exact (h4 _ hm).elim hnd (by simp)
    · rcases h5 with rfl | ⟨point, digits, rfl, hp, _, hd⟩
      · cases hm
      · rcases List.mem_cons.1 hm with hm | hm
        · simp [← hm] at hp
        · exact (hd _ hm).elim hnd (by simp)

/-- **C71 is false** of separators of several characters: the placeholder of a parser with the separator "::" stands for "1:5", with one colon, in which the
parser finds no separator to replace: the library is asked to read "1:5". -/
theorem C71_separator_false (lib : ParserLib) : PlaceholderText (.float [':', ':'] []) ['1', ':', '5'] ∧
    floatParse lib (utf8 [':', ':']) [] (utf8 ['1', ':', '5']) = (lib.parseFloat (utf8 ['1', ':', '5'])).map Value.float := by
  constructor
  · exact ⟨[], [], ['1'], [':', '5'], rfl, by simp, .inl rfl, ⟨by simp, by unfold isDigitChar; decide⟩,
      .inr ⟨':', ['5'], rfl, by simp, by simp, by unfold isDigitChar; decide⟩⟩
  · have h1 : removeCharacters (utf8 ['1', ':', '5']) [] = utf8 ['1', ':', '5'] := by decide
    have h2 : replaceAll (utf8 ['1', ':', '5']) (utf8 [':', ':']) [46] = utf8 ['1', ':', '5'] := by decide +kernel
    have h3 : utf8 [':', ':'] ≠ [46] := by decide
    simp only [floatParse, h1, h2, if_pos h3]
    cases lib.parseFloat (utf8 ['1', ':', '5']) <;> rfl

end Rodb
