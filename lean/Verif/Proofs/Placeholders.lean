import Verif.Proofs.Service
import Verif.Spec.Placeholders
/-
  Helper lemmas: what the groups of the pattern of a route capture.
-/
namespace Rodb
open Spec

theorem matches_append_captures : ∀ {a b : List Regex} {before s after caps}, Matches (catList (a ++ b)) before s after caps →
    ∃ t u ca cb, s = t ++ u ∧ caps = ca ++ cb ∧ Matches (catList a) before t (u ++ after) ca ∧ Matches (catList b) (before ++ t) u after cb
  | [], b, before, s, after, caps, h => ⟨[], s, [], caps, rfl, rfl, .empty, by simpa using h⟩
  | r :: a, b, before, s, after, caps, h => by
    obtain ⟨t, s', ca, cb, rfl, rfl, h1, h2⟩ := matches_cons.1 h
    obtain ⟨t', u, ca', cb', rfl, rfl, h3, h4⟩ := matches_append_captures h2
    refine ⟨t ++ t', u, ca ++ ca', cb', by simp, by simp, .cat (by simpa using h1) h3, by simpa using h4⟩

theorem values_groups (values : List (List Char)) (hv : values ≠ []) {r : Regex} (h : compilePattern (joinBars (values.map quoteMeta)) = some r) : r.groups = 0 := by
  obtain ⟨t, ht, h1, h2, init, last, h3, h4⟩ := choice_run values hv []
  unfold compilePattern at h
  rw [show PatternState.start = { stack := [], top := { newFrame with alternatives := [] }, mode := .normal } from rfl, ht] at h
  simp [h1, h2, Mode.complete] at h
  rw [← h, h4]
  have hchars : ∀ v : List Char, (catList (v.map Regex.chr)).groups = 0 := by
    intro v
    induction v with
    | nil => rfl
    | cons c v ih => simpa [catList, Regex.groups] using ih
  have : ∀ (l : List (List Char)) (acc : Regex), acc.groups = 0 → ((l.map (fun v => catList (v.map Regex.chr))).foldl (fun acc r => Regex.alt r acc) acc).groups = 0 := by
    intro l
    induction l with
    | nil => intro acc h; exact h
    | cons v l ih => intro acc h; exact ih _ (by simp [Regex.groups, hchars, h])
  have := this init.reverse (catList (last.map Regex.chr)) (hchars last)
  simpa [Frame.close, newFrame] using this

/-- What the pattern of a parser captures. -/
theorem pattern_reports (p : TextParser) (h : RouteParser p) {r : Regex} (hr : compilePattern p.pattern = some r) {before s after : List Char} {caps} (hm : Matches r before s after caps) :
    ReportedFor p s (s :: caps.map (·.getD [])) := by
  have noGroups : r.groups = 0 → caps = [] := fun hg => List.length_eq_zero_iff.1 (by rw [hm.captures, hg])
  cases p with
  | string c =>
    have : r = catList [.plus .any] := (Option.some.inj hr).symm
    subst this
    rw [noGroups rfl]
    rfl
  | integer ignore =>
    rw [integer_compiles ignore h] at hr
    have : r = integerRegex ignore := (Option.some.inj hr).symm
    subst this
    rw [noGroups (integer_groups _)]
    rfl
  | float separator ignore =>
    rw [float_compiles separator ignore h.2.1 h.2.2 h.1] at hr
    have : r = floatRegex separator ignore := (Option.some.inj hr).symm
    subst this
    obtain ⟨t, u, ca, cb, rfl, rfl, h1, h2⟩ := matches_append_captures hm
    have hca : ca = [] := List.length_eq_zero_iff.1 (by rw [h1.captures]; exact integer_groups ignore)
    subst hca
    obtain ⟨u1, u2, c1, c2, rfl, rfl, h3, h4⟩ := matches_cons.1 h2
    cases h4
    have h5 : c1.map (·.getD []) = [u1] := by
      cases h3 with
      | optNone => rfl
      | optSome h3 =>
        cases h3 with
        | group h3 =>
          have : ∀ {ca : List (Option (List Char))}, ca.length = 0 → List.map (fun x : Option (List Char) => x.getD []) (some u1 :: ca) = [u1] := by
            intro ca h; rw [List.length_eq_zero_iff.1 h]; rfl
          exact this h3.captures
    refine ⟨t, u1, by simp, ?_, ?_, by simpa using h5⟩
    · obtain ⟨lead, sign, body, e, h6⟩ := (accepts_number ignore).1 ⟨_, h1.elsewhere (integer_noAnchors ignore) [] []⟩
      exact ⟨lead, sign, body, e, h6⟩
    · exact (accepts_fraction separator ignore).1 ⟨_, h3.elsewhere (fraction_noAnchors separator ignore) [] []⟩
  | boolean t f =>
    obtain ⟨r', h1, _, _⟩ := values_compile (t ++ f) (by simp [h.1])
    have hg := group_run h1 [] newFrame
    have hr' : compilePattern (TextParser.boolean t f).pattern = some (catList [.group r']) :=
      compile_of_run (m := .normal) rfl (by simpa [TextParser.pattern, PatternState.start, newFrame] using hg)
    rw [hr'] at hr
    have : r = catList [.group r'] := (Option.some.inj hr).symm
    subst this
    obtain ⟨u, u', ca, cb, rfl, rfl, h3, h4⟩ := matches_group.1 hm
    cases h4
    have hca : ca = [] := List.length_eq_zero_iff.1 (by rw [h3.captures]; exact values_groups _ (by simp [h.1]) h1)
    subst hca
    show _ = _
    simp
  | nonPrimitive c => exact h.elim

/-- What the expression of a route captures. -/
theorem items_report : ∀ (placeholders : List (List Char × List Char)) (parsers : List TextParser) (rs : List Regex),
    placeholders.length = parsers.length → Expressions parsers rs → (∀ p ∈ parsers, RouteParser p) →
    ∀ before s after caps, (Matches (catList (pathItems placeholders rs)) before s after caps →
      after = [] ∧ ∃ texts reported, PlaceholderTexts parsers texts ∧ s = (List.zipWith (fun p t => t ++ p.2) placeholders texts).flatten ∧
        Reported parsers texts reported ∧ caps.map (·.getD []) = reported)
  | [], [], [], _, _, _, before, s, after, caps => by
    intro h
    obtain ⟨t, s', ca, cb, rfl, rfl, h1, h2⟩ := matches_cons.1 h
    cases h2
    generalize hx : [] ++ after = x at h1
    cases h1
    exact ⟨by simpa using hx, [], [], trivial, rfl, .nil, rfl⟩
  | p :: ps, q :: qs, r :: rs, hl, ⟨hr, hrs⟩, hu, before, s, after, caps => by
    intro h
    simp only [pathItems] at h
    obtain ⟨t, s', ca, cb, rfl, rfl, h1, h2⟩ := matches_group.1 h
    obtain ⟨s'', rfl, h3⟩ := matches_literal.1 h2
    obtain ⟨h4, texts, reported, h5, rfl, h6, rfl⟩ := items_report ps qs rs (by simpa using hl) hrs (fun x hx => hu x (by simp [hx])) _ _ _ _ h3
    exact ⟨h4, t :: texts, _, ⟨(hr.2.2.1 t).1 ⟨_, h1.elsewhere hr.2.1 _ _⟩, h5⟩, by simp, .cons (pattern_reports q (hu q (by simp)) hr.1 h1) h6, by simp⟩
  | [], [], _ :: _, _, h, _, _, _, _, _ => h.elim
  | [], _ :: _, _, h, _, _, _, _, _, _ => by simp at h
  | _ :: _, [], _, h, _, _, _, _, _, _ => by simp at h
  | _ :: _, _ :: _, [], _, h, _, _, _, _, _ => h.elim

theorem path_reports {first : List Char} {placeholders : List (List Char × List Char)} {parsers : List TextParser} {rs : List Regex}
    (hl : placeholders.length = parsers.length) (hrs : Expressions parsers rs) (hr : ∀ p ∈ parsers, RouteParser p) {before s after : List Char} {caps}
    (h : Matches (catList (.bol :: (first.map .chr ++ pathItems placeholders rs))) before s after caps) :
    ∃ texts reported, PlaceholderTexts parsers texts ∧ before ++ s ++ after = filled first placeholders texts ∧ Reported parsers texts reported ∧ caps.map (·.getD []) = reported := by
  obtain ⟨t, s', ca, cb, rfl, rfl, h1, h2⟩ := matches_cons.1 h
  obtain ⟨s'', rfl, h3⟩ := matches_literal.1 h2
  obtain ⟨rfl, texts, reported, h4, rfl, h5, h6⟩ := items_report placeholders parsers rs hl hrs hr _ _ _ _ h3
  cases h1
  exact ⟨texts, reported, h4, by simp [filled], h5, by simpa using h6⟩

theorem reported_length {parsers : List TextParser} {texts reported : List (List Char)} (h : Reported parsers texts reported) : parsers.length ≤ reported.length := by
  induction h with
  | nil => simp
  | @cons p ps t ts r rs h _ ih =>
    have : 1 ≤ r.length := by
      cases p with
      | string _ => rw [show r = [t] from h]; simp
      | integer _ => rw [show r = [t] from h]; simp
      | boolean _ _ => rw [show r = [t, t] from h]; simp
      | float _ _ => obtain ⟨_, _, _, _, _, rfl⟩ := h; simp
      | nonPrimitive _ => exact h.elim
    simp
    omega

theorem pathParams_reported : ∀ (names : List String) (caps : List (Option (List Char))) (params : GoMap Bytes), names.length ≤ caps.length →
    ∃ result, pathParams names caps params = .ok result ∧
      ∀ name, mapGet result name = ((placeholderValue names (caps.map (·.getD [])) name).map utf8).or (mapGet params name)
  | [], caps, params, _ => ⟨params, rfl, fun _ => by simp [placeholderValue]⟩
  | n :: names, c :: caps, params, h => by
    obtain ⟨result, h1, h2⟩ := pathParams_reported names caps (mapSet params n (utf8 (c.getD []))) (by simpa using h)
    refine ⟨result, by simpa [pathParams] using h1, fun name => ?_⟩
    rw [h2, mapGet_mapSet]
    simp only [placeholderValue, List.map_cons, List.zip_cons_cons, List.reverse_cons, List.find?_append]
    cases hf : ((names.zip (caps.map (·.getD []))).reverse.find? (fun p => decide (p.1 = name))) with
    | some x => simp
    | none =>
      by_cases hn : n = name
      · simp [hn]
      · simp [hn]
  | _ :: _, [], _, h => by simp at h

end Rodb
