import Verif.Proofs.RoutePaths
import Verif.Props.ServiceProps
/-
  C111: what the paths of routes stand for, if they have characters with a special meaning.
-/
namespace Rodb
open Spec

theorem route_path_compiles {output : OutputApi} {l : List (List Regex)} {path : List Char} (h : PathWritten (Placeholder output) (.alternatives l) path) :
    l ≠ [] ∧ ∃ parameters, createPathRegexp path output = .ok (altList (anchored l), parameters) ∧ parameters.all output.hasParameter = true := by
  obtain ⟨u, h1, hne, h2⟩ := written_runs h
  refine ⟨hne, ?_⟩
  obtain ⟨first, placeholders, pattern, g1, g2, g3, g4⟩ := h1.split path.length (Nat.le_refl _)
  obtain ⟨m, hm, e⟩ := h2 [] { newFrame with items := [.bol] } .normal (.inl rfl)
  refine ⟨placeholders.map (fun p => String.ofList p.1), ?_, g4⟩
  have hs : patternStep .start '^' = some ⟨[], { newFrame with items := [.bol] }, .normal⟩ := rfl
  have hcompile : compilePattern ('^' :: (first ++ pattern) ++ ['$']) = some (altList (anchored l)) := by
    rw [← g3]
    have hrun : patternRun .start ('^' :: u ++ ['$']) = some ⟨[], { newFrame with alternatives := (finish [] [.bol] l).1, items := .eol :: (finish [] [.bol] l).2 }, .normal⟩ := by
      rw [List.cons_append]
      simp only [patternRun, hs]
      rw [patternRun_append_of e]
      simp only [patternRun]
      rw [ready_step hm (by decide) (by decide) (by decide)]
      rfl
    obtain ⟨x, more, rfl⟩ := List.exists_cons_of_ne_nil hne
    have hclose := finish_close [.eol] more x [] [.bol]
    simp only [compilePattern, hrun, Frame.close, List.isEmpty_nil, Mode.complete, Bool.and_self, if_true, List.reverse_cons, hclose]
    rfl
  simp only [createPathRegexp, g1, g2, hcompile]

/-- **C111** The path of a route is a regular expression in which {name} stands for what the pattern of the parser of this parameter matches. If a path is written so (it may have characters, quoted
characters, dots, brackets, parentheses, repetitions, alternatives and placeholders), the route is created, and it serves exactly the request paths that the expression stands for:
the first alternative at their start, the last one at their end, and the whole of them if there is only one alternative. -/
theorem C111_path (outputs : GoMap OutputApi) (name : String) (output : OutputApi) (ho : mapGet outputs name = some output) (l : List (List Regex)) (path : List Char)
    (h : PathWritten (Placeholder output) (.alternatives l) path) :
    ∃ route, createRoute outputs name path = .ok route ∧ route.output = output ∧ ∀ requested, PathMatches route requested ↔ PathStandsFor l requested := by
  obtain ⟨hne, parameters, h1, h2⟩ := route_path_compiles h
  refine ⟨⟨path, altList (anchored l), parameters, output⟩, ?_, rfl, fun requested => anchored_matches hne requested⟩
  simp only [createRoute, ho, h1, h2, if_true]

/-- **C111** With one alternative, the request path as a whole matches. -/
theorem C111_one_alternative (items : List Regex) (requested : List Char) : PathStandsFor [items] requested ↔ Accepts (catList items) requested := by
  constructor
  · rintro ⟨i, y, hy, before, s, after, c, rfl, h1, h2, h3⟩
    cases i with
    | succ i => simp at hy
    | zero =>
      simp only [List.getElem?_cons_zero, Option.some.injEq] at hy
      subst hy
      cases h1 rfl
      cases h2 rfl
      exact ⟨c, by simpa using h3⟩
  · rintro ⟨c, h⟩
    exact ⟨0, items, rfl, [], requested, [], c, by simp, fun _ => rfl, fun _ => rfl, h⟩

theorem written_plain (hole : List Char → Regex → Prop) : ∀ {text : List Char}, PlainText text → PathWritten hole (.items (text.map .chr)) text
  | [], _ => .nil
  | c :: text, h => by
    refine .cons (a := [c]) (.once (.ordinary (fun hc => h c (.head _) ?_))) (written_plain hole (fun c hc => h c (.tail _ hc)))
    simp only [List.mem_cons, List.not_mem_nil, or_false] at hc ⊢
    grind

/-- **C111** A path with two alternatives is not limited to them: /list|/item also serves every request path that begins with /list, and every one that ends with /item. -/
theorem C111_alternatives (outputs : GoMap OutputApi) (name : String) (output : OutputApi) (ho : mapGet outputs name = some output) (a b : List Char) (ha : PlainText a) (hb : PlainText b) :
    ∃ route, createRoute outputs name (a ++ '|' :: b) = .ok route ∧ route.output = output ∧ ∀ requested, PathMatches route requested ↔ (a <+: requested ∨ b <:+ requested) := by
  obtain ⟨route, h1, h2, h3⟩ := C111_path outputs name output ho [a.map .chr, b.map .chr] (a ++ '|' :: b) (.more (written_plain _ ha) (.last (written_plain _ hb)))
  refine ⟨route, h1, h2, fun requested => (h3 requested).trans ?_⟩
  have hchr : ∀ (text before s after : List Char), (∃ captures, Matches (catList (text.map .chr)) before s after captures) ↔ s = text := by
    intro text before s after
    have := fun captures => matches_literal (rest := []) (lit := text) (before := before) (s := s) (after := after) (caps := captures)
    simp only [List.append_nil] at this
    constructor
    · rintro ⟨c, h⟩
      obtain ⟨s', rfl, h'⟩ := (this c).1 h
      clear h
      cases h'
      simp
    · rintro rfl
      exact ⟨[], (this []).2 ⟨[], by simp, .empty⟩⟩
  constructor
  · rintro ⟨i, y, hy, before, s, after, c, rfl, g1, g2, g3⟩
    cases i with
    | zero =>
      simp only [List.getElem?_cons_zero, Option.some.injEq] at hy
      subst hy
      cases g1 rfl
      rw [(hchr _ _ _ _).1 ⟨c, g3⟩]
      exact .inl ⟨after, rfl⟩
    | succ i =>
      cases i with
      | succ i => simp at hy
      | zero =>
        simp only [List.getElem?_cons_succ, List.getElem?_cons_zero, Option.some.injEq] at hy
        subst hy
        cases g2 rfl
        rw [(hchr _ _ _ _).1 ⟨c, g3⟩]
        exact .inr ⟨before, by simp⟩
  · rintro (⟨after, rfl⟩ | ⟨before, rfl⟩)
    · obtain ⟨c, hc⟩ := (hchr a [] a after).2 rfl
      exact ⟨0, _, rfl, [], a, after, c, rfl, fun _ => rfl, by simp, hc⟩
    · obtain ⟨c, hc⟩ := (hchr b before b []).2 rfl
      exact ⟨1, _, rfl, before, b, [], c, by simp, by simp, fun _ => rfl, hc⟩

/-! ### Examples -/

namespace RoutePathsExample
open ServiceExample

/-- /(?:list|all)/{name}\.js[a-z-]? -/
def path : List Char := "/(?:list|all)/{name}\\.js[a-z-]?".toList

def items : List Regex :=
  [.chr '/', .alt (catList ("list".toList.map .chr)) (catList ("all".toList.map .chr)), .chr '/', .group (catList [.plus .any]), .chr '.', .chr 'j', .chr 's',
   .opt (.cls false [('-', '-'), ('a', 'z')])]

theorem ordinary_char {hole : List Char → Regex → Prop} (c : Char) (h : Ordinary c) : PathWritten hole (.item (.chr c)) [c] := .once (.ordinary h)

theorem written : PathWritten (Placeholder output) (.alternatives [items]) path := by
  refine .last ?_
  have hplain : ∀ t, PlainText t → PathWritten (Placeholder output) (.items (t.map .chr)) t := fun t h => written_plain _ h
  refine .cons (a := ['/']) (ordinary_char _ (by unfold Ordinary; decide)) ?_
  refine .cons (a := "(?:list|all)".toList) (.once (.parentheses (l := ["list".toList.map .chr, "all".toList.map .chr]) (text := "list|all".toList)
    (.more (a := "list".toList) (hplain _ (by unfold PlainText; decide)) (.last (hplain _ (by unfold PlainText; decide)))))) ?_
  refine .cons (a := ['/']) (ordinary_char _ (by unfold Ordinary; decide)) ?_
  refine .cons (a := "{name}".toList) (.once (.placeholder (name := "name".toList) (by decide) (by decide) ⟨by decide, .string none, rfl, rfl, rfl⟩)) ?_
  refine .cons (a := "\\.".toList) (.once (.quoted (by unfold Quotable; decide))) ?_
  refine .cons (a := ['j']) (ordinary_char _ (by unfold Ordinary; decide)) ?_
  refine .cons (a := ['s']) (ordinary_char _ (by unfold Ordinary; decide)) ?_
  refine .cons (a := "[a-z-]?".toList) (b := []) (.opt (text := "[a-z-]".toList) (l := [])
    (.brackets (ranges := [('a', 'z'), ('-', '-')]) (text := "a-z-".toList)
      (.range (v := ['a']) (w := ['z']) (.plain (by decide)) (.plain (by decide)) (by decide) (.one (w := ['-']) (.plain (by decide)) .nil (by decide))) (by simp) (by decide)) (.inl rfl)) .nil

/-- The route is created and serves /all/x.js, but not /some/x.js. -/
example : ∃ route, createRoute [("out", output)] "out" path = .ok route ∧ PathMatches route "/all/x.jsz".toList ∧ ¬ PathMatches route "/some/x.js".toList := by
  obtain ⟨route, h1, _, h3⟩ := C111_path [("out", output)] "out" output rfl _ _ written
  refine ⟨route, h1, ?_, ?_⟩
  · rw [h3, C111_one_alternative]
    refine ⟨_, .cat (s := ['/']) .chr (.cat (s := "all".toList) (.altRight (matches_literal (lit := "all".toList) (rest := []) |>.2 ⟨[], rfl, .empty⟩))
      (.cat (s := ['/']) .chr (.cat (s := ['x']) (.group (.cat (s := ['x']) (.plus (s := ['x']) (t := []) (.any (by decide)) .starNone) .empty))
        (.cat (s := ['.']) .chr (.cat (s := ['j']) .chr (.cat (s := ['s']) .chr (.cat (s := ['z']) (.optSome (.cls ?_)) .empty)))))))⟩
    exact ⟨fun _ => rfl, fun _ => ⟨('a', 'z'), by simp, by decide, by decide⟩⟩
  · rw [h3, C111_one_alternative]
    rintro ⟨c, h⟩
    obtain ⟨s', e, h2⟩ := matches_literal (lit := ['/']).1 h
    obtain rfl : s' = "some/x.js".toList := by simpa using e.symm
    obtain ⟨s1, s2, c1, c2, e2, _, h4, _⟩ := matches_cons.1 h2
    cases h4 with
    | altLeft h5 =>
      obtain ⟨s', rfl, h6⟩ := matches_literal (lit := "list".toList) (rest := []).1 (by simpa using h5)
      simp at e2
    | altRight h5 =>
      obtain ⟨s', rfl, h6⟩ := matches_literal (lit := "all".toList) (rest := []).1 (by simpa using h5)
      simp at e2

end RoutePathsExample

end Rodb
