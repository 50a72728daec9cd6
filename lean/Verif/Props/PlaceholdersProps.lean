import Verif.Proofs.Placeholders
import Verif.Props.ServiceProps
/-
  C53, exactly: what the placeholders of a route receive, with any parsers.
-/
namespace Rodb
open Spec

/-- **C53**, exactly: with any parsers the first placeholder receives the first text that the library reports, the second one the second text, and so on. The library reports two texts for each boolean and each
float, so every placeholder after one of these receives a text of an earlier one. Missing for the full C53: the text of a placeholder behind a boolean or float, see `C53_false`. -/
theorem C53_reported_partial (lib : ServiceLib) (hlib : RegexpContract lib.find) (outputs : GoMap OutputApi) (name : String) (output : OutputApi)
    (ho : mapGet outputs name = some output) (first : List Char) (placeholders : List (List Char × List Char)) (hg : GoodTemplate first placeholders)
    (parsers : List TextParser) (hp : ParsersOf output placeholders parsers) (hr : ∀ p ∈ parsers, RouteParser p) :
    ∃ route, createRoute outputs name (template first placeholders) = .ok route ∧ route.output = output ∧
      (∀ path, PathMatches route path ↔ ∃ texts, PlaceholderTexts parsers texts ∧ path = filled first placeholders texts) ∧
      ∀ request : Request, PathMatches route request.path → GoodQuery request.query →
        ∃ params texts reported, getParams lib route request = .ok params ∧
          PlaceholderTexts parsers texts ∧ request.path = filled first placeholders texts ∧ Reported parsers texts reported ∧
          ∀ n, mapGet params n = ((placeholderValue (placeholders.map (fun p => String.ofList p.1)) reported n).map utf8).or (queryValue request.query n) := by
  obtain ⟨rs, hrs⟩ := expressions_exist parsers hr
  have hl := parsersOf_length output placeholders parsers hp
  refine ⟨_, route_created ho hg hp hr hrs, rfl, ?_, ?_⟩
  · intro path
    constructor
    · rintro ⟨before, s, after, caps, rfl, h⟩
      obtain ⟨texts, reported, h1, h2, _⟩ := path_reports hl hrs hr h
      exact ⟨texts, h1, h2⟩
    · rintro ⟨texts, h1, rfl⟩
      obtain ⟨caps, h⟩ := path_matches (first := first) hl hrs h1
      exact ⟨[], _, [], caps, by simp, h⟩
  · rintro request ⟨before, s, after, caps, hpath, h⟩ hq
    have hsome := hlib.complete _ before s after caps h
    rw [← hpath] at hsome
    obtain ⟨found, hfound⟩ := Option.isSome_iff_exists.1 hsome
    obtain ⟨before', s', after', hpath', h'⟩ := hlib.sound _ _ _ hfound
    obtain ⟨texts, reported, h1, h2, h3, h4⟩ := path_reports hl hrs hr h'
    obtain ⟨qp, hq1, hq2⟩ := queryParams_get request.query [] hq
    obtain ⟨result, hr1, hr2⟩ := pathParams_reported (placeholders.map (fun p => String.ofList p.1)) found qp (by
      have := reported_length h3
      rw [← h4, List.length_map] at this
      rw [List.length_map, hl]
      exact this)
    refine ⟨result, texts, reported, ?_, h1, by rw [hpath', h2], h3, ?_⟩
    · simp only [getParams, hq1, hfound, Option.getD_some, hr1]
    · intro n
      rw [hr2, hq2, h4]
      simp [mapGet]

/-- The hypotheses are met by /{flag}/{name} with a boolean and a string, and "true" and "x" are reported as "true", "true", "x". -/
example : GoodTemplate "/".toList [("flag".toList, "/".toList), ("name".toList, [])] ∧
    ParsersOf ServiceExample.output [("flag".toList, "/".toList), ("name".toList, [])] [.boolean ["true".toList] ["false".toList], .string none] ∧
    (∀ p ∈ [TextParser.boolean ["true".toList] ["false".toList], .string none], RouteParser p) ∧
    Reported [.boolean ["true".toList] ["false".toList], .string none] ["true".toList, "x".toList] ["true".toList, "true".toList, "x".toList] := by
  refine ⟨⟨by unfold PlainText; decide, by unfold PlainText; decide, by decide⟩, ⟨by decide, rfl, by decide, rfl, trivial⟩, ?_, ?_⟩
  · intro p hp
    simp only [List.mem_cons, List.not_mem_nil, or_false] at hp
    rcases hp with rfl | rfl
    · exact ⟨by decide, by decide⟩
    · trivial
  · exact .cons (r := ["true".toList, "true".toList]) rfl (.cons (r := ["x".toList]) rfl .nil)

end Rodb
