import Verif.Proofs.LiteralPaths
import Verif.Props.RoutePathsProps
/-
  C54, exactly: which paths without placeholders match literally.
-/
namespace Rodb
open Spec

theorem written_ordinary (hole : List Char → Regex → Prop) : ∀ {text : List Char}, (∀ c ∈ text, Ordinary c) → PathWritten hole (.items (text.map .chr)) text
  | [], _ => .nil
  | c :: text, h => .cons (a := [c]) (.once (.ordinary (h c (by simp)))) (written_ordinary hole (fun d hd => h d (by simp [hd])))

/-- **C54**, exactly: a route whose path has no placeholder matches exactly the request path equal to it if and only if its path has none of the characters \ . + * ? ( ) | [ ^ $ that are special in
regular expressions. Missing for the full C54: the paths with such characters, see `C54_false`. -/
theorem C54_exactly_partial (outputs : GoMap OutputApi) (name : String) (path : List Char) (hno : '{' ∉ path) (route : Route) (h : createRoute outputs name path = .ok route) :
    (∀ requested, PathMatches route requested ↔ requested = path) ↔ ∀ c ∈ path, c ∉ ['\\', '.', '+', '*', '?', '(', ')', '|', '[', '^', '$'] := by
  have hord : (∀ c ∈ path, c ∉ ['\\', '.', '+', '*', '?', '(', ')', '|', '[', '^', '$']) ↔ ∀ c ∈ path, Ordinary c := by
    constructor
    · intro hp c hc
      have h1 := hp c hc
      have h2 : c ≠ '{' := fun e => hno (e ▸ hc)
      simp only [Ordinary, List.mem_cons, List.not_mem_nil, or_false, not_or] at h1 ⊢
      simp [h1, h2]
    · intro hp c hc
      have h1 := hp c hc
      simp only [Ordinary, List.mem_cons, List.not_mem_nil, or_false, not_or] at h1 ⊢
      simp [h1]
  rw [hord]
  unfold createRoute at h
  cases ho : mapGet outputs name with
  | none => rw [ho] at h; cases h
  | some output =>
    constructor
    · intro hp
      rw [ho] at h
      simp only at h
      obtain ⟨first, placeholders, pattern, g1, g2, g3, g4⟩ := (Expands.text (output := output) hno).split path.length (Nat.le_refl _)
      unfold createPathRegexp at h
      rw [g1] at h
      simp only [g2, ← g3] at h
      cases hc : compilePattern ('^' :: path ++ ['$']) with
      | none => rw [hc] at h; cases h
      | some r =>
        rw [hc] at h
        simp only [g4, if_true] at h
        have hr : route.regexp = r := by rw [← Except.ok.inj h]
        exact literal_ordinary hc (by rw [← hr]; exact hp)
    · intro hp requested
      obtain ⟨route', h1, _, h3⟩ := C111_path outputs name output ho [path.map .chr] path (.last (written_ordinary _ hp))
      have : route = route' := by
        unfold createRoute at h1
        rw [h] at h1
        exact Except.ok.inj h1
      rw [this, h3, C111_one_alternative, accepts_chars]

/-- The hypotheses are met by a path that is literal and by one that is not. -/
example : ∃ route, createRoute [("out", ServiceExample.output)] "out" "/a]b".toList = .ok route ∧ ∀ requested, PathMatches route requested ↔ requested = "/a]b".toList := by
  refine ⟨_, rfl, ?_⟩
  exact (C54_exactly_partial [("out", ServiceExample.output)] "out" _ (by decide) _ rfl).2 (by decide)

example : ∃ route, createRoute [("out", ServiceExample.output)] "out" "/(a)".toList = .ok route ∧ ¬ ∀ requested, PathMatches route requested ↔ requested = "/(a)".toList := by
  refine ⟨_, rfl, fun h => ?_⟩
  exact absurd ((C54_exactly_partial [("out", ServiceExample.output)] "out" _ (by decide) _ rfl).1 h) (by decide)

end Rodb
