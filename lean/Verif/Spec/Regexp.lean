import Verif.Model.Regexp
/-
  Specification vocabulary: what a regular expression matches, and what the library promises.
-/
namespace Rodb.Spec

/-- The texts captured by several rounds of a repetition: the last capture of each group counts. -/
def laterCaptures (first later : List (Option (List Char))) : List (Option (List Char)) :=
  List.zipWith (fun a b => match b with | some t => some t | none => a) first later

/-- `c` belongs to the bracket expression. -/
def inClass (negated : Bool) (ranges : List (Char × Char)) (c : Char) : Prop :=
  (∃ r ∈ ranges, r.1 ≤ c ∧ c ≤ r.2) ↔ negated = false

/-- `Matches r before s after captures`: in the text `before ++ s ++ after`, the expression matches `s`, and its groups capture
these texts (`none` for a group that takes no part). -/
inductive Matches : Regex → List Char → List Char → List Char → List (Option (List Char)) → Prop where
  | empty {before after} : Matches .empty before [] after []
  | chr {c before after} : Matches (.chr c) before [c] after []
  | any {c before after} : c ≠ '\n' → Matches .any before [c] after []
  | cls {negated ranges c before after} : inClass negated ranges c → Matches (.cls negated ranges) before [c] after []
  | cat {a b before s t after ca cb} : Matches a before s (t ++ after) ca → Matches b (before ++ s) t after cb →
      Matches (.cat a b) before (s ++ t) after (ca ++ cb)
  | altLeft {a b before s after ca} : Matches a before s after ca → Matches (.alt a b) before s after (ca ++ List.replicate b.groups none)
  | altRight {a b before s after cb} : Matches b before s after cb → Matches (.alt a b) before s after (List.replicate a.groups none ++ cb)
  | starNone {a before after} : Matches (.star a) before [] after (List.replicate a.groups none)
  | starMore {a before s t after ca cb} : Matches a before s (t ++ after) ca → Matches (.star a) (before ++ s) t after cb →
      Matches (.star a) before (s ++ t) after (laterCaptures ca cb)
  | plus {a before s t after ca cb} : Matches a before s (t ++ after) ca → Matches (.star a) (before ++ s) t after cb →
      Matches (.plus a) before (s ++ t) after (laterCaptures ca cb)
  | optNone {a before after} : Matches (.opt a) before [] after (List.replicate a.groups none)
  | optSome {a before s after ca} : Matches a before s after ca → Matches (.opt a) before s after ca
  | group {a before s after ca} : Matches a before s after ca → Matches (.group a) before s after (some s :: ca)
  | bol {after} : Matches .bol [] [] after []
  | eol {before} : Matches .eol before [] [] []

/-- What Go's regexp library promises: `find` finds a match when there is one, and answers the captures of a match. Which match
it prefers does not matter here. -/
structure RegexpContract (find : Regex → List Char → Option (List (Option (List Char)))) : Prop where
  sound : ∀ r text captures, find r text = some captures →
    ∃ before s after, text = before ++ s ++ after ∧ Matches r before s after captures
  complete : ∀ r before s after captures, Matches r before s after captures → (find r (before ++ s ++ after)).isSome

/-- The text as a whole matches the expression. -/
def Accepts (r : Regex) (text : List Char) : Prop := ∃ captures, Matches r [] text [] captures

/-- The expression does not look around: no "^" and "$". -/
def NoAnchors : Regex → Prop
  | .bol => False
  | .eol => False
  | .cat a b => NoAnchors a ∧ NoAnchors b
  | .alt a b => NoAnchors a ∧ NoAnchors b
  | .star a => NoAnchors a
  | .plus a => NoAnchors a
  | .opt a => NoAnchors a
  | .group a => NoAnchors a
  | _ => True

end Rodb.Spec
