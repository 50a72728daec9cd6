import Verif.Spec.Service
/-
  Specification vocabulary: the texts that the library for regular expressions reports for the placeholders of a route.
-/
namespace Rodb.Spec

/-- What is reported for a placeholder with this text: the text, and then the texts of the parentheses in the pattern of the parser. Booleans have one pair around the whole text, floats one pair around the
decimal separator and what follows it. -/
def ReportedFor : TextParser → List Char → List (List Char) → Prop
  | .string _, text, reported => reported = [text]
  | .integer _, text, reported => reported = [text]
  | .boolean _ _, text, reported => reported = [text, text]
  | .float separator ignore, text, reported => ∃ number fraction, text = number ++ fraction ∧ PlaceholderText (.integer ignore) number ∧
      (fraction = [] ∨ ∃ point digits, fraction = point :: digits ∧ point ∈ separator ∧ digits ≠ [] ∧ ∀ c ∈ digits, isDigitChar c ∨ c ∈ ignore) ∧ reported = [text, fraction]
  | .nonPrimitive _, _, _ => False

/-- What is reported for all the placeholders, one after the other. -/
inductive Reported : List TextParser → List (List Char) → List (List Char) → Prop where
  | nil : Reported [] [] []
  | cons {p ps t ts r rs} : ReportedFor p t r → Reported ps ts rs → Reported (p :: ps) (t :: ts) (r ++ rs)

end Rodb.Spec
