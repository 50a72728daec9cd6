import Verif.Spec.WellFormed
import Verif.Spec.Records
/-
  Specification vocabulary: configurations with full scans instead of map indexes.
-/
namespace Rodb.Spec

/-- Instead of a chosen map index, the index of the same name that reads all the records for each search. -/
def scannedIndex (chosen : String → Bool) : IndexDecl → IndexDecl
  | .map d => if chosen d.name then .noop d.name else .map d
  | x => x

/-- The configuration without the chosen map indexes. -/
def withoutMaps (chosen : String → Bool) (p : ParsedConfig) : ParsedConfig := { p with indexes := p.indexes.map (scannedIndex chosen) }

/-- The positions of the records of the input increase. -/
def PositionsIncrease (input : Input) : Prop := ∀ records : List Rec, input.scan = .ok (records.map .ok) → (records.map Rec.position).Pairwise (· < ·)

/-- No record of the input has an array or an object as the value of the property. -/
def OnlyScalars (input : Input) (property : String) : Prop :=
  ∀ position r data v, input.fetch position = .ok r → r.all = .ok data → mapGet data property = some v → Scalar v

mutual
/-- If the relationship searches in a chosen index, then for values of the records of the parent, whose relationships have these names, that are not arrays or objects.
Likewise for the relationships inside of it. -/
def PlainMatches (inputs : GoMap Input) (chosen : String → Bool) (parent : String) (names : List String) : Relationship → Prop
  | .mk input _ _ _ matching relationships =>
    (∀ m ∈ matching, chosen m.childIndex = true → m.parentProperty ∉ names ∧ ∀ i, mapGet inputs parent = some i → OnlyScalars i m.parentProperty) ∧
      AllPlainMatches inputs chosen input (relationships.map (·.1)) relationships
/-- The same for all of these relationships. -/
def AllPlainMatches (inputs : GoMap Input) (chosen : String → Bool) (parent : String) (names : List String) : List (String × Relationship) → Prop
  | [] => True
  | (_, r) :: rest => PlainMatches inputs chosen parent names r ∧ AllPlainMatches inputs chosen parent names rest
end

/-- The input is a CSV file none of whose columns has a parser that gives arrays or objects. -/
def PlainCsv (p : ParsedConfig) : InputDecl → Prop
  | .csv d => (∀ column ∈ d.columns, ∀ x, IsParser p (orText column.parser "string") x → x.primitive = true) ∧
      (d.autodetectColumns = true → ∀ x, IsParser p "string" x → x.primitive = true)
  | _ => False

mutual
/-- If the relationship searches in a chosen index, then for values of the record, not for the results of the other relationships, which have these names. Likewise for the relationships inside
of it. -/
def MatchesRecord (chosen : String → Bool) (names : List String) : Relationship → Prop
  | .mk _ _ _ _ matching relationships =>
    (∀ m ∈ matching, chosen m.childIndex = true → m.parentProperty ∉ names) ∧ AllMatchRecord chosen (relationships.map (·.1)) relationships
/-- The same for all of these relationships. -/
def AllMatchRecord (chosen : String → Bool) (names : List String) : List (String × Relationship) → Prop
  | [] => True
  | (_, r) :: rest => MatchesRecord chosen names r ∧ AllMatchRecord chosen names rest
end

end Rodb.Spec
