import Verif.Spec.Records
import Verif.Model.Value
/-
  Specification vocabulary: what the build of a map index meets.
-/
namespace Rodb.Spec

/-- The values of the properties of the records, in the order of the file, and the failures met on the way. -/
def readInOrder (rs : List (Res Rec)) (properties : List String) : List (Res Value) :=
  rs.flatMap (fun r => match r with
    | .ok r => properties.map r.get
    | .error e => [.error e])

/-- An array that, going inwards by the first element that is not a scalar, leads to an array of scalars. (It leads to an object otherwise.) -/
inductive LeadsToFlat : Value → Prop where
  | flat {l : List Value} : (∀ v ∈ l, Scalar v) → LeadsToFlat (.arr l)
  | inside {before after : List Value} {v : Value} : (∀ w ∈ before, Scalar w) → LeadsToFlat v → LeadsToFlat (.arr (before ++ v :: after))

end Rodb.Spec
