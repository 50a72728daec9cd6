import Verif.Spec.Table
/-
  Specification vocabulary: records, equality of values, conjunction of conditions.
-/
namespace Rodb.Spec

/-- Not an array and not an object. -/
def Scalar : Value → Prop
  | .arr _ => False
  | .obj _ => False
  | _ => True

/-- Same type and same value. As in IEEE 754 and Go, a NaN is not equal to anything. -/
def sameValue : Value → Value → Bool
  | .null, .null => true
  | .bool a, .bool b => decide (a = b)
  | .int a, .int b => decide (a = b)
  | .float (.fin a), .float (.fin b) => decide (a = b)
  | .float .pinf, .float .pinf => true
  | .float .ninf, .float .ninf => true
  | .str a, .str b => decide (a = b)
  | _, _ => false

/-- The input scans without error as the given records, whose positions are increasing. -/
structure RecordTable (input : Input) (records : List Rec) : Prop where
  scan : input.scan = .ok (records.map .ok)
  increasing : (records.map Rec.position).Pairwise (· < ·)

/-- The properties `props` of all the records are scalar values. -/
def ScalarIn (records : List Rec) (props : List String) : Prop :=
  ∀ r ∈ records, ∀ p ∈ props, ∃ v, r.get p = .ok v ∧ Scalar v

/-- The property `p` of the record has the value `v`. -/
def propEquals (r : Rec) (p : String) (v : Value) : Bool :=
  match r.get p with
  | .ok x => sameValue x v
  | .error _ => false

/-- All the given properties have the given values. -/
def equalsAll (filters : List (String × Value)) (r : Rec) : Bool := filters.all (fun pv => propEquals r pv.1 pv.2)

/-- The positions of the records that satisfy a condition, in order. -/
def positionsOf (records : List Rec) (cond : Rec → Bool) : List Int := (records.filter cond).map Rec.position

end Rodb.Spec
