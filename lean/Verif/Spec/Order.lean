import Verif.Model.Value
/-
  Specification vocabulary: the order of values and of records.
-/
namespace Rodb.Spec

/-- Dictionary order of texts: `a` is a proper prefix of `b`, or has a smaller byte where they first differ. -/
def textBefore (a b : Bytes) : Prop :=
  (∃ s, s ≠ [] ∧ b = a ++ s) ∨ ∃ p x y s t, a = p ++ x :: s ∧ b = p ++ y :: t ∧ x < y

/-- -∞ < finite numbers < +∞. -/
def floatBefore : GoFloat → GoFloat → Prop
  | .ninf, .fin _ => True
  | .ninf, .pinf => True
  | .fin a, .fin b => a < b
  | .fin _, .pinf => True
  | _, _ => False

/-- The natural order of values of the same primitive type. -/
def valueBefore : Value → Value → Prop
  | .str a, .str b => textBefore a b
  | .int a, .int b => a < b
  | .float a, .float b => floatBefore a b
  | .bool a, .bool b => a = false ∧ b = true
  | _, _ => False

/-- Two texts, two integers, two booleans, or two floats that are not NaN. -/
def SamePrimitive : Value → Value → Prop
  | .str _, .str _ => True
  | .int _, .int _ => True
  | .float a, .float b => a ≠ .nan ∧ b ≠ .nan
  | .bool _, .bool _ => True
  | _, _ => False

/-- By the criteria (property, ascending?), record `r` must come before record `s`: at the first property
where they differ, the value of `r` is before (after, if descending) the value of `s`. -/
def mustPrecede : List (String × Bool) → Rec → Rec → Prop
  | [], _, _ => False
  | (p, asc) :: rest, r, s => ∃ v w, r.get p = .ok v ∧ s.get p = .ok w ∧
      ((if asc then valueBefore v w else valueBefore w v) ∨ (v = w ∧ mustPrecede rest r s))

/-- The property `p` has values of one primitive type in all the records. -/
def OneType (records : List Rec) (p : String) : Prop :=
  ∀ r ∈ records, ∀ s ∈ records, ∃ v w, r.get p = .ok v ∧ s.get p = .ok w ∧ SamePrimitive v w

/-- What Go's `sort.Sort` requires of `Less` on the elements of `l`. -/
structure ValidLess {α : Type} (less : α → α → Bool) (l : List α) : Prop where
  irrefl : ∀ a ∈ l, less a a = false
  trans : ∀ a ∈ l, ∀ b ∈ l, ∀ c ∈ l, less a b = true → less b c = true → less a c = true
  negTrans : ∀ a ∈ l, ∀ b ∈ l, ∀ c ∈ l, less a b = false → less b c = false → less a c = false

/-- What Go's `sort.Sort` (not a stable sort) promises: the result is always a rearrangement (it only swaps), and
it is sorted if `Less` is valid. -/
structure SortContract {α : Type} (sort : (α → α → Bool) → List α → List α) : Prop where
  perm : ∀ less l, (sort less l).Perm l
  sorted : ∀ less l, ValidLess less l → (sort less l).Pairwise (fun a b => less b a = false)

end Rodb.Spec
