/-
  Independent vocabulary for sequences of positions.
-/
namespace Rodb.Spec

/-- Strictly increasing. -/
def Increasing (l : List Int) : Prop := l.Pairwise (· < ·)

/-- `x` is in every one of the lists. -/
def InAll (ls : List (List Int)) (x : Int) : Prop := ∀ l ∈ ls, x ∈ l

/-- `out` is the sorted intersection of the (at least one) lists. -/
def IsIntersection (ls : List (List Int)) (out : List Int) : Prop :=
  Increasing out ∧ ∀ x, x ∈ out ↔ InAll ls x

end Rodb.Spec
