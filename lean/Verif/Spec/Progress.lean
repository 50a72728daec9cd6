import Verif.Model.Progress
/-
  Specification vocabulary: messages about progress.
-/
namespace Rodb.Spec

/-- Rounding as IEEE 754 asks for: a larger number is not rounded to a smaller one, and 0, 1 and 100 are kept. -/
structure GoodRounding (f : FloatRounding) : Prop where
  monotone : ∀ x y : Rat, x ≤ y → f.round x ≤ f.round y
  zero : f.round 0 = 0
  one : f.round 1 = 1
  hundred : f.round 100 = 100

/-- The calls of a scan: time does not go back, the positions are within the file and do not go back. -/
structure ScanCalls (start size : Int) (calls : List (Int × Int)) : Prop where
  times : (calls.map (·.1)).Pairwise (· ≤ ·)
  started : ∀ c ∈ calls, start ≤ c.1
  positions : (calls.map (·.2)).Pairwise (· ≤ ·)
  within : ∀ c ∈ calls, 0 ≤ c.2 ∧ c.2 ≤ size

/-- One second, in nanoseconds. -/
def second : Int := 1000000000

end Rodb.Spec
