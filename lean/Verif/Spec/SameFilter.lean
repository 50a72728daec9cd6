import Verif.Spec.Output
/-
  Specification vocabulary: several parameters on one property of one index.
-/
namespace Rodb.Spec

/-- Of the conditions, exactly one for each property and index that they are on. -/
structure OneForEach (conditions kept : List Condition) : Prop where
  chosen : ∀ k ∈ kept, k ∈ conditions
  asked : ∀ c ∈ conditions, ∃ k ∈ kept, k.index = c.index ∧ k.property = c.property
  one : (kept.map (fun c => (c.index, c.property))).Nodup

end Rodb.Spec
