import Verif.Spec.Running
/-
  Specification vocabulary: the parameters of the query string that a service looks at.
-/
namespace Rodb.Spec

/-- The parameters that an output looks at: those of its declaration and, for a list, the ones for the limit and the offset. -/
def AsksFor : OutputDecl → String → Prop
  | .graphql _, _ => False
  | .array _ d, q => (∃ parameter, (q, parameter) ∈ d.parameters) ∨ q = orText d.limit.parameter "limit" ∨ q = orText d.offsetParameter "offset"
  | .object _ d, q => ∃ parameter, (q, parameter) ∈ d.parameters

/-- The parameters that the outputs behind the routes of the service of that name look at. -/
def ServiceAsksFor (p : ParsedConfig) (name : String) (q : String) : Prop :=
  ∃ s ∈ p.services, s.name = name ∧ ∃ r ∈ s.routes, ∃ o ∈ p.outputs, o.name = r.output ∧ AsksFor o q

/-- Changes of the parameters of a request that should not matter if these parameters are looked at: a parameter that is not looked at is added, a further value of a parameter is added after the
first one, and different parameters that follow each other are swapped; in any number, and in both directions. -/
inductive Rewritten (asked : String → Prop) : List (String × Bytes) → List (String × Bytes) → Prop where
  | same (pairs : List (String × Bytes)) : Rewritten asked pairs pairs
  | other (before after : List (String × Bytes)) (name : String) (value : Bytes) : ¬ asked name → Rewritten asked (before ++ after) (before ++ (name, value) :: after)
  | further (before after : List (String × Bytes)) (name : String) (first value : Bytes) : (name, first) ∈ before → Rewritten asked (before ++ after) (before ++ (name, value) :: after)
  | swapped (before after : List (String × Bytes)) (one two : String × Bytes) : one.1 ≠ two.1 → Rewritten asked (before ++ one :: two :: after) (before ++ two :: one :: after)
  | back {pairs pairs' : List (String × Bytes)} : Rewritten asked pairs pairs' → Rewritten asked pairs' pairs
  | more {pairs pairs' pairs'' : List (String × Bytes)} : Rewritten asked pairs pairs' → Rewritten asked pairs' pairs'' → Rewritten asked pairs pairs''

end Rodb.Spec
