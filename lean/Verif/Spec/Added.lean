import Verif.Spec.WellFormed
/-
  Specification vocabulary: configurations with more components.
-/
namespace Rodb.Spec

/-- Everything in the first map is in the second one, under the same name. -/
def Keeps {α : Type} (m m' : GoMap α) : Prop := ∀ n x, mapGet m n = some x → mapGet m' n = some x

/-- The second configuration declares everything that the first one declares. What it declares besides does not have the name of a parser or of an index that
need not be declared. -/
structure AddsTo (p p' : ParsedConfig) : Prop where
  parsers : p.parsers ⊆ p'.parsers
  inputs : p.inputs ⊆ p'.inputs
  indexes : p.indexes ⊆ p'.indexes
  services : p.services ⊆ p'.services
  outputs : p.outputs ⊆ p'.outputs
  newParsers : ∀ x ∈ p'.parsers, x ∉ p.parsers → ∀ b ∈ builtinParsers, x.name ≠ b.name
  newIndexes : ∀ x ∈ p'.indexes, x ∉ p.indexes → x.name ≠ "default"

/-- Following the names of the parsers to which split parsers hand their pieces, one comes to a parser that does not split. -/
inductive SplitsEnd (parsers : GoMap ParserDecl) : String → Prop where
  | plain {name : String} {x : ParserDecl} : mapGet parsers name = some x → (∀ d r inner, x.kind ≠ .split d r inner) → SplitsEnd parsers name
  | next {name : String} {x : ParserDecl} {d : Option String} {r : Option Bool} {inner : String} :
    mapGet parsers name = some x → x.kind = .split d r inner → SplitsEnd parsers inner → SplitsEnd parsers name

end Rodb.Spec
