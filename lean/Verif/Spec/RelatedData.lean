import Verif.Spec.Running
import Verif.Spec.Relationship
import Verif.Spec.Service
/-
  Specification vocabulary: the data behind all the inputs of a configuration, and which relationships fit them.
-/
namespace Rodb.Spec

/-- The data behind all the inputs of the configuration, when each is asked for these properties: the records of every input (`RecordsOf`), what its
indexes find among them (`IndexesFind`), and all the records can be shown as JSON. -/
structure WorldOf (config : ConfigLib) (lib : StartLib) (p : ParsedConfig) (functions : GoMap (Bytes → Res Value)) (asked : String → List String) (w : World) :
    Prop where
  records : ∀ x ∈ p.inputs, RecordsOf lib p functions x (asked x.name) (w.records x.name)
  finds : ∀ x ∈ p.inputs, IndexesFind config lib p functions x (w.records x.name) (w.sat x.name) (w.acceptable x.name)
  shown : ∀ name, ∀ r ∈ w.records name, ∃ d, r.all = .ok d ∧ ¬ HasNonFinite (.obj d)

/-- The relationships of the configuration file fit the data: names are unique, limits are below 2^63, no relationship is matched by a property that a sibling
overwrites, every record of the parent input has the properties used for matching, with values that the indexes can answer (`acceptable`; any scalar for the full scans and
map indexes), and so for the relationships inside. -/
def Fits (p : ParsedConfig) (asked : String → List String) (w : World) : Nat → String → List (String × Relationship) → Prop
  | 0, _, relationships => relationships = []
  | depth + 1, parent, relationships =>
    (relationships.map (·.1)).Nodup ∧
    ∀ name input isArray limit sort matches' nested, (name, Relationship.mk input isArray limit sort matches' nested) ∈ relationships →
      limit < 2^63 ∧
      (∀ m ∈ matches', ∀ other ∈ relationships.map (·.1), other ≠ name → m.parentProperty ≠ other) ∧
      (∀ m ∈ matches', isFullText p (orText m.childIndex "default") = true ∨ m.childProperty ∈ asked input) ∧
      (∀ r ∈ w.records parent, ∀ d, r.all = .ok d → ∀ m ∈ matches', ∃ v, mapGet d m.parentProperty = some v ∧ Scalar v ∧
        ∀ i, IsIndex p (orText m.childIndex "default") i → ¬ FindsEqual i → w.acceptable input (orText m.childIndex "default") m.childProperty v) ∧
      Fits p asked w depth input nested

end Rodb.Spec
