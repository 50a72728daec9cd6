import Verif.Spec.Output
import Verif.Spec.Order
/-
  Specification vocabulary: what a relationship contains.
-/
namespace Rodb.Spec

/-- The data behind all the inputs: the records of each, which of them satisfy a filter of an index, and which filters the
indexes can answer. -/
structure World where
  records : String → List Rec
  sat : String → String → String → Value → Rec → Bool
  acceptable : String → String → String → Value → Prop

/-- The world is the data behind the inputs of the environment. -/
def World.Behind (w : World) (env : OutputEnv) : Prop :=
  ∀ name input, mapGet env.inputs name = some input → OutputData env input (w.records name) (w.sat name) (w.acceptable name)

/-- The related records: those of the input that satisfy every match, the value of each being the one of the parent. -/
def relatedTo (w : World) (parent : GoMap Value) (input : String) (matches' : List MatchConfig) : List Rec :=
  (w.records input).filter (fun r => matches'.all (fun m =>
    match mapGet parent m.parentProperty with
    | some v => w.sat input m.childIndex m.childProperty v r
    | none => false))

/-- How many of the related records are kept: one, or all if the limit is 0, or as many as the limit. -/
def kept (isArray : Bool) (limit : Nat) (related : List Rec) : List Rec :=
  if isArray then (if limit = 0 then related else related.take limit) else related.take 1

/-- The value shown for a relationship. `order` is how the library orders records by sort criteria, `nested` says what is shown
for a record that has relationships itself. -/
def HoldsRelated (w : World) (order : List SortConfig → List Rec → List Rec)
    (nested : GoMap Value → List (String × Relationship) → GoMap Value → Prop) (parent : GoMap Value) : Relationship → Value → Prop
  | .mk input isArray limit sort matches' relationships, v =>
    let related := relatedTo w parent input matches'
    let chosen := kept isArray limit (if sort = [] then related else order sort related)
    ∃ items : List (GoMap Value), items.length = chosen.length ∧
      (∀ k (h : k < chosen.length) (h' : k < items.length), ∃ d, chosen[k].all = .ok d ∧ nested d relationships items[k]) ∧
      ((isArray = true ∧ v = .arr (items.map .obj)) ∨
       (isArray = false ∧ items = [] ∧ v = .null) ∨
       (isArray = false ∧ ∃ item, items = [item] ∧ v = .obj item))

/-- `shown` is the data with its relationships loaded, for relationships nested up to the given depth: every relationship
holds what it must according to the original data, and all the rest is unchanged. -/
def Loaded (w : World) (order : List SortConfig → List Rec → List Rec) :
    Nat → GoMap Value → List (String × Relationship) → GoMap Value → Prop
  | 0, data, relationships, shown => relationships = [] ∧ shown = data
  | depth + 1, data, relationships, shown =>
    (∀ k, k ∉ relationships.map (·.1) → mapGet shown k = mapGet data k) ∧
    ∀ name relationship, (name, relationship) ∈ relationships →
      ∃ v, mapGet shown name = some v ∧ HoldsRelated w order (Loaded w order depth) data relationship v

/-- The configuration of the relationships fits the data: names are unique, inputs and indexes exist, filters on the same index
are on different properties, limits are below 2^63, all records can be read, every record of the parent has the properties used for matching, with values that the index can
answer, and no relationship is matched by a property that a sibling overwrites. -/
def Suitable (w : World) (env : OutputEnv) : Nat → String → List (String × Relationship) → Prop
  | 0, _, relationships => relationships = []
  | depth + 1, parent, relationships =>
    (relationships.map (·.1)).Nodup ∧
    ∀ name input isArray limit sort matches' nested, (name, Relationship.mk input isArray limit sort matches' nested) ∈ relationships →
      (∃ i, mapGet env.inputs input = some i) ∧ limit < 2^63 ∧
      (∀ m ∈ matches', ∃ index, mapGet env.indexes m.childIndex = some index) ∧
      (matches'.map (fun m => (m.childIndex, m.childProperty))).Nodup ∧
      (∀ m ∈ matches', ∀ other ∈ relationships.map (·.1), other ≠ name → m.parentProperty ≠ other) ∧
      (∀ r ∈ w.records parent, ∀ d, r.all = .ok d → ∀ m ∈ matches', ∃ v, mapGet d m.parentProperty = some v ∧
        w.acceptable input m.childIndex m.childProperty v) ∧
      (∀ r ∈ w.records input, ∃ d, r.all = .ok d) ∧
      Suitable w env depth input nested

/-- What a client sees at one place of a JSON value. -/
inductive Shape where
  | scalar (v : Value)
  | array (length : Nat)
  | object

/-- What a client sees at a path of keys and array indexes. -/
def look : List (String ⊕ Nat) → Value → Option Shape
  | [], .arr l => some (.array l.length)
  | [], .obj _ => some .object
  | [], v => some (.scalar v)
  | .inl k :: path, .obj m => (mapGet m k).bind (look path)
  | .inr i :: path, .arr l => l[i]?.bind (look path)
  | _ :: _, _ => none

/-- Two JSON values are the same for a client: it sees the same at all paths (the order of the keys of objects does not count). -/
def SameJson (a b : Value) : Prop := ∀ path, look path a = look path b

end Rodb.Spec
