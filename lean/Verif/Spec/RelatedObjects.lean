import Verif.Spec.JsonFiles
import Verif.Spec.RelatedData
/-
  Specification vocabulary: what responses with relationships show, in terms of the objects in the files.
-/
namespace Rodb.Spec

/-- By the sort criteria, object `a` must come before object `b`: at the first path where they differ, the value of `a` is before (after, if descending) the value of `b`. -/
def objectPrecedes : List SortConfig → GoMap Value → GoMap Value → Prop
  | [], _, _ => False
  | c :: rest, a, b => ∃ v w, ValueAt a c.property v ∧ ValueAt b c.property w ∧
      ((if c.ascending = some false then valueBefore w v else valueBefore v w) ∨ (v = w ∧ objectPrecedes rest a b))

/-- The path has values of one primitive type in all the objects. -/
def OneTypeAt (objects : List (GoMap Value)) (path : String) : Prop :=
  ∀ a ∈ objects, ∀ b ∈ objects, ∃ v w, ValueAt a path v ∧ ValueAt b path w ∧ SamePrimitive v w

/-- `ordered` are the objects, in an order that the sort criteria allow: as they are without criteria, sorted if the values can be compared. -/
def Ordered (sort : List SortConfig) (objects ordered : List (GoMap Value)) : Prop :=
  ordered.Perm objects ∧ (sort = [] → ordered = objects) ∧
    ((∀ c ∈ sort, OneTypeAt objects c.property) → ordered.Pairwise (fun a b => ¬ objectPrecedes sort b a))

/-- What full scans and map indexes find: the objects with that value at that path. -/
noncomputable def equalAt (_index property : String) (v : Value) (o : GoMap Value) : Bool := hasValueAt o property v

/-- The objects related to `parent`: those that are found, by the index of every match, at its path with the value of the parent. `found` says what an index finds. -/
def relatedObjects (found : String → String → Value → GoMap Value → Bool) (objects : List (GoMap Value)) (parent : GoMap Value) (matches' : List MatchConfig) : List (GoMap Value) :=
  objects.filter (fun o => matches'.all (fun m =>
    match parent.lookup m.parentProperty with
    | some v => found (orText m.childIndex "default") m.childProperty v o
    | none => false))

/-- How many objects a relationship shows: one, or all if the limit is 0, or as many as the limit. -/
def shownFew (isArray : Bool) (limit : Nat) (objects : List (GoMap Value)) : List (GoMap Value) :=
  if isArray then (if limit = 0 then objects else objects.take limit) else objects.take 1

/-- The value shown for a relationship: the array of the related objects, or the first one, or null if there is none; each with its own relationships. -/
def ShowsRelated (found : String → String → Value → GoMap Value → Bool) (tables : String → List (GoMap Value)) (nested : GoMap Value → List (String × Relationship) → GoMap Value → Prop) (parent : GoMap Value) :
    Relationship → Value → Prop
  | .mk input isArray limit sort matches' relationships, v =>
    ∃ ordered items, Ordered sort (relatedObjects found (tables input) parent matches') ordered ∧
      List.length items = (shownFew isArray limit ordered).length ∧
      (∀ k (h : k < (shownFew isArray limit ordered).length) (h' : k < items.length), nested (shownFew isArray limit ordered)[k] relationships items[k]) ∧
      ((isArray = true ∧ v = .arr (items.map .obj)) ∨
       (isArray = false ∧ items = [] ∧ v = .null) ∨
       (isArray = false ∧ ∃ item, items = [item] ∧ v = .obj item))

/-- `shown` is the object with its relationships, nested up to the given depth; `tables` are the objects of each input and `found` says what the
indexes find. -/
def ShownWith (found : String → String → Value → GoMap Value → Bool) (tables : String → List (GoMap Value)) : Nat → GoMap Value → List (String × Relationship) → GoMap Value → Prop
  | 0, object, relationships, shown => relationships = [] ∧ shown = object
  | depth + 1, object, relationships, shown =>
    (∀ k, k ∉ relationships.map (·.1) → shown.lookup k = object.lookup k) ∧
    ∀ name relationship, (name, relationship) ∈ relationships →
      ∃ v, shown.lookup name = some v ∧ ShowsRelated found tables (ShownWith found tables depth) object relationship v

/-- The relationships fit the objects of the inputs: names are unique, limits are below 2^63, no relationship is matched by a property that a sibling overwrites, what is matched
and sorted by is asked of the inputs, and every object of the parent input has the properties used for matching, with values that are not arrays or objects and can be asked of
the index (`accepts`); and so for the relationships inside. -/
def FitsObjects (p : ParsedConfig) (accepts : String → String → Value → Prop) (asked : String → List String) (tables : String → List (GoMap Value)) : Nat → String → List (String × Relationship) → Prop
  | 0, _, relationships => relationships = []
  | depth + 1, parent, relationships =>
    (relationships.map (·.1)).Nodup ∧
    ∀ name input isArray limit sort matches' nested, (name, Relationship.mk input isArray limit sort matches' nested) ∈ relationships →
      limit < 2^63 ∧
      (∀ m ∈ matches', ∀ other ∈ relationships.map (·.1), other ≠ name → m.parentProperty ≠ other) ∧
      (∀ m ∈ matches', isFullText p (orText m.childIndex "default") = true ∨ m.childProperty ∈ asked input) ∧ (∀ c ∈ sort, c.property ∈ asked input) ∧
      (∀ o ∈ tables parent, ∀ m ∈ matches', ∃ v, o.lookup m.parentProperty = some v ∧ Scalar v ∧
        accepts (orText m.childIndex "default") m.childProperty v) ∧
      FitsObjects p accepts asked tables depth input nested

end Rodb.Spec
