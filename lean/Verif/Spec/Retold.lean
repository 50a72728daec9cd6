import Verif.Model.Startup
/-
  Specification vocabulary: two inputs that have the same records, possibly at other positions.
-/
namespace Rodb.Spec

/-- Two lists of the same length, whose elements are related one by one. -/
inductive All2 {α β : Type} (R : α → β → Prop) : List α → List β → Prop
  | nil : All2 R [] []
  | cons {a : α} {b : β} {l : List α} {l' : List β} : R a b → All2 R l l' → All2 R (a :: l) (b :: l')

/-- The same error twice, or two results that are related. -/
inductive SameResult {α β : Type} (R : α → β → Prop) : Res α → Res β → Prop
  | ok {a : α} {b : β} : R a b → SameResult R (.ok a) (.ok b)
  | error (e : Fail) : SameResult R (.error e) (.error e)

/-- Two records with the same properties, at positions that correspond to each other. -/
structure SameRecord (corresponds : Int → Int → Prop) (r r' : Rec) : Prop where
  get : r'.get = r.get
  all : r'.all = r.all
  position : corresponds r.position r'.position

/-- Positions that correspond to each other are in the same order. -/
def SameOrder (corresponds : Int → Int → Prop) : Prop := ∀ p p' q q', corresponds p p' → corresponds q q' → (p < q ↔ p' < q')

/-- The two inputs have the same name and the same records in the same order, possibly at other positions, where they are also found. If reading fails, then it fails at the same record and
with the same error. -/
structure SameRecords (corresponds : Int → Int → Prop) (i i' : Input) : Prop where
  order : SameOrder corresponds
  name : i'.name = i.name
  scan : SameResult (All2 (SameResult (SameRecord corresponds))) i.scan i'.scan
  fetch : ∀ p p', corresponds p p' → SameResult (SameRecord corresponds) (i.fetch p) (i'.fetch p')

/-- Two inputs that tell the same: for some correspondence of the positions they have the same records. -/
def TellsTheSame (i i' : Input) : Prop := ∃ corresponds, SameRecords corresponds i i'

/-- A sort that only compares: if the elements of two lists are related, and are compared alike, then so are those of the sorted lists. -/
def OnlyCompares (sort : (Rec → Rec → Bool) → List Rec → List Rec) : Prop :=
  ∀ (R : Rec → Rec → Prop) (less less' : Rec → Rec → Bool) (l l' : List Rec), (∀ a a' b b', R a a' → R b b' → less' a' b' = less a b) → All2 R l l' → All2 R (sort less l) (sort less' l')

end Rodb.Spec
