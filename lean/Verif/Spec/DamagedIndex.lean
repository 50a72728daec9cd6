import Verif.Model.Go
/-
  Specification: the links in the file of a wildcard index, whatever its content.
-/
namespace Rodb.Spec
open Rodb

/-- The signed number in the eight bytes from an offset on. -/
def wordAt (file : Bytes) (offset : Int) : Int := toI64 (ofBE (slice file offset.toNat 8))

/-- The 56 bytes of a node can be read here. -/
def NodeAt (file : Bytes) (a : Int) : Prop := 0 < a ∧ a + 56 ≤ file.length

/-- Fields of the node at `a`. -/
def valueOffsetAt (file : Bytes) (a : Int) : Int := wordAt file a
def valueLengthAt (file : Bytes) (a : Int) : Int := wordAt file (a + 8)
def nextSiblingAt (file : Bytes) (a : Int) : Int := wordAt file (a + 16)
def firstChildAt (file : Bytes) (a : Int) : Int := wordAt file (a + 24)

/-- The nodes below that can be reached from the node at `root` by first children and next siblings. -/
inductive Reachable (file : Bytes) (root : Int) : Int → Prop where
  | first : NodeAt file (firstChildAt file root) → Reachable file root (firstChildAt file root)
  | child {a : Int} : Reachable file root a → NodeAt file (firstChildAt file a) → Reachable file root (firstChildAt file a)
  | sibling {a : Int} : Reachable file root a → NodeAt file (nextSiblingAt file a) → Reachable file root (nextSiblingAt file a)

/-- From `a`, the next siblings lead to `b`, in one step or more. -/
inductive SiblingsLead (file : Bytes) : Int → Int → Prop where
  | one {a : Int} : SiblingsLead file a (nextSiblingAt file a)
  | more {a b : Int} : SiblingsLead file a b → NodeAt file b → SiblingsLead file a (nextSiblingAt file b)

/-- The text of the node at `a` is in the file and does not begin with the byte. -/
def OtherValue (file : Bytes) (a : Int) (b : UInt8) : Prop :=
  0 ≤ valueOffsetAt file a ∧ 0 ≤ valueLengthAt file a ∧ valueOffsetAt file a + valueLengthAt file a ≤ file.length ∧
    (slice file (valueOffsetAt file a).toNat (valueLengthAt file a).toNat).head? ≠ some b

end Rodb.Spec
