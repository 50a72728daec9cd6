import Verif.Model.Go
/-
  Specification vocabulary: what is written in the file of a wildcard index, byte by byte.
-/
namespace Rodb.Spec

/-- The big-endian number in the `n` bytes at this place of the file. -/
def numberAt (file : Bytes) (place n : Nat) : Nat := ((file.drop place).take n).foldl (fun v b => v * 256 + b.toNat) 0

/-- The 8 bytes at this place as a number that may be negative. -/
def signedAt (file : Bytes) (place : Nat) : Int :=
  if numberAt file place 8 < 2^63 then (numberAt file place 8 : Int) else (numberAt file place 8 : Int) - 2^64

/-- The file begins with the header of a complete wildcard index on `n` properties, made with or without regard to case from a data file of this size that was
modified in this second. -/
structure HeaderFor (file : Bytes) (size second : Int) (ignoreCase : Bool) (n : Nat) : Prop where
  long : 47 + 8 * n ≤ file.length
  /-- `RODB/INDEX/WILDCARD` -/
  magic : file.take 19 = [82,79,68,66,47,73,78,68,69,88,47,87,73,76,68,67,65,82,68]
  version : numberAt file 19 2 = 1
  second : signedAt file 21 = second
  size : signedAt file 29 = size
  case : numberAt file 37 1 ≠ 0 ↔ ignoreCase = true
  complete : numberAt file 38 1 ≠ 0
  count : signedAt file 39 = n

/-- Where the file says that the tree of the `k`-th property begins. -/
def rootAt (file : Bytes) (k : Nat) : Nat := numberAt file (47 + 8 * k) 8

end Rodb.Spec
