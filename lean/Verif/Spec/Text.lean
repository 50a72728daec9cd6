import Verif.Model.Value
import Verif.Spec.Table
/-
  Specification vocabulary: decimal numbers and texts.
-/
namespace Rodb.Spec

/-- A non-empty sequence of ASCII digits. -/
def IsDigits (ds : Bytes) : Prop := ds ≠ [] ∧ ∀ d ∈ ds, 48 ≤ d.toNat ∧ d.toNat ≤ 57

/-- The number written by the digits, the last one being the units. -/
def decimalValue (ds : Bytes) : Nat := ds.reverse.foldr (fun d n => (d.toNat - 48) + 10 * n) 0

/-- The text `s` is an optionally signed decimal number whose value `i` is a 64-bit integer. -/
def IntegerText (s : Bytes) (i : Int) : Prop :=
  Int64Range i ∧ ∃ ds, IsDigits ds ∧
    (((s = ds ∨ s = 43 :: ds) ∧ i = decimalValue ds) ∨ (s = 45 :: ds ∧ i = -(decimalValue ds : Int)))

/-- The usual decimal text of a natural number. -/
def natText (n : Nat) : Bytes :=
  if h : n < 10 then [UInt8.ofNat (48 + n)] else natText (n / 10) ++ [UInt8.ofNat (48 + n % 10)]
termination_by n
decreasing_by omega

/-- The usual decimal text of an integer. -/
def intText (i : Int) : Bytes := if i < 0 then 45 :: natText i.natAbs else natText i.natAbs

/-- The pieces obtained by cutting a text at the leftmost occurrence of the separator, then the rest of the text
in the same way, until the separator does not occur any more. -/
inductive IsSplit (sep : Bytes) : Bytes → List Bytes → Prop where
  | last {text : Bytes} : ¬ sep <:+: text → IsSplit sep text [text]
  | cut {piece rest : Bytes} {pieces : List Bytes} :
    (∀ before after, piece ++ sep ++ rest = before ++ sep ++ after → piece.length ≤ before.length) →
    IsSplit sep rest pieces → IsSplit sep (piece ++ sep ++ rest) (piece :: pieces)

end Rodb.Spec
