import Verif.Spec.Json
import Verif.Model.Text
/-
  Specification: how paths and parameters are written in the URL of a request (RFC 3986 and the encoding of HTML forms).
-/
namespace Rodb.Spec
open Rodb

/-- Ways to write bytes in a URL: every byte as `%` and two hexadecimal digits, or, if it is visible and has no meaning in this place (`special`), as it is; with `plus`, a space also as `+`. -/
inductive UrlText (plus : Bool) (special : Bytes) : Bytes → Bytes → Prop where
  | done : UrlText plus special [] []
  | plain {b : UInt8} {bytes text : Bytes} : 32 < b.toNat → b.toNat ≠ 127 → b ≠ 37 → b ∉ special → UrlText plus special bytes text → UrlText plus special (b :: bytes) (b :: text)
  | escaped {b x y : UInt8} {bytes text : Bytes} : IsHex x (b.toNat / 16) → IsHex y (b.toNat % 16) → UrlText plus special bytes text → UrlText plus special (b :: bytes) (37 :: x :: y :: text)
  | space {bytes text : Bytes} : plus = true → UrlText plus special bytes text → UrlText plus special (32 :: bytes) (43 :: text)

/-- Ways to write a path: without `?` and `#`. -/
def PathText (path : List Char) (text : Bytes) : Prop := UrlText false [63, 35] (utf8 path) text

/-- Ways to write a parameter: `name=value`, or `name` for an empty value. Plain names have no `&`, `;`, `+`, `#` and `=`; plain values no `&`, `;`, `+` and `#`. -/
inductive PairText : String → Bytes → Bytes → Prop where
  | value {name : String} {value n v : Bytes} : UrlText true [38, 59, 43, 35, 61] (utf8 name.toList) n → UrlText true [38, 59, 43, 35] value v → PairText name value (n ++ 61 :: v)
  | name {name : String} {n : Bytes} : UrlText true [38, 59, 43, 35, 61] (utf8 name.toList) n → n ≠ [] → PairText name [] n

/-- Ways to write a list of parameters: separated by `&`, of which there may be more than needed. -/
inductive QueryText : List (String × Bytes) → Bytes → Prop where
  | none : QueryText [] []
  | last {name : String} {value text : Bytes} : PairText name value text → QueryText [(name, value)] text
  | more {name : String} {value text : Bytes} {pairs : List (String × Bytes)} {rest : Bytes} : PairText name value text → QueryText pairs rest →
      QueryText ((name, value) :: pairs) (text ++ 38 :: rest)
  | blank {pairs : List (String × Bytes)} {rest : Bytes} : QueryText pairs rest → QueryText pairs (38 :: rest)

/-- Ways to write a target: a path, and a query unless there are no parameters. -/
inductive TargetText : List Char → List (String × Bytes) → Bytes → Prop where
  | path {path : List Char} {text : Bytes} : PathText path text → TargetText path [] text
  | query {path : List Char} {text : Bytes} {pairs : List (String × Bytes)} {query : Bytes} : PathText path text → QueryText pairs query → TargetText path pairs (text ++ 63 :: query)

/-- The values that are given for a name. -/
def valuesOf (pairs : List (String × Bytes)) (name : String) : List Bytes := (pairs.filter (fun p => p.1 = name)).map (·.2)

/-- Every `%` is followed by two hexadecimal digits. -/
def GoodEscapes (text : Bytes) : Prop := ∀ before after, text = before ++ 37 :: after → ∃ x y rest m n, after = x :: y :: rest ∧ IsHex x m ∧ IsHex y n

end Rodb.Spec
