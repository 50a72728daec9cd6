import Verif.Model.Go
/-
  Dynamic Go values (`interface{}`) handled by rodb, Go maps, records and inputs as the rest of the
  code sees them.
-/
namespace Rodb

/-- Go `float64`, up to the sign of zero: finite values are represented by an integer that orders
them (there are finitely many doubles, so such a numbering exists; -0 and +0 share one number).
Arithmetic on floats is never done by rodb, only comparison. -/
inductive GoFloat where
  | nan
  | ninf
  | fin (k : Int)
  | pinf
  deriving DecidableEq, Repr

/-- The dynamic values produced by the inputs and parsers: `nil`, `bool`, `int64`, `float64`, `string`,
`[]interface{}` and `map[string]interface{}` (pkg/input/record/record.go:31-39). An object is the list
of its entries. -/
inductive Value where
  | null
  | bool (b : Bool)
  | int (i : Int)
  | float (f : GoFloat)
  | str (s : Bytes)
  | arr (l : List Value)
  | obj (m : List (String × Value))
  deriving Repr

/-- Go `==` on floats. -/
def GoFloat.eq : GoFloat → GoFloat → Bool
  | .nan, _ => false
  | _, .nan => false
  | a, b => decide (a = b)

/-- Go `a == b` on `interface{}` operands: different dynamic types are different, equal dynamic types
compare their values, slices and maps are not comparable and panic. -/
def goEq : Value → Value → Res Bool
  | .null, .null => .ok true
  | .bool a, .bool b => .ok (a == b)
  | .int a, .int b => .ok (a == b)
  | .float a, .float b => .ok (a.eq b)
  | .str a, .str b => .ok (a == b)
  | .arr _, .arr _ => .error (.panic "comparing uncomparable type []interface {}")
  | .obj _, .obj _ => .error (.panic "comparing uncomparable type map[string]interface {}")
  | _, _ => .ok false

/-- Whether a value can be a key of a `map[interface{}]...`; otherwise any map access with it panics. -/
def Value.hashable : Value → Bool
  | .arr _ => false
  | .obj _ => false
  | _ => true

/-! ### Go maps with string keys -/

/-- A Go `map[string]α` as the list of its entries (keys are kept distinct by `mapSet`). The order of
the list is the order in which a `range` loop visits it; Go leaves that order unspecified, so theorems
quantify over it. -/
abbrev GoMap (α : Type) := List (String × α)

/-- `m[k]` with the "exists" result. -/
def mapGet {α : Type} (m : GoMap α) (k : String) : Option α :=
  match m with
  | [] => none
  | (k', v) :: r => if k' = k then some v else mapGet r k

/-- `m[k] = v`. -/
def mapSet {α : Type} (m : GoMap α) (k : String) (v : α) : GoMap α :=
  match m with
  | [] => [(k, v)]
  | (k', v') :: r => if k' = k then (k, v) :: r else (k', v') :: mapSet r k v

/-! ### Records and inputs -/

/-- pkg/input/record/record.go:31-42 `Record`: what a record answers. -/
structure Rec where
  position : Int
  get : String → Res Value
  all : Res (GoMap Value)

/-- pkg/input/input.go `Input`: the parts used by indexes and outputs. `scan` is the outcome of
`IterateAll`: the error it returns, or the outcomes of the successive calls of its iterator (after the
last one it answers "no more records"). `fetch` is `Get(position)`. `modTimeNs` is `ModTime` in
nanoseconds since the epoch. -/
structure Input where
  name : String
  scan : Res (List (Res Rec))
  fetch : Int → Res Rec
  size : Res Int
  modTimeNs : Res Int

end Rodb
