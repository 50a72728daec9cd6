import Verif.Model.Value
/-
  pkg/parser/parser.go `Compare` and pkg/input/record/sort.go.
-/
namespace Rodb

/-- Go `a < b` on strings: byte by byte. -/
def bytesLt : Bytes → Bytes → Bool
  | [], [] => false
  | [], _ :: _ => true
  | _ :: _, [] => false
  | x :: a, y :: b => if x < y then true else if y < x then false else bytesLt a b

/-- Go `a < b` on float64. -/
def GoFloat.lt : GoFloat → GoFloat → Bool
  | .nan, _ => false
  | _, .nan => false
  | .ninf, .ninf => false
  | .ninf, _ => true
  | .fin _, .ninf => false
  | .fin a, .fin b => decide (a < b)
  | .fin _, .pinf => true
  | .pinf, _ => false

/-- pkg/parser/parser.go:66-119 `Compare`: nil if equal, true if `a < b`, false if `a > b`. -/
def compare (a b : Value) : Res (Option Bool) :=
  match a with
  | .str a =>
    match b with
    | .str b => if a = b then .ok none else .ok (some (bytesLt a b))
    | _ => .error (.err "Cannot compare a string")
  | .int a =>
    match b with
    | .int b => if a = b then .ok none else .ok (some (decide (a < b)))
    | _ => .error (.err "Cannot compare an integer")
  | .float a =>
    match b with
    | .float b => if a.eq b then .ok none else .ok (some (a.lt b))
    | _ => .error (.err "Cannot compare a float")
  | .bool a =>
    match b with
    | .bool b => if a = b then .ok none else .ok (some (a == false && b == true))
    | _ => .error (.err "Cannot compare a boolean")
  | _ => .error (.err "Unhandled type for sorting object")

/-- pkg/input/record/sort_config.go:7-11 `SortConfig` without the logger. -/
structure SortConfig where
  property : String
  ascending : Option Bool

/-- sort_config.go:13-15 `IsAscending`. -/
def SortConfig.isAscending (c : SortConfig) : Bool := c.ascending == none || c.ascending == some true

/-- sort.go:27-35: the value used for sorting. An error is logged and the value is then nil, which is what
the records return with their errors. Simplification: a panic of `Get` (see C28) is treated like an error. -/
def sortValue (r : Rec) (property : String) : Value :=
  match r.get property with
  | .ok v => v
  | .error _ => .null

/-- sort.go:23-56 `Less`, on the two records. An error of `Compare` is logged, its result is nil. -/
def recordLess : List SortConfig → Rec → Rec → Bool
  | [], _, _ => false
  | c :: rest, i, j =>
    match compare (sortValue i c.property) (sortValue j c.property) with
    | .error _ => recordLess rest i j
    | .ok none => recordLess rest i j
    | .ok (some result) => if c.isAscending then result else !result

/-- sort.go:8-12 `Sort`, with the library's `sort.Sort` as a parameter. -/
def sortRecords (sort : (Rec → Rec → Bool) → List Rec → List Rec) (config : List SortConfig) (records : List Rec) : List Rec :=
  sort (recordLess config) records

/-- The inner loop of `insertionSort` in Go's sort package: the sorted part is kept in reverse order. -/
def insertRev {α : Type} (less : α → α → Bool) (x : α) : List α → List α
  | [] => [x]
  | p :: rest => if less x p then p :: insertRev less x rest else x :: p :: rest

/-- `insertionSort` in Go's sort package, which is what `sort.Sort` does with up to 6 elements (and with up to
12 since Go 1.19). -/
def goInsertionSort {α : Type} (less : α → α → Bool) (l : List α) : List α :=
  (l.foldl (fun rev x => insertRev less x rev) []).reverse

end Rodb
