/-
  Go basics: outcomes of Go calls, byte strings, big-endian words.
-/
namespace Rodb

/-- How a Go call may fail: an `error` value, a run-time panic, or a loop that never ends
(only used for loops over on-disk pointers, see DESIGN.md). -/
inductive Fail where
  | err (msg : String)
  | panic (msg : String)
  | diverge
  deriving DecidableEq, Repr

/-- Result of a Go function returning `(α, error)`. -/
abbrev Res (α : Type) := Except Fail α

instance {α : Type} [DecidableEq α] : DecidableEq (Res α) := fun a b =>
  match a, b with
  | .ok x, .ok y => if h : x = y then .isTrue (by rw [h]) else .isFalse (by intro e; cases e; exact h rfl)
  | .error x, .error y => if h : x = y then .isTrue (by rw [h]) else .isFalse (by intro e; cases e; exact h rfl)
  | .ok _, .error _ => .isFalse (by intro e; cases e)
  | .error _, .ok _ => .isFalse (by intro e; cases e)

/-- Go `[]byte` / `string` contents. -/
abbrev Bytes := List UInt8

/-- `l[off : off+n]` for in-range bounds (Go slicing expression). -/
def slice {α : Type} (l : List α) (off n : Nat) : List α := (l.drop off).take n

/-- `encoding/binary` big-endian encoding of `n` on `k` bytes: `binary.BigEndian.PutUint64`
for `k = 8`, `PutUint16` for `k = 2` (pkg/index/wildcard/node.go:95-101, position.go:98-99,
pkg/index/wildcard/metadata.go:99-124). Higher bits are dropped, as a Go conversion to the word type does. -/
def toBE : Nat → Nat → Bytes
  | 0, _ => []
  | k+1, n => UInt8.ofNat (n / 256 ^ k % 256) :: toBE k n

/-- `binary.BigEndian.Uint64` and friends (pkg/index/wildcard/node.go:107-113,
position.go:105-106): big-endian decoding of all the given bytes. -/
def ofBE (bs : Bytes) : Nat := bs.foldl (fun acc b => acc * 256 + b.toNat) 0

/-- Go conversion `uint64(x)` of an `int64` (two's complement). -/
def toU64 (i : Int) : Nat := (i % 2^64).toNat

/-- Go conversion `int64(x)` of a `uint64` (two's complement). -/
def toI64 (n : Nat) : Int := if n < 2^63 then (n : Int) else (n : Int) - 2^64

end Rodb
