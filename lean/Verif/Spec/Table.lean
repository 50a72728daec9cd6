import Verif.Model.Value
/-
  Specification vocabulary: the data behind an index, and which records match a query.
  `q <:+: v` (List.IsInfix) says that `v` contains `q` as a contiguous substring:
  there are `a` and `b` with `a ++ q ++ b = v`.
-/
namespace Rodb.Spec

/-- A record of the input together with the text of its properties. -/
structure Row where
  record : Rec
  text : String → Bytes

/-- The position of the record. -/
def Row.pos (r : Row) : Int := r.record.position

/-- A 64-bit signed integer. -/
def Int64Range (i : Int) : Prop := -2^63 ≤ i ∧ i < 2^63

/-- The input scans without error as the given rows, whose positions are increasing 64-bit integers and
whose properties `props` are strings; its size and modification time are available. -/
structure TextTable (input : Input) (props : List String) (rows : List Row) : Prop where
  scan : input.scan = .ok (rows.map (fun r => .ok r.record))
  text : ∀ r ∈ rows, ∀ p ∈ props, r.record.get p = .ok (.str (r.text p))
  increasing : (rows.map Row.pos).Pairwise (· < ·)
  range : ∀ r ∈ rows, Int64Range r.pos
  size : ∃ n, input.size = .ok n ∧ Int64Range n
  modTime : ∃ t, input.modTimeNs = .ok t ∧ Int64Range t

/-- The positions of the rows satisfying a condition, in order. -/
def positionsWhere (rows : List Row) (cond : Row → Bool) : List Int := (rows.filter cond).map Row.pos

/-- The row contains, for every (property, text) of the query, the text in that property, both sides
being normalised (lower-cased, or left alone) by `norm`. -/
def containsAll (norm : Bytes → Bytes) (query : List (String × Bytes)) (r : Row) : Bool :=
  query.all (fun pq => decide (norm pq.2 <:+: norm (r.text pq.1)))

/-- The query as the filters of a request. -/
def textFilters (query : List (String × Bytes)) : GoMap Value := query.map (fun pq => (pq.1, .str pq.2))

/-- A failure that is an ordinary error value (not a panic, not an endless loop). -/
def IsError (f : Fail) : Prop := ∃ m, f = .err m

/-- All failures of the input (its size, modification time, scan, records and their properties `props`)
satisfy `E`. -/
structure InputFails (E : Fail → Prop) (input : Input) (props : List String) : Prop where
  size : ∀ e, input.size = .error e → E e
  modTime : ∀ e, input.modTimeNs = .error e → E e
  scan : ∀ e, input.scan = .error e → E e
  next : ∀ rs, input.scan = .ok rs → ∀ e, .error e ∈ rs → E e
  get : ∀ rs, input.scan = .ok rs → ∀ r, .ok r ∈ rs → ∀ p ∈ props, ∀ e, r.get p = .error e → E e

/-- All positions are 64-bit integers. -/
def PositionsFit (input : Input) : Prop := ∀ rs, input.scan = .ok rs → ∀ r, .ok r ∈ rs → Int64Range r.position

end Rodb.Spec
