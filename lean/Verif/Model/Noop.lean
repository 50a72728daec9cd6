import Verif.Model.Join
/-
  pkg/index/noop.go : the index that scans the input.
-/
namespace Rodb

/-- noop.go:56-77, the loop over the filters for one record, in the order `range` visits them: whether
the record matches. A nil value is only compared with a nil filter. -/
def noopMatches (r : Rec) : GoMap Value → Res Bool
  | [] => .ok true
  | (property, filter) :: rest =>
    match r.get property with
    | .error e => .error e
    | .ok .null =>
      match filter with
      | .null => noopMatches r rest
      | _ => .ok false
    | .ok value =>
      match goEq value filter with
      | .error e => .error e
      | .ok true => noopMatches r rest
      | .ok false => .ok false

/-- The variables captured by the iterator of noop.go:31-92: what the input iterator has still to give, and
`closed`. The file behind the input iterator is open exactly as long as `closed` is false. -/
structure NoopState where
  records : List (Res Rec)
  closed : Bool

/-- noop.go:43-83, the inner loop: search the next matching record. -/
def noopSearch (filters : GoMap Value) : List (Res Rec) → Res (Option Int) × List (Res Rec)
  | [] => (.ok none, [])
  | .error e :: rest => (.error e, rest)
  | .ok r :: rest =>
    match noopMatches r filters with
    | .error e => (.error e, rest)
    | .ok true => (.ok (some r.position), rest)
    | .ok false => noopSearch filters rest

/-- noop.go:42-91, one call of the iterator. `closing` is the result of `end()`. -/
def noopCall (closing : Res Unit) (filters : GoMap Value) (s : NoopState) : Res (Option Int) × NoopState :=
  if s.closed then (.ok none, s)
  else
    match noopSearch filters s.records with
    | (.error e, rest) => (.error e, { s with records := rest })
    | (.ok (some p), rest) => (.ok (some p), { s with records := rest })
    | (.ok none, rest) =>
      match closing with
      | .error e => (.error e, { records := rest, closed := true })
      | .ok () => (.ok none, { records := rest, closed := true })

/-- noop.go:31-41 `GetRecordPositions`: opens the input and returns the state of the iterator. -/
def noopStart (input : Input) : Res NoopState := do
  let records ← input.scan
  .ok { records := records, closed := false }

/-- noop.go:31-92 `GetRecordPositions`, as the outcomes of the returned iterator (see `outcomes`); each call
uses up at least one record, so their number bounds the number of calls. `end()` is taken to succeed. -/
def noopGetRecordPositions (input : Input) (filters : GoMap Value) : Res PIter := do
  let s ← noopStart input
  .ok (outcomes (noopCall (.ok ()) filters) (s.records.length + 1) s)

/-- The results of the first `n` calls of an iterator. -/
def callsOf {σ : Type} (call : σ → Res (Option Int) × σ) : Nat → σ → List (Res (Option Int))
  | 0, _ => []
  | n+1, s => (call s).1 :: callsOf call n (call s).2

/-- The state after `n` calls. -/
def stateAfter {σ : Type} (call : σ → Res (Option Int) × σ) : Nat → σ → σ
  | 0, s => s
  | n+1, s => stateAfter call n (call s).2

end Rodb
