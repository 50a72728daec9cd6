import Verif.Model.Value
/-
  pkg/input/record/record.go and join.go : position iterators and their join.
-/
namespace Rodb

/-- pkg/input/record/record.go:11-15 `PositionIterator`: a closure that hands out positions. It is
represented by the outcomes of its future calls; once they are used up every call answers `(nil, nil)`,
as the interface requires. (Every iterator of the code base ranges over finite data. An iterator that
failed is never called again by the code, so what it would answer after an error does not matter.) -/
abbrev PIter := List (Res Int)

/-- One call of an iterator: its result and the iterator's new state. -/
def PIter.call : PIter → Res (Option Int) × PIter
  | [] => (.ok none, [])
  | .ok p :: r => (.ok (some p), r)
  | .error e :: r => (.error e, r)

/-- record.go:17-19 `EmptyIterator`. -/
def emptyIter : PIter := []

/-- record.go:44-55 `PositionList.Iterate`. -/
def iterateList (l : List Int) : PIter := l.map .ok

/-- join.go:16-26: fetch one value from each of the iterators 1.. ; stops at the first error or end.
Returns the values, and the iterators with their new states. -/
def joinPrime : List PIter → Res (Option (List Int)) × List PIter
  | [] => (.ok (some []), [])
  | it :: rest =>
    match it.call with
    | (.error e, it') => (.error e, it' :: rest)
    | (.ok none, it') => (.ok none, it' :: rest)
    | (.ok (some p), it') =>
      match joinPrime rest with
      | (.ok (some ps), rest') => (.ok (some (p :: ps)), it' :: rest')
      | (.ok none, rest') => (.ok none, it' :: rest')
      | (.error e, rest') => (.error e, it' :: rest')

/-- join.go:40-49: advance one list up to `target`; `cur` is its current value. -/
def joinAdvance (target : Int) (cur : Int) : PIter → Res (Option Int) × PIter
  | [] => if cur < target then (.ok none, []) else (.ok (some cur), [])
  | o :: r =>
    if cur < target then
      match o with
      | .ok p => joinAdvance target p r
      | .error e => (.error e, r)
    else (.ok (some cur), o :: r)

/-- Result of comparing one candidate with the other lists. -/
inductive JoinCheck where
  | found
  | notFound
  | ended
  | failed (e : Fail)
  deriving DecidableEq, Repr

/-- join.go:38-55: look for the candidate `target` in the other lists, in order; stops at the first
list that does not have it. Lists after that one are left as they are. -/
def joinCheck (target : Int) : List (Int × PIter) → JoinCheck × List (Int × PIter)
  | [] => (.found, [])
  | (cur, it) :: rest =>
    match joinAdvance target cur it with
    | (.error e, it') => (.failed e, (cur, it') :: rest)
    | (.ok none, it') => (.ended, (cur, it') :: rest)
    | (.ok (some cur'), it') =>
      if cur' ≠ target then (.notFound, (cur', it') :: rest)
      else
        match joinCheck target rest with
        | (r, rest') => (r, (cur', it') :: rest')

/-- join.go:28-60, the main loop over the first list. -/
def joinMain : PIter → List (Int × PIter) → Res (Option Int) × List PIter
  | [], others => (.ok none, [] :: others.map (·.2))
  | .error e :: r, others => (.error e, r :: others.map (·.2))
  | .ok p :: r, others =>
    match joinCheck p others with
    | (.found, others') => (.ok (some p), r :: others'.map (·.2))
    | (.ended, others') => (.ok none, r :: others'.map (·.2))
    | (.failed e, others') => (.error e, r :: others'.map (·.2))
    | (.notFound, others') => joinMain r others'

/-- join.go:5-62: one call of the iterator built by `JoinPositionIterators`; the state is the list of
the joined iterators. -/
def joinCall : List PIter → Res (Option Int) × List PIter
  | [] => (.ok none, [])
  | [it] => match it.call with
    | (r, it') => (r, [it'])
  | it :: rest =>
    match joinPrime rest with
    | (.error e, rest') => (.error e, it :: rest')
    | (.ok none, rest') => (.ok none, it :: rest')
    | (.ok (some ps), rest') => joinMain it (ps.zip rest')

/-- The outcomes of the successive calls of an iterator given by a state and a call function, up to
the first end or error (`fuel` bounds the number of calls). -/
def outcomes {σ : Type} (call : σ → Res (Option Int) × σ) : Nat → σ → PIter
  | 0, _ => [.error .diverge]
  | fuel+1, s =>
    match call s with
    | (.ok none, _) => []
    | (.ok (some p), s') => .ok p :: outcomes call fuel s'
    | (.error e, _) => [.error e]

/-- join.go:5-62 `JoinPositionIterators`, as the outcomes of the joined iterator. Each successful call
uses up a position of the first iterator, so the length of the first iterator bounds the number of
calls (see `joinIters_complete`). -/
def joinIters (its : List PIter) : PIter := outcomes joinCall ((its.headD []).length + 1) its

end Rodb
