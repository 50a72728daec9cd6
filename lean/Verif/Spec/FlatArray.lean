import Verif.Model.Go
/-
  Specification vocabulary for the index stream: a flat growable byte array.
-/
namespace Rodb.Spec

/-- The operations a client can perform on the index file. -/
inductive ArrayOp where
  | add (bs : Bytes)
  | replace (offset : Nat) (bs : Bytes)
  | flush
  | get (offset len : Nat)
  deriving DecidableEq, Repr

/-- What a client can observe of one operation. -/
inductive Obs where
  | done
  | offset (o : Nat)
  | bytes (bs : Bytes)
  | error
  | panic
  deriving DecidableEq, Repr

/-- Overwrite the bytes from `offset` on, growing the array if needed. -/
def overwrite (a : Bytes) (offset : Nat) (bs : Bytes) : Bytes :=
  a.take offset ++ bs ++ a.drop (offset + bs.length)

/-- One operation on the flat array. Flushing is not observable. Replacing beyond the end (which
would leave a hole) is a programming error. -/
def arrayStep (a : Bytes) : ArrayOp → Obs × Bytes
  | .add bs => (.offset a.length, a ++ bs)
  | .replace o bs => if o ≤ a.length then (.done, overwrite a o bs) else (.panic, a)
  | .flush => (.done, a)
  | .get o n => (if o + n ≤ a.length then .bytes ((a.drop o).take n) else .error, a)

/-- The observations of a whole history; it stops at a panic. -/
def arrayRun (a : Bytes) : List ArrayOp → List Obs × Bytes
  | [] => ([], a)
  | op :: ops =>
    match arrayStep a op with
    | (.panic, a') => ([.panic], a')
    | (o, a') => let (os, a'') := arrayRun a' ops; (o :: os, a'')

end Rodb.Spec
