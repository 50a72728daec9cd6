import Verif.Spec.Running
/-
  Specification vocabulary: requests whose parameters cannot be read.
-/
namespace Rodb.Spec

/-- The function gives a value or an error: it does not panic and ends. -/
def Returned {α : Type} (r : Res α) : Prop := (∃ v, r = .ok v) ∨ ∃ m, r = .error (.err m)

/-- The request asks for a page that makes no sense: the limit is given but is not a positive number, or the offset is given but is not a number from 0 on. -/
def BadPaging (limit offset : String) (params : GoMap Bytes) : Prop :=
  (∃ text, mapGet params limit = some text ∧ ∀ n : Int, 0 < n → ¬ IntegerText text n) ∨
  (∃ text, mapGet params offset = some text ∧ ∀ n : Int, 0 ≤ n → ¬ IntegerText text n)

/-- The parser of one of the parameters does not read its text. -/
def Unreadable (parsers : GoMap (Bytes → Res Value)) (given : List (ParamConfig × Bytes)) : Prop :=
  ∃ e ∈ given, ∃ parse, mapGet parsers e.1.parser = some parse ∧ ∀ v, parse e.2 ≠ .ok v

/-- What the libraries behind the parsers of parameters promise: `strconv.ParseFloat` and the decoders of charsets give a value or an error. -/
structure ParsersReturn (lib : StartLib) : Prop where
  float : ∀ text, Returned (lib.parserLib.parseFloat text)
  charset : ∀ name convert, lib.charset name = .ok convert → ∀ text, Returned (convert text)

/-- The response is an error with this status: the JSON text of an object with only the member `error`. -/
def ErrorResponse (errorText : String → Bytes) (status : Nat) (response : Response) : Prop :=
  response.status = status ∧ mapGet response.headers "Content-Type" = some "application/json; charset=UTF-8" ∧ ∃ message, response.body = errorText message

end Rodb.Spec
