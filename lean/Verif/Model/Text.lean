import Verif.Model.Go
/-
  pkg/util/utils.go and the functions of Go's strings and strconv packages that rodb uses.
-/
namespace Rodb

/-- The bytes of a text given by its characters. -/
def utf8 (text : List Char) : Bytes := text.flatMap String.utf8EncodeChar

/-- `strings.ReplaceAll(s, old, new)` for a non-empty `old`: the leftmost non-overlapping occurrences.
`skip` counts the bytes of an occurrence still to be dropped. -/
def replaceAux (old new : Bytes) : Nat → Bytes → Bytes
  | _, [] => []
  | k+1, _ :: rest => replaceAux old new k rest
  | 0, b :: rest =>
    if old.isPrefixOf (b :: rest) then new ++ replaceAux old new (old.length - 1) rest
    else b :: replaceAux old new 0 rest

/-- `strings.ReplaceAll`. -/
def replaceAll (s old new : Bytes) : Bytes := replaceAux old new 0 s

/-- utils.go:8-14 `RemoveCharacters`. The characters come from the configuration file, which is valid UTF-8. -/
def removeCharacters (value : Bytes) : List Char → Bytes
  | [] => value
  | c :: rest => removeCharacters (replaceAll value (String.utf8EncodeChar c) []) rest

/-- utils.go:16-24 `IsInArray`. -/
def isInArray (value : Bytes) : List Bytes → Bool
  | [] => false
  | e :: rest => if e = value then true else isInArray value rest

/-- `strings.Split(s, sep)` for a non-empty `sep`. `cur` is the current piece in reverse order. -/
def splitAux (sep : Bytes) : Nat → Bytes → Bytes → List Bytes
  | _, cur, [] => [cur.reverse]
  | k+1, cur, _ :: rest => splitAux sep k cur rest
  | 0, cur, b :: rest =>
    if sep.isPrefixOf (b :: rest) then cur.reverse :: splitAux sep (sep.length - 1) [] rest
    else splitAux sep 0 (b :: cur) rest

/-- `strings.Split` for a non-empty separator. -/
def splitBytes (s sep : Bytes) : List Bytes := splitAux sep 0 [] s

/-- An ASCII digit. -/
def isDigit (b : UInt8) : Bool := 48 ≤ b.toNat && b.toNat ≤ 57

/-- The number written by a digit sequence. -/
def digitsValue (ds : Bytes) : Nat := ds.foldl (fun n d => n * 10 + (d.toNat - 48)) 0

/-- `strconv.Atoi` on a 64-bit platform; `none` is an error (syntax or range). -/
def atoi (s : Bytes) : Option Int :=
  let neg := s.head? == some 45
  let digits := if s.head? == some 45 || s.head? == some 43 then s.tail else s
  if digits = [] then none
  else if !digits.all isDigit then none
  else if neg then (if digitsValue digits ≤ 2^63 then some (-(digitsValue digits : Int)) else none)
  else (if digitsValue digits < 2^63 then some (digitsValue digits : Int) else none)

/-- `strings.Split(path, ".")` on characters. -/
def splitDots : List Char → List (List Char)
  | [] => [[]]
  | c :: rest =>
    match splitDots rest with
    | [] => [[c]]
    | piece :: pieces => if c = '.' then [] :: piece :: pieces else (c :: piece) :: pieces

end Rodb
