import Verif.Model.Go
/-
  Specification vocabulary: references to environment variables in the text of the configuration file.
-/
namespace Rodb.Spec

/-- A character of the name of a variable: a letter, a digit or `_`. -/
def NameByte (b : UInt8) : Prop := b.toNat = 95 ∨ (48 ≤ b.toNat ∧ b.toNat ≤ 57) ∨ (97 ≤ b.toNat ∧ b.toNat ≤ 122) ∨ (65 ≤ b.toNat ∧ b.toNat ≤ 90)

/-- The usual name of a variable: letters, digits and `_`, not beginning with a digit. -/
def VariableName (name : Bytes) : Prop := (∀ b ∈ name, NameByte b) ∧ ∃ b rest, name = b :: rest ∧ ¬ (48 ≤ b.toNat ∧ b.toNat ≤ 57)

/-- A piece of the text of the configuration file. -/
inductive Piece where
  | plain (text : Bytes)
  | braced (name : Bytes)
  | bare (name : Bytes)

/-- How the pieces are written: `${NAME}`, `$NAME`, or as they are. -/
def written : List Piece → Bytes
  | [] => []
  | .plain text :: rest => text ++ written rest
  | .braced name :: rest => [36, 123] ++ name ++ [125] ++ written rest
  | .bare name :: rest => [36] ++ name ++ written rest

/-- What they stand for: each variable for its value, the rest for itself. -/
def meant (env : Bytes → Bytes) : List Piece → Bytes
  | [] => []
  | .plain text :: rest => text ++ meant env rest
  | .braced name :: rest => env name ++ meant env rest
  | .bare name :: rest => env name ++ meant env rest

/-- Plain text has no `$`, names are those of variables, and what follows a name without braces is not a character of names. -/
def GoodPieces : List Piece → Prop
  | [] => True
  | .plain text :: rest => 36 ∉ text ∧ GoodPieces rest
  | .braced name :: rest => VariableName name ∧ GoodPieces rest
  | .bare name :: rest => VariableName name ∧ (∀ b tail, written rest = b :: tail → ¬ NameByte b) ∧ GoodPieces rest

end Rodb.Spec
