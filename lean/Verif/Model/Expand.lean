import Verif.Model.Go
/-
  pkg/config/config.go:38 : `os.ExpandEnv` on the text of the configuration file. The functions are those of Go's os/env.go.
-/
namespace Rodb

/-- os/env.go `isShellSpecialVar`, used by pkg/config/config.go:38: `*#$@!?-` and the digits. -/
def isShellSpecial (c : UInt8) : Bool := [42, 35, 36, 64, 33, 63, 45].contains c || (48 ≤ c.toNat && c.toNat ≤ 57)

/-- os/env.go `isAlphaNum`, used by pkg/config/config.go:38: the letters, the digits and `_`. -/
def isAlphaNum (c : UInt8) : Bool :=
  c == 95 || (48 ≤ c.toNat && c.toNat ≤ 57) || (97 ≤ c.toNat && c.toNat ≤ 122) || (65 ≤ c.toNat && c.toNat ≤ 90)

/-- os/env.go `getShellName`, used by pkg/config/config.go:38, the loop that looks for the closing brace: `{` without `}` takes one byte, `{}` takes two. -/
def scanBrace (rest : Bytes) : Bytes × Nat :=
  if 125 ∈ rest then
    let name := rest.takeWhile (fun b => b != 125)
    if name = [] then ([], 2) else (name, name.length + 2)
  else ([], 1)

/-- os/env.go `getShellName`, used by pkg/config/config.go:38: the name after a `$`, and how many bytes it takes. Go never calls it with an empty text. -/
def shellName : Bytes → Bytes × Nat
  | [] => ([], 0)
  | c :: rest =>
    if c = 123 then
      match rest with
      | d :: 125 :: _ => if isShellSpecial d then ([d], 3) else scanBrace rest
      | _ => scanBrace rest
    else if isShellSpecial c then ([c], 1)
    else ((c :: rest).takeWhile isAlphaNum, ((c :: rest).takeWhile isAlphaNum).length)

/-- os/env.go `Expand`, used by pkg/config/config.go:38, the loop: `skip` bytes belong to the name that was just replaced. -/
def expandLoop (env : Bytes → Bytes) : Nat → Bytes → Bytes
  | _, [] => []
  | skip + 1, _ :: rest => expandLoop env skip rest
  | 0, b :: rest =>
    if b = 36 ∧ rest ≠ [] then
      let (name, w) := shellName rest
      (if name = [] ∧ w > 0 then [] else if name = [] then [36] else env name) ++ expandLoop env w rest
    else b :: expandLoop env 0 rest

/-- `os.ExpandEnv`, used by pkg/config/config.go:38; `env` is `os.Getenv`, empty for a variable that is not set. -/
def expandEnv (env : Bytes → Bytes) (text : Bytes) : Bytes := expandLoop env 0 text

end Rodb
