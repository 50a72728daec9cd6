import Verif.Model.CommandLine
import Verif.Spec.ConfigFile
import Verif.Spec.Running
/-
  Specification vocabulary: command lines, and the servers that a configuration asks for.
-/
namespace Rodb.Spec

/-- What a command line can say: a log level, or the path of the configuration file. -/
inductive Said where
  | level (text : List Char)
  | path (text : List Char)

def Said.text : Said → List Char
  | .level t => t
  | .path t => t

def Said.longName : Said → List Char
  | .level _ => "loglevel".toList
  | .path _ => "config".toList

def Said.letter : Said → Char
  | .level _ => 'l'
  | .path _ => 'c'

/-- The arguments of a command line that can be read, and what they say, in order. Each thing can be said in five ways: `--config v`, `--config=v`, `-c v`, `-c=v` (unless v is empty) and `-cv`
(unless v is empty, or an `=` with something behind it). Arguments that do not begin with a hyphen, a single hyphen, those that begin with `-test.` and all those behind `--` say nothing. -/
inductive CommandLine : List (List Char) → List Said → Prop where
  | done : CommandLine [] []
  | long {s : Said} {args : List (List Char)} {said : List Said} : CommandLine args said → CommandLine (('-' :: '-' :: s.longName) :: s.text :: args) (s :: said)
  | longEquals {s : Said} {args : List (List Char)} {said : List Said} : CommandLine args said → CommandLine (('-' :: '-' :: s.longName ++ '=' :: s.text) :: args) (s :: said)
  | letter {s : Said} {args : List (List Char)} {said : List Said} : CommandLine args said → CommandLine (['-', s.letter] :: s.text :: args) (s :: said)
  | letterEquals {s : Said} {args : List (List Char)} {said : List Said} : s.text ≠ [] → CommandLine args said → CommandLine (('-' :: s.letter :: '=' :: s.text) :: args) (s :: said)
  | letterJoined {s : Said} {args : List (List Char)} {said : List Said} : s.text ≠ [] → (∀ c v, s.text ≠ '=' :: c :: v) → CommandLine args said →
      CommandLine (('-' :: s.letter :: s.text) :: args) (s :: said)
  | other {a : List Char} {args : List (List Char)} {said : List Said} : (∀ v, a ≠ '-' :: v) ∨ a = ['-'] → CommandLine args said → CommandLine (a :: args) said
  | test {v : List Char} {args : List (List Char)} {said : List Said} : CommandLine args said → CommandLine (("-test.".toList ++ v) :: args) said
  | stop {args : List (List Char)} : CommandLine (['-', '-'] :: args) []

/-- The log level that counts: the last one, or "info". -/
def levelSaid (said : List Said) : List Char := said.foldl (fun v s => match s with | .level t => t | .path _ => v) "info".toList

/-- The path that counts: the last one, or "rodb.yaml". -/
def pathSaid (said : List Said) : List Char := said.foldl (fun v s => match s with | .level _ => v | .path t => t) "rodb.yaml".toList

/-- The names of the log levels. -/
def levelNames : List String := ["panic", "fatal", "error", "warn", "warning", "info", "debug", "trace"]

/-- A server that the service `s` of a configuration file asks for, with these routes: on its http address or on its https address, by default any free port of the machine itself. -/
def AskedServer (s : ServiceDecl) (routes : List Route) (server : Server) : Prop :=
  server.service = s.name ∧ server.errorsType = "application/json" ∧ server.routes = routes ∧
    ((server.protocol = .http ∧ ∃ listen, s.http = some listen ∧ server.asked = orText listen "127.0.0.1:0") ∨
      (server.protocol = .https ∧ ∃ https, s.https = some https ∧ server.asked = orText https.listen "127.0.0.1:0"))

end Rodb.Spec
