import Verif.Model.ConfigFile
import Verif.Model.Main
import Verif.Model.Startup
/-
  cmd/main.go up to the moment when all the services are up: the command line, the log level, the configuration file, the components and the listeners.
-/
namespace Rodb

/-! ### The command line -/

/-- cmd/main.go:18-24 : the two flags. -/
inductive Flag where
  | loglevel
  | config
  deriving DecidableEq

/-- cmd/main.go:18-24 : the values of the flags, with their defaults (`logrus.InfoLevel.String()` is "info"). -/
structure Flags where
  loglevel : List Char := "info".toList
  config : List Char := "rodb.yaml".toList

/-- Setting a flag: the last value counts (pflag's `stringValue.Set`, for cmd/main.go:25 `flag.Parse()`). -/
def Flags.set (f : Flags) : Flag → List Char → Flags
  | .loglevel, v => { f with loglevel := v }
  | .config, v => { f with config := v }

/-- The flag with a long name (cmd/main.go:19, 24). -/
def flagNamed (name : List Char) : Option Flag :=
  if name = "loglevel".toList then some .loglevel
  else if name = "config".toList then some .config
  else none

/-- The flag with a one-letter name (cmd/main.go:20, 24). -/
def flagLetter (c : Char) : Option Flag :=
  if c = 'l' then some .loglevel
  else if c = 'c' then some .config
  else none

/-- What one argument is: not a flag; the end of the flags; a flag with its value; a flag whose value is the next argument; or nothing that can be read. -/
inductive Argument where
  | skip
  | stop
  | value (flag : Flag) (v : List Char)
  | next (flag : Flag)
  | wrong

/-- `strings.SplitN(name, "=", 2)` of pflag's `parseLongArg`: the name, and what is behind the first `=`, if there is one. -/
def splitEquals : List Char → List Char × Option (List Char)
  | [] => ([], none)
  | c :: rest =>
    if c = '=' then ([], some rest)
    else let (name, value) := splitEquals rest; (c :: name, value)

/-- pflag 1.0.5, the body of the loop of `parseArgs` with `parseLongArg` and `parseSingleShortArg` (for cmd/main.go:25). Neither flag can be given without a value, so the rest of a
group of letters is always the value of its first letter. `help` and `h` are not defined, and end the program in the same way as other unknown flags. Simplification: arguments are
valid UTF-8. -/
def readArgument : List Char → Argument
  | '-' :: '-' :: [] => .stop
  | '-' :: '-' :: '-' :: _ => .wrong
  | '-' :: '-' :: '=' :: _ => .wrong
  | '-' :: '-' :: rest =>
    match splitEquals rest with
    | (name, value) =>
      match flagNamed name, value with
      | none, _ => .wrong
      | some flag, some v => .value flag v
      | some flag, none => .next flag
  | '-' :: 't' :: 'e' :: 's' :: 't' :: '.' :: _ => .skip
  | '-' :: c :: rest =>
    match flagLetter c, rest with
    | none, _ => .wrong
    | some flag, [] => .next flag
    | some flag, '=' :: c :: v => .value flag (c :: v)
    | some flag, v => .value flag v
  | _ => .skip

/-- cmd/main.go:25 `flag.Parse()`: pflag 1.0.5 `parseArgs`. `none`: the program prints the usage and exits with status 2. -/
def parseArguments : List (List Char) → Flags → Option Flags
  | [], f => some f
  | s :: args, f =>
    match readArgument s with
    | .skip => parseArguments args f
    | .stop => some f
    | .value flag v => parseArguments args (f.set flag v)
    | .next flag =>
      match args with
      | [] => none
      | v :: args => parseArguments args (f.set flag v)
    | .wrong => none

/-- cmd/main.go:27 `logrus.ParseLevel`, on the text in lower case. -/
def isLevel (text : List Char) : Bool :=
  ["panic".toList, "fatal".toList, "error".toList, "warn".toList, "warning".toList, "info".toList, "debug".toList, "trace".toList].contains text

/-! ### The listeners -/

/-- An `http.Server` that has begun to serve (pkg/service/http.go:79-106): the service and the protocol, the configured address, the type of the errors and the routes. -/
structure Server where
  service : String
  protocol : Protocol
  asked : String
  errorsType : String
  routes : List Route

/-- pkg/service/http.go:79-106 : the servers that a service asks for, in the order in which they are started. -/
def ServiceDecl.servers (name : String) (c : ServiceDecl) (routes : List Route) : List Server :=
  (match c.http with
   | none => []
   | some listen => [{ service := name, protocol := .http, asked := listen, errorsType := c.errorsType, routes := routes }]) ++
  (match c.https with
   | none => []
   | some https => [{ service := name, protocol := .https, asked := https.listen, errorsType := c.errorsType, routes := routes }])

/-- pkg/service/http.go:79-106, with 111-123 `createServer`: a server that cannot listen ends `NewHttp` with an error; the servers before it have begun to serve (85-89, 97-105). `listen`
tells whether the address can be bound when these others are. -/
def startServers (listen : List String → String → Bool) : List Server → List Server → List Server × Res Unit
  | up, [] => (up, .ok ())
  | up, s :: rest =>
    if listen (up.map Server.asked) s.asked then startServers listen (up ++ [s]) rest
    else (up, .error (.err "listen tcp"))

/-- pkg/service/service.go:35-52 `NewFromConfigs`, with 23-33 `NewFromConfig` and http.go:41-109 `NewHttp`: the servers that are up, and the services or an error. -/
def startServices (listen : List String → String → Bool) (outputs : GoMap OutputApi) : List Server → GoMap ServiceDecl → List Server × Res (GoMap (String × List Route))
  | up, [] => (up, .ok [])
  | up, (name, c) :: rest =>
    match createRoutes outputs (c.routes.map (fun r => (r.output, r.path.toList))) with
    | .error e => (up, .error e)
    | .ok routes =>
      match startServers listen up (c.servers name routes) with
      | (up, .error e) => (up, .error e)
      | (up, .ok ()) =>
        match startServices listen outputs up rest with
        | (up, .error e) => (up, .error e)
        | (up, .ok services) => (up, .ok ((name, (c.errorsType, routes)) :: services))

/-! ### The program -/

/-- What the program uses outside of the model until it is up: `strings.ToLower`; the configuration file and what its validation and the components use; the order of `range` in
the maps of the configuration; and whether an address can be bound. -/
structure MainLib where
  lower : List Char → List Char
  file : ConfigFileLib
  config : ConfigLib
  start : StartLib
  order : Config → Config
  listen : List String → String → Bool

/-- How the start ends. -/
inductive StartEnding where
  | exited (status : Nat)
  | hangs
  | up (services : GoMap (String × List Route))

/-- The exit status for a failure: cmd/main.go:41-45, 48-53, 60-65, 72-77, 84-89, 96-101 for errors, and 2 for a panic. -/
def Fail.ending : Fail → StartEnding
  | .err _ => .exited 1
  | .panic _ => .exited 2
  | .diverge => .hangs

/-- cmd/main.go:48-89 : the parsers, inputs, indexes and outputs. -/
def startOutputs (lib : StartLib) (c : Config) : Res (GoMap OutputApi) := do
  let parsers ← instantiateMap (ParserDecl.instantiate lib) c.parsers
  let inputs ← instantiateMap (InputDecl.instantiate lib parsers) c.inputs
  let indexes ← instantiateMap (IndexDecl.instantiate lib inputs) c.indexes
  instantiateMap (OutputDecl.instantiate lib inputs indexes parsers) c.outputs

/-- cmd/main.go:17-101 : the program up to `service.Wait`: the servers that have begun to serve, and how it ends. -/
def runMain (lib : MainLib) (args : List (List Char)) : List Server × StartEnding :=
  match parseArguments args {} with
  | none => ([], .exited 2)
  | some flags =>
    if isLevel (lib.lower flags.loglevel) then
      match loadConfigFile lib.file lib.config (String.ofList flags.config) with
      | .error e => ([], e.ending)
      | .ok c =>
        match startOutputs lib.start (lib.order c) with
        | .error e => ([], e.ending)
        | .ok outputs =>
          match startServices lib.listen outputs [] (lib.order c).services with
          | (up, .error e) => (up, e.ending)
          | (up, .ok services) => (up, .up services)
    else ([], .exited 1)

end Rodb
