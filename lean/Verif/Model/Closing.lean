import Verif.Model.Config
/-
  cmd/main.go:54-94 and the functions `Close` of the components: what the program has opened, and what it closes when it ends after a signal.
-/
namespace Rodb

/-- What a component opens and has to close: the watcher of an input, the file that it keeps open, the watch on the path of that file; the database or the file of an index.
The names are the keys of the maps of components. -/
inductive Handle where
  | watcher (input : String)
  | file (input : String)
  | watch (input : String)
  | database (index : String)
  | indexFile (index : String)
  deriving DecidableEq

/-- `NewCsv` (csv.go:33-61), `NewJson` (pkg/input/json.go:24-56), `NewXml` (xml.go:45-83): the watcher, the file, then the watch. -/
def InputDecl.opens (name : String) : InputDecl → List Handle
  | .csv _ => [.watcher name, .file name, .watch name]
  | .json _ => [.watcher name, .file name, .watch name]
  | .xml _ => [.watcher name, .file name, .watch name]

/-- `Open` in sqlite.go:32-35 and fts5.go:34-37; `Create` or `Open` in wildcard.go:55-58 and 149-152, for the stream that the searches use; the other indexes keep nothing open. -/
def IndexDecl.opens (name : String) : IndexDecl → List Handle
  | .sqlite _ => [.database name]
  | .fts5 _ => [.database name]
  | .wildcard _ => [.indexFile name]
  | .map _ => []
  | .noop _ => []

/-- What is open when the services run (cmd/main.go:60-94). Simplification: without the files and rows of searches that were not read to their end (C18). -/
def Config.opens (c : Config) : List Handle :=
  c.inputs.flatMap (fun e => e.2.opens e.1) ++ c.indexes.flatMap (fun e => e.2.opens e.1)

/-- What is open, the calls that closed something, in order, and how many errors were logged. -/
structure Shutting where
  opened : List Handle
  closed : List Handle := []
  errors : Nat := 0

/-- One call that closes something; it may fail. Simplification: a call that fails closes nothing. -/
def Shutting.call (fails : Handle → Bool) (s : Shutting) (h : Handle) : Shutting × Bool :=
  if fails h then (s, false) else ({ s with opened := s.opened.erase h, closed := s.closed ++ [h] }, true)

/-- csv.go:223-237, pkg/input/json.go:159-173, xml.go:179-193 : `Remove` and `Close` of the watcher, then `Close` of the file; the first error is returned. -/
def InputDecl.close (fails : Handle → Bool) (name : String) (s : Shutting) : InputDecl → Shutting × Bool
  | _ =>
    match s.call fails (.watch name) with
    | (s, false) => (s, false)
    | (s, true) =>
      match s.call fails (.watcher name) with
      | (s, false) => (s, false)
      | (s, true) => s.call fails (.file name)

/-- sqlite.go:273-275, fts5.go:263-265 : the database is closed; map.go:160-162, wildcard.go:268-270, noop.go:94-96 : nothing to do. -/
def IndexDecl.close (fails : Handle → Bool) (name : String) (s : Shutting) : IndexDecl → Shutting × Bool
  | .sqlite _ => s.call fails (.database name)
  | .fts5 _ => s.call fails (.database name)
  | .map _ => (s, true)
  | .wildcard _ => (s, true)
  | .noop _ => (s, true)

/-- json_array.go:222-224, json_object.go:154-156 : nothing to do. -/
def OutputDecl.close (s : Shutting) : OutputDecl → Shutting × Bool
  | _ => (s, true)

/-- pkg/input/input.go:66-74, pkg/index/index.go:66-74, pkg/output/output.go:78-86 : one component after the other, in the order of `range`, until one returns an error. -/
def closeList {α : Type} (close : Shutting → String × α → Shutting × Bool) : Shutting → GoMap α → Shutting × Bool
  | s, [] => (s, true)
  | s, e :: rest =>
    match close s e with
    | (s, true) => closeList close s rest
    | (s, false) => (s, false)

/-- cmd/main.go:54-58, 66-70, 78-82, 90-94 : a deferred function logs the error and returns. -/
def Shutting.logged : Shutting × Bool → Shutting
  | (s, true) => s
  | (s, false) => { s with errors := s.errors + 1 }

/-- The end of `main` (cmd/main.go:118): the deferred functions run in the reverse order: outputs (90-94), indexes (78-82), inputs (66-70), parsers (54-58, which does nothing: pkg/parser/parser.go:60-62). The maps are
given in the orders in which `range` visits them now. -/
def Config.closeAll (fails : Handle → Bool) (c : Config) (s : Shutting) : Shutting :=
  let s := Shutting.logged (closeList (fun s e => e.2.close s) s c.outputs)
  let s := Shutting.logged (closeList (fun s e => e.2.close fails e.1 s) s c.indexes)
  let s := Shutting.logged (closeList (fun s e => e.2.close fails e.1 s) s c.inputs)
  Shutting.logged (s, true)

end Rodb
