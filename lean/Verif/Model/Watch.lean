import Verif.Model.Inputs
/-
  pkg/util/fsnotify.go and the opening of the inputs: one input file, the process that watches it, and what other processes do to the file meanwhile.
-/
namespace Rodb

/-- The operations of an event of fsnotify, which are bits (`fsnotify.Create`, `Write`, `Remove`, `Rename`, `Chmod`). -/
structure FileOps where
  create : Bool := false
  write : Bool := false
  remove : Bool := false
  rename : Bool := false
  chmod : Bool := false
  deriving DecidableEq

/-- One input file of the machine and the program that uses it. Files are numbered; `atPath` is the file that the path of the input leads to.
`opened` is the file behind the reader of `Get` (csv.go:54-57, pkg/input/json.go:45-46, xml.go:68-70), `watched` the file that the watcher watches, `events` and `errors` what is in its
channels, and `warnings` counts the messages that the file was modified. -/
structure WatchState where
  atPath : Option Nat
  content : Nat → Bytes
  opened : Option Nat
  watched : Option Nat
  events : List FileOps
  errors : Nat
  warnings : Nat
  alive : Bool

/-- What a fetch reads: `Get` uses the file that was opened at the start (csv.go:85-93, pkg/input/json.go:65-79, xml.go:92-100). -/
def WatchState.fetchReads (s : WatchState) : Option Bytes := s.opened.map s.content

/-- What a scan reads: `IterateAll` opens the path again (csv.go:178-182, pkg/input/json.go:119-123, xml.go:128-132). Simplification: the scan reads the file at one moment. -/
def WatchState.scanReads (s : WatchState) : Option Bytes := s.atPath.map s.content

/-- fsnotify.go:17-28, one event; `die` is `dieOnChange`. `logger.Fatalln` ends the process. -/
def WatchState.handle (die : Bool) (s : WatchState) (op : FileOps) : WatchState :=
  if op.write then
    if die then { s with alive := false } else { s with warnings := s.warnings + 1 }
  else s

/-- fsnotify.go:14-36, one turn of the loop if an event is in the channel. -/
def WatchState.takeEvent (die : Bool) (s : WatchState) : WatchState :=
  match s.events with
  | [] => s
  | op :: rest => { s with events := rest }.handle die op

/-- What happens: the program opens the file, adds it to the watcher, takes an event or an error from the channels of the watcher; or another process writes to a file, makes the path lead to
another file (or to none), does something else, or the operating system drops events of which there are too many. -/
inductive WatchAction where
  | openFile
  | addWatch
  | takeEvent
  | takeError
  | write (file : Nat) (content : Bytes)
  | replace (file : Option Nat)
  | other
  | overflow
  deriving DecidableEq

/-- What may happen next. The operating system promises that a write to the watched file, while it is at its path, is notified by an event with the operation `Write` (it may merge it with
the same event before it), and that no other change is. -/
inductive WatchState.Step (die : Bool) : WatchState → WatchAction → WatchState → Prop where
  /-- csv.go:50-57, pkg/input/json.go:41-46, xml.go:63-70 : opening the file, which has to exist. -/
  | openFile {s : WatchState} {file : Nat} : s.alive = true → s.opened = none → s.atPath = some file → Step die s .openFile { s with opened := some file }
  /-- csv.go:59-61, pkg/input/json.go:54-56, xml.go:81-83 : `watcher.Add` watches the file that is at the path now. -/
  | addWatch {s : WatchState} {file : Nat} : s.alive = true → s.opened ≠ none → s.watched = none → s.atPath = some file →
      Step die s .addWatch { s with watched := some file }
  /-- fsnotify.go:14-28. -/
  | takeEvent {s : WatchState} : s.alive = true → s.events ≠ [] → Step die s .takeEvent (s.takeEvent die)
  /-- fsnotify.go:29-34 : errors are only logged. -/
  | takeError {s : WatchState} : s.alive = true → s.errors ≠ 0 → Step die s .takeError { s with errors := s.errors - 1 }
  /-- Another process writes to the watched file: a new event. -/
  | write {s : WatchState} {file : Nat} {content : Bytes} {op : FileOps} : s.watched = some file → op.write = true →
      Step die s (.write file content) { s with content := fun f => if f = file then content else s.content f, events := s.events ++ [op] }
  /-- The same, merged with the last event. -/
  | writeMerged {s : WatchState} {file : Nat} {content : Bytes} {earlier : List FileOps} {op : FileOps} : s.watched = some file → s.events = earlier ++ [op] → op.write = true →
      Step die s (.write file content) { s with content := fun f => if f = file then content else s.content f }
  /-- A write to the watched file that is not at the path any more: it may not be notified. -/
  | writeAway {s : WatchState} {file : Nat} {content : Bytes} : s.watched = some file → s.atPath ≠ some file →
      Step die s (.write file content) { s with content := fun f => if f = file then content else s.content f }
  /-- A write to a file that is not watched. -/
  | writeUnwatched {s : WatchState} {file : Nat} {content : Bytes} : s.watched ≠ some file →
      Step die s (.write file content) { s with content := fun f => if f = file then content else s.content f }
  /-- The path leads to another file, by renaming that file, or to none: events, but not of the operation `Write`. -/
  | replace {s : WatchState} {file : Option Nat} {events : List FileOps} : (∀ op ∈ events, op.write = false) → (s.watched = none → events = []) →
      Step die s (.replace file) { s with atPath := file, events := s.events ++ events }
  /-- Anything else, such as a change of permissions. -/
  | other {s : WatchState} {events : List FileOps} {errors : Nat} : (∀ op ∈ events, op.write = false) → (s.watched = none → events = []) →
      Step die s .other { s with events := s.events ++ events, errors := s.errors + errors }
  /-- inotify drops events if there are too many; fsnotify reports it as an error. -/
  | overflow {s : WatchState} {kept : List FileOps} : kept.Sublist s.events → Step die s .overflow { s with events := kept, errors := s.errors + 1 }

/-- A sequence of actions. -/
inductive WatchState.Run (die : Bool) : WatchState → List WatchAction → WatchState → Prop where
  | nil {s : WatchState} : Run die s [] s
  | cons {s t u : WatchState} {a : WatchAction} {rest : List WatchAction} : Step die s a t → Run die t rest u → Run die s (a :: rest) u

/-- Before the input is opened: csv.go:33-47, pkg/input/json.go:24-39, xml.go:45-61 (a watcher without files). -/
def WatchState.fresh (atPath : Option Nat) (content : Nat → Bytes) : WatchState :=
  { atPath := atPath, content := content, opened := none, watched := none, events := [], errors := 0, warnings := 0, alive := true }

end Rodb
