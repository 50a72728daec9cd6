import Verif.Model.Indexes
import Verif.Model.Inputs
import Verif.Spec.Crash
/-
  Starts of the program one after the other on the same machine: what a start changes on disk, and indexes that share databases.
-/
namespace Rodb

/-- The files after `path` was written. -/
def Storage.writeFile (st : Storage) (path : String) (content : Bytes) : Storage :=
  { st with file := fun p => if p = path then some content else st.file p }

/-- The databases after a change of the one at `dsn`. -/
def Storage.writeDb (st : Storage) (dsn : String) (db : SqlDb) : Storage :=
  { st with db := fun d => if d = dsn then db else st.db d }

/-- An open index: how it answers depends on what is on the machine when it is asked. -/
abbrev OpenIndex := Storage → IndexFn

/-- pkg/index/index.go:30-48 `NewFromConfig` with what it changes on the machine. The SQLite and FTS5 indexes read the database of their DSN at every search (sqlite.go:215-271,
fts5.go:215-261); a wildcard index reads its own file. Simplifications: a DSN is the name of a database that all the connections share (not `:memory:`), the process does not die, and
nobody else changes the files and databases. -/
def IndexDecl.openOn (lib : StartLib) (inputs : GoMap Input) (st : Storage) : IndexDecl → Res OpenIndex × Storage
  | .wildcard c =>
    match findInput inputs c.input with
    | .error e => (.error e, st)
    | .ok input =>
      match newWildcard st.lower c.settings input (st.file c.path) with
      | (.error e, file) => (.error e, st.writeFile c.path file)
      | (.ok w, file) => (.ok (fun _ input filters => w.getRecordPositions st.lower input.name filters), st.writeFile c.path file)
  | .sqlite c =>
    match findInput inputs c.input with
    | .error e => (.error e, st)
    | .ok input =>
      match newSqlite st.sql c input ⟨st.db c.dsn, none⟩ with
      | (.error e, s) => (.error e, st.writeDb c.dsn s.db)
      | (.ok _, s) => (.ok (fun st input filters => sqliteGetRecordPositions st.sql c (st.db c.dsn) input.name filters), st.writeDb c.dsn s.db)
  | .fts5 c =>
    match findInput inputs c.input with
    | .error e => (.error e, st)
    | .ok input =>
      match newFts5 st.sql c input ⟨st.db c.dsn, none⟩ with
      | (.error e, s) => (.error e, st.writeDb c.dsn s.db)
      | (.ok _, s) => (.ok (fun st input filters => fts5GetRecordPositions st.sql c (st.db c.dsn) input.name filters), st.writeDb c.dsn s.db)
  | .map c =>
    match (IndexDecl.map c).instantiate lib inputs with
    | .error e => (.error e, st)
    | .ok index => (.ok (fun _ => index), st)
  | .noop c =>
    match (IndexDecl.noop c).instantiate lib inputs with
    | .error e => (.error e, st)
    | .ok index => (.ok (fun _ => index), st)

/-- pkg/index/index.go:54-63, the loop of `NewFromConfigs`, in the order in which `range` visits the indexes. -/
def openIndexes (lib : StartLib) (inputs : GoMap Input) : Storage → GoMap IndexDecl → Res (GoMap OpenIndex) × Storage
  | st, [] => (.ok [], st)
  | st, (k, x) :: rest =>
    match x.openOn lib inputs st with
    | (.error e, st) => (.error e, st)
    | (.ok index, st) =>
      match openIndexes lib inputs st rest with
      | (.error e, st) => (.error e, st)
      | (.ok indexes, st) => (.ok ((k, index) :: indexes), st)

/-- cmd/main.go:48-101, the construction of everything, with what it changes on the machine. The services answer with the files and databases as they are then. -/
def startOn (lib : StartLib) (st : Storage) (c : Config) : Res (GoMap (String × List Route)) × Storage :=
  match (do
    let parsers ← instantiateMap (ParserDecl.instantiate lib) c.parsers
    let inputs ← instantiateMap (InputDecl.instantiate lib parsers) c.inputs
    .ok (parsers, inputs) : Res (GoMap TextParser × GoMap Input)) with
  | .error e => (.error e, st)
  | .ok (parsers, inputs) =>
    match openIndexes lib inputs st c.indexes with
    | (.error e, st) => (.error e, st)
    | (.ok opened, st) =>
      (do
        let indexes := opened.map (fun x => (x.1, x.2 st))
        let outputs ← instantiateMap (OutputDecl.instantiate lib inputs indexes parsers) c.outputs
        instantiateMap (ServiceDecl.instantiate lib outputs) c.services, st)

/-- Where the process dies: while it opens the index at this place in the order of the map (after all of them if there are not so many), after this number of writes to the file of a wildcard index
or of statements that change a database; `bytes` bytes of the next write to the file are still done. -/
structure Death where
  index : Nat
  writes : Nat
  bytes : Nat

/-- pkg/index/index.go:30-48 `NewFromConfig` in a process that dies. A wildcard index whose file exists is only read (wildcard.go:35-45); otherwise the file is created
and gets a part of the writes of `createIndex`. Simplification: statements are atomic, and what was written before the process died stays (the machine does not fail). -/
def IndexDecl.openKilled (inputs : GoMap Input) (st : Storage) (writes bytes : Nat) : IndexDecl → Storage
  | .wildcard c =>
    match findInput inputs c.input, st.file c.path with
    | .ok input, none => st.writeFile c.path (crashFile (createIndex st.lower c.settings input (Stream.new [] 0 c.settings.bufferSize)).2.log writes bytes)
    | _, _ => st
  | .sqlite c =>
    match findInput inputs c.input with
    | .error _ => st
    | .ok input => st.writeDb c.dsn (newSqlite st.sql c input ⟨st.db c.dsn, some writes⟩).2.db
  | .fts5 c =>
    match findInput inputs c.input with
    | .error _ => st
    | .ok input => st.writeDb c.dsn (newFts5 st.sql c input ⟨st.db c.dsn, some writes⟩).2.db
  | _ => st

/-- pkg/index/index.go:54-63, the loop of `NewFromConfigs` in a process that dies. -/
def openIndexesKilled (lib : StartLib) (inputs : GoMap Input) (writes bytes : Nat) : Nat → Storage → GoMap IndexDecl → Storage
  | _, st, [] => st
  | 0, st, (_, x) :: _ => x.openKilled inputs st writes bytes
  | n + 1, st, (_, x) :: rest =>
    match x.openOn lib inputs st with
    | (.error _, st) => st
    | (.ok _, st) => openIndexesKilled lib inputs writes bytes n st rest

/-- cmd/main.go:48-101, the construction of everything in a process that dies: what is left on the machine. -/
def startKilled (lib : StartLib) (st : Storage) (c : Config) (death : Death) : Storage :=
  match (do
    let parsers ← instantiateMap (ParserDecl.instantiate lib) c.parsers
    let inputs ← instantiateMap (InputDecl.instantiate lib parsers) c.inputs
    .ok inputs : Res (GoMap Input)) with
  | .error _ => st
  | .ok inputs => openIndexesKilled lib inputs death.writes death.bytes death.index st c.indexes

/-- A start of the program: the data files as they are then, the order in which it visits the maps of the configuration, and where it dies, if it does. -/
structure Run where
  files : Files
  config : Config
  death : Option Death

/-- The machine after a start of the program. -/
def Run.leaves (lib : StartLib) (st : Storage) (r : Run) : Storage :=
  match r.death with
  | none => (startOn (lib.onFiles r.files) st r.config).2
  | some death => startKilled (lib.onFiles r.files) st r.config death

/-- The machine after starts of the program, one after the other. -/
def afterProgramRuns (lib : StartLib) (st : Storage) : List Run → Storage
  | [] => st
  | r :: rest => afterProgramRuns lib (r.leaves lib st) rest

/-- The program started with the index files and databases of this machine: what it uses outside of the model otherwise is `rest`. -/
def StartLib.onStorage (rest : StartLib) (st : Storage) : StartLib := { rest with index := openIndex st }

end Rodb
