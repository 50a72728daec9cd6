import Verif.Model.Sql
import Verif.Model.Join
import Verif.Model.Config
import Verif.Model.Wildcard
/-
  pkg/index/sqlite/sanitize.go, pkg/index/sqlite/metadata.go and pkg/index/sqlite.go : the index stored in a SQLite database.
-/
namespace Rodb

/-! ### Executing statements -/

/-- A database and the number of statements that can still be executed before the process dies (or SQLite fails); `none` if it lives on. -/
structure SqlState where
  db : SqlDb
  writes : Option Nat
  deriving DecidableEq

/-- A Go function that returns `(α, error)` and uses the database. -/
abbrev SqlM (α : Type) := SqlState → Res α × SqlState

/-- The result of a call that does not use the database. -/
def SqlM.lift {α : Type} (r : Res α) : SqlM α := fun s => (r, s)

/-- `x, err := m; if err != nil { return err }; f(x)`. -/
def SqlM.bind {α β : Type} (m : SqlM α) (f : α → SqlM β) : SqlM β := fun s =>
  match m s with
  | (.ok a, s) => f a s
  | (.error e, s) => (.error e, s)

instance : Monad SqlM where
  pure a := fun s => (.ok a, s)
  bind := SqlM.bind

/-- The arguments of a statement. -/
def bindValues : List Value → Res (List SqlValue)
  | [] => .ok []
  | v :: rest => do
    let v ← bindValue v
    let rest ← bindValues rest
    .ok (v :: rest)

/-- `db.Exec(text, args...)`: the arguments are converted first. -/
def exec (text : List Char) (args : List Value) : SqlM Unit := fun s =>
  match bindValues args with
  | .error e => (.error e, s)
  | .ok args =>
    if s.writes = some 0 then (.error (.err "killed"), s)
    else
      match sqlExec s.db text args with
      | .error e => (.error e, s)
      | .ok db => (.ok (), { db := db, writes := s.writes.map (· - 1) })

/-- `db.Query(text, args...)`. -/
def query (lib : SqlLib) (text : List Char) (args : List Value) : SqlM (List (List SqlValue)) := fun s =>
  match bindValues args with
  | .error e => (.error e, s)
  | .ok args => (sqlQuery lib s.db text args, s)

/-- `db.Prepare(text)`. -/
def prepare (text : List Char) : SqlM Unit := fun s =>
  match parseSql text with
  | none => (.error (.err "syntax error"), s)
  | some _ => (.ok (), s)

/-! ### sanitize.go -/

/-- `SELECT printf('%w', ?)`: double quotes are doubled, and the text ends at a NUL character. -/
def printfW (identifier : List Char) : List Char :=
  (identifier.takeWhile (· ≠ '\x00')).flatMap (fun c => if c = '"' then ['"', '"'] else [c])

/-- sqlite/sanitize.go:8-20 `SanitizeIdentifier`. Simplification: the SELECT does not fail. -/
def sanitizeIdentifier (identifier : List Char) : List Char := ['"'] ++ printfW identifier ++ ['"']

/-! ### metadata.go -/

/-- sqlite/metadata.go:12 `CurrentVersion`. -/
def sqliteVersion : Int := 1

/-- sqlite/metadata.go:14-21 `Metadata`; the database is the state of `SqlM`, and the modification time is only used through `Unix()`. -/
structure SqliteMetadata where
  indexName : String
  version : Int
  modTime : Int
  size : Int
  completed : Bool
  deriving DecidableEq

/-- sqlite/metadata.go:117-119 `GetTableIdentifier`. -/
def metadataTableIdentifier (indexName : String) : List Char :=
  sanitizeIdentifier ("rodb_".toList ++ indexName.toList ++ "_metadata".toList)

/-- sqlite/metadata.go:23-48 `NewMetadata`. -/
def newSqliteMetadata (indexName : String) (input : Input) : Res SqliteMetadata := do
  let size ← input.size
  let modTime ← input.modTimeNs
  .ok { indexName := indexName, version := sqliteVersion, modTime := unixSeconds modTime, size := size, completed := false }

/-- sqlite/metadata.go:64-71, the query of `LoadMetadata`. -/
def loadMetadataText (indexName : String) : List Char :=
  "\n\t\tSELECT\n\t\t\t\"version\",\n\t\t\t\"inputFileModificationTime\",\n\t\t\t\"inputFileSize\",\n\t\t\t\"completed\"\n\t\tFROM ".toList ++
    metadataTableIdentifier indexName ++ ";\n\t".toList

/-- sqlite/metadata.go:50-83 `LoadMetadata`. -/
def loadSqliteMetadata (lib : SqlLib) (indexName : String) : SqlM SqliteMetadata := do
  let rows ← query lib (loadMetadataText indexName) []
  SqlM.lift (match rows with
    | [] => .error (.err "sql: no rows in result set")
    | [.int version, .int modTime, .int size, .int completed] :: _ =>
      .ok { indexName := indexName, version := version, modTime := modTime, size := size, completed := decide (completed > 0) }
    | _ :: _ => .error (.err "sql: Scan error"))

/-- sqlite/metadata.go:99-104, the query of `HasMetadata`. -/
def hasMetadataText (indexName : String) : List Char :=
  "\n\t\tSELECT COUNT(*)\n\t\tFROM sqlite_master\n\t\tWHERE type = 'table'\n\t\tAND name = ".toList ++ metadataTableIdentifier indexName ++ ";\n\t".toList

/-- sqlite/metadata.go:85-115 `HasMetadata`. -/
def hasSqliteMetadata (lib : SqlLib) (indexName : String) : SqlM Bool := do
  let rows ← query lib (hasMetadataText indexName) []
  SqlM.lift (match rows with
    | [.int count] :: _ => .ok (decide (count > 0))
    | _ => .error (.err "sql: Scan error"))

/-- sqlite/metadata.go:133-140, the first statement of `Save`. -/
def createMetadataText (indexName : String) : List Char :=
  "\n\t\tCREATE TABLE IF NOT EXISTS ".toList ++ metadataTableIdentifier indexName ++
    " (\n\t\t\t\"version\" INTEGER NOT NULL,\n\t\t\t\"inputFileModificationTime\" INTEGER NOT NULL,\n\t\t\t\"inputFileSize\" INTEGER NOT NULL,\n\t\t\t\"completed\" BOOLEAN NOT NULL\n\t\t);\n\t".toList

/-- sqlite/metadata.go:145-147, the second statement of `Save`. -/
def deleteMetadataText (indexName : String) : List Char :=
  "\n\t\tDELETE FROM ".toList ++ metadataTableIdentifier indexName ++ ";\n\t".toList

/-- sqlite/metadata.go:153-160, the third statement of `Save`. -/
def insertMetadataText (indexName : String) : List Char :=
  "\n\t\t\tINSERT INTO ".toList ++ metadataTableIdentifier indexName ++
    " (\n\t\t\t\t\"version\",\n\t\t\t\t\"inputFileModificationTime\",\n\t\t\t\t\"inputFileSize\",\n\t\t\t\t\"completed\"\n\t\t\t) VALUES (?, ?, ?, ?);\n\t\t".toList

/-- sqlite/metadata.go:127-171 `Save`. -/
def SqliteMetadata.save (m : SqliteMetadata) : SqlM Unit := do
  exec (createMetadataText m.indexName) []
  exec (deleteMetadataText m.indexName) []
  exec (insertMetadataText m.indexName) [.int m.version, .int m.modTime, .int m.size, .bool m.completed]

/-- sqlite/metadata.go:175-201 `AssertValid`. -/
def SqliteMetadata.assertValid (m : SqliteMetadata) (input : Input) : Res Unit := do
  if m.version ≠ sqliteVersion then .error (.err "The index file is not compatible with the current version of this software.")
  else
    let modTime ← input.modTimeNs
    if m.modTime ≠ unixSeconds modTime then .error (.err "The input file has been modified since the index generation.")
    else
      let size ← input.size
      if m.size ≠ size then .error (.err "The input file size has changed since the index generation.")
      else if !m.completed then .error (.err "The previous indexing process has not ended properly.")
      else .ok ()

/-! ### sqlite.go -/

/-- sqlite.go:200-202 `getPropertyIdentifier`. -/
def propertyIdentifier (property : String) : List Char := sanitizeIdentifier ("property_".toList ++ property.toList)

/-- sqlite.go:204-209 `getIndexIdentifier`. -/
def indexIdentifier (name property : String) : List Char :=
  sanitizeIdentifier ("index_".toList ++ name.toList ++ "_".toList ++ property.toList)

/-- sqlite.go:211-213 `getIndexTableIdentifier`. -/
def indexTableIdentifier (name : String) : List Char := sanitizeIdentifier ("rodb_".toList ++ name.toList ++ "_index".toList)

/-- `strings.Join`. -/
def joinTexts (sep : List Char) : List (List Char) → List Char
  | [] => []
  | [a] => a
  | a :: b :: rest => a ++ sep ++ joinTexts sep (b :: rest)

/-- sqlite.go:95-113 and 120-125, the statement that creates the table. -/
def createTableText (c : SqliteDecl) : List Char :=
  "\n\t\tCREATE TABLE ".toList ++ indexTableIdentifier c.name ++ " (\n\t\t\t\"offset\" INTEGER NOT NULL,\n\t\t\t".toList ++
    joinTexts ", ".toList (c.properties.map (fun p => propertyIdentifier p.name ++ " BLOB COLLATE ".toList ++ p.collate.toList)) ++ "\n\t\t);\n\t".toList

/-- sqlite.go:131-133, the statement that creates the index of a property. -/
def createIndexText (c : SqliteDecl) (property : String) : List Char :=
  "\n\t\t\tCREATE INDEX ".toList ++ indexIdentifier c.name property ++ " ON ".toList ++ indexTableIdentifier c.name ++ " (".toList ++
    propertyIdentifier property ++ ");\n\t\t".toList

/-- sqlite.go:130-137, the loop over the indexes. -/
def createIndexes (c : SqliteDecl) : List SqlitePropertyDecl → SqlM Unit
  | [] => pure ()
  | p :: rest => do
    exec (createIndexText c p.name) []
    createIndexes c rest

/-- sqlite.go:139-144, the statement that inserts a record. -/
def insertText (c : SqliteDecl) : List Char :=
  "\n\t\tINSERT INTO ".toList ++ indexTableIdentifier c.name ++ " (\n\t\t\t\"offset\",\n\t\t\t".toList ++
    joinTexts ", ".toList (c.properties.map (fun p => propertyIdentifier p.name)) ++ "\n\t\t) VALUES (?, ".toList ++
    joinTexts ", ".toList (c.properties.map (fun _ => "?".toList)) ++ ");\n\t".toList

/-- sqlite.go:162-173 and fts5.go:166-177, the values of the properties of a record. -/
def recordValues (r : Rec) : List String → Res (List Value)
  | [] => .ok []
  | p :: rest => do
    let v ← r.get p
    let vs ← recordValues r rest
    .ok (v :: vs)

/-- sqlite.go:150-178 and fts5.go:154-182, the loop over the records, with the statement that inserts a record. -/
def insertRecords (insert : List Char) (properties : List String) : List (Res Rec) → SqlM Unit
  | [] => pure ()
  | r :: rest => do
    let r ← SqlM.lift r
    let values ← SqlM.lift (recordValues r properties)
    exec insert (.int r.position :: values)
    insertRecords insert properties rest

/-- sqlite.go:69-198 `createIndex`. -/
def sqliteCreateIndex (lib : SqlLib) (c : SqliteDecl) (input : Input) : SqlM Unit := do
  let metadata ← SqlM.lift (newSqliteMetadata c.name input)
  metadata.save
  let records ← SqlM.lift input.scan
  exec (createTableText c) []
  createIndexes c c.properties
  prepare (insertText c)
  insertRecords (insertText c) (c.properties.map (·.name)) records
  { metadata with completed := true }.save
  let _ ← query lib ("SELECT COUNT(1) FROM ".toList ++ indexTableIdentifier c.name ++ ";".toList) []
  pure ()

/-- sqlite.go:21-63 `NewSqlite`, for an existing input and an open database. -/
def newSqlite (lib : SqlLib) (c : SqliteDecl) (input : Input) : SqlM Unit := do
  let exists_ ← hasSqliteMetadata lib c.name
  if exists_ then do
    let metadata ← loadSqliteMetadata lib c.name
    SqlM.lift (metadata.assertValid input)
  else sqliteCreateIndex lib c input

/-- sqlite.go:232-246, the loop over the filters in the order `range` visits them: the clauses and the values. -/
def sqliteClauses (c : SqliteDecl) : GoMap Value → Res (List (List Char) × List Value)
  | [] => .ok ([], [])
  | (property, filter) :: rest =>
    if !(IndexDecl.sqlite c).handlesProperty property then .error (.err "This index does not handle the property")
    else do
      let (clauses, values) ← sqliteClauses c rest
      .ok ((propertyIdentifier property ++ " = ?".toList) :: clauses, filter :: values)

/-- sqlite.go:248-252, the query. -/
def selectText (c : SqliteDecl) (clauses : List (List Char)) : List Char :=
  "\n\t\tSELECT \"offset\"\n\t\tFROM ".toList ++ indexTableIdentifier c.name ++ "\n\t\tWHERE ".toList ++ joinTexts " AND ".toList clauses ++ ";\n\t".toList

/-- sqlite.go:257-270, the outcomes of the iterator: the position of each row, until one cannot be scanned. When `rows.Next` answers false because reading
failed, the iterator answers "no more positions" like at the end. -/
def sqliteRows : List (List SqlValue) → PIter
  | [] => []
  | row :: rest =>
    match row with
    | [.int p] => .ok p :: sqliteRows rest
    | _ => [.error (.err "sql: Scan error")]

/-- sqlite.go:215-271 `GetRecordPositions`, on the database as it is after `NewSqlite` (which nobody changes). `input != sqlite.input` compares the names. -/
def sqliteGetRecordPositions (lib : SqlLib) (c : SqliteDecl) (db : SqlDb) (inputName : String) (filters : GoMap Value) : Res PIter := do
  if inputName ≠ c.input then .error (.err "This index does not handle the input")
  else if filters.length = 0 then .error (.err "This index requires at least one filter.")
  else
    let (clauses, values) ← sqliteClauses c filters
    let args ← bindValues values
    let text := selectText c clauses
    let rows ← sqlQuery lib db text args
    match lib.failsAfter text with
    | none => .ok (sqliteRows rows)
    | some n => .ok (sqliteRows (rows.take n))

end Rodb
