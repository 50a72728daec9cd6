import Verif.Model.Sqlite
/-
  pkg/index/fts5.go : the full-text index stored in a SQLite database.
-/
namespace Rodb

/-- `strconv.Itoa`. -/
def itoa (i : Int) : List Char := if i < 0 then '-' :: Nat.toDigits 10 i.natAbs else Nat.toDigits 10 i.natAbs

/-- fts5.go:118-124, the loop over the lengths of the prefixes. -/
def prefixText : List Int → List Char
  | [] => []
  | [n] => itoa n
  | n :: m :: rest => itoa n ++ [' '] ++ prefixText (m :: rest)

/-- fts5.go:131-138, the statement that creates the table; the table has the name of fts5.go:211-213 `getIndexTableIdentifier`, which is that of sqlite.go:211-213. -/
def fts5CreateText (c : Fts5Decl) : List Char :=
  "\n\t\tCREATE VIRTUAL TABLE ".toList ++ indexTableIdentifier c.name ++ " USING fts5(\n\t\t\t\"__offset\" UNINDEXED,\n\t\t\t".toList ++
    joinTexts ", ".toList (c.properties.map (fun p => sanitizeIdentifier p.toList)) ++ ",\n\t\t\tprefix = '".toList ++ prefixText c.prefixes ++
    "',\n\t\t\ttokenize = ".toList ++ sanitizeIdentifier c.tokenize.toList ++ "\n\t\t);\n\t".toList

/-- fts5.go:143-148, the statement that inserts a record. -/
def fts5InsertText (c : Fts5Decl) : List Char :=
  "\n\t\tINSERT INTO ".toList ++ indexTableIdentifier c.name ++ " (\n\t\t\t\"__offset\",\n\t\t\t".toList ++
    joinTexts ", ".toList (c.properties.map (fun p => sanitizeIdentifier p.toList)) ++ "\n\t\t) VALUES (?, ".toList ++
    joinTexts ", ".toList (c.properties.map (fun _ => "?".toList)) ++ ");\n\t".toList

/-- fts5.go:71-202 `createIndex`. -/
def fts5CreateIndex (lib : SqlLib) (c : Fts5Decl) (input : Input) : SqlM Unit := do
  let metadata ← SqlM.lift (newSqliteMetadata c.name input)
  metadata.save
  let records ← SqlM.lift input.scan
  SqlM.lift (if "__offset" ∈ c.properties then .error (.err "__offset is a reserved property name for the fts5 index.") else .ok ())
  exec (fts5CreateText c) []
  prepare (fts5InsertText c)
  insertRecords (fts5InsertText c) c.properties records
  { metadata with completed := true }.save
  let _ ← query lib ("SELECT COUNT(1) FROM ".toList ++ indexTableIdentifier c.name ++ ";".toList) []
  pure ()

/-- fts5.go:23-65 `NewFts5`, for an existing input and an open database. -/
def newFts5 (lib : SqlLib) (c : Fts5Decl) (input : Input) : SqlM Unit := do
  let exists_ ← hasSqliteMetadata lib c.name
  if exists_ then do
    let metadata ← loadSqliteMetadata lib c.name
    SqlM.lift (metadata.assertValid input)
  else fts5CreateIndex lib c input

/-- fts5.go:238-242, the query. -/
def matchText (c : Fts5Decl) : List Char :=
  "\n\t\tSELECT \"__offset\"\n\t\tFROM ".toList ++ indexTableIdentifier c.name ++ "\n\t\tWHERE ".toList ++ indexTableIdentifier c.name ++ " MATCH ?\n\t".toList

/-- fts5.go:215-261 `GetRecordPositions`, on the database as it is after `NewFts5` (which nobody changes). `input != sqlite.input` compares the names. -/
def fts5GetRecordPositions (lib : SqlLib) (c : Fts5Decl) (db : SqlDb) (inputName : String) (filters : GoMap Value) : Res PIter := do
  if inputName ≠ c.input then .error (.err "This index does not handle the input")
  else if filters.length ≠ 1 then .error (.err "This index can only have one filter at a time.")
  else
    match mapGet filters "match" with
    | none => .error (.err "This index must receive a single filter named 'match'.")
    | some filter =>
      let args ← bindValues [filter]
      let rows ← sqlQuery lib db (matchText c) args
      match lib.failsAfter (matchText c) with
      | none => .ok (sqliteRows rows)
      | some n => .ok (sqliteRows (rows.take n))

end Rodb
