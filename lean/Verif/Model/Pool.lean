import Verif.Model.Fts5
/-
  pkg/index/sqlite/open.go and the connections that the searches of pkg/index/sqlite.go and pkg/index/fts5.go use: `sql.DB` is a pool of connections, and with the DSN `:memory:` every connection
  has a database of its own.
-/
namespace Rodb

/-- `sql.DB`. `db` is the database that the connections share (a file), if not each of them has a database of its own (`own`, the DSN `:memory:`); `free` are the connections that nobody uses, each with the
database that is its own (which is not used for a file). -/
structure Pool where
  own : Bool
  db : SqlDb
  free : List SqlDb

/-- The database of a new connection to `:memory:`. -/
def newDb : SqlDb := ⟨[], []⟩

/-- The database that a connection works on. -/
def Pool.sees (p : Pool) (conn : SqlDb) : SqlDb := if p.own then conn else p.db

/-- `DB.conn` of database/sql: a free connection, or a new one if there is none. Simplification: which one of several free connections is left open (`pick`), and opening a connection does not fail. -/
def Pool.take (p : Pool) (pick : Nat) : SqlDb × Pool :=
  match p.free[pick]? with
  | some conn => (conn, { p with free := p.free.eraseIdx pick })
  | none =>
    match p.free with
    | [] => (newDb, p)
    | conn :: rest => (conn, { p with free := rest })

/-- `DB.putConn` of database/sql, with the default of two for the number of free connections that are kept; the others are closed. -/
def Pool.release (p : Pool) (conn : SqlDb) : Pool := if p.free.length < 2 then { p with free := p.free ++ [conn] } else p

/-- sqlite/open.go:10-24 `Open`, followed by the statements of the construction of an index, `build`: they are executed one after the other, each by the connection that the first one has opened and that is
free again when it ends. `own` is false for a file with the database `db`. Simplification: the two `PRAGMA` statements do nothing. -/
def openPool (own : Bool) (db : SqlDb) (build : SqlM Unit) : Res Unit × Pool :=
  let (r, s) := build ⟨if own then newDb else db, none⟩
  (r, { own := own, db := if own then db else s.db, free := [s.db] })

/-- A call of `GetRecordPositions` and its iterator. -/
inductive Searching where
  /-- `left` names are still to be quoted before the query, `after`, is made (or the call fails). -/
  | quote (left : Nat) (after : Res (SqlDb → Res PIter))
  /-- A connection is used to quote a name. -/
  | quoting (left : Nat) (after : Res (SqlDb → Res PIter)) (conn : SqlDb)
  /-- The call has failed. -/
  | failed (e : Fail)
  /-- The call has returned an iterator, which has answered `given`. `conn` is the connection of the rows, until they are closed. -/
  | reading (given rest : PIter) (conn : Option SqlDb)

/-- sqlite.go:248-255, the query, on the database of the connection. -/
def sqliteAsk (lib : SqlLib) (c : SqliteDecl) (clauses : List (List Char)) (values : List Value) (db : SqlDb) : Res PIter := do
  let args ← bindValues values
  let text := selectText c clauses
  let rows ← sqlQuery lib db text args
  match lib.failsAfter text with
  | none => .ok (sqliteRows rows)
  | some n => .ok (sqliteRows (rows.take n))

/-- sqlite.go:215-246, the beginning of `GetRecordPositions`: which names will be quoted, and what is done then. The name of the table is quoted first, then those of the properties until one is not handled. -/
def sqliteSearch (lib : SqlLib) (c : SqliteDecl) (inputName : String) (filters : GoMap Value) : Searching :=
  if inputName ≠ c.input then .failed (.err "This index does not handle the input")
  else if filters.length = 0 then .failed (.err "This index requires at least one filter.")
  else
    .quote (1 + (filters.takeWhile (fun f => (IndexDecl.sqlite c).handlesProperty f.1)).length)
      (match sqliteClauses c filters with
        | .error e => .error e
        | .ok (clauses, values) => .ok (sqliteAsk lib c clauses values))

/-- fts5.go:238-245, the query, on the database of the connection. -/
def fts5Ask (lib : SqlLib) (c : Fts5Decl) (filter : Value) (db : SqlDb) : Res PIter := do
  let args ← bindValues [filter]
  let rows ← sqlQuery lib db (matchText c) args
  match lib.failsAfter (matchText c) with
  | none => .ok (sqliteRows rows)
  | some n => .ok (sqliteRows (rows.take n))

/-- fts5.go:215-236, the beginning of `GetRecordPositions`. -/
def fts5Search (lib : SqlLib) (c : Fts5Decl) (inputName : String) (filters : GoMap Value) : Searching :=
  if inputName ≠ c.input then .failed (.err "This index does not handle the input")
  else if filters.length ≠ 1 then .failed (.err "This index can only have one filter at a time.")
  else
    match mapGet filters "match" with
    | none => .failed (.err "This index must receive a single filter named 'match'.")
    | some filter => .quote 1 (.ok (fts5Ask lib c filter))

/-- What a search does next. sqlite/sanitize.go:8-20: quoting a name takes a connection, which is free again when the row is scanned. sqlite.go:248-255: the query takes a connection, which the rows keep, unless
it fails. sqlite.go:257-270 and fts5.go:247-260, a call of the iterator: `rows.Next` closes the rows at the end, and they are closed if one cannot be scanned. -/
def Searching.step (p : Pool) (pick : Nat) : Searching → Searching × Pool
  | .quote 0 (.error e) => (.failed e, p)
  | .quote 0 (.ok ask) =>
    let (conn, p) := p.take pick
    match ask (p.sees conn) with
    | .error e => (.failed e, p.release conn)
    | .ok rest => (.reading [] rest (some conn), p)
  | .quote (n + 1) after =>
    let (conn, p) := p.take pick
    (.quoting n after conn, p)
  | .quoting n after conn => (.quote n after, p.release conn)
  | .failed e => (.failed e, p)
  | .reading given [] (some conn) => (.reading given [] none, p.release conn)
  | .reading given (.error e :: rest) (some conn) => (.reading (given ++ [.error e]) rest none, p.release conn)
  | .reading given (.ok position :: rest) (some conn) => (.reading (given ++ [.ok position]) rest (some conn), p)
  | .reading given rest none => (.reading given rest none, p)

/-- The searches of the program in an index, in the order in which they began. -/
structure Searches where
  pool : Pool
  all : List Searching

/-- What happens next: a search begins, or one of them goes on, with a choice of a free connection. -/
inductive SearchEvent where
  | begin (inputName : String) (filters : GoMap Value)
  | step (which pick : Nat)

/-- One step of the program; `search` is the beginning of `GetRecordPositions`. -/
def Searches.next (search : String → GoMap Value → Searching) (s : Searches) : SearchEvent → Searches
  | .begin inputName filters => { s with all := s.all ++ [search inputName filters] }
  | .step which pick =>
    match s.all[which]? with
    | none => s
    | some x =>
      let (x, pool) := x.step s.pool pick
      { pool := pool, all := s.all.set which x }

/-- A run of the program. -/
def Searches.run (search : String → GoMap Value → Searching) : Searches → List SearchEvent → Searches
  | s, [] => s
  | s, e :: rest => Searches.run search (s.next search e) rest

end Rodb
