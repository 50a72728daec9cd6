import Verif.Model.Startup
import Verif.Model.Wildcard
import Verif.Model.Fts5
/-
  The indexes that keep their data on disk, as the program opens them at its start.
-/
namespace Rodb

/-- What the indexes find on the machine when the program starts: the content of a file (if it exists) and of a database, by path and by DSN. `lower` is
`strings.ToLower`, `sql` the SQLite library. Simplification: every index finds its file or database as it was before the start; `startOn` of Model/Restart.lean does without this, and `C112_alone` shows that they agree if no two indexes share a file or a database. -/
structure Storage where
  lower : Bytes → Bytes
  sql : SqlLib
  file : String → Option Bytes
  db : String → SqlDb

/-- wildcard_config.go:11-19 `WildcardConfig`, as `NewWildcard` uses it (a nil `ignoreCase` does not occur: validation fills it in). -/
def WildcardDecl.settings (d : WildcardDecl) : WildcardConfig := { properties := d.properties, ignoreCase := d.ignoreCase.getD false }

/-- pkg/index/sqlite.go:21-63 `NewSqlite`, its result: the index answers from the database as it is then. -/
def sqliteIndex (sql : SqlLib) (d : SqliteDecl) (opened : Res Unit × SqlState) : Res IndexFn :=
  match opened with
  | (.ok _, s) => .ok (fun input filters => sqliteGetRecordPositions sql d s.db input.name filters)
  | (.error e, _) => .error e

/-- pkg/index/fts5.go:23-65 `NewFts5`, its result: the index answers from the database as it is then. -/
def fts5Index (sql : SqlLib) (d : Fts5Decl) (opened : Res Unit × SqlState) : Res IndexFn :=
  match opened with
  | (.ok _, s) => .ok (fun input filters => fts5GetRecordPositions sql d s.db input.name filters)
  | (.error e, _) => .error e

/-- pkg/index/index.go:30-49 `NewFromConfig`, the cases of wildcard, SQLite and FTS5 indexes. The process does not die while the index is opened. -/
def openIndex (st : Storage) (d : IndexDecl) (input : Input) : Res IndexFn :=
  match d with
  | .wildcard d => do
    let w ← (newWildcard st.lower d.settings input (st.file d.path)).1
    .ok (fun input filters => w.getRecordPositions st.lower input.name filters)
  | .sqlite d => sqliteIndex st.sql d (newSqlite st.sql d input ⟨st.db d.dsn, none⟩)
  | .fts5 d => fts5Index st.sql d (newFts5 st.sql d input ⟨st.db d.dsn, none⟩)
  | .map _ => .error (.err "not kept on disk")
  | .noop _ => .error (.err "not kept on disk")

end Rodb
