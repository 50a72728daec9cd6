import Verif.Model.Value
import Verif.Model.Text
/-
  The part of the libraries database/sql, github.com/mattn/go-sqlite3 and SQLite that pkg/index/sqlite.go and
  pkg/index/sqlite use: SQL texts, the statements they mean and what these do to a database. This is a model
  of libraries, not of code of /repo; the statements are those of the files cited below.
-/
namespace Rodb

/-! ### Texts and tokens -/

/-- The tokens of the SQL texts in pkg/index/sqlite.go:120-256 and pkg/index/sqlite/metadata.go:64-166: words (keywords, names
without quotes, numbers), names in double quotes and texts in single quotes with their quotes removed, and symbols. -/
inductive SqlToken where
  | word (w : List Char)
  | quoted (name : List Char)
  | text (s : List Char)
  | sym (c : Char)
  deriving DecidableEq, Repr

/-- Where the tokenizer is: between tokens, in a word, between quotes, after a quote that closes unless it is followed by another one,
or behind a NUL character, which ends the text. The characters read so far are in reverse order. -/
inductive LexState where
  | top
  | word (acc : List Char)
  | inQuotes (quote : Char) (acc : List Char)
  | closing (quote : Char) (acc : List Char)
  | ended
  deriving DecidableEq, Repr

/-- White space between tokens. -/
def isSqlSpace (c : Char) : Bool := c = ' ' || c = '\t' || c = '\n' || c = '\r'

/-- A character of a word: letters, digits, `_`, `$` and everything outside ASCII. -/
def isSqlWordChar (c : Char) : Bool := c.isAlphanum || c = '_' || c = '$' || 128 ≤ c.toNat

/-- The symbols that are used. -/
def isSqlSymbol (c : Char) : Bool := c = '(' || c = ')' || c = ',' || c = ';' || c = '=' || c = '*' || c = '?'

/-- The token between quotes: a doubled quote stands for one (this is done in `lexStep`). -/
def quotedToken (quote : Char) (acc : List Char) : SqlToken := if quote = '"' then .quoted acc.reverse else .text acc.reverse

/-- The tokenizer of SQLite between two tokens; `none` for the characters that are not used. -/
def lexTop (c : Char) : Option (List SqlToken × LexState) :=
  if c = '\x00' then some ([], .ended)
  else if isSqlSpace c then some ([], .top)
  else if isSqlWordChar c then some ([], .word [c])
  else if isSqlSymbol c then some ([.sym c], .top)
  else if c = '"' ∨ c = '\'' then some ([], .inQuotes c [])
  else none

/-- One character: the finished tokens and the new state. A text that ends between quotes is not accepted. -/
def lexStep : LexState → Char → Option (List SqlToken × LexState)
  | .top, c => lexTop c
  | .word acc, c =>
    if isSqlWordChar c then some ([], .word (c :: acc))
    else (lexTop c).map (fun (ts, s) => (.word acc.reverse :: ts, s))
  | .inQuotes q acc, c =>
    if c = '\x00' then none
    else if c = q then some ([], .closing q acc)
    else some ([], .inQuotes q (c :: acc))
  | .closing q acc, c =>
    if c = q then some ([], .inQuotes q (c :: acc))
    else (lexTop c).map (fun (ts, s) => (quotedToken q acc :: ts, s))
  | .ended, _ => some ([], .ended)

/-- All the characters of a text. -/
def lexRun : LexState → List Char → Option (List SqlToken × LexState)
  | s, [] => some ([], s)
  | s, c :: rest => do
    let (ts, s) ← lexStep s c
    let (us, s) ← lexRun s rest
    some (ts ++ us, s)

/-- The last token of a text. -/
def lexEnd : LexState → Option (List SqlToken)
  | .top => some []
  | .word acc => some [.word acc.reverse]
  | .inQuotes _ _ => none
  | .closing q acc => some [quotedToken q acc]
  | .ended => some []

/-- The tokens of a text. -/
def lexSql (text : List Char) : Option (List SqlToken) := do
  let (ts, s) ← lexRun .top text
  let us ← lexEnd s
  some (ts ++ us)

/-! ### Statements -/

/-- A column of a CREATE TABLE statement: name and collation (its type does not matter for the values that are stored here). -/
structure SqlColumn where
  name : List Char
  collate : List Char
  deriving DecidableEq, Repr

/-- An operand of `=`: a name in double quotes (a column or, if there is none of that name, a text), a name without quotes, a text, or
a parameter. -/
inductive SqlOperand where
  | quoted (name : List Char)
  | word (name : List Char)
  | text (s : List Char)
  | param
  deriving DecidableEq, Repr

/-- The statements that are used. -/
inductive Sql where
  | createTable (ifNotExists : Bool) (name : List Char) (columns : List SqlColumn)
  | createIndex (name table column : List Char)
  | deleteAll (table : List Char)
  | insert (table : List Char) (columns : List (List Char)) (params : Nat)
  | select (columns : List (List Char)) (table : List Char) (conditions : List (SqlOperand × SqlOperand))
  | count (table : List Char) (conditions : List (SqlOperand × SqlOperand))
  deriving DecidableEq, Repr

/-- A keyword. -/
def kw (w : String) : SqlToken := .word w.toList

/-- The tokens before the first one equal to `stop`, and those after it. -/
def cutAt (stop : SqlToken) : List SqlToken → Option (List SqlToken × List SqlToken)
  | [] => none
  | t :: rest => if t = stop then some ([], rest) else (cutAt stop rest).map (fun (a, b) => (t :: a, b))

/-- The pieces between the tokens equal to `sep`. -/
def splitAtToken (sep : SqlToken) : List SqlToken → List (List SqlToken)
  | [] => [[]]
  | t :: rest =>
    if t = sep then [] :: splitAtToken sep rest
    else
      match splitAtToken sep rest with
      | [] => [[t]]
      | p :: ps => (t :: p) :: ps

/-- Removes the given tokens from the front. -/
def expectTokens : List SqlToken → List SqlToken → Option (List SqlToken)
  | [], ts => some ts
  | _ :: _, [] => none
  | e :: es, t :: ts => if t = e then expectTokens es ts else none

/-- All the results, if there are all. -/
def allSome {α β : Type} (f : α → Option β) : List α → Option (List β)
  | [] => some []
  | a :: as => do
    let b ← f a
    let bs ← allSome f as
    some (b :: bs)

/-- The definition of a column. -/
def parseColumn : List SqlToken → Option SqlColumn
  | [.quoted n, .word _] => some { name := n, collate := "BINARY".toList }
  | [.quoted n, .word _, a, b] =>
    if a = kw "NOT" ∧ b = kw "NULL" then some { name := n, collate := "BINARY".toList }
    else
      match a, b with
      | .word w, .word c => if w = "COLLATE".toList then some { name := n, collate := c } else none
      | _, _ => none
  | _ => none

/-- A name in double quotes. -/
def parseQuoted : List SqlToken → Option (List Char)
  | [.quoted n] => some n
  | _ => none

/-- An operand. -/
def parseOperand : SqlToken → Option SqlOperand
  | .quoted n => some (.quoted n)
  | .word n => some (.word n)
  | .text s => some (.text s)
  | .sym c => if c = '?' then some .param else none

/-- `operand = operand`. -/
def parseCondition : List SqlToken → Option (SqlOperand × SqlOperand)
  | [a, .sym c, b] => if c = '=' then do
      let a ← parseOperand a
      let b ← parseOperand b
      some (a, b)
    else none
  | _ => none

/-- The name of a table, with or without quotes. -/
def parseTable : List SqlToken → Option (List Char × List SqlToken)
  | .quoted n :: rest => some (n, rest)
  | .word n :: rest => some (n, rest)
  | _ => none

/-- `FROM table`, and `WHERE` with conditions joined by `AND`. -/
def parseFrom (ts : List SqlToken) : Option (List Char × List (SqlOperand × SqlOperand)) := do
  let ts ← expectTokens [kw "FROM"] ts
  let (table, ts) ← parseTable ts
  match ts with
  | [] => some (table, [])
  | w :: ts =>
    if w = kw "WHERE" then do
      let conditions ← allSome parseCondition (splitAtToken (kw "AND") ts)
      some (table, conditions)
    else none

/-- A statement without its final semicolon. -/
def parseStatement : List SqlToken → Option Sql
  | a :: b :: ts =>
    if a = kw "CREATE" ∧ b = kw "TABLE" then do
      let (ifNotExists, ts) := match expectTokens [kw "IF", kw "NOT", kw "EXISTS"] ts with
        | some ts => (true, ts)
        | none => (false, ts)
      let (name, ts) ← parseTable ts
      let ts ← expectTokens [.sym '('] ts
      let (body, ts) ← cutAt (.sym ')') ts
      let columns ← allSome parseColumn (splitAtToken (.sym ',') body)
      if ts = [] then some (.createTable ifNotExists name columns) else none
    else if a = kw "CREATE" ∧ b = kw "INDEX" then do
      let (name, ts) ← parseTable ts
      let ts ← expectTokens [kw "ON"] ts
      let (table, ts) ← parseTable ts
      match ts with
      | [o, .quoted column, c] => if o = .sym '(' ∧ c = .sym ')' then some (.createIndex name table column) else none
      | _ => none
    else if a = kw "DELETE" ∧ b = kw "FROM" then do
      let (table, ts) ← parseTable ts
      if ts = [] then some (.deleteAll table) else none
    else if a = kw "INSERT" ∧ b = kw "INTO" then do
      let (table, ts) ← parseTable ts
      let ts ← expectTokens [.sym '('] ts
      let (body, ts) ← cutAt (.sym ')') ts
      let columns ← allSome parseQuoted (splitAtToken (.sym ',') body)
      let ts ← expectTokens [kw "VALUES", .sym '('] ts
      let (values, ts) ← cutAt (.sym ')') ts
      let params := splitAtToken (.sym ',') values
      if ts = [] ∧ params.all (· = [.sym '?']) ∧ params.length = columns.length then some (.insert table columns params.length) else none
    else if a = kw "SELECT" ∧ b = kw "COUNT" then do
      match ts with
      | o :: _ :: c :: ts =>
        if o = .sym '(' ∧ c = .sym ')' then do
          let (table, conditions) ← parseFrom ts
          some (.count table conditions)
        else none
      | _ => none
    else if a = kw "SELECT" then do
      let (head, rest) ← cutAt (kw "FROM") (b :: ts)
      let columns ← allSome parseQuoted (splitAtToken (.sym ',') head)
      let (table, conditions) ← parseFrom (kw "FROM" :: rest)
      some (.select columns table conditions)
    else none
  | _ => none

/-- A text as one statement, with or without a semicolon at its end. -/
def parseSql (text : List Char) : Option Sql := do
  let ts ← lexSql text
  match ts.getLast? with
  | some t => if t = .sym ';' then parseStatement ts.dropLast else parseStatement ts
  | none => none

/-- The statements for full-text tables. -/
inductive FtsSql where
  | create (name : List Char) (columns : List (List Char × Bool)) (options : List (List Char × List Char))
  | search (column table subject : List Char)
  deriving DecidableEq, Repr

/-- An argument of `fts5(...)`: a column (and whether it is UNINDEXED) or an option with its value. A name in quotes is never an option. -/
inductive FtsArgument where
  | column (name : List Char) (unindexed : Bool)
  | option (name value : List Char)
  deriving DecidableEq, Repr

/-- An argument as FTS5 reads it. -/
def parseFtsArgument : List SqlToken → Option FtsArgument
  | [.quoted n] => some (.column n false)
  | [.quoted n, .word w] => if w = "UNINDEXED".toList then some (.column n true) else none
  | [.word o, .sym c, .text v] => if c = '=' then some (.option o v) else none
  | [.word o, .sym c, .quoted v] => if c = '=' then some (.option o v) else none
  | _ => none

/-- A statement for a full-text table, without a final semicolon. Empty arguments of `fts5(...)` are skipped. -/
def parseFtsStatement : List SqlToken → Option FtsSql
  | a :: b :: ts =>
    if a = kw "CREATE" ∧ b = kw "VIRTUAL" then do
      let ts ← expectTokens [kw "TABLE"] ts
      let (name, ts) ← parseTable ts
      let ts ← expectTokens [kw "USING", kw "fts5", .sym '('] ts
      let (body, ts) ← cutAt (.sym ')') ts
      let arguments ← allSome parseFtsArgument ((splitAtToken (.sym ',') body).filter (fun a => a ≠ []))
      if ts = [] then some (.create name
        (arguments.filterMap (fun a => match a with | .column n u => some (n, u) | .option _ _ => none))
        (arguments.filterMap (fun a => match a with | .column _ _ => none | .option n v => some (n, v)))) else none
    else
      match a, b, ts with
      | s, .quoted column, [f, .quoted table, w, .quoted subject, m, .sym c] =>
        if s = kw "SELECT" ∧ f = kw "FROM" ∧ w = kw "WHERE" ∧ m = kw "MATCH" ∧ c = '?' then some (.search column table subject) else none
      | _, _, _ => none
  | _ => none

/-- A text as one statement for a full-text table. -/
def parseFts (text : List Char) : Option FtsSql := do
  let ts ← lexSql text
  match ts.getLast? with
  | some t => if t = .sym ';' then parseFtsStatement ts.dropLast else parseFtsStatement ts
  | none => none

/-! ### Values and databases -/

/-- The values of SQLite that can occur here. -/
inductive SqlValue where
  | null
  | int (i : Int)
  | real (f : GoFloat)
  | text (s : Bytes)
  deriving DecidableEq, Repr

/-- How database/sql and the driver pass a Go value: a bool as an integer, NaN as NULL; a slice or a map is an error. -/
def bindValue : Value → Res SqlValue
  | .null => .ok .null
  | .bool b => .ok (.int (if b then 1 else 0))
  | .int i => .ok (.int i)
  | .float .nan => .ok .null
  | .float f => .ok (.real f)
  | .str s => .ok (.text s)
  | .arr _ => .error (.err "sql: converting argument: unsupported type []interface {}, a slice of interface")
  | .obj _ => .error (.err "sql: converting argument: unsupported type map[string]interface {}, a map")

/-- The settings of a full-text table: its tokenizer, and the columns that are not searched. -/
structure FtsSettings where
  tokenize : List Char
  unindexed : List (List Char)
  deriving DecidableEq, Repr

/-- A table: its columns, its rows in the order of their insertion and, for a full-text table, its settings. Simplification: the tables that FTS5 adds for
itself (with `_data`, `_idx`, `_content`, `_docsize` and `_config` behind the name) are left out; nothing else has such names here. -/
structure SqlTable where
  name : List Char
  columns : List SqlColumn
  rows : List (List SqlValue)
  fts : Option FtsSettings := none
  deriving DecidableEq, Repr

/-- An index of a table. -/
structure SqlIndex where
  name : List Char
  table : List Char
  column : List Char
  deriving DecidableEq, Repr

/-- A database. -/
structure SqlDb where
  tables : List SqlTable
  indexes : List SqlIndex
  deriving DecidableEq, Repr

/-- SQLite as far as it is not fixed here: the comparison of an INTEGER with a REAL, the order in which a statement gives its rows, and the number
of rows after which reading them fails, if it does. `matches` is the full-text search: for a tokenizer, the names of the searched columns and the expression, which
values of these columns match (`none` if the expression is refused, which SQLite says when the first row is read). -/
structure SqlLib where
  intEqReal : Int → GoFloat → Bool
  plan : List Char → List (List SqlValue) → List (List SqlValue)
  failsAfter : List Char → Option Nat
  «matches» : List Char → List (List Char) → SqlValue → Option (List SqlValue → Bool) := fun _ _ _ => none

/-- Names of tables, columns and indexes are the same up to the case of ASCII letters. -/
def sameName (a b : List Char) : Bool := a.map Char.toLower = b.map Char.toLower

/-- The ASCII letters of a text in lower case. -/
def lowerByte (b : UInt8) : UInt8 := if 65 ≤ b.toNat ∧ b.toNat ≤ 90 then b + 32 else b

/-- The comparison of NOCASE on texts of the same length: up to the case of ASCII letters, and only up to a NUL byte. -/
def nocaseEq : Bytes → Bytes → Bool
  | [], [] => true
  | a :: as, b :: bs => lowerByte a = lowerByte b && (a = 0 || nocaseEq as bs)
  | _, _ => false

/-- The equality of texts of a collation. Texts of different lengths differ for both BINARY and NOCASE. -/
def collateEq (collate : List Char) (a b : Bytes) : Bool :=
  if collate = "NOCASE".toList then a.length = b.length && nocaseEq a b else a = b

/-- `a = b`: NULL is equal to nothing, integers and reals are compared as numbers, texts by the collation, and values of other different types
differ. No operand has an affinity that would convert the other one. -/
def sqlEq (lib : SqlLib) (collate : List Char) : SqlValue → SqlValue → Bool
  | .int a, .int b => a = b
  | .real a, .real b => a.eq b
  | .int a, .real b => lib.intEqReal a b
  | .real a, .int b => lib.intEqReal b a
  | .text a, .text b => collateEq collate a b
  | _, _ => false

/-- The table of that name. -/
def SqlDb.table (db : SqlDb) (name : List Char) : Option SqlTable := db.tables.find? (fun t => sameName t.name name)

/-- Whether an index has that name. -/
def SqlDb.hasIndex (db : SqlDb) (name : List Char) : Bool := db.indexes.any (fun i => sameName i.name name)

/-- The table `sqlite_master` (its columns `rootpage` and `sql` are left out). -/
def SqlDb.master (db : SqlDb) : SqlTable :=
  { name := "sqlite_master".toList
    columns := [⟨"type".toList, "BINARY".toList⟩, ⟨"name".toList, "BINARY".toList⟩, ⟨"tbl_name".toList, "BINARY".toList⟩]
    rows := db.tables.map (fun t => [.text (utf8 "table".toList), .text (utf8 t.name), .text (utf8 t.name)]) ++
      db.indexes.map (fun i => [.text (utf8 "index".toList), .text (utf8 i.name), .text (utf8 i.table)]) }

/-- The table a SELECT reads. -/
def SqlDb.source (db : SqlDb) (name : List Char) : Option SqlTable :=
  if sameName name "sqlite_master".toList then some db.master else db.table name

/-- The value of the column of that name in a row, with its collation. -/
def columnOf (columns : List SqlColumn) (row : List SqlValue) (name : List Char) : Option (SqlValue × List Char) :=
  match columns, row with
  | c :: cs, v :: vs => if sameName c.name name then some (v, c.collate) else columnOf cs vs name
  | _, _ => none

/-- The value of an operand, its collation if it is a column, and the parameters that are left. A name in double quotes that is not a column is a
text (SQLITE_DQS); a name without quotes that is not a column is an error, found by `operandKnown`. -/
def operandValue (columns : List SqlColumn) (row : List SqlValue) : SqlOperand → List SqlValue → SqlValue × Option (List Char) × List SqlValue
  | .quoted n, args =>
    match columnOf columns row n with
    | some (v, c) => (v, some c, args)
    | none => (.text (utf8 n), none, args)
  | .word n, args =>
    match columnOf columns row n with
    | some (v, c) => (v, some c, args)
    | none => (.null, none, args)
  | .text s, args => (.text (utf8 s), none, args)
  | .param, v :: args => (v, none, args)
  | .param, [] => (.null, none, [])

/-- Whether a row satisfies all the conditions. -/
def rowMatches (lib : SqlLib) (columns : List SqlColumn) (row : List SqlValue) : List (SqlOperand × SqlOperand) → List SqlValue → Bool
  | [], _ => true
  | (a, b) :: rest, args =>
    let (x, c, args) := operandValue columns row a args
    let (y, d, args) := operandValue columns row b args
    sqlEq lib ((c.or d).getD "BINARY".toList) x y && rowMatches lib columns row rest args

/-- The names without quotes are columns. -/
def operandKnown (columns : List SqlColumn) : SqlOperand → Bool
  | .word n => columns.any (fun c => sameName c.name n)
  | _ => true

/-- The number of parameters of the conditions. -/
def countParams : List (SqlOperand × SqlOperand) → Nat
  | [] => 0
  | (a, b) :: rest => (if a = .param then 1 else 0) + (if b = .param then 1 else 0) + countParams rest

/-- The value of a column in the list of results: a name in double quotes that is not a column is a text. -/
def resultValue (columns : List SqlColumn) (row : List SqlValue) (name : List Char) : SqlValue :=
  match columnOf columns row name with
  | some (v, _) => v
  | none => .text (utf8 name)

/-- The values of the searched columns. -/
def searchedValues (settings : FtsSettings) (columns : List SqlColumn) (row : List SqlValue) : List SqlValue :=
  ((columns.zip row).filter (fun e => !settings.unindexed.any (sameName e.1.name))).map (·.2)

/-- The names of the searched columns. -/
def searchedColumns (settings : FtsSettings) (columns : List SqlColumn) : List (List Char) :=
  (columns.filter (fun c => !settings.unindexed.any (sameName c.name))).map (·.name)

/-- `SELECT column FROM table WHERE table MATCH ?`: the rows that are read before the end or an error. If the table is not a full-text table or the expression is refused,
the error comes with the first row. -/
def sqlSearch (lib : SqlLib) (db : SqlDb) (text column table subject : List Char) (args : List SqlValue) : Res (List (List SqlValue)) :=
  match db.source table, args with
  | none, _ => .error (.err "no such table")
  | some t, [expression] =>
    match t.fts with
    | none => .ok []
    | some settings =>
      if !sameName subject table then .error (.err "not modelled")
      else
        match lib.matches settings.tokenize (searchedColumns settings t.columns) expression with
        | none => .ok []
        | some found =>
          let rows := lib.plan text (t.rows.filter (fun row => found (searchedValues settings t.columns row)))
          .ok (rows.map (fun row => [resultValue t.columns row column]))
  | some _, _ => .error (.err "not enough args to execute query")

/-- `db.Query`: the rows that are read one after the other. -/
def sqlQuery (lib : SqlLib) (db : SqlDb) (text : List Char) (args : List SqlValue) : Res (List (List SqlValue)) :=
  match parseSql text with
  | some (.select columns table conditions) =>
    match db.source table with
    | none => .error (.err "no such table")
    | some t =>
      if !conditions.all (fun (a, b) => operandKnown t.columns a && operandKnown t.columns b) then .error (.err "no such column")
      else if countParams conditions ≠ args.length then .error (.err "not enough args to execute query")
      else
        let rows := lib.plan text (t.rows.filter (fun row => rowMatches lib t.columns row conditions args))
        .ok (rows.map (fun row => columns.map (resultValue t.columns row)))
  | some (.count table conditions) =>
    match db.source table with
    | none => .error (.err "no such table")
    | some t =>
      if !conditions.all (fun (a, b) => operandKnown t.columns a && operandKnown t.columns b) then .error (.err "no such column")
      else if countParams conditions ≠ args.length then .error (.err "not enough args to execute query")
      else .ok [[.int (t.rows.filter (fun row => rowMatches lib t.columns row conditions args)).length]]
  | some _ => .error (.err "not a query")
  | none =>
    match parseFts text with
    | some (.search column table subject) => sqlSearch lib db text column table subject args
    | _ => .error (.err "syntax error")

/-- The collations that SQLite has. -/
def collations : List (List Char) := ["BINARY".toList, "NOCASE".toList, "RTRIM".toList]

/-- No two columns have the same name. -/
def differentColumns : List SqlColumn → Bool
  | [] => true
  | c :: cs => !cs.any (fun d => sameName c.name d.name) && differentColumns cs

/-- The row that an INSERT makes: for each column of the table the given value, or NULL. -/
def insertedRow (columns : List SqlColumn) (names : List (List Char)) (args : List SqlValue) : List SqlValue :=
  columns.map (fun c => ((columnOf (names.map (fun n => ⟨n, []⟩)) args c.name).map (·.1)).getD .null)

/-- The words of a text between spaces. -/
def spaceWords : List Char → List (List Char)
  | [] => []
  | c :: cs =>
    if c = ' ' then [] :: spaceWords cs
    else
      match spaceWords cs with
      | [] => [[c]]
      | w :: ws => (c :: w) :: ws

/-- The number that digits stand for. -/
def ftsDigits (digits : List Char) : Nat := digits.foldl (fun n d => 10 * n + (d.toNat - 48)) 0

/-- The `prefix` option of FTS5: at most 31 lengths from 1 to 999, separated by spaces. (FTS5 reads commas as well, which are not used here.) -/
def ftsPrefixOk (value : List Char) : Bool :=
  let words := (spaceWords value).filter (fun w => w ≠ [])
  decide (words.length ≤ 31) && words.all (fun w => w.all (fun c => '0' ≤ c && c ≤ '9') && decide (1 ≤ ftsDigits w) && decide (ftsDigits w ≤ 999))

/-- The tokenizers of FTS5. Simplification: the arguments behind the name of a tokenizer are not checked. -/
def ftsTokenizerOk (value : List Char) : Bool :=
  match (spaceWords value).filter (fun w => w ≠ []) with
  | [] => false
  | w :: _ => ["unicode61".toList, "ascii".toList, "porter".toList, "trigram".toList].any (sameName w)

/-- The options that FTS5 takes. -/
def ftsOptionsOk (options : List (List Char × List Char)) : Bool :=
  options.all (fun o => (o.1 = "prefix".toList && ftsPrefixOk o.2) || (o.1 = "tokenize".toList && ftsTokenizerOk o.2))

/-- `CREATE VIRTUAL TABLE ... USING fts5(...)`: the columns cannot be called `rank` or `rowid`, and must differ from each other and from the hidden columns, which have the names of the table
and `rank`. -/
def sqlCreateFts (db : SqlDb) (name : List Char) (columns : List (List Char × Bool)) (options : List (List Char × List Char)) : Res SqlDb :=
  if (db.table name).isSome then .error (.err "table already exists")
  else if db.hasIndex name then .error (.err "there is already an index of that name")
  else if columns.any (fun c => sameName c.1 "rank".toList || sameName c.1 "rowid".toList) then .error (.err "reserved fts5 column name")
  else if !ftsOptionsOk options then .error (.err "malformed directive")
  else if !differentColumns ((columns.map (fun c => ⟨c.1, "BINARY".toList⟩)) ++ [⟨name, "BINARY".toList⟩]) then .error (.err "duplicate column name")
  else .ok { db with tables := db.tables ++ [{
    name := name
    columns := columns.map (fun c => ⟨c.1, "BINARY".toList⟩)
    rows := []
    fts := some { tokenize := ((options.find? (fun o => o.1 = "tokenize".toList)).map (·.2)).getD "unicode61".toList,
                  unindexed := (columns.filter (·.2)).map (·.1) } }] }

/-- `db.Exec`: the database after the statement. Limits on numbers of columns and on lengths are not modelled; NOT NULL is not checked (the values concerned
are never NULL); the names of the statements below never begin with the reserved `sqlite_`. -/
def sqlExec (db : SqlDb) (text : List Char) (args : List SqlValue) : Res SqlDb :=
  match parseSql text with
  | some (.createTable ifNotExists name columns) =>
    if (db.table name).isSome then
      if ifNotExists then .ok db else .error (.err "table already exists")
    else if db.hasIndex name then .error (.err "there is already an index of that name")
    else if !differentColumns columns then .error (.err "duplicate column name")
    else if !columns.all (fun c => collations.any (sameName c.collate)) then .error (.err "no such collation sequence")
    else .ok { db with tables := db.tables ++ [{ name := name, columns := columns, rows := [] }] }
  | some (.createIndex name table column) =>
    match db.table table with
    | none => .error (.err "no such table")
    | some t =>
      if (db.table name).isSome then .error (.err "there is already a table of that name")
      else if db.hasIndex name then .error (.err "index already exists")
      else if !t.columns.any (fun c => sameName c.name column) then .error (.err "no such column")
      else .ok { db with indexes := db.indexes ++ [{ name := name, table := t.name, column := column }] }
  | some (.deleteAll table) =>
    match db.table table with
    | none => .error (.err "no such table")
    | some t => .ok { db with tables := db.tables.map (fun u => if u.name = t.name then { u with rows := [] } else u) }
  | some (.insert table names params) =>
    match db.table table with
    | none => .error (.err "no such table")
    | some t =>
      if params ≠ args.length then .error (.err "not enough args to execute query")
      else if !names.all (fun n => t.columns.any (fun c => sameName c.name n)) then .error (.err "table has no such column")
      else .ok { db with tables := db.tables.map (fun u => if u.name = t.name then { u with rows := u.rows ++ [insertedRow t.columns names args] } else u) }
  | some _ => .error (.err "not modelled")
  | none =>
    match parseFts text with
    | some (.create name columns options) => sqlCreateFts db name columns options
    | _ => .error (.err "syntax error")

end Rodb
