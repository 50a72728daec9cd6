import Verif.Proofs.Sql
/-
  The statements that the SQL texts of the SQLite index mean.
-/
namespace Rodb

set_option maxRecDepth 8000

theorem Lexes.append_top' {a b b' : List Char} {c : Char} {ts us : List SqlToken} (h : Lexes a ts) (hb : b = c :: b') (hc : isSeparator c = true) (h' : LexesTop b us) :
    LexesTop (a ++ b) (ts ++ us) := by
  subst hb
  exact h.append_top hc h'

/-! ### Lists of pieces -/

/-- Pieces joined by a separator. -/
def interTokens (sep : SqlToken) : List (List SqlToken) → List SqlToken
  | [] => []
  | [p] => p
  | p :: q :: rest => p ++ sep :: interTokens sep (q :: rest)

theorem splitAtToken_append {sep : SqlToken} {p : List SqlToken} (h : sep ∉ p) (rest : List SqlToken) :
    splitAtToken sep (p ++ sep :: rest) = p :: splitAtToken sep rest := by
  induction p with
  | nil => simp [splitAtToken]
  | cons t p ih =>
    have ht : ¬ t = sep := fun e => h (e ▸ .head _)
    simp only [List.cons_append, splitAtToken, if_neg ht, ih (fun e => h (.tail _ e))]

theorem splitAtToken_none {sep : SqlToken} {p : List SqlToken} (h : sep ∉ p) : splitAtToken sep p = [p] := by
  induction p with
  | nil => rfl
  | cons t p ih =>
    have ht : ¬ t = sep := fun e => h (e ▸ .head _)
    simp only [splitAtToken, if_neg ht, ih (fun e => h (.tail _ e))]

theorem splitAtToken_inter {sep : SqlToken} : ∀ {ps : List (List SqlToken)}, ps ≠ [] → (∀ p ∈ ps, sep ∉ p) → splitAtToken sep (interTokens sep ps) = ps
  | [], h, _ => (h rfl).elim
  | [p], _, h => splitAtToken_none (h p (.head _))
  | p :: q :: rest, _, h => by
    rw [interTokens, splitAtToken_append (h p (.head _)), splitAtToken_inter (by simp) (fun x hx => h x (.tail _ hx))]

theorem cutAt_append {stop : SqlToken} {a : List SqlToken} (h : stop ∉ a) (rest : List SqlToken) : cutAt stop (a ++ stop :: rest) = some (a, rest) := by
  induction a with
  | nil => simp [cutAt]
  | cons t a ih =>
    have ht : ¬ t = stop := fun e => h (e ▸ .head _)
    simp only [List.cons_append, cutAt, if_neg ht, ih (fun e => h (.tail _ e)), Option.map_some]

theorem mem_inter {sep t : SqlToken} (hs : t ≠ sep) : ∀ {ps : List (List SqlToken)}, (∀ p ∈ ps, t ∉ p) → t ∉ interTokens sep ps
  | [], _ => by simp [interTokens]
  | [p], h => h p (.head _)
  | p :: q :: rest, h => by
    simp only [interTokens, List.mem_append, List.mem_cons, not_or]
    exact ⟨h p (.head _), hs, mem_inter hs (fun x hx => h x (.tail _ hx))⟩

theorem allSome_map {α β γ : Type} (f : α → Option β) (g : γ → α) (k : γ → β) : ∀ {l : List γ}, (∀ x ∈ l, f (g x) = some (k x)) → allSome f (l.map g) = some (l.map k)
  | [], _ => rfl
  | x :: l, h => by
    simp only [List.map_cons, allSome, h x (.head _), Option.bind_eq_bind, Option.bind_some,
      allSome_map f g k (l := l) (fun y hy => h y (.tail _ hy))]

theorem lexes_join {γ : Type} {sepText : List Char} {sep : SqlToken} {d : Char} {b : List Char} (hs : sepText = d :: b) (hd : isSeparator d = true)
    (hsep : LexesTop (d :: b) [sep]) (f : γ → List Char) (g : γ → List SqlToken) :
    ∀ {l : List γ}, (∀ x ∈ l, Lexes (f x) (g x)) → Lexes (joinTexts sepText (l.map f)) (interTokens sep (l.map g))
  | [], _ => ⟨[], .top, [], rfl, rfl, rfl, by simp⟩
  | [x], h => h x (.head _)
  | x :: y :: rest, h => by
    have ih := lexes_join hs hd hsep f g (l := y :: rest) (fun z hz => h z (.tail _ hz))
    have h1 := (h x (.head _)).append_top hd hsep
    have h2 := h1.append ih
    subst hs
    simpa [joinTexts, interTokens] using h2

/-! ### Names -/

/-- A name that SQLite can read: without a NUL character. -/
def Plain (name : String) : Prop := '\x00' ∉ name.toList

instance (name : String) : Decidable (Plain name) := inferInstanceAs (Decidable (_ ∉ _))

/-- The name of the metadata table of an index. -/
def metadataTable (name : String) : List Char := readName ("rodb_".toList ++ name.toList ++ "_metadata".toList)

/-- The name of the table of an index. -/
def indexTable (name : String) : List Char := readName ("rodb_".toList ++ name.toList ++ "_index".toList)

/-- The name of the SQL index of a property. -/
def indexName (name property : String) : List Char := readName ("index_".toList ++ name.toList ++ "_".toList ++ property.toList)

/-- The name of the column of a property. -/
def propertyColumn (property : String) : List Char := readName ("property_".toList ++ property.toList)

theorem lexes_metadataTable (n : String) : Lexes (metadataTableIdentifier n) [.quoted (metadataTable n)] := lexes_identifier _

theorem lexes_indexTable (n : String) : Lexes (indexTableIdentifier n) [.quoted (indexTable n)] := lexes_identifier _

theorem lexes_indexName (n p : String) : Lexes (indexIdentifier n p) [.quoted (indexName n p)] := lexes_identifier _

theorem lexes_propertyColumn (p : String) : Lexes (propertyIdentifier p) [.quoted (propertyColumn p)] := lexes_identifier _

/-! ### Statements -/

/-- The columns of the metadata table. -/
def metadataColumns : List SqlColumn :=
  ["version", "inputFileModificationTime", "inputFileSize", "completed"].map (fun n => ⟨n.toList, "BINARY".toList⟩)

theorem parse_createMetadata (n : String) : parseSql (createMetadataText n) = some (.createTable true (metadataTable n) metadataColumns) := by
  have h1 : LexesTop "\n\t\tCREATE TABLE IF NOT EXISTS ".toList [kw "CREATE", kw "TABLE", kw "IF", kw "NOT", kw "EXISTS"] := by rfl
  have h2 := h1.append (lexes_metadataTable n)
  have h3 := h2.append_top (c := ' ') (by rfl) (show LexesTop (' ' :: "(\n\t\t\t\"version\" INTEGER NOT NULL,\n\t\t\t\"inputFileModificationTime\" INTEGER NOT NULL,\n\t\t\t\"inputFileSize\" INTEGER NOT NULL,\n\t\t\t\"completed\" BOOLEAN NOT NULL\n\t\t);\n\t".toList)
      [.sym '(', .quoted "version".toList, kw "INTEGER", kw "NOT", kw "NULL", .sym ',', .quoted "inputFileModificationTime".toList, kw "INTEGER", kw "NOT", kw "NULL", .sym ',',
       .quoted "inputFileSize".toList, kw "INTEGER", kw "NOT", kw "NULL", .sym ',', .quoted "completed".toList, kw "BOOLEAN", kw "NOT", kw "NULL", .sym ')', .sym ';'] by rfl)
  have h4 := h3.lexes.sql
  rw [parseSql, show lexSql (createMetadataText n) = _ from h4]
  rfl

theorem parse_deleteMetadata (n : String) : parseSql (deleteMetadataText n) = some (.deleteAll (metadataTable n)) := by
  have h1 : LexesTop "\n\t\tDELETE FROM ".toList [kw "DELETE", kw "FROM"] := by rfl
  have h2 := h1.append (lexes_metadataTable n)
  have h3 := h2.append_top (c := ';') (by rfl) (show LexesTop (';' :: "\n\t".toList) [.sym ';'] by rfl)
  rw [parseSql, show lexSql (deleteMetadataText n) = _ from h3.lexes.sql]
  rfl

theorem parse_insertMetadata (n : String) :
    parseSql (insertMetadataText n) = some (.insert (metadataTable n) (metadataColumns.map (·.name)) 4) := by
  have h1 : LexesTop "\n\t\t\tINSERT INTO ".toList [kw "INSERT", kw "INTO"] := by rfl
  have h2 := h1.append (lexes_metadataTable n)
  have h3 := h2.append_top (c := ' ') (by rfl) (show LexesTop (' ' :: "(\n\t\t\t\t\"version\",\n\t\t\t\t\"inputFileModificationTime\",\n\t\t\t\t\"inputFileSize\",\n\t\t\t\t\"completed\"\n\t\t\t) VALUES (?, ?, ?, ?);\n\t\t".toList)
      [.sym '(', .quoted "version".toList, .sym ',', .quoted "inputFileModificationTime".toList, .sym ',', .quoted "inputFileSize".toList, .sym ',', .quoted "completed".toList, .sym ')',
       kw "VALUES", .sym '(', .sym '?', .sym ',', .sym '?', .sym ',', .sym '?', .sym ',', .sym '?', .sym ')', .sym ';'] by rfl)
  rw [parseSql, show lexSql (insertMetadataText n) = _ from h3.lexes.sql]
  rfl

theorem parse_loadMetadata (n : String) :
    parseSql (loadMetadataText n) = some (.select (metadataColumns.map (·.name)) (metadataTable n) []) := by
  have h1 : LexesTop "\n\t\tSELECT\n\t\t\t\"version\",\n\t\t\t\"inputFileModificationTime\",\n\t\t\t\"inputFileSize\",\n\t\t\t\"completed\"\n\t\tFROM ".toList
      [kw "SELECT", .quoted "version".toList, .sym ',', .quoted "inputFileModificationTime".toList, .sym ',', .quoted "inputFileSize".toList, .sym ',', .quoted "completed".toList, kw "FROM"] := by rfl
  have h2 := h1.append (lexes_metadataTable n)
  have h3 := h2.append_top (c := ';') (by rfl) (show LexesTop (';' :: "\n\t".toList) [.sym ';'] by rfl)
  rw [parseSql, show lexSql (loadMetadataText n) = _ from h3.lexes.sql]
  rfl

theorem parse_hasMetadata (n : String) :
    parseSql (hasMetadataText n) = some (.count "sqlite_master".toList [(.word "type".toList, .text "table".toList), (.word "name".toList, .quoted (metadataTable n))]) := by
  have h1 : LexesTop "\n\t\tSELECT COUNT(*)\n\t\tFROM sqlite_master\n\t\tWHERE type = 'table'\n\t\tAND name = ".toList
      [kw "SELECT", kw "COUNT", .sym '(', .sym '*', .sym ')', kw "FROM", kw "sqlite_master", kw "WHERE", kw "type", .sym '=', .text "table".toList, kw "AND", kw "name", .sym '='] := by rfl
  have h2 := h1.append (lexes_metadataTable n)
  have h3 := h2.append_top (c := ';') (by rfl) (show LexesTop (';' :: "\n\t".toList) [.sym ';'] by rfl)
  rw [parseSql, show lexSql (hasMetadataText n) = _ from h3.lexes.sql]
  rfl

theorem parse_createIndex (c : SqliteDecl) (p : String) :
    parseSql (createIndexText c p) = some (.createIndex (indexName c.name p) (indexTable c.name) (propertyColumn p)) := by
  have h1 : LexesTop "\n\t\t\tCREATE INDEX ".toList [kw "CREATE", kw "INDEX"] := by rfl
  have h2 := h1.append (lexes_indexName c.name p)
  have h3 := h2.append_top (c := ' ') (by rfl) (show LexesTop (' ' :: "ON ".toList) [kw "ON"] by rfl)
  have h4 := h3.append (lexes_indexTable c.name)
  have h5 := h4.append_top (c := ' ') (by rfl) (show LexesTop (' ' :: "(".toList) [.sym '('] by rfl)
  have h6 := h5.append (lexes_propertyColumn p)
  have h7 := h6.append_top (c := ')') (by rfl) (show LexesTop (')' :: ";\n\t\t".toList) [.sym ')', .sym ';'] by rfl)
  rw [parseSql, show lexSql (createIndexText c p) = _ from h7.lexes.sql]
  rfl

theorem parse_countIndex (n : String) : parseSql ("SELECT COUNT(1) FROM ".toList ++ indexTableIdentifier n ++ ";".toList) = some (.count (indexTable n) []) := by
  have h1 : LexesTop "SELECT COUNT(1) FROM ".toList [kw "SELECT", kw "COUNT", .sym '(', kw "1", .sym ')', kw "FROM"] := by rfl
  have h2 := h1.append (lexes_indexTable n)
  have h3 := h2.append_top (c := ';') (by rfl) (show LexesTop (';' :: []) [.sym ';'] by rfl)
  rw [parseSql, show lexSql ("SELECT COUNT(1) FROM ".toList ++ indexTableIdentifier n ++ ";".toList) = _ from h3.lexes.sql]
  rfl

/-- The column of a property. -/
def propertySqlColumn (p : SqlitePropertyDecl) : SqlColumn := ⟨propertyColumn p.name, p.collate.toList⟩

/-- The columns of the table of an index. -/
def indexColumns (c : SqliteDecl) : List SqlColumn := ⟨"offset".toList, "BINARY".toList⟩ :: c.properties.map propertySqlColumn

/-- What the validation guarantees for the collation of a property: a word. -/
def CollateWord (s : String) : Prop := Lexes s.toList [.word s.toList]

theorem parse_createTable {c : SqliteDecl} (hc : ∀ p ∈ c.properties, CollateWord p.collate) (hne : c.properties ≠ []) :
    parseSql (createTableText c) = some (.createTable false (indexTable c.name) (indexColumns c)) := by
  have h1 : LexesTop "\n\t\tCREATE TABLE ".toList [kw "CREATE", kw "TABLE"] := by rfl
  have h2 := h1.append (lexes_indexTable c.name)
  have h3 := h2.append_top (c := ' ') (by rfl) (show LexesTop (' ' :: "(\n\t\t\t\"offset\" INTEGER NOT NULL,\n\t\t\t".toList)
    [.sym '(', .quoted "offset".toList, kw "INTEGER", kw "NOT", kw "NULL", .sym ','] by rfl)
  have hcol : ∀ p ∈ c.properties, Lexes (propertyIdentifier p.name ++ " BLOB COLLATE ".toList ++ p.collate.toList)
      [.quoted (propertyColumn p.name), kw "BLOB", kw "COLLATE", .word p.collate.toList] := fun p hm =>
    ((lexes_propertyColumn p.name).append_top (c := ' ') (by rfl) (show LexesTop (' ' :: "BLOB COLLATE ".toList) [kw "BLOB", kw "COLLATE"] by rfl)).append (hc p hm)
  have h4 := h3.append (lexes_join (sepText := ", ".toList) (d := ',') (b := [' ']) rfl (by rfl) (show LexesTop _ [.sym ','] by rfl) _ _ hcol)
  have h5 := h4.append_top (c := '\n') (by rfl) (show LexesTop ('\n' :: "\t\t);\n\t".toList) [.sym ')', .sym ';'] by rfl)
  generalize hg : (fun p : SqlitePropertyDecl => [.quoted (propertyColumn p.name), kw "BLOB", kw "COLLATE", .word p.collate.toList]) = g at h5
  have hgp : ∀ p, g p = [.quoted (propertyColumn p.name), kw "BLOB", kw "COLLATE", .word p.collate.toList] := fun p => by rw [← hg]
  have hbody : ∀ sep : Char, ∀ p ∈ c.properties, SqlToken.sym sep ∉ g p := by
    intro sep p _
    rw [hgp]
    simp [kw]
  rw [parseSql, show lexSql (createTableText c) = _ from h5.lexes.sql]
  have hinter : [.quoted "offset".toList, kw "INTEGER", kw "NOT", kw "NULL", .sym ','] ++ interTokens (.sym ',') (c.properties.map g) =
      interTokens (.sym ',') ([.quoted "offset".toList, kw "INTEGER", kw "NOT", kw "NULL"] :: c.properties.map g) := by
    cases hcp : c.properties with
    | nil => exact (hne hcp).elim
    | cons p ps => rfl
  have hcut := cutAt_append (stop := .sym ')') (a := interTokens (.sym ',') ([.quoted "offset".toList, kw "INTEGER", kw "NOT", kw "NULL"] :: c.properties.map g))
    (mem_inter (by simp) (by
      intro p hm
      rcases List.mem_cons.1 hm with rfl | hm
      · simp [kw]
      · obtain ⟨q, hq, rfl⟩ := List.mem_map.1 hm
        exact hbody ')' q hq)) []
  have hsplit := splitAtToken_inter (sep := .sym ',') (ps := [.quoted "offset".toList, kw "INTEGER", kw "NOT", kw "NULL"] :: c.properties.map g) (by simp) (by
      intro p hm
      rcases List.mem_cons.1 hm with rfl | hm
      · simp [kw]
      · obtain ⟨q, hq, rfl⟩ := List.mem_map.1 hm
        exact hbody ',' q hq)
  have hall : allSome parseColumn (c.properties.map g) = some (c.properties.map propertySqlColumn) := by
    refine allSome_map _ _ _ (fun p hm => ?_)
    rw [hgp]
    rfl
  have htok : [kw "CREATE", kw "TABLE"] ++ [.quoted (indexTable c.name)] ++ [.sym '(', .quoted "offset".toList, kw "INTEGER", kw "NOT", kw "NULL", .sym ','] ++
      interTokens (.sym ',') (c.properties.map g) ++ [.sym ')', .sym ';'] =
      (kw "CREATE" :: kw "TABLE" :: .quoted (indexTable c.name) :: .sym '(' ::
        (interTokens (.sym ',') ([.quoted "offset".toList, kw "INTEGER", kw "NOT", kw "NULL"] :: c.properties.map g) ++ .sym ')' :: [])) ++ [SqlToken.sym ';'] := by
    rw [← hinter]
    simp
  simp only [Option.bind_eq_bind, Option.bind_some]
  rw [htok, List.getLast?_concat]
  simp only [if_true, List.dropLast_concat]
  have he : expectTokens [kw "IF", kw "NOT", kw "EXISTS"] (.quoted (indexTable c.name) :: .sym '(' ::
        (interTokens (.sym ',') ([.quoted "offset".toList, kw "INTEGER", kw "NOT", kw "NULL"] :: c.properties.map g) ++ .sym ')' :: [])) = none := by rfl
  simp only [parseStatement, and_self, if_true, he, parseTable, Option.bind_eq_bind, Option.bind_some]
  simp only [expectTokens, if_true, Option.bind_some, hcut, hsplit]
  have : allSome parseColumn ([.quoted "offset".toList, kw "INTEGER", kw "NOT", kw "NULL"] :: c.properties.map g) = some (indexColumns c) := by
    simp only [allSome, hall, show parseColumn [.quoted "offset".toList, kw "INTEGER", kw "NOT", kw "NULL"] = some ⟨"offset".toList, "BINARY".toList⟩ by rfl,
      Option.bind_eq_bind, Option.bind_some]
    rfl
  rw [this]
  rfl

theorem createTable_body : LexesTop " (\n\t\t\t\"offset\" INTEGER NOT NULL,\n\t\t\t".toList
    [.sym '(', .quoted "offset".toList, kw "INTEGER", kw "NOT", kw "NULL", .sym ','] := by rfl

theorem createTable_body_space : ∃ b, " (\n\t\t\t\"offset\" INTEGER NOT NULL,\n\t\t\t".toList = ' ' :: b := ⟨_, rfl⟩

theorem createTable_end : LexesTop "\n\t\t);\n\t".toList [.sym ')', .sym ';'] := by rfl

theorem createTable_head : LexesTop "\n\t\tCREATE TABLE ".toList [kw "CREATE", kw "TABLE"] := by rfl

theorem parse_noColumns (name : List Char) :
    parseStatement [kw "CREATE", kw "TABLE", .quoted name, .sym '(', .quoted "offset".toList, kw "INTEGER", kw "NOT", kw "NULL", .sym ',', .sym ')'] = none := by
  simp only [parseStatement, and_self, if_true,
    show expectTokens [kw "IF", kw "NOT", kw "EXISTS"] [.quoted name, .sym '(', .quoted "offset".toList, kw "INTEGER", kw "NOT", kw "NULL", .sym ',', .sym ')'] = none by rfl,
    parseTable, Option.bind_eq_bind, Option.bind_some]
  rfl

theorem parse_of_lexes {text : List Char} {ts us : List SqlToken} (h : Lexes text ts) (hu : ts = us ++ [.sym ';']) : parseSql text = parseStatement us := by
  subst hu
  simp only [parseSql, h.sql, Option.bind_eq_bind, Option.bind_some, List.getLast?_concat, if_true, List.dropLast_concat]

theorem joined_nil {a b f : List Char} {l : List SqlitePropertyDecl} {g : SqlitePropertyDecl → List Char} (h : l = []) {ts : List SqlToken} (hl : Lexes (a ++ b) ts) :
    Lexes (a ++ joinTexts f (l.map g) ++ b) ts := by
  subst h
  simpa [joinTexts] using hl

theorem parse_createTable_empty {c : SqliteDecl} (hne : c.properties = []) : parseSql (createTableText c) = none :=
  createTable_body_space.elim (fun _ hb =>
    (parse_of_lexes (joined_nil hne (((createTable_head.append (lexes_indexTable c.name)).append_top' hb (by decide) createTable_body).append_top createTable_end).lexes) rfl).trans
      (parse_noColumns (indexTable c.name)))

theorem parseFts_noColumns {c : SqliteDecl} (hne : c.properties = []) : parseFts (createTableText c) = none :=
  createTable_body_space.elim (fun _ hb => by
    have h := (joined_nil (f := ", ".toList) (g := fun p => propertyIdentifier p.name ++ " BLOB COLLATE ".toList ++ p.collate.toList) hne
      (((createTable_head.append (lexes_indexTable c.name)).append_top' hb (by decide) createTable_body).append_top createTable_end).lexes).sql
    unfold parseFts
    rw [show lexSql (createTableText c) = _ from h]
    rfl)

/-- The statement that inserts a row: its tokens. -/
theorem parse_insertTokens {table : List Char} {names : List (List Char)} (hne : names ≠ []) :
    parseStatement (kw "INSERT" :: kw "INTO" :: .quoted table :: .sym '(' :: (interTokens (.sym ',') (names.map (fun n => [SqlToken.quoted n])) ++ .sym ')' ::
      (kw "VALUES" :: .sym '(' :: (interTokens (.sym ',') (names.map (fun _ => [SqlToken.sym '?'])) ++ .sym ')' :: [])))) = some (.insert table names names.length) := by
  have hA : names.map (fun n => [SqlToken.quoted n]) ≠ [] := by simpa using hne
  have hB : names.map (fun _ => [SqlToken.sym '?']) ≠ [] := by simpa using hne
  have hAmem : ∀ s : Char, ∀ p ∈ names.map (fun n => [SqlToken.quoted n]), SqlToken.sym s ∉ p := by
    intro s p hm
    obtain ⟨q, _, rfl⟩ := List.mem_map.1 hm
    simp
  have hBall : ∀ p ∈ names.map (fun _ => [SqlToken.sym '?']), p = [SqlToken.sym '?'] := by
    intro p hm
    obtain ⟨q, _, rfl⟩ := List.mem_map.1 hm
    rfl
  have hBmem : ∀ s : Char, s ≠ '?' → ∀ p ∈ names.map (fun _ => [SqlToken.sym '?']), SqlToken.sym s ∉ p := by
    intro s hs p hm
    rw [hBall p hm]
    simpa using hs
  have hAcols : allSome parseQuoted (names.map (fun n => [SqlToken.quoted n])) = some names := by
    rw [allSome_map parseQuoted (fun n => [SqlToken.quoted n]) id (fun _ _ => rfl), List.map_id]
  simp only [parseStatement, parseTable, expectTokens, Option.bind_eq_bind, Option.bind_some, if_true, and_self, kw, SqlToken.word.injEq,
    show ¬ ("INSERT".toList = "CREATE".toList ∧ "INTO".toList = "TABLE".toList) by decide, show ¬ ("INSERT".toList = "CREATE".toList ∧ "INTO".toList = "INDEX".toList) by decide,
    show ¬ ("INSERT".toList = "DELETE".toList ∧ "INTO".toList = "FROM".toList) by decide, if_false]
  rw [cutAt_append (mem_inter (by simp) (hAmem ')'))]
  simp only [Option.bind_some, splitAtToken_inter hA (hAmem ','), hAcols, expectTokens, if_true]
  rw [cutAt_append (mem_inter (by simp) (hBmem ')' (by decide)))]
  simp only [Option.bind_some, splitAtToken_inter hB (hBmem ',' (by decide)), List.length_map]
  rw [if_pos]
  simp only [List.all_eq_true, decide_eq_true_eq, true_and, and_true]
  exact hBall

/-- The statement that inserts a row: its text, with a first column and one column for each element of a list. -/
theorem parse_insertText {γ : Type} {l : List γ} (hne : l ≠ []) (ident column : γ → List Char) (hid : ∀ x, Lexes (ident x) [.quoted (column x)]) (n : String)
    {mid mid' first : List Char} (hm : mid = ' ' :: mid') (hmid : LexesTop mid [.sym '(', .quoted first, .sym ',']) :
    parseSql ("\n\t\tINSERT INTO ".toList ++ indexTableIdentifier n ++ mid ++ joinTexts ", ".toList (l.map ident) ++ "\n\t\t) VALUES (?, ".toList ++
      joinTexts ", ".toList (l.map (fun _ => "?".toList)) ++ ");\n\t".toList) = some (.insert (indexTable n) (first :: l.map column) (l.length + 1)) := by
  have h1 : LexesTop "\n\t\tINSERT INTO ".toList [kw "INSERT", kw "INTO"] := by rfl
  have h2 := h1.append (lexes_indexTable n)
  have h3 := h2.append_top' hm (by decide) hmid
  have hsep : LexesTop (',' :: [' ']) [.sym ','] := by rfl
  have h4 := h3.append (lexes_join (l := l) (sepText := ", ".toList) (d := ',') (b := [' ']) (by rfl) (by rfl) hsep ident (fun x => [.quoted (column x)]) (fun x _ => hid x))
  have h5 := h4.append_top (c := '\n') (by rfl) (show LexesTop ('\n' :: "\t\t) VALUES (?, ".toList) [.sym ')', kw "VALUES", .sym '(', .sym '?', .sym ','] by rfl)
  have h6 := h5.append (lexes_join (l := l) (sepText := ", ".toList) (d := ',') (b := [' ']) (by rfl) (by rfl) hsep (fun _ : γ => "?".toList)
    (fun _ => [.sym '?']) (fun p _ => LexesTop.lexes (by rfl)))
  have h7 := h6.append_top (c := ')') (by rfl) (show LexesTop (')' :: ";\n\t".toList) [.sym ')', .sym ';'] by rfl)
  have e1 : ∀ (t : SqlToken) (g : γ → SqlToken), [t, .sym ','] ++ interTokens (.sym ',') (l.map (fun x => [g x])) = interTokens (.sym ',') ([t] :: l.map (fun x => [g x])) := by
    intro t g
    cases l with
    | nil => exact (hne rfl).elim
    | cons p ps => rfl
  have key := parse_insertTokens (table := indexTable n) (names := first :: l.map column) (by simp)
  simp only [List.map_cons, List.map_map, List.length_cons, List.length_map, Function.comp_def] at key
  rw [← e1 (.quoted first) (fun x => .quoted (column x)), ← e1 (.sym '?') (fun _ => .sym '?')] at key
  rw [← key]
  refine parse_of_lexes h7.lexes ?_
  simp

theorem parse_insert {c : SqliteDecl} (hne : c.properties ≠ []) :
    parseSql (insertText c) = some (.insert (indexTable c.name) ((indexColumns c).map (·.name)) (c.properties.length + 1)) := by
  have h := parse_insertText hne (fun p => propertyIdentifier p.name) (fun p => propertyColumn p.name) (fun p => lexes_propertyColumn p.name) c.name
    (mid := " (\n\t\t\t\"offset\",\n\t\t\t".toList) (first := "offset".toList) rfl (by rfl)
  simp only [indexColumns, List.map_cons, List.map_map, Function.comp_def, propertySqlColumn]
  exact h

theorem parse_select {c : SqliteDecl} {ps : List String} (hne : ps ≠ []) :
    parseSql (selectText c (ps.map (fun p => propertyIdentifier p ++ " = ?".toList))) =
      some (.select ["offset".toList] (indexTable c.name) (ps.map (fun p => (.quoted (propertyColumn p), .param)))) := by
  have h1 : LexesTop "\n\t\tSELECT \"offset\"\n\t\tFROM ".toList [kw "SELECT", .quoted "offset".toList, kw "FROM"] := by rfl
  have h2 := h1.append (lexes_indexTable c.name)
  have h3 := h2.append_top (c := '\n') (by rfl) (show LexesTop ('\n' :: "\t\tWHERE ".toList) [kw "WHERE"] by rfl)
  have hcl : ∀ p ∈ ps, Lexes (propertyIdentifier p ++ " = ?".toList) [.quoted (propertyColumn p), .sym '=', .sym '?'] := fun p _ =>
    ((lexes_propertyColumn p).append_top (c := ' ') (by rfl) (show LexesTop (' ' :: "= ?".toList) [.sym '=', .sym '?'] by rfl)).lexes
  have h4 := h3.append (lexes_join (sepText := " AND ".toList) (d := ' ') (b := "AND ".toList) rfl (by rfl) (show LexesTop _ [kw "AND"] by rfl) _ _ hcl)
  have h5 := h4.append_top (c := ';') (by rfl) (show LexesTop (';' :: "\n\t".toList) [.sym ';'] by rfl)
  generalize hA : ps.map (fun p => [SqlToken.quoted (propertyColumn p), .sym '=', .sym '?']) = A at h5
  have hAne : A ≠ [] := by rw [← hA]; simpa using hne
  have hAmem : ∀ p ∈ A, kw "AND" ∉ p := by
    intro p hm
    rw [← hA] at hm
    obtain ⟨q, _, rfl⟩ := List.mem_map.1 hm
    simp [kw]
  have hAc : allSome parseCondition A = some (ps.map (fun p => (.quoted (propertyColumn p), .param))) := by
    rw [← hA]
    exact allSome_map _ _ _ (fun p _ => rfl)
  rw [parseSql, show lexSql (selectText c _) = _ from h5.lexes.sql]
  have htok : [kw "SELECT", .quoted "offset".toList, kw "FROM"] ++ [.quoted (indexTable c.name)] ++ [kw "WHERE"] ++ interTokens (kw "AND") A ++ [.sym ';'] =
      (kw "SELECT" :: .quoted "offset".toList :: kw "FROM" :: .quoted (indexTable c.name) :: kw "WHERE" :: interTokens (kw "AND") A) ++ [SqlToken.sym ';'] := by
    simp
  simp only [Option.bind_eq_bind, Option.bind_some]
  rw [htok, List.getLast?_concat]
  simp only [if_true, List.dropLast_concat]
  simp only [parseStatement, kw, SqlToken.word.injEq, reduceCtorEq, and_false, if_false, if_true, cutAt, Option.map_some, Option.bind_eq_bind, Option.bind_some,
    parseFrom, expectTokens, parseTable, show splitAtToken (.sym ',') [.quoted "offset".toList] = [[.quoted "offset".toList]] by rfl,
    show allSome parseQuoted [[.quoted "offset".toList]] = some ["offset".toList] by rfl]
  rw [show SqlToken.word "AND".toList = kw "AND" from rfl, splitAtToken_inter hAne hAmem, hAc]
  rfl

theorem collateWord_allowed {s : String} (h : s ∈ collateAllowedValues) : CollateWord s := by
  simp only [collateAllowedValues, List.mem_cons, List.not_mem_nil, or_false] at h
  rcases h with rfl | rfl | rfl <;> exact ⟨[], _, _, rfl, rfl, rfl, by simp⟩

end Rodb
