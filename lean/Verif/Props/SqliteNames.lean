import Verif.Spec.Output
import Verif.Proofs.SqliteBuild
/-
  C60 and C61: the names of the SQL objects of an index that is stored in a SQLite database.
-/
namespace Rodb
open Rodb.Spec

/-! ### Concrete cases -/

/-- A SQLite that gives the rows in the order of their insertion and never fails. -/
def plainLib : SqlLib := { intEqReal := fun _ _ => false, plan := fun _ rows => rows, failsAfter := fun _ => none }

theorem plainLib_permutes : PlansPermute plainLib := fun _ _ => List.Perm.refl _

/-- A record with properties of type string. -/
def textRec (position : Int) (data : List (String × String)) : Rec :=
  { all := .ok (data.map (fun p => (p.1, .str (utf8 p.2.toList))))
    get := fun n => match mapGet data n with | some t => .ok (.str (utf8 t.toList)) | none => .error (.err "no such property")
    position := position }

/-- An input with these records. -/
def textInput (records : List Rec) : Input :=
  { name := "people", scan := .ok (records.map .ok), fetch := fun _ => .error (.err "not used"), size := .ok 30, modTimeNs := .ok 5000000000 }

/-- An index of that name on these properties, compared byte by byte. -/
def textIndex (name : String) (properties : List String) : SqliteDecl :=
  { name := name, dsn := "", input := "people", properties := properties.map (fun p => ⟨p, "BINARY"⟩) }

/-- A database without tables. -/
def emptyDb : SqlDb := ⟨[], []⟩

/-- An input with two records. -/
def twoPeople : Input := textInput [textRec 0 [("a", "x"), ("b", "y")], textRec 10 [("a", "x"), ("b", "z")]]

theorem accepted_textIndex {name : String} {properties : List String} (hn : NoNul name) (hp : ∀ p ∈ properties, NoNul p) : SqliteAccepted (textIndex name properties) := by
  refine ⟨hn, ?_, ?_⟩
  · intro p hm
    obtain ⟨q, hq, rfl⟩ := List.mem_map.1 hm
    exact hp q hq
  · intro p hm
    obtain ⟨q, hq, rfl⟩ := List.mem_map.1 hm
    exact .head _

/-! ### C60 -/

/-- The statements that the index sends, as SQLite reads them. Whatever the names of the index and of its properties contain — double quotes, semicolons,
comments, keywords — each statement names exactly the tables, columns and SQL indexes of that index and of those properties. -/
theorem C60_partial {c : SqliteDecl} (hc : SqliteAccepted c) (hne : c.properties ≠ []) :
    (let metadata := "rodb_".toList ++ c.name.toList ++ "_metadata".toList
     let table := "rodb_".toList ++ c.name.toList ++ "_index".toList
     let metadataNames := ["version".toList, "inputFileModificationTime".toList, "inputFileSize".toList, "completed".toList]
     parseSql (createMetadataText c.name) = some (.createTable true metadata (metadataNames.map (fun n => ⟨n, "BINARY".toList⟩))) ∧
     parseSql (deleteMetadataText c.name) = some (.deleteAll metadata) ∧
     parseSql (insertMetadataText c.name) = some (.insert metadata metadataNames 4) ∧
     parseSql (loadMetadataText c.name) = some (.select metadataNames metadata []) ∧
     parseSql (hasMetadataText c.name) =
       some (.count "sqlite_master".toList [(.word "type".toList, .text "table".toList), (.word "name".toList, .quoted metadata)]) ∧
     parseSql (createTableText c) = some (.createTable false table (columnsOf c)) ∧
     (∀ p ∈ c.properties, parseSql (createIndexText c p.name) =
       some (.createIndex ("index_".toList ++ c.name.toList ++ "_".toList ++ p.name.toList) table ("property_".toList ++ p.name.toList))) ∧
     parseSql (insertText c) = some (.insert table ((columnsOf c).map (·.name)) (c.properties.length + 1)) ∧
     ∀ asked : List String, asked ≠ [] → (∀ p ∈ asked, NoNul p) → parseSql (selectText c (asked.map (fun p => propertyIdentifier p ++ " = ?".toList))) =
       some (.select ["offset".toList] table (asked.map (fun p => (.quoted ("property_".toList ++ p.toList), .param))))) := by
  have hm : "rodb_".toList ++ c.name.toList ++ "_metadata".toList = metadataTable c.name := (metadataTable_plain hc.name).symm
  have ht : "rodb_".toList ++ c.name.toList ++ "_index".toList = indexTable c.name := (indexTable_plain hc.name).symm
  have hcol := columnsOf_eq hc
  rw [hm, ht, hcol]
  refine ⟨parse_createMetadata _, parse_deleteMetadata _, parse_insertMetadata _, parse_loadMetadata _, parse_hasMetadata _,
    parse_createTable (fun p hp => collateWord_allowed (hc.collate p hp)) hne, ?_, parse_insert hne, ?_⟩
  · intro p hp
    rw [← indexName_plain hc.name (hc.properties p hp), ← propertyColumn_plain (hc.properties p hp)]
    exact parse_createIndex c p.name
  · intro asked h1 h2
    rw [parse_select h1]
    congr 2
    refine List.map_congr_left (fun p hp => ?_)
    rw [propertyColumn_plain (h2 p hp)]

/-- The quoted form of a name without NUL is one token, which denotes that name; so different names have different quoted forms. -/
theorem C60_identifier_partial (a : List Char) (ha : '\x00' ∉ a) : lexSql (sanitizeIdentifier a) = some [.quoted a] := by
  rw [(lexes_identifier a).sql, readName_plain ha]

/-- A name that tries to leave its quotes. -/
example : SqliteAccepted (textIndex "x\" (y); DROP TABLE z; --" ["p\"\"q", "'"]) ∧ (textIndex "x\" (y); DROP TABLE z; --" ["p\"\"q", "'"]).properties ≠ [] :=
  ⟨accepted_textIndex (by unfold NoNul; decide +kernel) (by unfold NoNul; decide +kernel), by decide⟩

example : lexSql ("DELETE FROM ".toList ++ sanitizeIdentifier "a\"; DROP TABLE \"b".toList ++ ";".toList) =
    some [kw "DELETE", kw "FROM", .quoted "a\"; DROP TABLE \"b".toList, .sym ';'] := by decide +kernel

/-- A name with a NUL character does not denote itself: SQLite cuts it there, so two different names are the same identifier. -/
theorem C60_false : ∃ a b : List Char, a ≠ b ∧ sanitizeIdentifier a = sanitizeIdentifier b ∧ lexSql (sanitizeIdentifier a) = some [.quoted "rodb_x".toList] :=
  ⟨"rodb_x\x00y_index".toList, "rodb_x\x00z_index".toList, by decide +kernel, by decide +kernel, by decide +kernel⟩

/-! ### C61 -/

/-- The tables of two indexes are different unless the names of the indexes differ at most in the case of ASCII letters; a metadata table is never the table of
an index. The columns of two properties are different unless their names differ at most in the case of ASCII letters, and are never the column of the position. -/
theorem C61_partial (a b : String) (ha : NoNul a) (hb : NoNul b) :
    (sameName ("rodb_".toList ++ a.toList ++ "_index".toList) ("rodb_".toList ++ b.toList ++ "_index".toList) = sameName a.toList b.toList ∧
     lexSql (indexTableIdentifier a) = some [.quoted ("rodb_".toList ++ a.toList ++ "_index".toList)]) ∧
    (sameName ("rodb_".toList ++ a.toList ++ "_metadata".toList) ("rodb_".toList ++ b.toList ++ "_metadata".toList) = sameName a.toList b.toList ∧
     lexSql (metadataTableIdentifier a) = some [.quoted ("rodb_".toList ++ a.toList ++ "_metadata".toList)]) ∧
    sameName ("rodb_".toList ++ a.toList ++ "_metadata".toList) ("rodb_".toList ++ b.toList ++ "_index".toList) = false ∧
    (sameName ("property_".toList ++ a.toList) ("property_".toList ++ b.toList) = sameName a.toList b.toList ∧
     lexSql (propertyIdentifier a) = some [.quoted ("property_".toList ++ a.toList)]) ∧
    sameName "offset".toList ("property_".toList ++ a.toList) = false := by
  rw [← indexTable_plain ha, ← indexTable_plain hb, ← metadataTable_plain ha, ← metadataTable_plain hb, ← propertyColumn_plain ha, ← propertyColumn_plain hb]
  exact ⟨⟨sameName_index ha hb, (lexes_indexTable a).sql⟩, ⟨sameName_metadata ha hb, (lexes_metadataTable a).sql⟩, metadata_ne_index ha hb,
    ⟨sameName_property ha hb, (lexes_propertyColumn a).sql⟩, offset_ne_property a⟩

/-- The SQL indexes of the properties of one index are different, and never have the name of a table, whatever the index the table is of. -/
theorem C61_indexes_partial (n a b m : String) (hn : NoNul n) (ha : NoNul a) (hm : NoNul m) :
    sameName ("index_".toList ++ n.toList ++ "_".toList ++ a.toList) ("index_".toList ++ n.toList ++ "_".toList ++ b.toList) = sameName a.toList b.toList ∧
    lexSql (indexIdentifier n a) = some [.quoted ("index_".toList ++ n.toList ++ "_".toList ++ a.toList)] ∧
    sameName ("rodb_".toList ++ m.toList ++ "_index".toList) ("index_".toList ++ n.toList ++ "_".toList ++ a.toList) = false ∧
    sameName ("rodb_".toList ++ m.toList ++ "_metadata".toList) ("index_".toList ++ n.toList ++ "_".toList ++ a.toList) = false := by
  have hmm : SqliteAccepted (textIndex m []) := accepted_textIndex hm (by simp)
  obtain ⟨h1, h2⟩ := indexName_ne_table hmm hn ha
  have e1 := metadataTable_plain hm
  have e2 := indexTable_plain hm
  have e3 := indexName_plain hn ha
  refine ⟨sameName_append_left, ?_, ?_, ?_⟩
  · rw [(lexes_indexName n a).sql, e3]
  · rw [← e2, ← e3]
    exact h2
  · rw [← e1, ← e3]
    exact h1

example : NoNul "people" ∧ NoNul "a\"b" ∧ sameName "people".toList "a\"b".toList = false := ⟨by unfold NoNul; decide, by unfold NoNul; decide, by decide⟩

/-- Different indexes with different properties can have SQL indexes of the same name (the separator between the two names can be in either of them). The second
index then cannot be built in the database of the first one, although each of them can be built in a database of its own. -/
theorem C61_false : ∃ c d : SqliteDecl, SqliteAccepted c ∧ SqliteAccepted d ∧ sameName c.name.toList d.name.toList = false ∧
    (∃ p ∈ c.properties, ∃ q ∈ d.properties, indexIdentifier c.name p.name = indexIdentifier d.name q.name) ∧
    ∃ input, (newSqlite plainLib c input ⟨emptyDb, none⟩).1 = .ok () ∧ (newSqlite plainLib d input ⟨emptyDb, none⟩).1 = .ok () ∧
      ∃ e, (newSqlite plainLib d input ⟨(newSqlite plainLib c input ⟨emptyDb, none⟩).2.db, none⟩).1 = .error e :=
  ⟨textIndex "a" ["b_c"], textIndex "a_b" ["c"], accepted_textIndex (by unfold NoNul; decide) (by unfold NoNul; decide),
    accepted_textIndex (by unfold NoNul; decide) (by unfold NoNul; decide), by decide,
    ⟨⟨"b_c", "BINARY"⟩, .head _, ⟨"c", "BINARY"⟩, .head _, by decide +kernel⟩,
    textInput [], by decide +kernel, by decide +kernel, .err "index already exists", by decide +kernel⟩

/-- Indexes whose names differ in the case of letters share their tables: building the second one fails and makes the first one, complete before, unusable. -/
theorem C61_case_false : ∃ c d : SqliteDecl, SqliteAccepted c ∧ SqliteAccepted d ∧ c.name ≠ d.name ∧
    ∃ input, (let db := (newSqlite plainLib c input ⟨emptyDb, none⟩).2.db
      (newSqlite plainLib c input ⟨db, none⟩).1 = .ok () ∧ (∃ e, (newSqlite plainLib d input ⟨db, none⟩).1 = .error e) ∧
      ∃ e, (newSqlite plainLib c input ⟨(newSqlite plainLib d input ⟨db, none⟩).2.db, none⟩).1 = .error e) :=
  ⟨textIndex "people" ["b"], textIndex "People" ["b"], accepted_textIndex (by unfold NoNul; decide) (by unfold NoNul; decide),
    accepted_textIndex (by unfold NoNul; decide) (by unfold NoNul; decide), by decide, textInput [],
    by decide +kernel, ⟨.err "table already exists", by decide +kernel⟩, ⟨.err "The previous indexing process has not ended properly.", by decide +kernel⟩⟩

end Rodb
