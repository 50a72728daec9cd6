import Verif.Proofs.SqlText
/-
  What the statements of the SQLite index do to the tables of a database.
-/
namespace Rodb

/-! ### Names -/

theorem sameName_iff {a b : List Char} : sameName a b = true ↔ a.map Char.toLower = b.map Char.toLower := by
  simp [sameName]

theorem sameName_refl (a : List Char) : sameName a a = true := by simp [sameName]

theorem sameName_symm {a b : List Char} (h : sameName a b = true) : sameName b a = true := sameName_iff.2 (sameName_iff.1 h).symm

theorem sameName_trans {a b c : List Char} (h : sameName a b = true) (h' : sameName b c = true) : sameName a c = true :=
  sameName_iff.2 ((sameName_iff.1 h).trans (sameName_iff.1 h'))

theorem sameName_comm (a b : List Char) : sameName a b = sameName b a := by
  rw [Bool.eq_iff_iff]
  exact ⟨sameName_symm, sameName_symm⟩

theorem sameName_append_left {a b c : List Char} : sameName (a ++ b) (a ++ c) = sameName b c := by
  rw [Bool.eq_iff_iff, sameName_iff, sameName_iff, List.map_append, List.map_append, List.append_cancel_left_eq]

theorem sameName_append_right {a b c : List Char} : sameName (a ++ c) (b ++ c) = sameName a b := by
  rw [Bool.eq_iff_iff, sameName_iff, sameName_iff, List.map_append, List.map_append, List.append_cancel_right_eq]

theorem sameName_last {a b : List Char} {x y : Char} (h : x.toLower ≠ y.toLower) : sameName (a ++ [x]) (b ++ [y]) = false := by
  rw [Bool.eq_false_iff, ne_eq, sameName_iff]
  intro e
  rw [List.map_append, List.map_append] at e
  exact h (by simpa using (List.append_inj' e rfl).2)

theorem plain_append {a b : List Char} (ha : '\x00' ∉ a) (hb : '\x00' ∉ b) : '\x00' ∉ a ++ b := by
  simp [ha, hb]

theorem metadataTable_plain {n : String} (h : Plain n) : metadataTable n = "rodb_".toList ++ n.toList ++ "_metadata".toList :=
  readName_plain (plain_append (plain_append (by decide) h) (by decide))

theorem indexTable_plain {n : String} (h : Plain n) : indexTable n = "rodb_".toList ++ n.toList ++ "_index".toList :=
  readName_plain (plain_append (plain_append (by decide) h) (by decide))

theorem indexName_plain {n p : String} (h : Plain n) (hp : Plain p) : indexName n p = "index_".toList ++ n.toList ++ "_".toList ++ p.toList :=
  readName_plain (plain_append (plain_append (plain_append (by decide) h) (by decide)) hp)

theorem propertyColumn_plain {p : String} (h : Plain p) : propertyColumn p = "property_".toList ++ p.toList :=
  readName_plain (plain_append (by decide) h)

theorem sameName_metadata {a b : String} (ha : Plain a) (hb : Plain b) : sameName (metadataTable a) (metadataTable b) = sameName a.toList b.toList := by
  rw [metadataTable_plain ha, metadataTable_plain hb, sameName_append_right, sameName_append_left]

theorem sameName_index {a b : String} (ha : Plain a) (hb : Plain b) : sameName (indexTable a) (indexTable b) = sameName a.toList b.toList := by
  rw [indexTable_plain ha, indexTable_plain hb, sameName_append_right, sameName_append_left]

theorem sameName_property {a b : String} (ha : Plain a) (hb : Plain b) : sameName (propertyColumn a) (propertyColumn b) = sameName a.toList b.toList := by
  rw [propertyColumn_plain ha, propertyColumn_plain hb, sameName_append_left]

theorem metadata_ne_index {a b : String} (ha : Plain a) (hb : Plain b) : sameName (metadataTable a) (indexTable b) = false := by
  rw [metadataTable_plain ha, indexTable_plain hb,
    show "rodb_".toList ++ a.toList ++ "_metadata".toList = ("rodb_".toList ++ a.toList ++ "_metadat".toList) ++ ['a'] by
      rw [List.append_assoc _ "_metadat".toList]; rfl,
    show "rodb_".toList ++ b.toList ++ "_index".toList = ("rodb_".toList ++ b.toList ++ "_inde".toList) ++ ['x'] by
      rw [List.append_assoc _ "_inde".toList]; rfl]
  exact sameName_last (by decide)

/-! ### Tables -/

theorem table_congr (db : SqlDb) {a b : List Char} (h : sameName a b = true) : db.table a = db.table b := by
  unfold SqlDb.table
  congr 1
  funext t
  rw [Bool.eq_iff_iff]
  exact ⟨fun x => sameName_trans x h, fun x => sameName_trans x (sameName_symm h)⟩

theorem table_name {db : SqlDb} {n : List Char} {t : SqlTable} (h : db.table n = some t) : sameName t.name n = true := by
  have := List.find?_some h
  simpa using this

theorem table_mem {db : SqlDb} {n : List Char} {t : SqlTable} (h : db.table n = some t) : t ∈ db.tables := List.mem_of_find?_eq_some h

/-- The table of that name is now `x`, and the other tables are as before. -/
def Upd (name : List Char) (x : Option SqlTable) (db db' : SqlDb) : Prop := ∀ n, db'.table n = if sameName name n then x else db.table n

theorem Upd.same {name : List Char} {x : Option SqlTable} {db db' : SqlDb} (h : Upd name x db db') {n : List Char} (hn : sameName name n = true) : db'.table n = x := by
  rw [h n, if_pos hn]

theorem Upd.other {name : List Char} {x : Option SqlTable} {db db' : SqlDb} (h : Upd name x db db') {n : List Char} (hn : sameName name n = false) : db'.table n = db.table n := by
  rw [h n, hn]
  rfl

theorem upd_create {db : SqlDb} {t : SqlTable} (h : db.table t.name = none) : Upd t.name (some t) db { db with tables := db.tables ++ [t] } := by
  intro n
  by_cases hn : sameName t.name n = true
  · rw [if_pos hn]
    rw [table_congr db hn] at h
    simp only [SqlDb.table] at h ⊢
    rw [List.find?_append, h]
    simp [hn]
  · rw [if_neg hn]
    simp only [SqlDb.table]
    rw [List.find?_append]
    simp [hn]

theorem find?_map_name (f : SqlTable → SqlTable) (hf : ∀ t, (f t).name = t.name) (n : List Char) (l : List SqlTable) :
    (l.map f).find? (fun t => sameName t.name n) = (l.find? (fun t => sameName t.name n)).map f := by
  induction l with
  | nil => rfl
  | cons t l ih =>
    simp only [List.map_cons, List.find?_cons, hf]
    cases sameName t.name n
    · exact ih
    · rfl

theorem upd_modify {db : SqlDb} {name : List Char} {t : SqlTable} (h : db.table name = some t) (f : SqlTable → SqlTable) (hf : ∀ t, (f t).name = t.name) :
    Upd name (some (f t)) db { db with tables := db.tables.map (fun u => if u.name = t.name then f u else u) } := by
  intro n
  have hmap := find?_map_name (fun u => if u.name = t.name then f u else u) (by intro u; split <;> simp [hf]) n db.tables
  show List.find? _ _ = _
  rw [hmap]
  by_cases hn : sameName name n = true
  · rw [if_pos hn]
    rw [table_congr db hn] at h
    rw [show List.find? (fun t => sameName t.name n) db.tables = some t from h]
    simp
  · rw [if_neg hn]
    show _ = List.find? _ _
    cases hf' : List.find? (fun t => sameName t.name n) db.tables with
    | none => rfl
    | some u =>
      have hu : sameName u.name n = true := table_name (db := db) hf'
      have : ¬ u.name = t.name := by
        intro e
        exact hn (sameName_trans (sameName_symm (table_name h)) (e ▸ hu))
      simp [this]

/-! ### Effects of the statements -/

theorem exec_createMetadata {db db' : SqlDb} {n : String} {args : List SqlValue} (h : sqlExec db (createMetadataText n) args = .ok db') :
    (db.table (metadataTable n) = none ∧ Upd (metadataTable n) (some ⟨metadataTable n, metadataColumns, [], none⟩) db db') ∨
      ((db.table (metadataTable n)).isSome ∧ db' = db) := by
  simp only [sqlExec, parse_createMetadata] at h
  split at h
  · rename_i hs
    cases h
    exact .inr ⟨hs, rfl⟩
  · rename_i hs
    split at h
    · cases h
    · split at h
      · cases h
      · split at h
        · cases h
        · cases h
          have hnone : db.table (metadataTable n) = none := by simpa using hs
          exact .inl ⟨hnone, upd_create (t := ⟨metadataTable n, metadataColumns, [], none⟩) hnone⟩

theorem exec_deleteMetadata {db db' : SqlDb} {n : String} {args : List SqlValue} (h : sqlExec db (deleteMetadataText n) args = .ok db') :
    ∃ t, db.table (metadataTable n) = some t ∧ Upd (metadataTable n) (some { t with rows := [] }) db db' := by
  simp only [sqlExec, parse_deleteMetadata] at h
  split at h
  · cases h
  · rename_i t ht
    cases h
    exact ⟨t, ht, upd_modify ht (fun u => { u with rows := [] }) (fun _ => rfl)⟩

theorem exec_insertMetadata {db db' : SqlDb} {n : String} {args : List SqlValue} (h : sqlExec db (insertMetadataText n) args = .ok db') :
    ∃ t, db.table (metadataTable n) = some t ∧ args.length = 4 ∧
      Upd (metadataTable n) (some { t with rows := t.rows ++ [insertedRow t.columns (metadataColumns.map (·.name)) args] }) db db' := by
  simp only [sqlExec, parse_insertMetadata] at h
  split at h
  · cases h
  · rename_i t ht
    split at h
    · cases h
    · rename_i hl
      split at h
      · cases h
      · cases h
        refine ⟨t, ht, by simp only [ne_eq, Decidable.not_not] at hl; exact hl.symm, ?_⟩
        exact upd_modify ht (fun u => { u with rows := u.rows ++ [insertedRow t.columns (metadataColumns.map (·.name)) args] }) (fun _ => rfl)

theorem exec_createTable {db db' : SqlDb} {c : SqliteDecl} {args : List SqlValue} (hc : ∀ p ∈ c.properties, CollateWord p.collate)
    (h : sqlExec db (createTableText c) args = .ok db') :
    db.table (indexTable c.name) = none ∧ c.properties ≠ [] ∧ differentColumns (indexColumns c) = true ∧
      Upd (indexTable c.name) (some ⟨indexTable c.name, indexColumns c, [], none⟩) db db' := by
  by_cases hne : c.properties = []
  · simp only [sqlExec, parse_createTable_empty hne, parseFts_noColumns hne] at h
    cases h
  · simp only [sqlExec, parse_createTable hc hne] at h
    split at h
    · cases h
    · rename_i hs
      have hnone : db.table (indexTable c.name) = none := by simpa using hs
      split at h
      · cases h
      · split at h
        · cases h
        · rename_i hd
          split at h
          · cases h
          · cases h
            exact ⟨hnone, hne, by simpa using hd, upd_create (t := ⟨indexTable c.name, indexColumns c, [], none⟩) hnone⟩

theorem exec_createIndex {db db' : SqlDb} {c : SqliteDecl} {p : String} {args : List SqlValue} (h : sqlExec db (createIndexText c p) args = .ok db') :
    ∀ n, db'.table n = db.table n := by
  simp only [sqlExec, parse_createIndex] at h
  repeat' split at h
  all_goals cases h
  intro n
  rfl

theorem exec_insertParsed {db db' : SqlDb} {text table : List Char} {names : List (List Char)} {k : Nat} (hp : parseSql text = some (.insert table names k)) {args : List SqlValue}
    (h : sqlExec db text args = .ok db') :
    ∃ t, db.table table = some t ∧ args.length = k ∧ Upd table (some { t with rows := t.rows ++ [insertedRow t.columns names args] }) db db' := by
  simp only [sqlExec, hp] at h
  split at h
  · cases h
  · rename_i t ht
    split at h
    · cases h
    · rename_i hl
      split at h
      · cases h
      · cases h
        refine ⟨t, ht, by simp only [ne_eq, Decidable.not_not] at hl; exact hl.symm, ?_⟩
        exact upd_modify ht (fun u => { u with rows := u.rows ++ [insertedRow t.columns names args] }) (fun _ => rfl)

theorem exec_insert {db db' : SqlDb} {c : SqliteDecl} (hne : c.properties ≠ []) {args : List SqlValue} (h : sqlExec db (insertText c) args = .ok db') :
    ∃ t, db.table (indexTable c.name) = some t ∧ args.length = c.properties.length + 1 ∧
      Upd (indexTable c.name) (some { t with rows := t.rows ++ [insertedRow t.columns ((indexColumns c).map (·.name)) args] }) db db' :=
  exec_insertParsed (parse_insert hne) h

/-! ### Rows -/

theorem columnOf_skip {c : SqlColumn} {cs : List SqlColumn} {v : SqlValue} {vs : List SqlValue} {n : List Char} (h : sameName c.name n = false) :
    columnOf (c :: cs) (v :: vs) n = columnOf cs vs n := by
  simp [columnOf, h]

theorem columnOf_hit {c : SqlColumn} {cs : List SqlColumn} {v : SqlValue} {vs : List SqlValue} {n : List Char} (h : sameName c.name n = true) :
    columnOf (c :: cs) (v :: vs) n = some (v, c.collate) := by
  simp [columnOf, h]

theorem insertedRow_all : ∀ {columns : List SqlColumn} {args : List SqlValue}, differentColumns columns = true → args.length = columns.length →
    insertedRow columns (columns.map (·.name)) args = args
  | [], [], _, _ => rfl
  | [], _ :: _, _, h => by simp at h
  | _ :: _, [], _, h => by simp at h
  | c :: cs, v :: vs, hd, hl => by
    simp only [differentColumns, Bool.and_eq_true, Bool.not_eq_true', List.any_eq_false] at hd
    have ih := insertedRow_all (columns := cs) (args := vs) hd.2 (by simpa using hl)
    simp only [insertedRow, List.map_cons] at ih ⊢
    refine congr (congrArg _ ?_) ?_
    · rw [columnOf_hit (by exact sameName_refl _)]
      rfl
    · rw [List.map_map] at ih ⊢
      refine Eq.trans (List.map_congr_left (fun d hd' => ?_)) ih
      rw [columnOf_skip]
      simpa using hd.1 d hd'

end Rodb
