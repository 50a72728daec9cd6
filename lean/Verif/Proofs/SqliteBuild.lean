import Verif.Proofs.SqliteQuery
/-
  A build in an empty database by a process that lives on succeeds.
-/
namespace Rodb
open Rodb.Spec

/-- The program answers, without a fault, and leaves a database with `Q`. -/
def Runs {α : Type} (m : SqlM α) (db : SqlDb) (Q : α → SqlDb → Prop) : Prop := ∃ a db', m ⟨db, none⟩ = (.ok a, ⟨db', none⟩) ∧ Q a db'

theorem Runs.bind {α β : Type} {m : SqlM α} {f : α → SqlM β} {db : SqlDb} {Q : α → SqlDb → Prop} {S : β → SqlDb → Prop} (h : Runs m db Q)
    (h' : ∀ a db', Q a db' → Runs (f a) db' S) : Runs (m >>= f) db S := by
  obtain ⟨a, db', h1, h2⟩ := h
  obtain ⟨b, db'', h3, h4⟩ := h' a db' h2
  refine ⟨b, db'', ?_, h4⟩
  show SqlM.bind m f ⟨db, none⟩ = _
  simp only [SqlM.bind, h1]
  exact h3

theorem runs_lift {α : Type} {r : Res α} {a : α} (h : r = .ok a) (db : SqlDb) : Runs (SqlM.lift r) db (fun b db' => b = a ∧ db' = db) :=
  ⟨a, db, by rw [h]; rfl, rfl, rfl⟩

theorem runs_exec {text : List Char} {args : List Value} {vals : List SqlValue} (hb : bindValues args = .ok vals) {db db' : SqlDb} (h : sqlExec db text vals = .ok db') :
    Runs (exec text args) db (fun _ d => d = db') := by
  refine ⟨(), db', ?_, rfl⟩
  simp [exec, hb, h]

/-- What the database has while the index is built: these tables and these SQL indexes. -/
structure Building (x : StoredIndex) (md ix : Option (List (List SqlValue))) (names : List (List Char)) (db : SqlDb) : Prop where
  metadata : db.table (metadataTable x.name) = md.map (fun rows => ⟨metadataTable x.name, metadataColumns, rows, none⟩)
  index : db.table (indexTable x.name) = ix.map (fun rows => ⟨indexTable x.name, x.columns, rows, x.settings⟩)
  others : ∀ n, sameName (metadataTable x.name) n = false → sameName (indexTable x.name) n = false → db.table n = none
  indexes : db.indexes.map (·.name) = names

theorem hasIndex_names {db : SqlDb} {n : List Char} : db.hasIndex n = (db.indexes.map (·.name)).any (fun i => sameName i n) := by
  simp [SqlDb.hasIndex, List.any_map, Function.comp_def]

section
variable {c : StoredIndex} (hc : NoNul c.name)
include hc

theorem build_createMetadata {md ix : Option (List (List SqlValue))} {names : List (List Char)} {db : SqlDb} (h : Building c md ix names db)
    (hn : ∀ n ∈ names, sameName n (metadataTable c.name) = false) :
    Runs (exec (createMetadataText c.name) []) db (fun _ d => Building c (some (md.getD [])) ix names d) := by
  have hp := hc
  cases md with
  | some rows =>
    have : sqlExec db (createMetadataText c.name) [] = .ok db := by
      simp only [sqlExec, parse_createMetadata, h.metadata, Option.map_some, Option.isSome_some, if_true]
    obtain ⟨a, d, h1, h2⟩ := runs_exec (args := []) rfl this
    exact ⟨a, d, h1, h2 ▸ h⟩
  | none =>
    have hnone : db.table (metadataTable c.name) = none := h.metadata
    have hidx : db.hasIndex (metadataTable c.name) = false := by
      rw [hasIndex_names, h.indexes, List.any_eq_false]
      exact fun n hm => by rw [hn n hm]; simp
    have : sqlExec db (createMetadataText c.name) [] = .ok { db with tables := db.tables ++ [⟨metadataTable c.name, metadataColumns, [], none⟩] } := by
      simp only [sqlExec, parse_createMetadata, hnone, Option.isSome_none, Bool.false_eq_true, if_false, hidx]
      rw [if_neg (by decide), if_neg (by decide)]
    obtain ⟨a, d, h1, h2⟩ := runs_exec (args := []) rfl this
    refine ⟨a, d, h1, ?_⟩
    subst h2
    have hu := upd_create (t := ⟨metadataTable c.name, metadataColumns, [], none⟩) hnone
    exact ⟨hu.same (sameName_refl _), by rw [hu.other (metadata_ne_index hp hp)]; exact h.index,
      fun n h1 h2 => by rw [hu.other h1]; exact h.others n h1 h2, h.indexes⟩

theorem build_deleteMetadata {rows : List (List SqlValue)} {ix : Option (List (List SqlValue))} {names : List (List Char)} {db : SqlDb} (h : Building c (some rows) ix names db) :
    Runs (exec (deleteMetadataText c.name) []) db (fun _ d => Building c (some []) ix names d) := by
  have hp := hc
  have hs := h.metadata
  have hx : ∃ db', sqlExec db (deleteMetadataText c.name) [] = .ok db' ∧ db'.indexes = db.indexes := by
    simp only [sqlExec, parse_deleteMetadata, hs, Option.map_some]
    exact ⟨_, rfl, rfl⟩
  obtain ⟨db', hx, hi⟩ := hx
  obtain ⟨a, d, h1, rfl⟩ := runs_exec (args := []) rfl hx
  obtain ⟨t, ht, hu⟩ := exec_deleteMetadata hx
  rw [hs] at ht
  cases ht
  exact ⟨a, d, h1, hu.same (sameName_refl _), by rw [hu.other (metadata_ne_index hp hp)]; exact h.index,
    fun n h1 h2 => by rw [hu.other h1]; exact h.others n h1 h2, by rw [hi]; exact h.indexes⟩

theorem build_insertMetadata {ix : Option (List (List SqlValue))} {names : List (List Char)} {db : SqlDb} (h : Building c (some []) ix names db) (m : SqliteMetadata) :
    Runs (exec (insertMetadataText c.name) [.int m.version, .int m.modTime, .int m.size, .bool m.completed]) db
      (fun _ d => Building c (some [[.int m.version, .int m.modTime, .int m.size, .int (if m.completed then 1 else 0)]]) ix names d) := by
  have hp := hc
  have hs := h.metadata
  have hb : bindValues [.int m.version, .int m.modTime, .int m.size, .bool m.completed] =
      .ok [.int m.version, .int m.modTime, .int m.size, .int (if m.completed then 1 else 0)] := rfl
  have hx : ∃ db', sqlExec db (insertMetadataText c.name) [.int m.version, .int m.modTime, .int m.size, .int (if m.completed then 1 else 0)] = .ok db' ∧ db'.indexes = db.indexes := by
    simp only [sqlExec, parse_insertMetadata, hs, Option.map_some]
    rw [if_neg (by simp), if_neg (by decide)]
    exact ⟨_, rfl, rfl⟩
  obtain ⟨db', hx, hi⟩ := hx
  obtain ⟨a, d, h1, rfl⟩ := runs_exec hb hx
  obtain ⟨t, ht, _, hu⟩ := exec_insertMetadata hx
  rw [hs] at ht
  cases ht
  exact ⟨a, d, h1, hu.same (sameName_refl _), by rw [hu.other (metadata_ne_index hp hp)]; exact h.index,
    fun n h1 h2 => by rw [hu.other h1]; exact h.others n h1 h2, by rw [hi]; exact h.indexes⟩

theorem build_save {md ix : Option (List (List SqlValue))} {names : List (List Char)} {db : SqlDb} (h : Building c md ix names db)
    (hn : ∀ n ∈ names, sameName n (metadataTable c.name) = false) {m : SqliteMetadata} (hm : m.indexName = c.name) :
    Runs m.save db (fun _ d => Building c (some [[.int m.version, .int m.modTime, .int m.size, .int (if m.completed then 1 else 0)]]) ix names d) := by
  unfold SqliteMetadata.save
  rw [hm]
  exact (build_createMetadata hc h hn).bind (fun _ _ h => (build_deleteMetadata hc h).bind (fun _ _ h => build_insertMetadata hc h m))

/-- The statement adds rows to the table of the index. -/
def InsertText (c : StoredIndex) (text : List Char) : Prop :=
  parseSql text = some (.insert (indexTable c.name) (c.columns.map (·.name)) c.columns.length)

theorem build_insert {text : List Char} (hi : InsertText c text) (hd : differentColumns c.columns = true) {md ix : List (List SqlValue)} {names : List (List Char)} {db : SqlDb}
    (h : Building c (some md) (some ix) names db) {args : List Value} {vals : List SqlValue} (hb : bindValues args = .ok vals) (hl : vals.length = c.columns.length) :
    Runs (exec text args) db (fun _ d => Building c (some md) (some (ix ++ [vals])) names d) := by
  have hp := hc
  have hx : ∃ db', sqlExec db text vals = .ok db' ∧ db'.indexes = db.indexes := by
    unfold InsertText at hi
    simp only [sqlExec, hi, h.index, Option.map_some]
    rw [if_neg (by simp [hl]), if_neg]
    · exact ⟨_, rfl, rfl⟩
    · simp only [Bool.not_eq_true', Bool.not_eq_false, List.all_eq_true, List.any_eq_true]
      intro n hn
      obtain ⟨x, hx, rfl⟩ := List.mem_map.1 hn
      exact ⟨x, hx, sameName_refl _⟩
  obtain ⟨db', hx, hix⟩ := hx
  obtain ⟨a, d, h1, rfl⟩ := runs_exec hb hx
  obtain ⟨t, ht, _, hu⟩ := exec_insertParsed hi hx
  rw [h.index] at ht
  cases ht
  refine ⟨a, d, h1, by rw [hu.other (by rw [sameName_comm]; exact metadata_ne_index hp hp)]; exact h.metadata, ?_,
    fun n h1 h2 => by rw [hu.other h2]; exact h.others n h1 h2, by rw [hix]; exact h.indexes⟩
  rw [hu.same (sameName_refl _)]
  dsimp only
  rw [insertedRow_all hd hl]
  rfl

omit hc in
theorem columns_length (x : StoredIndex) : x.columns.length = x.properties.length + 1 := by
  cases x <;> simp [StoredIndex.columns, StoredIndex.properties, columnsOf, ftsColumnsOf]

theorem build_records {text : List Char} (hi : InsertText c text) (hd : differentColumns c.columns = true) {md : List (List SqlValue)} {names : List (List Char)} :
    ∀ {records : List Rec} {ix : List (List SqlValue)} {db : SqlDb}, (∀ r ∈ records, ∃ vs ws, recordValues r c.properties = .ok vs ∧ bindValues vs = .ok ws) →
      Building c (some md) (some ix) names db → Runs (insertRecords text c.properties (records.map .ok)) db (fun _ d => ∃ rows, Building c (some md) (some rows) names d)
  | [], ix, db, _, h => ⟨(), db, rfl, ix, h⟩
  | r :: records, ix, db, hr, h => by
    obtain ⟨vs, ws, h1, h2⟩ := hr r (.head _)
    refine Runs.bind (runs_lift rfl db) (fun a d ⟨ha, hd'⟩ => ?_)
    subst ha hd'
    refine Runs.bind (runs_lift h1 d) (fun v e ⟨hv, he⟩ => ?_)
    subst hv he
    have hb : bindValues (.int a.position :: v) = .ok (.int a.position :: ws) := bindValues_cons.2 ⟨_, ws, rfl, h2, rfl⟩
    have hlen : ∀ (l : List String) (v : List Value) (w : List SqlValue), recordValues a l = .ok v → bindValues v = .ok w → w.length = l.length := by
      intro l v w hv hw
      have := storedValues_of hv hw
      clear hv hw
      induction l generalizing w with
      | nil => cases w with | nil => rfl | cons x w => exact this.elim
      | cons x l ih => cases w with | nil => exact this.elim | cons y w => simp [ih w this.2]
    refine Runs.bind (build_insert hc hi hd h hb (by simp [hlen _ _ _ h1 h2, columns_length])) (fun _ d' h' => ?_)
    exact build_records hi hd (fun x hx => hr x (.tail _ hx)) h'

omit hc in
theorem recordValues_ok {r : Rec} : ∀ {l : List String}, (∀ p ∈ l, ∃ v w, r.get p = .ok v ∧ Stands v w) → ∃ vs ws, recordValues r l = .ok vs ∧ bindValues vs = .ok ws
  | [], _ => ⟨[], [], rfl, rfl⟩
  | p :: l, h => by
    obtain ⟨v, w, h1, h2⟩ := h p (.head _)
    obtain ⟨vs, ws, h3, h4⟩ := recordValues_ok (l := l) (fun q hq => h q (.tail _ hq))
    exact ⟨v :: vs, w :: ws, by simp only [recordValues, h1, h3, Bind.bind, Except.bind], bindValues_cons.2 ⟨w, ws, bindValue_stands.2 h2, h4, rfl⟩⟩

theorem build_count {lib : SqlLib} {md rows : List (List SqlValue)} {names : List (List Char)} {db : SqlDb} (h : Building c (some md) (some rows) names db) :
    Runs (query lib ("SELECT COUNT(1) FROM ".toList ++ indexTableIdentifier c.name ++ ";".toList) []) db (fun _ _ => True) := by
  refine ⟨[[.int rows.length]], db, ?_, trivial⟩
  simp only [query, bindValues, sqlQuery, parse_countIndex, SqlDb.source, index_not_master hc, Bool.false_eq_true, if_false, h.index, Option.map_some, List.all_nil, Bool.not_true,
    countParams, List.length_nil, ne_eq, not_true_eq_false]
  have hf : rows.filter (fun row => rowMatches lib c.columns row [] []) = rows := List.filter_eq_self.2 (fun row _ => rfl)
  rw [hf]

/-- The end of a build. -/
theorem build_finish {lib : SqlLib} {text : List Char} (hi : InsertText c text) (hd : differentColumns c.columns = true) {md : List (List SqlValue)} {names : List (List Char)}
    (hnames : ∀ n ∈ names, sameName n (metadataTable c.name) = false) {records : List Rec} (hrec : ∀ r ∈ records, ∀ p ∈ c.properties, ∃ v w, r.get p = .ok v ∧ Stands v w)
    {m : SqliteMetadata} (hm : m.indexName = c.name) {db : SqlDb} (h : Building c (some md) (some []) names db) :
    Runs (do
      prepare text
      insertRecords text c.properties (records.map .ok)
      { m with completed := true }.save
      let _ ← query lib ("SELECT COUNT(1) FROM ".toList ++ indexTableIdentifier c.name ++ ";".toList) []
      pure ()) db (fun _ _ => True) := by
  have hp := hi
  unfold InsertText at hp
  refine Runs.bind (Q := fun _ e => e = db) ⟨(), db, by simp only [prepare, hp], rfl⟩ (fun _ e he => ?_)
  rw [he]
  refine Runs.bind (build_records hc hi hd (fun r hr => recordValues_ok (hrec r hr)) h) (fun _ d ⟨rows, h⟩ => ?_)
  refine Runs.bind (build_save (m := { m with completed := true }) hc h hnames hm) (fun _ d h => ?_)
  exact Runs.bind (build_count hc h) (fun _ d _ => ⟨(), d, rfl, trivial⟩)

/-- The beginning of a build. -/
theorem build_begin {input : Input} {size time : Int} (hsize : input.size = .ok size) (htime : input.modTimeNs = .ok time) {l : List (Res Rec)} (hscan : input.scan = .ok l)
    {rest : SqliteMetadata → List (Res Rec) → SqlM Unit} {Q : Unit → SqlDb → Prop}
    (h : ∀ m md db, m.indexName = c.name → Building c (some md) none [] db → Runs (rest m l) db Q) :
    Runs (do
      let metadata ← SqlM.lift (newSqliteMetadata c.name input)
      metadata.save
      let records ← SqlM.lift input.scan
      rest metadata records) ⟨[], []⟩ Q := by
  have hbuild : Building c none none [] ⟨[], []⟩ := ⟨rfl, rfl, fun _ _ _ => rfl, rfl⟩
  have hmeta : newSqliteMetadata c.name input = .ok ⟨c.name, sqliteVersion, unixSeconds time, size, false⟩ := by
    simp only [newSqliteMetadata, hsize, htime, Bind.bind, Except.bind]
  refine Runs.bind (runs_lift hmeta _) (fun m d ⟨hm, hd'⟩ => ?_)
  rw [hm, hd']
  refine Runs.bind (build_save hc hbuild (by simp) rfl) (fun _ d hb => ?_)
  refine Runs.bind (runs_lift hscan _) (fun l' d' ⟨hl, hd''⟩ => ?_)
  rw [hl, hd'']
  exact h _ _ _ rfl hb

end

section
variable {c : SqliteDecl} (hc : SqliteAccepted c)
include hc

theorem build_createTable (hne : c.properties ≠ []) (hd : differentColumns (indexColumns c) = true) (hcol : ∀ p ∈ c.properties, p.collate = "BINARY" ∨ p.collate = "NOCASE")
    {rows : List (List SqlValue)} {db : SqlDb} (h : Building (.sqlite c) (some rows) none [] db) :
    Runs (exec (createTableText c) []) db (fun _ d => Building (.sqlite c) (some rows) (some []) [] d) := by
  have hp := hc.name
  have hcols : (StoredIndex.sqlite c).columns = indexColumns c := columnsOf_eq hc
  have hnone : db.table (indexTable c.name) = none := h.index
  have hidx : db.hasIndex (indexTable c.name) = false := by rw [hasIndex_names, h.indexes]; rfl
  have hcl : (indexColumns c).all (fun x => collations.any (sameName x.collate)) = true := by
    simp only [indexColumns, List.all_cons, List.all_map, Bool.and_eq_true, List.all_eq_true, Function.comp]
    refine ⟨by decide, fun p hm => ?_⟩
    rcases hcol p hm with e | e <;> simp only [propertySqlColumn, e] <;> decide
  have hx : ∃ db', sqlExec db (createTableText c) [] = .ok db' ∧ db'.indexes = db.indexes := by
    simp only [sqlExec, parse_createTable (fun p hp => collateWord_allowed (hc.collate p hp)) hne, hnone, Option.isSome_none, Bool.false_eq_true, if_false, hidx, hd, hcl, Bool.not_true]
    exact ⟨_, rfl, rfl⟩
  obtain ⟨db', hx, hi⟩ := hx
  obtain ⟨a, d, h1, rfl⟩ := runs_exec (args := []) rfl hx
  obtain ⟨_, _, _, hu⟩ := exec_createTable (fun p hp => collateWord_allowed (hc.collate p hp)) hx
  exact ⟨a, d, h1, by rw [hu.other (by rw [sameName_comm]; exact metadata_ne_index hp hp)]; exact h.metadata,
    by rw [show indexTable (StoredIndex.sqlite c).name = indexTable c.name from rfl, hu.same (sameName_refl _), hcols]; rfl,
    fun n h1 h2 => by rw [hu.other h2]; exact h.others n h1 h2, by rw [hi]; exact h.indexes⟩

theorem indexName_ne_table {n p : String} (hn : NoNul n) (hp : NoNul p) :
    sameName (metadataTable c.name) (indexName n p) = false ∧ sameName (indexTable c.name) (indexName n p) = false := by
  have key : ∀ a b : List Char, sameName ('r' :: a) ('i' :: b) = false := by
    intro a b
    rw [Bool.eq_false_iff, ne_eq, sameName_iff, List.map_cons, List.map_cons, List.cons.injEq]
    exact fun e => absurd e.1 (by decide)
  rw [metadataTable_plain hc.name, indexTable_plain hc.name, indexName_plain hn hp]
  exact ⟨key _ _, key _ _⟩

theorem build_createIndexes {md ix : List (List SqlValue)} : ∀ {ps : List SqlitePropertyDecl} {names : List (List Char)} {db : SqlDb}, (∀ p ∈ ps, p ∈ c.properties) →
    Building (.sqlite c) (some md) (some ix) names db → (∀ n ∈ names, ∀ p ∈ ps, sameName n (indexName c.name p.name) = false) →
    ps.Pairwise (fun p q => sameName (indexName c.name p.name) (indexName c.name q.name) = false) →
    Runs (createIndexes c ps) db (fun _ d => Building (.sqlite c) (some md) (some ix) (names ++ ps.map (fun p => indexName c.name p.name)) d)
  | [], names, db, _, h, _, _ => ⟨(), db, rfl, by simpa using h⟩
  | p :: ps, names, db, hsub, h, hn, hpw => by
    have hp := hc.name
    have hpm := hsub p (.head _)
    obtain ⟨ht1, ht2⟩ := indexName_ne_table hc hp (hc.properties p hpm)
    rw [List.pairwise_cons] at hpw
    have hidx : db.hasIndex (indexName c.name p.name) = false := by
      rw [hasIndex_names, h.indexes, List.any_eq_false]
      exact fun n hm => by rw [hn n hm p (.head _)]; simp
    have hcol : (StoredIndex.sqlite c).columns.any (fun x => sameName x.name (propertyColumn p.name)) = true := by
      rw [show (StoredIndex.sqlite c).columns = indexColumns c from columnsOf_eq hc]
      simp only [indexColumns, List.any_cons, List.any_map, Bool.or_eq_true, List.any_eq_true, Function.comp]
      exact .inr ⟨p, hpm, sameName_refl _⟩
    have hix : db.table (indexTable c.name) = some ⟨indexTable c.name, (StoredIndex.sqlite c).columns, ix, none⟩ := h.index
    have hx : sqlExec db (createIndexText c p.name) [] =
        .ok { db with indexes := db.indexes ++ [⟨indexName c.name p.name, indexTable c.name, propertyColumn p.name⟩] } := by
      simp only [sqlExec, parse_createIndex, hix, h.others _ ht1 ht2, Option.isSome_none, Bool.false_eq_true, if_false, hidx, hcol, Bool.not_true]
    obtain ⟨a, d, h1, h2⟩ := runs_exec (args := []) rfl hx
    refine Runs.bind (Q := fun _ d => Building (.sqlite c) (some md) (some ix) (names ++ [indexName c.name p.name]) d) ⟨a, d, h1, ?_⟩ (fun _ d' h' => ?_)
    · subst h2
      exact ⟨h.metadata, h.index, h.others, by rw [List.map_append, h.indexes]; rfl⟩
    · have ih := build_createIndexes (ps := ps) (fun q hq => hsub q (.tail _ hq)) h' (by
        intro n hm q hq
        rcases List.mem_append.1 hm with hm | hm
        · exact hn n hm q (.tail _ hq)
        · rw [List.mem_singleton.1 hm]
          exact hpw.1 q hq) hpw.2
      obtain ⟨a, e, h3, h4⟩ := ih
      exact ⟨a, e, h3, by simpa using h4⟩

end

theorem hasMetadata_empty (lib : SqlLib) (name : String) : hasSqliteMetadata lib name ⟨⟨[], []⟩, none⟩ = (.ok false, ⟨⟨[], []⟩, none⟩) := by
  have hq : query lib (hasMetadataText name) [] ⟨⟨[], []⟩, none⟩ = (.ok [[.int 0]], ⟨⟨[], []⟩, none⟩) := by
    simp only [query, bindValues, sqlQuery, parse_hasMetadata]
    rfl
  unfold hasSqliteMetadata
  show SqlM.bind _ _ _ = _
  simp only [SqlM.bind, hq]
  rfl

theorem newSqlite_empty {lib : SqlLib} {c : SqliteDecl} (hc : SqliteAccepted c) (hne : c.properties ≠ []) (hdiff : c.properties.Pairwise (fun p q => sameName p.name.toList q.name.toList = false))
    (hcol : ∀ p ∈ c.properties, p.collate = "BINARY" ∨ p.collate = "NOCASE") {input : Input} {size time : Int} (hsize : input.size = .ok size) (htime : input.modTimeNs = .ok time)
    {records : List Rec} (hscan : input.scan = .ok (records.map .ok))
    (hrec : ∀ r ∈ records, ∀ p ∈ c.properties, ∃ v w, r.get p.name = .ok v ∧ Stands v w) :
    ∃ db, newSqlite lib c input ⟨⟨[], []⟩, none⟩ = (.ok (), ⟨db, none⟩) := by
  have hp := hc.name
  have hd : differentColumns (indexColumns c) = true := by
    have : ∀ l : List SqlitePropertyDecl, (∀ p ∈ l, NoNul p.name) → l.Pairwise (fun p q => sameName p.name.toList q.name.toList = false) → differentColumns (l.map propertySqlColumn) = true := by
      intro l
      induction l with
      | nil => intro _ _; rfl
      | cons p l ih =>
        intro hn h
        rw [List.pairwise_cons] at h
        simp only [List.map_cons, differentColumns, Bool.and_eq_true, Bool.not_eq_true', List.any_eq_false, List.mem_map]
        refine ⟨?_, ih (fun q hq => hn q (.tail _ hq)) h.2⟩
        rintro d ⟨q, hq, rfl⟩
        simp only [propertySqlColumn]
        rw [sameName_property (hn p (.head _)) (hn q (.tail _ hq)), h.1 q hq]
        simp
    simp only [indexColumns, differentColumns, Bool.and_eq_true, Bool.not_eq_true', List.any_eq_false, List.mem_map]
    refine ⟨?_, this _ hc.properties hdiff⟩
    rintro d ⟨q, hq, rfl⟩
    simp only [propertySqlColumn, offset_ne_property]
    simp
  have hnames : ∀ n ∈ c.properties.map (fun p => indexName c.name p.name), sameName n (metadataTable c.name) = false := by
    intro n hn
    obtain ⟨p, hpm, rfl⟩ := List.mem_map.1 hn
    rw [sameName_comm]
    exact (indexName_ne_table hc hp (hc.properties p hpm)).1
  have hrun : Runs (sqliteCreateIndex lib c input) ⟨[], []⟩ (fun _ _ => True) := by
    unfold sqliteCreateIndex
    refine build_begin (c := .sqlite c) hp hsize htime hscan (fun m md d hm h => ?_)
    refine Runs.bind (build_createTable hc hne hd hcol h) (fun _ d h => ?_)
    refine Runs.bind (build_createIndexes hc (fun p hp => hp) h (by simp) ?_) (fun _ d h => ?_)
    · refine List.Pairwise.imp_of_mem ?_ hdiff
      intro p q hpm hqm hpq
      rw [indexName_plain hp (hc.properties p hpm), indexName_plain hp (hc.properties q hqm), sameName_append_left]
      exact hpq
    have hins : InsertText (.sqlite c) (insertText c) := by
      unfold InsertText
      rw [show (StoredIndex.sqlite c).columns = indexColumns c from columnsOf_eq hc, parse_insert hne]
      simp [indexColumns, StoredIndex.name]
    refine build_finish (c := .sqlite c) (lib := lib) (m := m) hp hins (by rw [show (StoredIndex.sqlite c).columns = indexColumns c from columnsOf_eq hc]; exact hd) (by rw [List.nil_append]; exact hnames)
      (fun r hr p hpm => ?_) hm h
    obtain ⟨q, hq, rfl⟩ := List.mem_map.1 hpm
    exact hrec r hr q hq
  obtain ⟨a, db, h1, _⟩ := hrun
  refine ⟨db, ?_⟩
  unfold newSqlite
  show SqlM.bind _ _ _ = _
  simp only [SqlM.bind, hasMetadata_empty]
  exact h1

end Rodb
