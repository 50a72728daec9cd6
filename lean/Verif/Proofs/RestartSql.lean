import Verif.Proofs.SqliteCrash
/-
  Starts of the program on the same database: an index that was opened is opened again without a change.
-/
namespace Rodb
open Rodb.Spec

/-- The metadata of the index, if there is any: it is stored under its name, with at most one row. -/
def MetaShape (x : StoredIndex) (db : SqlDb) : Prop :=
  ∀ t, db.table (metadataTable x.name) = some t → t.name = metadataTable x.name ∧ t.columns = metadataColumns ∧ (t.rows = [] ∨ ∃ a b v, t.rows = [[.int 1, .int a, .int b, .int (bit v)]])

/-- The metadata of the finished build of the index on an input of this size and modification time. -/
def MetaOk (x : StoredIndex) (input : Input) (db : SqlDb) : Prop :=
  ∃ t size time, db.table (metadataTable x.name) = some t ∧ t.name = metadataTable x.name ∧ t.columns = metadataColumns ∧ input.size = .ok size ∧ input.modTimeNs = .ok time ∧
    t.rows = [[.int 1, .int (unixSeconds time), .int size, .int 1]]

theorem MetaOk.shape {x : StoredIndex} {input : Input} {db : SqlDb} (h : MetaOk x input db) : MetaShape x db := by
  obtain ⟨t, size, time, h1, h2, h3, _, _, h6⟩ := h
  intro u hu
  rw [h1] at hu
  cases hu
  exact ⟨h2, h3, .inr ⟨_, _, true, h6⟩⟩

/-- Changes of the table of the records of `x` do not matter for `P`. -/
structure IndexStable (x : StoredIndex) (P : SqlDb → Prop) : Prop where
  index : ∀ db db' t, Upd (indexTable x.name) t db db' → P db → P db'
  same : ∀ db db', (∀ n, db'.table n = db.table n) → P db → P db'

theorem metaShape_stable {x : StoredIndex} (hx : NoNul x.name) : IndexStable x (MetaShape x) where
  index db db' t hu h u htab := by
    rw [hu.other (by rw [sameName_comm]; exact metadata_ne_index hx hx)] at htab
    exact h u htab
  same db db' he h u htab := by
    rw [he] at htab
    exact h u htab

/-- The metadata of another index. -/
theorem metaShape_other {x y : StoredIndex} (hx : NoNul x.name) (hy : NoNul y.name) (hne : sameName y.name.toList x.name.toList = false) : IndexStable y (MetaShape x) ∧
    ∀ db db' t, Upd (metadataTable y.name) t db db' → MetaShape x db → MetaShape x db' := by
  refine ⟨⟨?_, ?_⟩, ?_⟩
  · intro db db' t hu h u htab
    rw [hu.other (by rw [sameName_comm]; exact metadata_ne_index hx hy)] at htab
    exact h u htab
  · intro db db' he h u htab
    rw [he] at htab
    exact h u htab
  · intro db db' t hu h u htab
    rw [hu.other (by rw [sameName_metadata hy hx]; exact hne)] at htab
    exact h u htab

theorem metaOk_other {x y : StoredIndex} {input : Input} (hx : NoNul x.name) (hy : NoNul y.name) (hne : sameName y.name.toList x.name.toList = false) : IndexStable y (MetaOk x input) ∧
    ∀ db db' t, Upd (metadataTable y.name) t db db' → MetaOk x input db → MetaOk x input db' := by
  have key : ∀ db db' : SqlDb, db'.table (metadataTable x.name) = db.table (metadataTable x.name) → MetaOk x input db → MetaOk x input db' := by
    rintro db db' he ⟨t, size, time, h1, h2⟩
    exact ⟨t, size, time, by rw [he]; exact h1, h2⟩
  exact ⟨⟨fun db db' t hu => key _ _ (hu.other (by rw [sameName_comm]; exact metadata_ne_index hx hy)), fun db db' he => key _ _ (he _)⟩,
    fun db db' t hu => key _ _ (hu.other (by rw [sameName_metadata hy hx]; exact hne))⟩

/-! ### Saving the metadata -/

theorem save_other {y : StoredIndex} {P : SqlDb → Prop} (h : ∀ db db' t, Upd (metadataTable y.name) t db db' → P db → P db') {m : SqliteMetadata} (hm : m.indexName = y.name) :
    Triple P m.save (fun _ => P) P := by
  unfold SqliteMetadata.save
  rw [hm]
  refine Triple.bind (Q := fun _ => P) (triple_exec ?_ (fun _ h => h)) (fun _ => Triple.bind (Q := fun _ => P) (triple_exec ?_ (fun _ h => h)) (fun _ => triple_exec ?_ (fun _ h => h)))
  · intro db db' _ hp _ hx
    rcases exec_createMetadata hx with ⟨_, hu⟩ | ⟨_, rfl⟩
    · exact h _ _ _ hu hp
    · exact hp
  · intro db db' _ hp _ hx
    obtain ⟨t, _, hu⟩ := exec_deleteMetadata hx
    exact h _ _ _ hu hp
  · intro db db' _ hp _ hx
    obtain ⟨t, _, _, hu⟩ := exec_insertMetadata hx
    exact h _ _ _ hu hp

theorem save_own {x : StoredIndex} {m : SqliteMetadata} (hm : m.indexName = x.name) (hv : m.version = 1) :
    Triple (MetaShape x) m.save (fun _ db => ∃ t, db.table (metadataTable x.name) = some t ∧ t.name = metadataTable x.name ∧ t.columns = metadataColumns ∧
      t.rows = [[.int 1, .int m.modTime, .int m.size, .int (bit m.completed)]]) (MetaShape x) := by
  unfold SqliteMetadata.save
  rw [hm]
  refine Triple.bind (Q := fun _ => MetaShape x) (triple_exec ?_ (fun _ h => h)) (fun _ =>
    Triple.bind (Q := fun _ db => ∃ t, db.table (metadataTable x.name) = some t ∧ t.name = metadataTable x.name ∧ t.columns = metadataColumns ∧ t.rows = [])
      (triple_exec ?_ (fun _ h => h)) (fun _ => triple_exec ?_ ?_))
  · intro db db' _ hp _ hx
    rcases exec_createMetadata hx with ⟨_, hu⟩ | ⟨_, rfl⟩
    · intro t ht
      rw [hu.same (sameName_refl _)] at ht
      cases ht
      exact ⟨rfl, rfl, .inl rfl⟩
    · exact hp
  · intro db db' _ hp _ hx
    obtain ⟨t, ht, hu⟩ := exec_deleteMetadata hx
    obtain ⟨h1, h2, _⟩ := hp t ht
    exact ⟨_, hu.same (sameName_refl _), h1, h2, rfl⟩
  · rintro db db' vals ⟨t, ht, h1, h2, h3⟩ hb hx
    obtain ⟨t', ht', _, hu⟩ := exec_insertMetadata hx
    rw [ht] at ht'
    cases ht'
    rw [hv] at hb
    refine ⟨_, hu.same (sameName_refl _), h1, h2, ?_⟩
    cases hc : m.completed <;>
    · rw [hc] at hb
      simp only [bindValues, bindValue, Bind.bind, Except.bind, if_true, if_false, Bool.false_eq_true, Except.ok.injEq] at hb
      subst hb
      dsimp only
      rw [h3, h2]
      rfl
  · rintro db ⟨t, ht, h1, h2, h3⟩ u hu
    rw [ht] at hu
    cases hu
    exact ⟨h1, h2, .inl h3⟩

/-! ### A build -/

theorem insertRecords_stable {x : StoredIndex} {P : SqlDb → Prop} (hp : IndexStable x P) {text : List Char} (hins : InsertsInto x text) (properties : List String) :
    ∀ l : List (Res Rec), Triple P (insertRecords text properties l) (fun _ => P) P
  | [] => triple_pure (fun _ h => h)
  | _ :: rest => by
    refine Triple.bind (Q := fun _ => P) (triple_lift (fun _ _ h _ => h) (fun _ h => h)) (fun a => ?_)
    refine Triple.bind (Q := fun _ => P) (triple_lift (fun _ _ h _ => h) (fun _ h => h)) (fun values => ?_)
    refine Triple.bind (Q := fun _ => P) (triple_exec ?_ (fun _ h => h)) (fun _ => insertRecords_stable hp hins properties rest)
    intro db db' _ h _ hx
    obtain ⟨t, _, _, hu⟩ := hins _ _ _ hx
    exact hp.index _ _ _ hu h

/-- What both builds are: the metadata, the table, the records, the metadata again. -/
theorem build_triple {x : StoredIndex} {input : Input} {P Q : SqlDb → Prop} (hq : ∀ db, Q db → P db) {lib : SqlLib} {count : List Char}
    (hfirst : ∀ m, newSqliteMetadata x.name input = .ok m → Triple P m.save (fun _ => P) P)
    (hlast : ∀ m, newSqliteMetadata x.name input = .ok m → Triple P ({ m with completed := true } : SqliteMetadata).save (fun _ => Q) P) {middle : List (Res Rec) → SqlM Unit}
    (hmiddle : ∀ l, Triple P (middle l) (fun _ => P) P) :
    Triple P (do
      let metadata ← SqlM.lift (newSqliteMetadata x.name input)
      metadata.save
      let records ← SqlM.lift input.scan
      middle records
      { metadata with completed := true }.save
      let _ ← query lib count []
      pure ()) (fun _ => Q) P := by
  refine Triple.bind (Q := fun m db => newSqliteMetadata x.name input = .ok m ∧ P db) (triple_lift (fun _ m h e => ⟨e, h⟩) (fun _ h => h)) (fun m => ?_)
  refine Triple.intro (fun db ⟨hm, h⟩ => ⟨P, h, ?_⟩)
  refine Triple.bind (hfirst m hm) (fun _ => ?_)
  refine Triple.bind (Q := fun _ => P) (triple_lift (fun _ _ h _ => h) (fun _ h => h)) (fun l => ?_)
  refine Triple.bind (hmiddle l) (fun _ => ?_)
  refine Triple.bind (hlast m hm) (fun _ => ?_)
  refine Triple.bind (Q := fun _ => Q) (triple_query (fun _ _ h _ => h) (fun _ h => hq _ h)) (fun _ => ?_)
  exact triple_pure (fun _ h => h)

theorem SqlM.assoc {α β γ : Type} (m : SqlM α) (f : α → SqlM β) (g : β → SqlM γ) : ((m >>= f) >>= g) = (m >>= fun a => f a >>= g) := by
  funext s
  show SqlM.bind (SqlM.bind m f) g s = SqlM.bind m (fun a => SqlM.bind (f a) g) s
  unfold SqlM.bind
  cases m s with
  | mk r s' => cases r <;> rfl

theorem sqlite_build {c : SqliteDecl} (hacc : SqliteAccepted c) {input : Input} {P Q : SqlDb → Prop} (hp : IndexStable (.sqlite c) P) (hq : ∀ db, Q db → P db) {lib : SqlLib}
    (hfirst : ∀ m, newSqliteMetadata c.name input = .ok m → Triple P m.save (fun _ => P) P)
    (hlast : ∀ m, newSqliteMetadata c.name input = .ok m → Triple P ({ m with completed := true } : SqliteMetadata).save (fun _ => Q) P) :
    Triple P (sqliteCreateIndex lib c input) (fun _ => Q) P := by
  have h := build_triple (x := .sqlite c) (input := input) hq (lib := lib) (count := "SELECT COUNT(1) FROM ".toList ++ indexTableIdentifier c.name ++ ";".toList) hfirst hlast
    (middle := fun records => do
      exec (createTableText c) []
      createIndexes c c.properties
      prepare (insertText c)
      insertRecords (insertText c) (c.properties.map (·.name)) records) (by
      intro l
      refine Triple.bind (Q := fun _ db => c.properties ≠ [] ∧ P db) (triple_exec ?_ (fun _ h => h)) (fun _ => ?_)
      · intro db db' _ h _ hx
        obtain ⟨_, hne, _, hu⟩ := exec_createTable (fun p hp => collateWord_allowed (hacc.collate p hp)) hx
        exact ⟨hne, hp.index _ _ _ hu h⟩
      refine Triple.intro (fun db ⟨hne, h⟩ => ⟨P, h, ?_⟩)
      refine Triple.bind (createIndexes_triple (fun db db' he h => hp.same _ _ he h) (fun _ h => h) _) (fun _ => ?_)
      refine Triple.bind (triple_prepare (Q := P) (fun _ h => h) (fun _ h => h)) (fun _ => ?_)
      exact insertRecords_stable hp (inserts_sqlite hacc hne) _ l)
  simp only [SqlM.assoc] at h
  exact h

theorem fts5_build {c : Fts5Decl} (hacc : Fts5Accepted c) {input : Input} {P Q : SqlDb → Prop} (hp : IndexStable (.fts5 c) P) (hq : ∀ db, Q db → P db) {lib : SqlLib}
    (hfirst : ∀ m, newSqliteMetadata c.name input = .ok m → Triple P m.save (fun _ => P) P)
    (hlast : ∀ m, newSqliteMetadata c.name input = .ok m → Triple P ({ m with completed := true } : SqliteMetadata).save (fun _ => Q) P) :
    Triple P (fts5CreateIndex lib c input) (fun _ => Q) P := by
  have h := build_triple (x := .fts5 c) (input := input) hq (lib := lib) (count := "SELECT COUNT(1) FROM ".toList ++ indexTableIdentifier c.name ++ ";".toList) hfirst hlast
    (middle := fun records => do
      SqlM.lift (if "__offset" ∈ c.properties then .error (.err "__offset is a reserved property name for the fts5 index.") else .ok ())
      exec (fts5CreateText c) []
      prepare (fts5InsertText c)
      insertRecords (fts5InsertText c) c.properties records) (by
      intro l
      refine Triple.bind (Q := fun _ => P) (triple_lift (fun _ _ h _ => h) (fun _ h => h)) (fun _ => ?_)
      refine Triple.bind (Q := fun _ => P) (triple_exec ?_ (fun _ h => h)) (fun _ => ?_)
      · intro db db' _ h _ hx
        obtain ⟨_, _, hu⟩ := exec_createFts hacc hx
        exact hp.index _ _ _ hu h
      refine Triple.bind (prepare_ok (P := P) (fun _ h => h)) (fun _ => ?_)
      refine Triple.intro (fun db ⟨hne, h⟩ => ⟨P, h, ?_⟩)
      exact insertRecords_stable hp (inserts_fts hacc (fun e => hne (parseSql_ftsInsert_empty e))) _ l)
  simp only [SqlM.assoc] at h
  exact h

/-! ### A start -/

theorem opening {lib : SqlLib} {name : String} {input : Input} {create : SqlM Unit} {P Q : SqlDb → Prop} (hcreate : Triple P create (fun _ => Q) P)
    (hload : ∀ db rows, P db → sqlQuery lib db (loadMetadataText name) [] = .ok rows → ∀ m, (match (generalizing := false) rows with
      | [] => .error (.err "sql: no rows in result set")
      | [.int version, .int modTime, .int size, .int completed] :: _ =>
        .ok { indexName := name, version := version, modTime := modTime, size := size, completed := decide (completed > 0) }
      | _ :: _ => .error (.err "sql: Scan error") : Res SqliteMetadata) = .ok m → m.assertValid input = .ok () → Q db) :
    Triple P (openStored lib name input create) (fun _ => Q) P := by
  unfold openStored
  refine Triple.bind hasMetadata_triple (fun e => ?_)
  cases e with
  | false =>
    rw [if_neg (by simp)]
    exact hcreate
  | true =>
    refine Triple.bind (Q := fun m db => P db ∧ (m.assertValid input = .ok () → Q db)) ?_ (fun m => triple_lift (fun db _ h e => h.2 e) (fun _ h => h.1))
    refine Triple.bind (Q := fun rows db => P db ∧ sqlQuery lib db (loadMetadataText name) [] = .ok rows) (triple_query (fun _ _ h e => ⟨h, e⟩) (fun _ h => h)) (fun rows => ?_)
    exact triple_lift (fun db m h e => ⟨h.1, hload db rows h.1 h.2 m e⟩) (fun _ h => h.1)

/-- A start does not change what does not depend on the tables of its index. -/
theorem start_keeps {y : StoredIndex} (hacc : y.Accepted) {P : SqlDb → Prop} (hp : IndexStable y P) (hm : ∀ db db' t, Upd (metadataTable y.name) t db db' → P db → P db') (lib : SqlLib)
    (input : Input) : Triple P (y.start lib input) (fun _ => P) P := by
  have hnew : ∀ m, newSqliteMetadata y.name input = .ok m → m.indexName = y.name := fun m h => (newMetadata_ok (s := ⟨y, input, none⟩) h).1
  cases y with
  | sqlite c =>
    exact opening (sqlite_build hacc hp (fun _ h => h) (fun m h => save_other hm (hnew m h)) (fun m h => save_other hm (m := { m with completed := true }) (hnew m h))) (fun _ _ h _ _ _ _ => h)
  | fts5 c =>
    exact opening (fts5_build hacc hp (fun _ h => h) (fun m h => save_other hm (hnew m h)) (fun m h => save_other hm (m := { m with completed := true }) (hnew m h))) (fun _ _ h _ _ _ _ => h)

theorem sqlAssertValid_ok {m : SqliteMetadata} {input : Input} (h : m.assertValid input = .ok ()) :
    m.version = 1 ∧ m.completed = true ∧ input.size = .ok m.size ∧ ∃ t, input.modTimeNs = .ok t ∧ m.modTime = unixSeconds t := by
  simp only [SqliteMetadata.assertValid, Bind.bind, Except.bind] at h
  split at h
  · cases h
  · rename_i hv
    cases htm : input.modTimeNs with
    | error e => rw [htm] at h; cases h
    | ok t =>
      rw [htm] at h
      dsimp only at h
      split at h
      · cases h
      · rename_i hmt
        cases hsz : input.size with
        | error e => rw [hsz] at h; cases h
        | ok n =>
          rw [hsz] at h
          dsimp only at h
          split at h
          · cases h
          · rename_i hms
            split at h
            · cases h
            · rename_i hcomp
              simp only [ne_eq, Decidable.not_not] at hv hmt hms
              exact ⟨hv, by simpa using hcomp, by rw [hms], t, rfl, hmt⟩

theorem shape_loads {lib : SqlLib} (hlib : PlansPermute lib) {x : StoredIndex} (hx : NoNul x.name) {input : Input} (db : SqlDb) (rows : List (List SqlValue)) (hdb : MetaShape x db)
    (hq : sqlQuery lib db (loadMetadataText x.name) [] = .ok rows) (m : SqliteMetadata) (hm : (match (generalizing := false) rows with
      | [] => .error (.err "sql: no rows in result set")
      | [.int version, .int modTime, .int size, .int completed] :: _ =>
        .ok { indexName := x.name, version := version, modTime := modTime, size := size, completed := decide (completed > 0) }
      | _ :: _ => .error (.err "sql: Scan error") : Res SqliteMetadata) = .ok m) (hv : m.assertValid input = .ok ()) : MetaOk x input db := by
  obtain ⟨v1, v2, v3, t0, v4, v5⟩ := sqlAssertValid_ok hv
  cases ht : db.table (metadataTable x.name) with
  | none =>
    simp only [sqlQuery, parse_loadMetadata, SqlDb.source, metadata_not_master hx, Bool.false_eq_true, if_false, ht] at hq
    cases hq
  | some t =>
    obtain ⟨hname, hcols, hrows⟩ := hdb t ht
    have hp := load_rows hlib ht (metadata_not_master hx) hcols hq
    rcases hrows with h0 | ⟨a, b, v, h0⟩
    · rw [h0, List.map_nil] at hp
      rw [hp.eq_nil] at hm
      cases hm
    · rw [h0] at hp
      rw [List.perm_singleton.1 hp] at hm
      cases hm
      refine ⟨t, _, t0, ht, hname, hcols, v3, v4, ?_⟩
      dsimp only at v2 v5 ⊢
      have hb : v = true := by
        cases v with
        | true => rfl
        | false => exact absurd v2 (by decide)
      subst hb
      rw [h0, v5]
      rfl

/-- A start that succeeds leaves the metadata of a finished build of its input. -/
theorem start_own {lib : SqlLib} (hlib : PlansPermute lib) {x : StoredIndex} (hacc : x.Accepted) (input : Input) :
    Triple (MetaShape x) (x.start lib input) (fun _ => MetaOk x input) (MetaShape x) := by
  have hx := accepted_name hacc
  have hnew : ∀ m, newSqliteMetadata x.name input = .ok m → m.indexName = x.name ∧ m.version = 1 ∧ m.completed = false ∧
      ∃ size time, input.size = .ok size ∧ input.modTimeNs = .ok time ∧ m.size = size ∧ m.modTime = unixSeconds time := fun m h => newMetadata_ok (s := ⟨x, input, none⟩) h
  have hfirst : ∀ m, newSqliteMetadata x.name input = .ok m → Triple (MetaShape x) m.save (fun _ => MetaShape x) (MetaShape x) := by
    intro m h
    refine (save_own (hnew m h).1 (hnew m h).2.1).post (fun _ db ⟨t, h1, h2, h3, h4⟩ => ?_)
    intro u hu
    rw [h1] at hu
    cases hu
    exact ⟨h2, h3, .inr ⟨_, _, _, h4⟩⟩
  have hlast : ∀ m, newSqliteMetadata x.name input = .ok m → Triple (MetaShape x) ({ m with completed := true } : SqliteMetadata).save (fun _ => MetaOk x input) (MetaShape x) := by
    intro m h
    obtain ⟨h1, h2, _, size, time, h3, h4, h5, h6⟩ := hnew m h
    refine (save_own (m := { m with completed := true }) h1 h2).post (fun _ db ⟨t, t1, t2, t3, t4⟩ => ⟨t, size, time, t1, t2, t3, h3, h4, ?_⟩)
    rw [t4, ← h5, ← h6]
    rfl
  cases x with
  | sqlite c => exact opening (sqlite_build hacc (metaShape_stable hx) (fun _ h => h.shape) hfirst hlast) (shape_loads hlib hx)
  | fts5 c => exact opening (fts5_build hacc (metaShape_stable hx) (fun _ h => h.shape) hfirst hlast) (shape_loads hlib hx)

theorem metadata_ne_word {n : String} (h : NoNul n) {w : List Char} (hw : (w.map Char.toLower).head? ≠ some 'r') : sameName w (metadataTable n) = false := by
  rw [metadataTable_plain h, Bool.eq_false_iff, ne_eq, sameName_iff, List.append_assoc, List.map_append]
  intro e
  rw [show "rodb_".toList.map Char.toLower = ['r', 'o', 'd', 'b', '_'] by decide] at e
  rw [e] at hw
  exact hw rfl

/-- The columns of `sqlite_master`. -/
def masterColumns : List SqlColumn := [⟨"type".toList, "BINARY".toList⟩, ⟨"name".toList, "BINARY".toList⟩, ⟨"tbl_name".toList, "BINARY".toList⟩]

theorem master_columns (db : SqlDb) : db.master.columns = masterColumns := rfl

theorem master_known (n : String) : [(SqlOperand.word "type".toList, SqlOperand.text "table".toList), (.word "name".toList, .quoted (metadataTable n))].all
    (fun x => operandKnown masterColumns x.1 && operandKnown masterColumns x.2) = true := by
  have k1 : operandKnown masterColumns (.word "type".toList) = true := by decide
  have k2 : operandKnown masterColumns (.word "name".toList) = true := by decide
  simp only [List.all_cons, List.all_nil, k1, k2]
  rfl

theorem columnOf_cons (c : SqlColumn) (cs : List SqlColumn) (v : SqlValue) (vs : List SqlValue) (name : List Char) :
    columnOf (c :: cs) (v :: vs) name = if sameName c.name name then some (v, c.collate) else columnOf cs vs name := by
  rw [columnOf]

theorem masterColumns_get (n : String) (h : NoNul n) (a b c : SqlValue) : columnOf masterColumns [a, b, c] "type".toList = some (a, "BINARY".toList) ∧
    columnOf masterColumns [a, b, c] "name".toList = some (b, "BINARY".toList) ∧ columnOf masterColumns [a, b, c] (metadataTable n) = none := by
  have h1 := metadata_ne_word h (w := "type".toList) (by decide)
  have h2 := metadata_ne_word h (w := "name".toList) (by decide)
  have h3 := metadata_ne_word h (w := "tbl_name".toList) (by decide)
  refine ⟨?_, ?_, ?_⟩
  · rw [masterColumns, columnOf_cons, if_pos (sameName_refl _)]
  · rw [masterColumns, columnOf_cons, if_neg (by decide), columnOf_cons, if_pos (sameName_refl _)]
  · rw [masterColumns, columnOf_cons, if_neg (by rw [h1]; simp), columnOf_cons, if_neg (by rw [h2]; simp), columnOf_cons, if_neg (by rw [h3]; simp)]
    rfl

theorem master_row (lib : SqlLib) {n : String} (h : NoNul n) (c : SqlValue) : rowMatches lib masterColumns [.text (utf8 "table".toList), .text (utf8 (metadataTable n)), c]
    [(.word "type".toList, .text "table".toList), (.word "name".toList, .quoted (metadataTable n))] [] = true := by
  obtain ⟨e1, e2, e3⟩ := masterColumns_get n h (.text (utf8 "table".toList)) (.text (utf8 (metadataTable n))) c
  have e4 : ∀ s : Bytes, sqlEq lib "BINARY".toList (.text s) (.text s) = true := by
    intro s
    simp only [sqlEq, collateEq]
    rw [if_neg (by decide)]
    simp
  simp only [rowMatches, operandValue, e1, e2, e3, Option.some_or, Option.getD_some, e4, Bool.and_self]

/-- The metadata table is found. -/
theorem hasMetadata_found {lib : SqlLib} {n : String} (hn : NoNul n) {db : SqlDb} {w : Option Nat} {t : SqlTable} (ht : db.table (metadataTable n) = some t) (hname : t.name = metadataTable n) :
    hasSqliteMetadata lib n ⟨db, w⟩ = (.ok true, ⟨db, w⟩) := by
  have hmem : t ∈ db.tables := List.mem_of_find?_eq_some ht
  have hrow : [SqlValue.text (utf8 "table".toList), .text (utf8 t.name), .text (utf8 t.name)] ∈ db.master.rows.filter (fun row => rowMatches lib db.master.columns row
      [(.word "type".toList, .text "table".toList), (.word "name".toList, .quoted (metadataTable n))] []) := by
    rw [List.mem_filter]
    refine ⟨List.mem_append_left _ (List.mem_map.2 ⟨t, hmem, rfl⟩), ?_⟩
    rw [hname]
    exact master_row lib hn _
  have hquery : sqlQuery lib db (hasMetadataText n) [] = .ok [[.int (db.master.rows.filter (fun row => rowMatches lib db.master.columns row
      [(.word "type".toList, .text "table".toList), (.word "name".toList, .quoted (metadataTable n))] [])).length]] := by
    simp only [sqlQuery, parse_hasMetadata]
    rw [show db.source "sqlite_master".toList = some db.master by unfold SqlDb.source; rw [if_pos (sameName_refl _)]]
    dsimp only
    rw [if_neg (by rw [master_columns, master_known]; simp), if_neg (by simp [countParams])]
  revert hrow hquery
  generalize db.master.rows.filter (fun row => rowMatches lib db.master.columns row
      [(.word "type".toList, .text "table".toList), (.word "name".toList, .quoted (metadataTable n))] []) = found
  intro hrow hquery
  have hpos := List.length_pos_of_mem hrow
  unfold hasSqliteMetadata
  show SqlM.bind _ _ _ = _
  simp only [SqlM.bind, query, bindValues, hquery, SqlM.lift]
  rw [decide_eq_true (by omega)]

/-- The index is opened again without a change. -/
theorem start_again {lib : SqlLib} (hlib : PlansPermute lib) {x : StoredIndex} (hx : NoNul x.name) {input : Input} {db : SqlDb} (h : MetaOk x input db) (w : Option Nat) :
    x.start lib input ⟨db, w⟩ = (.ok (), ⟨db, w⟩) := by
  obtain ⟨t, size, time, h1, h2, h3, h4, h5, h6⟩ := h
  have hload : loadSqliteMetadata lib x.name ⟨db, w⟩ = (.ok ⟨x.name, 1, unixSeconds time, size, true⟩, ⟨db, w⟩) := by
    have hq : ∃ rows, sqlQuery lib db (loadMetadataText x.name) [] = .ok rows := by
      simp only [sqlQuery, parse_loadMetadata, SqlDb.source, metadata_not_master hx, Bool.false_eq_true, if_false, h1, List.all_nil, Bool.not_true, countParams, List.length_nil, ne_eq,
        not_true_eq_false]
      exact ⟨_, rfl⟩
    obtain ⟨rows, hq⟩ := hq
    have hp := load_rows hlib h1 (metadata_not_master hx) h3 hq
    rw [h6] at hp
    have hrows := List.perm_singleton.1 hp
    unfold loadSqliteMetadata
    show SqlM.bind _ _ _ = _
    simp only [SqlM.bind, query, bindValues, hq, hrows, SqlM.lift]
    rfl
  have hvalid : (⟨x.name, 1, unixSeconds time, size, true⟩ : SqliteMetadata).assertValid input = .ok () := by
    simp only [SqliteMetadata.assertValid, Bind.bind, Except.bind, h4, h5]
    simp [sqliteVersion]
  have hopen : ∀ create, openStored lib x.name input create ⟨db, w⟩ = (.ok (), ⟨db, w⟩) := by
    intro create
    unfold openStored
    show SqlM.bind _ _ _ = _
    simp only [SqlM.bind, hasMetadata_found hx h1 h2, if_true]
    show SqlM.bind _ _ _ = _
    simp only [SqlM.bind, hload, SqlM.lift, hvalid]
  cases x with
  | sqlite c => exact hopen _
  | fts5 c => exact hopen _

end Rodb
