import Verif.Proofs.SqliteDb
import Verif.Proofs.FtsText
import Verif.Proofs.Parser
import Verif.Spec.Sqlite
/-
  The database of the SQLite index after starts of the program that may die between two statements.
-/
namespace Rodb
open Rodb.Spec

/-! ### Programs that use the database -/

/-- From a database with `P`, the program answers with `Q` or fails with `R`. -/
structure Triple {α : Type} (P : SqlDb → Prop) (m : SqlM α) (Q : α → SqlDb → Prop) (R : SqlDb → Prop) : Prop where
  run : ∀ s : SqlState, P s.db → match m s with
    | (.ok a, s') => Q a s'.db
    | (.error _, s') => R s'.db

theorem Triple.ok {α : Type} {P : SqlDb → Prop} {m : SqlM α} {Q : α → SqlDb → Prop} {R : SqlDb → Prop} (h : Triple P m Q R) {s : SqlState} (hs : P s.db) {a : α}
    (hok : (m s).1 = .ok a) : Q a (m s).2.db := by
  have h1 := h.run s hs
  cases hm : m s with
  | mk r s' =>
    rw [hm] at h1 hok
    dsimp only at hok
    subst hok
    exact h1

theorem Triple.bind {α β : Type} {P : SqlDb → Prop} {m : SqlM α} {Q : α → SqlDb → Prop} {R : SqlDb → Prop} {f : α → SqlM β} {S : β → SqlDb → Prop}
    (h : Triple P m Q R) (h' : ∀ a, Triple (Q a) (f a) S R) : Triple P (m >>= f) S R := by
  refine ⟨fun s hs => ?_⟩
  have h1 := h.run s hs
  show match SqlM.bind m f s with | (.ok a, s') => S a s'.db | (.error _, s') => R s'.db
  unfold SqlM.bind
  cases hm : m s with
  | mk r s' =>
    rw [hm] at h1
    cases r with
    | ok a => exact (h' a).run s' h1
    | error e => exact h1

theorem Triple.weaken {α : Type} {P P' : SqlDb → Prop} {m : SqlM α} {Q : α → SqlDb → Prop} {R : SqlDb → Prop} (h : Triple P m Q R) (hp : ∀ db, P' db → P db) :
    Triple P' m Q R := ⟨fun s hs => h.run s (hp _ hs)⟩

theorem Triple.post {α : Type} {P : SqlDb → Prop} {m : SqlM α} {Q Q' : α → SqlDb → Prop} {R : SqlDb → Prop} (h : Triple P m Q R) (hq : ∀ a db, Q a db → Q' a db) : Triple P m Q' R := by
  refine ⟨fun s hs => ?_⟩
  have := h.run s hs
  cases hm : m s with
  | mk r s' =>
    rw [hm] at this
    cases r with
    | ok a => exact hq _ _ this
    | error e => exact this

theorem Triple.final {α : Type} {P : SqlDb → Prop} {m : SqlM α} {Q : α → SqlDb → Prop} {R S : SqlDb → Prop} (h : Triple P m Q R) (hq : ∀ a db, Q a db → S db) (hr : ∀ db, R db → S db)
    {s : SqlState} (hs : P s.db) : S (m s).2.db := by
  have := h.run s hs
  cases hm : m s with
  | mk r s' =>
    rw [hm] at this
    cases r with
    | ok a => exact hq _ _ this
    | error e => exact hr _ this

theorem Triple.intro {α : Type} {P : SqlDb → Prop} {m : SqlM α} {Q : α → SqlDb → Prop} {R : SqlDb → Prop} (h : ∀ db, P db → ∃ P' : SqlDb → Prop, P' db ∧ Triple P' m Q R) :
    Triple P m Q R := by
  refine ⟨fun s hs => ?_⟩
  obtain ⟨P', h1, h2⟩ := h s.db hs
  exact h2.run s h1

theorem triple_lift {α : Type} {P : SqlDb → Prop} {r : Res α} {Q : α → SqlDb → Prop} {R : SqlDb → Prop} (h : ∀ db a, P db → r = .ok a → Q a db) (hr : ∀ db, P db → R db) :
    Triple P (SqlM.lift r) Q R := by
  refine ⟨fun s hs => ?_⟩
  unfold SqlM.lift
  cases r with
  | ok a => exact h _ _ hs rfl
  | error e => exact hr _ hs

theorem triple_pure {α : Type} {P : SqlDb → Prop} {a : α} {Q : α → SqlDb → Prop} {R : SqlDb → Prop} (h : ∀ db, P db → Q a db) : Triple P (pure a : SqlM α) Q R :=
  ⟨fun s hs => h s.db hs⟩

theorem triple_exec {P : SqlDb → Prop} {text : List Char} {args : List Value} {Q R : SqlDb → Prop}
    (h : ∀ db db' vals, P db → bindValues args = .ok vals → sqlExec db text vals = .ok db' → Q db') (hr : ∀ db, P db → R db) :
    Triple P (exec text args) (fun _ => Q) R := by
  refine ⟨fun s hs => ?_⟩
  unfold exec
  cases hb : bindValues args with
  | error e => exact hr _ hs
  | ok vals =>
    dsimp only
    split
    · rename_i h1
      split at h1
      · cases h1
      · split at h1
        · cases h1
        · rename_i db' hdb
          cases h1
          exact h _ _ _ hs hb hdb
    · rename_i h1
      split at h1
      · cases h1
        exact hr _ hs
      · split at h1
        · cases h1
          exact hr _ hs
        · cases h1

theorem triple_query {P : SqlDb → Prop} {lib : SqlLib} {text : List Char} {Q : List (List SqlValue) → SqlDb → Prop} {R : SqlDb → Prop}
    (h : ∀ db rows, P db → sqlQuery lib db text [] = .ok rows → Q rows db) (hr : ∀ db, P db → R db) : Triple P (query lib text []) Q R := by
  refine ⟨fun s hs => ?_⟩
  simp only [query, bindValues]
  cases hq : sqlQuery lib s.db text [] with
  | ok rows => exact h _ _ hs hq
  | error e => exact hr _ hs

theorem triple_prepare {P : SqlDb → Prop} {text : List Char} {Q R : SqlDb → Prop} (h : ∀ db, P db → Q db) (hr : ∀ db, P db → R db) :
    Triple P (prepare text) (fun _ => Q) R := by
  refine ⟨fun s hs => ?_⟩
  unfold prepare
  cases parseSql text with
  | none => exact hr _ hs
  | some _ => exact h _ hs

/-! ### Values -/

theorem bindValue_stands {v : Value} {w : SqlValue} : bindValue v = .ok w ↔ Stands v w := by
  constructor
  · intro h
    cases v with
    | null => cases h; exact .null
    | bool b => cases b <;> cases h <;> constructor
    | int i => cases h; exact .int i
    | float f =>
      cases f
      all_goals first
        | (cases h; exact .nan)
        | (cases h; exact .float _ (by simp))
    | str s => cases h; exact .text s
    | arr a => cases h
    | obj o => cases h
  · intro h
    cases h with
    | float f hf =>
      cases f
      all_goals first
        | rfl
        | exact (hf rfl).elim
    | _ => rfl

theorem bindValues_cons {v : Value} {vs : List Value} {ws : List SqlValue} : bindValues (v :: vs) = .ok ws ↔ ∃ w rest, bindValue v = .ok w ∧ bindValues vs = .ok rest ∧ ws = w :: rest := by
  simp only [bindValues]
  cases bindValue v with
  | error e => simp [Bind.bind, Except.bind]
  | ok w =>
    cases bindValues vs with
    | error e => simp [Bind.bind, Except.bind]
    | ok rest => simp [Bind.bind, Except.bind, eq_comm]

theorem storedValues_of : ∀ {ps : List String} {r : Rec} {vs : List Value} {ws : List SqlValue}, recordValues r ps = .ok vs → bindValues vs = .ok ws →
    StoredValues r ps ws
  | [], r, vs, ws, h, hb => by
    cases h
    cases hb
    trivial
  | p :: ps, r, vs, ws, h, hb => by
    simp only [recordValues] at h
    cases hg : r.get p with
    | error e => rw [hg] at h; cases h
    | ok v =>
      rw [hg] at h
      cases hr : recordValues r ps with
      | error e => rw [hr] at h; cases h
      | ok vs' =>
        rw [hr] at h
        cases h
        obtain ⟨w, rest, h1, h2, rfl⟩ := bindValues_cons.1 hb
        exact ⟨⟨v, hg, bindValue_stands.1 h1⟩, storedValues_of hr h2⟩

theorem storedRows_append {c : List String} : ∀ {rs : List Rec} {rows : List (List SqlValue)} {r : Rec} {row : List SqlValue}, StoredRows c rs rows → StoredRow c r row →
    StoredRows c (rs ++ [r]) (rows ++ [row])
  | [], [], _, _, _, h => ⟨h, trivial⟩
  | [], _ :: _, _, _, h, _ => h.elim
  | _ :: _, [], _, _, h, _ => h.elim
  | _ :: _, _ :: _, _, _, h, h' => ⟨h.1, storedRows_append h.2 h'⟩

/-! ### What is known of the database -/

theorem metadata_table (n : String) (h : NoNul n) : metadataTable n = "rodb_".toList ++ n.toList ++ "_metadata".toList := metadataTable_plain h

theorem columnsOf_eq {c : SqliteDecl} (h : SqliteAccepted c) : columnsOf c = indexColumns c := by
  unfold columnsOf indexColumns
  congr 1
  refine List.map_congr_left (fun p hp => ?_)
  rw [propertySqlColumn, propertyColumn_plain (h.properties p hp)]

theorem differentColumns_pairwise : ∀ {l : List SqlColumn}, differentColumns l = true → l.Pairwise (fun a b => sameName a.name b.name = false)
  | [], _ => .nil
  | c :: cs, h => by
    simp only [differentColumns, Bool.and_eq_true, Bool.not_eq_true', List.any_eq_false] at h
    exact .cons (fun d hd => by simpa using h.1 d hd) (differentColumns_pairwise h.2)

/-- The metadata of the finished build of a start. -/
def Complete (starts : List SqliteStart) (n : String) (db : SqlDb) (rows : List (List SqlValue)) : Prop :=
  ∃ s ∈ starts, ∃ size time, sameName s.index.name.toList n.toList = true ∧ s.input.size = .ok size ∧ s.input.modTimeNs = .ok time ∧ HoldsAll s.index s.input db ∧
    rows = [[.int 1, .int (unixSeconds time), .int size, .int 1]]

/-- The metadata of an unfinished build. -/
def Incomplete (rows : List (List SqlValue)) : Prop := rows = [] ∨ ∃ a b, rows = [[.int 1, .int a, .int b, .int 0]]

/-- What the metadata table of an index can be. -/
def MetaClause (starts : List SqliteStart) (n : String) (db : SqlDb) : Prop :=
  ∀ t, db.table (metadataTable n) = some t → t.columns = metadataColumns ∧ (Incomplete t.rows ∨ Complete starts n db t.rows)

/-- What the database can be. -/
def StoreInv (starts : List SqliteStart) (db : SqlDb) : Prop := ∀ n, NoNul n → MetaClause starts n db

/-- The same for the indexes whose names are not that of `c` up to case. -/
def OtherMeta (starts : List SqliteStart) (c : StoredIndex) (db : SqlDb) : Prop := ∀ n, NoNul n → sameName c.name.toList n.toList = false → MetaClause starts n db

theorem clause_mono {a b : List SqliteStart} (h : ∀ s ∈ a, s ∈ b) {n : String} {db : SqlDb} (hc : MetaClause a n db) : MetaClause b n db := by
  intro t ht
  obtain ⟨h1, h2⟩ := hc t ht
  refine ⟨h1, h2.imp_right ?_⟩
  rintro ⟨s, hs, rest⟩
  exact ⟨s, h s hs, rest⟩

theorem clause_congr {starts : List SqliteStart} {m n : String} (hm : NoNul m) (hn : NoNul n) (h : sameName m.toList n.toList = true) {db : SqlDb}
    (hc : MetaClause starts m db) : MetaClause starts n db := by
  intro t ht
  rw [← table_congr db (a := metadataTable m) (by rw [sameName_metadata hm hn]; exact h)] at ht
  obtain ⟨h1, h2⟩ := hc t ht
  refine ⟨h1, h2.imp_right ?_⟩
  rintro ⟨s, hs, a, b, hn', rest⟩
  exact ⟨s, hs, a, b, sameName_trans hn' h, rest⟩

theorem inv_of_others {starts : List SqliteStart} {c : StoredIndex} (hc : NoNul c.name) {db : SqlDb} (ho : OtherMeta starts c db) (h : MetaClause starts c.name db) : StoreInv starts db := by
  intro n hn
  by_cases hs : sameName c.name.toList n.toList = true
  · exact clause_congr hc hn hs h
  · exact ho n hn (by simpa using hs)

/-- The other indexes do not notice changes of the tables of `c`. -/
theorem others_frame {starts : List SqliteStart} (hstarts : ∀ s ∈ starts, NoNul s.index.name) {c : StoredIndex} (_hc : NoNul c.name) {db db' : SqlDb}
    (hm : ∀ n, NoNul n → sameName c.name.toList n.toList = false → db'.table (metadataTable n) = db.table (metadataTable n))
    (hi : ∀ n, NoNul n → sameName c.name.toList n.toList = false → db'.table (indexTable n) = db.table (indexTable n))
    (h : OtherMeta starts c db) : OtherMeta starts c db' := by
  intro n hn hs t ht
  rw [hm n hn hs] at ht
  obtain ⟨h1, h2⟩ := h n hn hs t ht
  refine ⟨h1, h2.imp_right ?_⟩
  rintro ⟨s, hs', a, b, hsn, h3, h4, ⟨records, table, h5, h6, h7, h8⟩, h9⟩
  refine ⟨s, hs', a, b, hsn, h3, h4, ⟨records, table, h5, ?_, h7, h8⟩, h9⟩
  have hp := hstarts s hs'
  rw [← indexTable_plain hp] at h6 ⊢
  rw [hi s.index.name hp ?_]
  · exact h6
  · rw [Bool.eq_false_iff]
    intro e
    rw [sameName_trans e hsn] at hs
    cases hs

theorem others_metadata {starts : List SqliteStart} (hstarts : ∀ s ∈ starts, NoNul s.index.name) {c : StoredIndex} (hc : NoNul c.name) {db db' : SqlDb} {x : Option SqlTable}
    (hu : Upd (metadataTable c.name) x db db') (h : OtherMeta starts c db) : OtherMeta starts c db' :=
  others_frame hstarts hc (fun n hn hs => hu.other (by rw [sameName_metadata hc hn]; exact hs)) (fun n hn _ => hu.other (metadata_ne_index hc hn)) h

theorem others_index {starts : List SqliteStart} (hstarts : ∀ s ∈ starts, NoNul s.index.name) {c : StoredIndex} (hc : NoNul c.name) {db db' : SqlDb} {x : Option SqlTable}
    (hu : Upd (indexTable c.name) x db db') (h : OtherMeta starts c db) : OtherMeta starts c db' :=
  others_frame hstarts hc (fun n hn _ => hu.other (by rw [sameName_comm]; exact metadata_ne_index hn hc))
    (fun n hn hs => hu.other (by rw [sameName_index hc hn]; exact hs)) h

/-- The metadata of `c`. -/
def OwnMeta (c : StoredIndex) (rows : List (List SqlValue)) (db : SqlDb) : Prop :=
  ∃ t, db.table (metadataTable c.name) = some t ∧ t.columns = metadataColumns ∧ t.rows = rows

/-- The table of `c`. -/
def TableStored (c : StoredIndex) (rows : List (List SqlValue)) (db : SqlDb) : Prop :=
  ∃ t, db.table (indexTable c.name) = some t ∧ t.columns = c.columns ∧ t.fts = c.settings ∧ t.rows = rows

theorem own_index {c : StoredIndex} (hc : NoNul c.name) {rows : List (List SqlValue)} {db db' : SqlDb} {x : Option SqlTable} (hu : Upd (indexTable c.name) x db db')
    (h : OwnMeta c rows db) : OwnMeta c rows db' := by
  obtain ⟨t, ht, rest⟩ := h
  exact ⟨t, by rw [hu.other (by rw [sameName_comm]; exact metadata_ne_index hc hc)]; exact ht, rest⟩

theorem stored_metadata {c : StoredIndex} (hc : NoNul c.name) {rows : List (List SqlValue)} {db db' : SqlDb} {x : Option SqlTable} (hu : Upd (metadataTable c.name) x db db')
    (h : TableStored c rows db) : TableStored c rows db' := by
  obtain ⟨t, ht, rest⟩ := h
  exact ⟨t, by rw [hu.other (metadata_ne_index hc hc)]; exact ht, rest⟩

theorem inv_of_unfinished {starts : List SqliteStart} {c : StoredIndex} (hc : NoNul c.name) {db : SqlDb} (ho : OtherMeta starts c db) {rows : List (List SqlValue)} (h : OwnMeta c rows db)
    (hu : Incomplete rows) : StoreInv starts db := by
  refine inv_of_others hc ho ?_
  intro t ht
  obtain ⟨t', ht', h1, h2⟩ := h
  rw [ht] at ht'
  cases ht'
  exact ⟨h1, .inl (h2 ▸ hu)⟩

/-! ### The statements of a build -/

theorem save_first {starts : List SqliteStart} (hstarts : ∀ s ∈ starts, NoNul s.index.name) {c : StoredIndex} (hc : NoNul c.name) {m : SqliteMetadata} (hm : m.indexName = c.name)
    (hv : m.version = 1) (hf : m.completed = false) :
    Triple (StoreInv starts) m.save (fun _ db => OtherMeta starts c db ∧ OwnMeta c [[.int 1, .int m.modTime, .int m.size, .int 0]] db) (StoreInv starts) := by
  unfold SqliteMetadata.save
  rw [hm]
  have others : ∀ db, StoreInv starts db → OtherMeta starts c db := fun db h n hn _ => h n hn
  refine Triple.bind (Q := fun _ db => StoreInv starts db ∧ (db.table (metadataTable c.name)).isSome) (triple_exec ?_ (fun _ h => h)) (fun _ => ?_)
  · intro db db' vals hi _ hx
    rcases exec_createMetadata hx with ⟨hnone, hu⟩ | ⟨hsome, rfl⟩
    · have hown : OwnMeta c [] db' := ⟨_, hu.same (sameName_refl _), rfl, rfl⟩
      refine ⟨inv_of_unfinished hc (others_metadata hstarts hc hu (others _ hi)) hown (.inl rfl), ?_⟩
      rw [hu.same (sameName_refl _)]
      rfl
    · exact ⟨hi, hsome⟩
  refine Triple.bind (Q := fun _ db => OtherMeta starts c db ∧ OwnMeta c [] db) (triple_exec ?_ (fun _ h => h.1)) (fun _ => ?_)
  · intro db db' vals ⟨hi, _⟩ _ hx
    obtain ⟨t, ht, hu⟩ := exec_deleteMetadata hx
    exact ⟨others_metadata hstarts hc hu (others _ hi), _, hu.same (sameName_refl _), (hi _ hc t ht).1, rfl⟩
  refine triple_exec ?_ (fun _ h => inv_of_unfinished hc h.1 h.2 (.inl rfl))
  intro db db' vals ⟨ho, t, ht, hcols, hrows⟩ hb hx
  obtain ⟨t', ht', _, hu⟩ := exec_insertMetadata hx
  rw [ht] at ht'
  cases ht'
  rw [hv, hf] at hb
  simp only [bindValues, bindValue, Bind.bind, Except.bind, Bool.false_eq_true, if_false, Except.ok.injEq] at hb
  subst hb
  refine ⟨others_metadata hstarts hc hu ho, _, hu.same (sameName_refl _), hcols, ?_⟩
  dsimp only
  rw [hrows, hcols]
  rfl

theorem createIndexes_triple {c : SqliteDecl} {P R : SqlDb → Prop} (hp : ∀ db db' : SqlDb, (∀ n, db'.table n = db.table n) → P db → P db') (hr : ∀ db, P db → R db) :
    ∀ ps, Triple P (createIndexes c ps) (fun _ => P) R
  | [] => triple_pure (fun _ h => h)
  | _ :: ps => Triple.bind (triple_exec (fun db db' _ h _ hx => hp db db' (exec_createIndex hx) h) hr) (fun _ => createIndexes_triple hp hr ps)

/-- The statement adds a row to the table of `c`. -/
def InsertsInto (c : StoredIndex) (text : List Char) : Prop := ∀ db db' args, sqlExec db text args = .ok db' →
  ∃ t, db.table (indexTable c.name) = some t ∧ args.length = c.columns.length ∧
    Upd (indexTable c.name) (some { t with rows := t.rows ++ [insertedRow t.columns (c.columns.map (·.name)) args] }) db db'

theorem insertRecords_triple {starts : List SqliteStart} (hstarts : ∀ s ∈ starts, NoNul s.index.name) {c : StoredIndex} (hc : NoNul c.name) {text : List Char} (hins : InsertsInto c text)
    (hd : differentColumns c.columns = true) {own : List (List SqlValue)} (hown : Incomplete own) :
    ∀ (l : List (Res Rec)) (done : List Rec), Triple (fun db => OtherMeta starts c db ∧ OwnMeta c own db ∧ ∃ rows, StoredRows c.properties done rows ∧ TableStored c rows db)
      (insertRecords text c.properties l)
      (fun _ db => OtherMeta starts c db ∧ OwnMeta c own db ∧ ∃ more rows, l = more.map .ok ∧ StoredRows c.properties (done ++ more) rows ∧ TableStored c rows db) (StoreInv starts)
  | [], done => triple_pure (fun db ⟨h1, h2, rows, h3, h4⟩ => ⟨h1, h2, [], rows, rfl, by simpa using h3, h4⟩)
  | r :: rest, done => by
    have fail : ∀ db, (OtherMeta starts c db ∧ OwnMeta c own db ∧ ∃ rows, StoredRows c.properties done rows ∧ TableStored c rows db) → StoreInv starts db :=
      fun db h => inv_of_unfinished hc h.1 h.2.1 hown
    refine Triple.bind (Q := fun a db => r = .ok a ∧ OtherMeta starts c db ∧ OwnMeta c own db ∧ ∃ rows, StoredRows c.properties done rows ∧ TableStored c rows db)
      (triple_lift (fun db a h e => ⟨e, h⟩) fail) (fun a => ?_)
    refine Triple.bind (Q := fun values db => recordValues a c.properties = .ok values ∧ r = .ok a ∧ OtherMeta starts c db ∧ OwnMeta c own db ∧
        ∃ rows, StoredRows c.properties done rows ∧ TableStored c rows db)
      (triple_lift (fun db v h e => ⟨e, h⟩) (fun db h => fail db h.2)) (fun values => ?_)
    refine Triple.bind (Q := fun _ db => r = .ok a ∧ OtherMeta starts c db ∧ OwnMeta c own db ∧ ∃ rows, StoredRows c.properties (done ++ [a]) rows ∧ TableStored c rows db)
      (triple_exec ?_ (fun db h => fail db h.2.2)) (fun _ => ?_)
    · intro db db' vals ⟨hv, hr, ho, hw, rows, hrows, t, ht, hcols, hfts, htr⟩ hb hx
      obtain ⟨t', ht', hlen, hu⟩ := hins _ _ _ hx
      rw [ht] at ht'
      cases ht'
      obtain ⟨w, ws, h1, h2, rfl⟩ := bindValues_cons.1 hb
      cases h1
      refine ⟨hr, others_index hstarts hc hu ho, own_index hc hu hw, rows ++ [.int a.position :: ws], storedRows_append hrows ⟨ws, rfl, storedValues_of hv h2⟩,
        _, hu.same (sameName_refl _), hcols, hfts, ?_⟩
      dsimp only
      rw [htr, hcols, insertedRow_all hd hlen]
    · refine ⟨fun s ⟨hr, h⟩ => ?_⟩
      have ih := (insertRecords_triple hstarts hc hins hd hown rest (done ++ [a])).run s h
      revert ih
      cases insertRecords text c.properties rest s with
      | mk res s' =>
        cases res with
        | error e => exact id
        | ok u =>
          rintro ⟨h1, h2, more, rows, rfl, h3, h4⟩
          exact ⟨h1, h2, a :: more, rows, by rw [hr]; rfl, by simpa using h3, h4⟩

theorem save_last {starts : List SqliteStart} (hstarts : ∀ s ∈ starts, NoNul s.index.name) {s : SqliteStart} (hs : s ∈ starts) (hc : NoNul s.index.name)
    {m : SqliteMetadata} (hm : m.indexName = s.index.name) (hv : m.version = 1) (hf : m.completed = true) {size time : Int} (hsize : s.input.size = .ok size)
    (htime : s.input.modTimeNs = .ok time) (hms : m.size = size) (hmt : m.modTime = unixSeconds time) {own : List (List SqlValue)} (hown : Incomplete own) :
    Triple (fun db => OtherMeta starts s.index db ∧ OwnMeta s.index own db ∧ HoldsAll s.index s.input db) m.save (fun _ db => StoreInv starts db ∧ HoldsAll s.index s.input db) (StoreInv starts) := by
  unfold SqliteMetadata.save
  rw [hm]
  have holds : ∀ {db db' : SqlDb} {x : Option SqlTable}, Upd (metadataTable s.index.name) x db db' → HoldsAll s.index s.input db → HoldsAll s.index s.input db' := by
    rintro db db' x hu ⟨records, table, h1, h2, h3⟩
    refine ⟨records, table, h1, ?_, h3⟩
    rw [← indexTable_plain hc] at h2 ⊢
    rw [hu.other (metadata_ne_index hc hc)]
    exact h2
  refine Triple.bind (Q := fun _ db => OtherMeta starts s.index db ∧ OwnMeta s.index own db ∧ HoldsAll s.index s.input db)
    (triple_exec ?_ (fun _ h => inv_of_unfinished hc h.1 h.2.1 hown)) (fun _ => ?_)
  · intro db db' vals ⟨ho, hw, hh⟩ _ hx
    rcases exec_createMetadata hx with ⟨hnone, _⟩ | ⟨_, rfl⟩
    · obtain ⟨t, ht, _⟩ := hw
      rw [hnone] at ht
      cases ht
    · exact ⟨ho, hw, hh⟩
  refine Triple.bind (Q := fun _ db => OtherMeta starts s.index db ∧ OwnMeta s.index [] db ∧ HoldsAll s.index s.input db)
    (triple_exec ?_ (fun _ h => inv_of_unfinished hc h.1 h.2.1 hown)) (fun _ => ?_)
  · intro db db' vals ⟨ho, ⟨t', ht', hcols, _⟩, hh⟩ _ hx
    obtain ⟨t, ht, hu⟩ := exec_deleteMetadata hx
    rw [ht] at ht'
    cases ht'
    exact ⟨others_metadata hstarts hc hu ho, ⟨_, hu.same (sameName_refl _), hcols, rfl⟩, holds hu hh⟩
  refine triple_exec ?_ (fun _ h => inv_of_unfinished hc h.1 h.2.1 (.inl rfl))
  intro db db' vals ⟨ho, ⟨t, ht, hcols, hrows⟩, hh⟩ hb hx
  obtain ⟨t', ht', _, hu⟩ := exec_insertMetadata hx
  rw [ht] at ht'
  cases ht'
  rw [hv, hf] at hb
  simp only [bindValues, bindValue, Bind.bind, Except.bind, if_true, Except.ok.injEq] at hb
  subst hb
  refine ⟨inv_of_others hc (others_metadata hstarts hc hu ho) ?_, holds hu hh⟩
  intro u hu'
  rw [hu.same (sameName_refl _)] at hu'
  cases hu'
  refine ⟨hcols, .inr ⟨s, hs, size, time, sameName_refl _, hsize, htime, holds hu hh, ?_⟩⟩
  dsimp only
  rw [hrows, hcols, hms, hmt]
  rfl

/-- The metadata that a build saves at its beginning. -/
theorem newMetadata_ok {s : SqliteStart} {m : SqliteMetadata} (hm : newSqliteMetadata s.index.name s.input = .ok m) : m.indexName = s.index.name ∧ m.version = 1 ∧ m.completed = false ∧
    ∃ size time, s.input.size = .ok size ∧ s.input.modTimeNs = .ok time ∧ m.size = size ∧ m.modTime = unixSeconds time := by
  simp only [newSqliteMetadata, Bind.bind, Except.bind] at hm
  cases hsz : s.input.size with
  | error e => rw [hsz] at hm; cases hm
  | ok size =>
    rw [hsz] at hm
    cases htm : s.input.modTimeNs with
    | error e => rw [htm] at hm; cases hm
    | ok time =>
      rw [htm] at hm
      cases hm
      exact ⟨rfl, rfl, rfl, size, time, rfl, rfl, rfl, rfl⟩

/-- The records and the end of a build. -/
theorem finish_triple {starts : List SqliteStart} (hstarts : ∀ s ∈ starts, NoNul s.index.name) {s : SqliteStart} (hs : s ∈ starts) (lib : SqlLib) {m : SqliteMetadata}
    (hm : m.indexName = s.index.name) (hv : m.version = 1) {size time : Int} (hsize : s.input.size = .ok size) (htime : s.input.modTimeNs = .ok time) (hms : m.size = size)
    (hmt : m.modTime = unixSeconds time) {own : List (List SqlValue)} (hunf : Incomplete own) {l : List (Res Rec)} (hl : s.input.scan = .ok l) {text : List Char}
    (hins : InsertsInto s.index text) (hd : differentColumns s.index.columns = true) (count : List Char) :
    Triple (fun db => OtherMeta starts s.index db ∧ OwnMeta s.index own db ∧ TableStored s.index [] db)
      (do
        insertRecords text s.index.properties l
        { m with completed := true }.save
        let _ ← query lib count []
        pure ())
      (fun _ db => StoreInv starts db ∧ HoldsAll s.index s.input db ∧ (∃ n, s.input.size = .ok n) ∧ ∃ t, s.input.modTimeNs = .ok t) (StoreInv starts) := by
  have hc := hstarts s hs
  refine Triple.bind ((insertRecords_triple hstarts hc hins hd hunf l []).weaken (fun db h => ⟨h.1, h.2.1, [], trivial, h.2.2⟩)) (fun _ => ?_)
  refine Triple.weaken (P := fun db => OtherMeta starts s.index db ∧ OwnMeta s.index own db ∧ HoldsAll s.index s.input db) ?_ ?_
  · refine Triple.bind (save_last (m := { m with completed := true }) hstarts hs hc hm hv rfl hsize htime hms hmt hunf) (fun _ => ?_)
    refine Triple.bind (triple_query (Q := fun _ db => StoreInv starts db ∧ HoldsAll s.index s.input db) (fun _ _ h _ => h) (fun _ h => h.1)) (fun _ => ?_)
    exact triple_pure (fun db h => ⟨h.1, h.2, ⟨size, hsize⟩, time, htime⟩)
  · rintro db ⟨ho, hw, more, rows, rfl, h1, t, h2, h3, h4, h5⟩
    refine ⟨ho, hw, more, t, hl, ?_, h3, h4, differentColumns_pairwise hd, by rw [h5]; simpa using h1⟩
    rw [← indexTable_plain hc]
    exact h2

/-- The beginning of a build: the metadata is saved and the input is opened. -/
theorem begin_triple {starts : List SqliteStart} (hstarts : ∀ s ∈ starts, NoNul s.index.name) {s : SqliteStart} (hs : s ∈ starts) {rest : SqliteMetadata → List (Res Rec) → SqlM Unit}
    {Q : Unit → SqlDb → Prop}
    (h : ∀ m own l, m.indexName = s.index.name → m.version = 1 → (∃ size time, s.input.size = .ok size ∧ s.input.modTimeNs = .ok time ∧ m.size = size ∧ m.modTime = unixSeconds time) →
      Incomplete own → s.input.scan = .ok l → Triple (fun db => OtherMeta starts s.index db ∧ OwnMeta s.index own db) (rest m l) Q (StoreInv starts)) :
    Triple (StoreInv starts) (do
      let metadata ← SqlM.lift (newSqliteMetadata s.index.name s.input)
      metadata.save
      let records ← SqlM.lift s.input.scan
      rest metadata records) Q (StoreInv starts) := by
  have hc := hstarts s hs
  refine Triple.bind (Q := fun m db => StoreInv starts db ∧ newSqliteMetadata s.index.name s.input = .ok m) (triple_lift (fun db m hi hm => ⟨hi, hm⟩) (fun _ h => h)) (fun m => ?_)
  refine Triple.intro (fun db ⟨hi, hmeta⟩ => ⟨StoreInv starts, hi, ?_⟩)
  obtain ⟨hm, hv, hf, hstat⟩ := newMetadata_ok hmeta
  refine Triple.bind (save_first hstarts hc hm hv hf) (fun _ => ?_)
  generalize hown : [[SqlValue.int 1, .int m.modTime, .int m.size, .int 0]] = own
  have hunf : Incomplete own := .inr ⟨m.modTime, m.size, hown.symm⟩
  refine Triple.bind (Q := fun l db => s.input.scan = .ok l ∧ OtherMeta starts s.index db ∧ OwnMeta s.index own db)
    (triple_lift (fun db l h e => ⟨e, h⟩) (fun db h => inv_of_unfinished hc h.1 h.2 hunf)) (fun l => ?_)
  exact Triple.intro (fun db ⟨hl, h'⟩ => ⟨_, h', h m own l hm hv hstat hunf hl⟩)

theorem inserts_sqlite {c : SqliteDecl} (hacc : SqliteAccepted c) (hne : c.properties ≠ []) : InsertsInto (.sqlite c) (insertText c) := by
  intro db db' args h
  obtain ⟨t, h1, h2, h3⟩ := exec_insert hne h
  refine ⟨t, h1, ?_, ?_⟩
  · rw [h2]
    simp [StoredIndex.columns, columnsOf]
  · rw [← columnsOf_eq hacc] at h3
    exact h3

theorem createIndex_triple {starts : List SqliteStart} (hstarts : ∀ s ∈ starts, NoNul s.index.name) {s : SqliteStart} (hs : s ∈ starts) {c : SqliteDecl} (hi : s.index = .sqlite c)
    (hacc : SqliteAccepted c) (lib : SqlLib) :
    Triple (StoreInv starts) (sqliteCreateIndex lib c s.input)
      (fun _ db => StoreInv starts db ∧ HoldsAll s.index s.input db ∧ (∃ n, s.input.size = .ok n) ∧ ∃ t, s.input.modTimeNs = .ok t) (StoreInv starts) := by
  have hc := hstarts s hs
  have hn : s.index.name = c.name := by rw [hi]; rfl
  unfold sqliteCreateIndex
  rw [← hn]
  refine begin_triple hstarts hs (fun m own l hm hv ⟨size, time, hsize, htime, hms, hmt⟩ hunf hl => ?_)
  have fail : ∀ db, OtherMeta starts s.index db ∧ OwnMeta s.index own db → StoreInv starts db := fun db h => inv_of_unfinished hc h.1 h.2 hunf
  refine Triple.bind (Q := fun _ db => (c.properties ≠ [] ∧ differentColumns (indexColumns c) = true) ∧ OtherMeta starts s.index db ∧ OwnMeta s.index own db ∧
      TableStored s.index [] db) (triple_exec ?_ (fun db h => fail db h)) (fun _ => ?_)
  · intro db db' vals ⟨ho, hw⟩ _ hx
    obtain ⟨_, hne, hd, hu⟩ := exec_createTable (fun p hp => collateWord_allowed (hacc.collate p hp)) hx
    rw [← hn] at hu
    exact ⟨⟨hne, hd⟩, others_index hstarts hc hu ho, own_index hc hu hw, _, hu.same (sameName_refl _), by rw [hi]; exact (columnsOf_eq hacc).symm, by rw [hi]; rfl, rfl⟩
  refine Triple.bind (createIndexes_triple ?_ (fun db h => fail db ⟨h.2.1, h.2.2.1⟩) _) (fun _ => ?_)
  · rintro db db' ht ⟨h1, ho, ⟨t, h2, h3⟩, ⟨u, h4, h5⟩⟩
    exact ⟨h1, others_frame hstarts hc (fun n _ _ => ht _) (fun n _ _ => ht _) ho, ⟨t, by rw [ht]; exact h2, h3⟩, ⟨u, by rw [ht]; exact h4, h5⟩⟩
  refine Triple.bind (triple_prepare (fun _ h => h) (fun db h => fail db ⟨h.2.1, h.2.2.1⟩)) (fun _ => ?_)
  refine Triple.intro (fun db ⟨⟨hne, hd⟩, h⟩ => ⟨fun db => OtherMeta starts s.index db ∧ OwnMeta s.index own db ∧ TableStored s.index [] db, h, ?_⟩)
  rw [← columnsOf_eq hacc] at hd
  have key := finish_triple hstarts hs lib hm hv hsize htime hms hmt hunf hl (text := insertText c) (by rw [hi]; exact inserts_sqlite hacc hne) (by rw [hi]; exact hd)
    ("SELECT COUNT(1) FROM ".toList ++ indexTableIdentifier c.name ++ ";".toList)
  rw [show s.index.properties = c.properties.map (·.name) by rw [hi]; rfl] at key
  rw [hn]
  exact key

/-! ### Builds of FTS5 indexes -/

theorem ftsColumnsOf_eq {c : Fts5Decl} (h : Fts5Accepted c) : ftsColumnsOf c = ftsColumns c := by
  unfold ftsColumnsOf ftsColumns
  congr 1
  refine List.map_congr_left (fun p hp => ?_)
  rw [readName_plain (h.properties p hp)]

theorem inserts_fts {c : Fts5Decl} (hacc : Fts5Accepted c) (hne : c.properties ≠ []) : InsertsInto (.fts5 c) (fts5InsertText c) := by
  intro db db' args h
  obtain ⟨t, h1, h2, h3⟩ := exec_insertParsed (parse_ftsInsert hne) h
  refine ⟨t, h1, ?_, ?_⟩
  · rw [h2]
    simp [StoredIndex.columns, ftsColumnsOf]
  · rw [← ftsColumnsOf_eq hacc] at h3
    exact h3

theorem differentColumns_prefix : ∀ {a b : List SqlColumn}, differentColumns (a ++ b) = true → differentColumns a = true
  | [], _, _ => rfl
  | c :: cs, b, h => by
    simp only [List.cons_append, differentColumns, Bool.and_eq_true, Bool.not_eq_true', List.any_append, Bool.or_eq_false_iff] at h ⊢
    exact ⟨h.1.1, differentColumns_prefix h.2⟩

theorem exec_createFts {db db' : SqlDb} {c : Fts5Decl} (hacc : Fts5Accepted c) {args : List SqlValue} (h : sqlExec db (fts5CreateText c) args = .ok db') :
    db.table (indexTable c.name) = none ∧ differentColumns (ftsColumnsOf c) = true ∧
      Upd (indexTable c.name) (some ⟨indexTable c.name, ftsColumnsOf c, [], some ⟨c.tokenize.toList, ["__offset".toList]⟩⟩) db db' := by
  simp only [sqlExec, parseSql_ftsCreate, parse_ftsCreate, sqlCreateFts] at h
  split at h
  · cases h
  · rename_i hs
    have hnone : db.table (indexTable c.name) = none := by simpa using hs
    split at h
    · cases h
    · split at h
      · cases h
      · split at h
        · cases h
        · split at h
          · cases h
          · rename_i hd
            have hcols : (("__offset".toList, true) :: c.properties.map (fun p => (readName p.toList, false))).map (fun x => (⟨x.1, "BINARY".toList⟩ : SqlColumn)) = ftsColumnsOf c := by
              rw [ftsColumnsOf_eq hacc]
              simp [ftsColumns, Function.comp_def]
            have hun : ((("__offset".toList, true) :: c.properties.map (fun p => (readName p.toList, false))).filter (·.2)).map (·.1) = ["__offset".toList] := by
              rw [List.filter_cons_of_pos rfl, List.filter_eq_nil_iff.2]
              · rfl
              · intro a ha
                obtain ⟨q, _, rfl⟩ := List.mem_map.1 ha
                simp
            have htok : (([("prefix".toList, prefixText c.prefixes), ("tokenize".toList, readName c.tokenize.toList)].find? (fun o => decide (o.1 = "tokenize".toList))).map (·.2)).getD
                "unicode61".toList = c.tokenize.toList := by
              rw [List.find?_cons_of_neg (by simp only [decide_eq_true_eq]; decide), List.find?_cons_of_pos (by simp)]
              exact readName_plain hacc.tokenize
            rw [hcols, hun, htok] at h
            rw [hcols] at hd
            cases h
            exact ⟨hnone, differentColumns_prefix (by simpa using hd), upd_create (t := ⟨indexTable c.name, ftsColumnsOf c, [], some ⟨c.tokenize.toList, ["__offset".toList]⟩⟩) hnone⟩

theorem prepare_ok {text : List Char} {P E : SqlDb → Prop} (h : ∀ db, P db → E db) : Triple P (prepare text) (fun _ db => parseSql text ≠ none ∧ P db) E := by
  refine ⟨fun s hs => ?_⟩
  unfold prepare
  cases hp : parseSql text with
  | none => exact h _ hs
  | some x => exact ⟨by simp, hs⟩

theorem ftsCreateIndex_triple {starts : List SqliteStart} (hstarts : ∀ s ∈ starts, NoNul s.index.name) {s : SqliteStart} (hs : s ∈ starts) {c : Fts5Decl} (hi : s.index = .fts5 c)
    (hacc : Fts5Accepted c) (lib : SqlLib) :
    Triple (StoreInv starts) (fts5CreateIndex lib c s.input)
      (fun _ db => StoreInv starts db ∧ HoldsAll s.index s.input db ∧ (∃ n, s.input.size = .ok n) ∧ ∃ t, s.input.modTimeNs = .ok t) (StoreInv starts) := by
  have hc := hstarts s hs
  have hn : s.index.name = c.name := by rw [hi]; rfl
  unfold fts5CreateIndex
  rw [← hn]
  refine begin_triple hstarts hs (fun m own l hm hv ⟨size, time, hsize, htime, hms, hmt⟩ hunf hl => ?_)
  have fail : ∀ db, OtherMeta starts s.index db ∧ OwnMeta s.index own db → StoreInv starts db := fun db h => inv_of_unfinished hc h.1 h.2 hunf
  refine Triple.bind (triple_lift (fun _ _ h _ => h) fail) (fun _ => ?_)
  refine Triple.bind (Q := fun _ db => differentColumns (ftsColumnsOf c) = true ∧ OtherMeta starts s.index db ∧ OwnMeta s.index own db ∧
      TableStored s.index [] db) (triple_exec ?_ (fun db h => fail db h)) (fun _ => ?_)
  · intro db db' vals ⟨ho, hw⟩ _ hx
    obtain ⟨_, hd, hu⟩ := exec_createFts hacc hx
    rw [← hn] at hu
    exact ⟨hd, others_index hstarts hc hu ho, own_index hc hu hw, _, hu.same (sameName_refl _), by rw [hi]; rfl, by rw [hi]; rfl, rfl⟩
  refine Triple.bind (prepare_ok (fun db h => fail db ⟨h.2.1, h.2.2.1⟩)) (fun _ => ?_)
  refine Triple.intro (fun db ⟨hp, hd, h⟩ => ⟨fun db => OtherMeta starts s.index db ∧ OwnMeta s.index own db ∧ TableStored s.index [] db, h, ?_⟩)
  have hne : c.properties ≠ [] := fun e => hp (parseSql_ftsInsert_empty e)
  have key := finish_triple hstarts hs lib hm hv hsize htime hms hmt hunf hl (text := fts5InsertText c) (by rw [hi]; exact inserts_fts hacc hne) (by rw [hi]; exact hd)
    ("SELECT COUNT(1) FROM ".toList ++ indexTableIdentifier c.name ++ ";".toList)
  rw [show s.index.properties = c.properties by rw [hi]; rfl] at key
  rw [hn]
  exact key

/-! ### Loading the metadata -/

theorem load_rows {lib : SqlLib} (hlib : PlansPermute lib) {n : String} {db : SqlDb} {t : SqlTable} (ht : db.table (metadataTable n) = some t)
    (hm : sameName (metadataTable n) "sqlite_master".toList = false) (hcols : t.columns = metadataColumns) {rows : List (List SqlValue)}
    (h : sqlQuery lib db (loadMetadataText n) [] = .ok rows) :
    rows.Perm (t.rows.map (fun row => (metadataColumns.map (·.name)).map (resultValue metadataColumns row))) := by
  simp only [sqlQuery, parse_loadMetadata, SqlDb.source, hm, Bool.false_eq_true, if_false, ht, List.all_nil, Bool.not_true, countParams, List.length_nil, ne_eq,
    not_true_eq_false, Except.ok.injEq, hcols] at h
  rw [← h]
  refine List.Perm.map _ ?_
  refine (hlib _ _).trans (.of_eq ?_)
  rw [List.filter_eq_self]
  intro row _
  rfl

theorem metadata_not_master {n : String} (h : NoNul n) : sameName (metadataTable n) "sqlite_master".toList = false := by
  rw [metadataTable_plain h, Bool.eq_false_iff, ne_eq, sameName_iff, List.append_assoc, List.map_append]
  intro e
  rw [show "rodb_".toList.map Char.toLower = ['r', 'o', 'd', 'b', '_'] by decide, show "sqlite_master".toList.map Char.toLower = 's' :: "qlite_master".toList by decide] at e
  injection e with e1
  exact absurd e1 (by decide)

theorem hasMetadata_triple {P : SqlDb → Prop} {lib : SqlLib} {n : String} : Triple P (hasSqliteMetadata lib n) (fun _ => P) P := by
  unfold hasSqliteMetadata
  refine Triple.bind (Q := fun _ => P) ?_ (fun rows => ?_)
  · exact triple_query (fun _ _ h _ => h) (fun _ h => h)
  · exact triple_lift (fun _ _ h _ => h) (fun _ h => h)

/-- `NewSqlite` and `NewFts5`, with their builds. -/
def openStored (lib : SqlLib) (name : String) (input : Input) (create : SqlM Unit) : SqlM Unit := do
  let exists_ ← hasSqliteMetadata lib name
  if exists_ then do
    let metadata ← loadSqliteMetadata lib name
    SqlM.lift (metadata.assertValid input)
  else create

theorem openStored_triple {starts : List SqliteStart} (hstarts : ∀ s ∈ starts, NoNul s.index.name) {s : SqliteStart} (hs : s ∈ starts) {lib : SqlLib}
    (hlib : PlansPermute lib) {create : SqlM Unit} (hcreate : Triple (StoreInv starts) create
      (fun _ db => StoreInv starts db ∧ HoldsAll s.index s.input db ∧ (∃ n, s.input.size = .ok n) ∧ ∃ t, s.input.modTimeNs = .ok t) (StoreInv starts)) :
    Triple (StoreInv starts) (openStored lib s.index.name s.input create)
      (fun _ db => StoreInv starts db ∧ ∃ b ∈ starts, sameName b.index.name.toList s.index.name.toList = true ∧ HoldsAll b.index b.input db ∧ SameStat b.input s.input) (StoreInv starts) := by
  have hc := hstarts s hs
  unfold openStored
  refine Triple.bind hasMetadata_triple (fun e => ?_)
  cases e with
  | false =>
    rw [if_neg (by simp)]
    exact hcreate.post (fun _ _ ⟨h1, h2, ⟨n, hn⟩, t, ht⟩ => ⟨h1, s, hs, sameName_refl _, h2, n, t, t, hn, hn, ht, ht, rfl⟩)
  | true =>
    refine Triple.bind (Q := fun m db => StoreInv starts db ∧ (m.completed = true → ∃ b ∈ starts, ∃ size time, sameName b.index.name.toList s.index.name.toList = true ∧
        HoldsAll b.index b.input db ∧ b.input.size = .ok size ∧ b.input.modTimeNs = .ok time ∧ m.size = size ∧ m.modTime = unixSeconds time)) ?_ (fun m => ?_)
    · refine Triple.bind (Q := fun rows db => StoreInv starts db ∧ sqlQuery lib db (loadMetadataText s.index.name) [] = .ok rows) (triple_query (fun _ _ h e => ⟨h, e⟩) (fun _ h => h)) (fun rows => ?_)
      refine triple_lift ?_ (fun _ h => h.1)
      rintro db m ⟨hi, hq⟩ hm
      refine ⟨hi, fun hcomp => ?_⟩
      cases ht : db.table (metadataTable s.index.name) with
      | none =>
        simp only [sqlQuery, parse_loadMetadata, SqlDb.source, metadata_not_master hc, Bool.false_eq_true, if_false, ht] at hq
        cases hq
      | some t =>
        obtain ⟨hcols, hrows⟩ := hi _ hc t ht
        have hp := load_rows hlib ht (metadata_not_master hc) hcols hq
        rcases hrows with (h0 | ⟨a, b, h0⟩) | ⟨b, hb, size, time, hn, hsize, htime, hh, h0⟩
        · rw [h0] at hp
          rw [List.map_nil] at hp
          rw [hp.eq_nil] at hm
          cases hm
        · rw [h0] at hp
          rw [List.perm_singleton.1 hp] at hm
          cases hm
          cases hcomp
        · rw [h0] at hp
          rw [List.perm_singleton.1 hp] at hm
          cases hm
          exact ⟨b, hb, size, time, hn, hh, hsize, htime, rfl, rfl⟩
    · refine triple_lift ?_ (fun _ h => h.1)
      rintro db u ⟨hi, h⟩ ha
      refine ⟨hi, ?_⟩
      simp only [SqliteMetadata.assertValid, Bind.bind, Except.bind] at ha
      split at ha
      · cases ha
      · cases htm : s.input.modTimeNs with
        | error e => rw [htm] at ha; cases ha
        | ok t =>
          rw [htm] at ha
          dsimp only at ha
          split at ha
          · cases ha
          · rename_i hmt
            cases hsz : s.input.size with
            | error e => rw [hsz] at ha; cases ha
            | ok n =>
              rw [hsz] at ha
              dsimp only at ha
              split at ha
              · cases ha
              · rename_i hms
                split at ha
                · cases ha
                · rename_i hcomp
                  obtain ⟨b, hb, size, time, h1, h2, h3, h4, h5, h6⟩ := h (by simpa using hcomp)
                  refine ⟨b, hb, h1, h2, size, time, t, h3, ?_, h4, htm, ?_⟩
                  · rw [← h5, hsz]
                    simp only [ne_eq, Decidable.not_not] at hms
                    rw [hms]
                  · simp only [ne_eq, Decidable.not_not] at hmt
                    rw [← h6, hmt]

theorem accepted_name {x : StoredIndex} (h : x.Accepted) : NoNul x.name := by
  cases x with
  | sqlite c => exact SqliteAccepted.name h
  | fts5 c => exact Fts5Accepted.name h

theorem start_triple {starts : List SqliteStart} (hstarts : ∀ s ∈ starts, s.index.Accepted) {s : SqliteStart} (hs : s ∈ starts) {lib : SqlLib}
    (hlib : PlansPermute lib) :
    Triple (StoreInv starts) (s.index.start lib s.input)
      (fun _ db => StoreInv starts db ∧ ∃ b ∈ starts, sameName b.index.name.toList s.index.name.toList = true ∧ HoldsAll b.index b.input db ∧ SameStat b.input s.input) (StoreInv starts) := by
  have hnames : ∀ s ∈ starts, NoNul s.index.name := fun s hs => accepted_name (hstarts s hs)
  have hacc := hstarts s hs
  cases hi : s.index with
  | sqlite c =>
    rw [hi] at hacc
    have h := openStored_triple hnames hs hlib (createIndex_triple hnames hs hi hacc lib)
    rw [hi] at h
    exact h
  | fts5 c =>
    rw [hi] at hacc
    have h := openStored_triple hnames hs hlib (ftsCreateIndex_triple hnames hs hi hacc lib)
    rw [hi] at h
    exact h

theorem afterStart_inv {lib : SqlLib} (hlib : PlansPermute lib) {all : List SqliteStart} (hall : ∀ s ∈ all, s.index.Accepted) {s : SqliteStart} (hm : s ∈ all) {db : SqlDb}
    (h : StoreInv all db) : StoreInv all (afterStart lib db s) := by
  unfold afterStart
  exact (start_triple hall hm hlib).final (fun _ _ h => h.1) (fun _ h => h) (s := ⟨db, s.writes⟩) h

theorem afterStarts_inv {lib : SqlLib} (hlib : PlansPermute lib) {all : List SqliteStart} (hall : ∀ s ∈ all, s.index.Accepted) (starts : List SqliteStart) (db : SqlDb)
    (hs : ∀ s ∈ starts, s ∈ all) (h : StoreInv all db) : StoreInv all (afterStarts lib db starts) := by
  induction starts generalizing db with
  | nil => exact h
  | cons s rest ih =>
    have key := afterStart_inv hlib hall (hs s List.mem_cons_self) h
    rw [afterStarts]
    exact ih _ (fun x hx => hs x (List.mem_cons_of_mem _ hx)) key

end Rodb
