import Verif.Proofs.Changed
import Verif.Proofs.RefusedStart
/-
  An index that SQLite cannot build is never built: whatever starts leave behind, its metadata never say that it is complete.
-/
namespace Rodb
open Rodb.Spec

/-- The metadata of the index are missing, or say that its build has not ended. -/
def NotDone (x : StoredIndex) (db : SqlDb) : Prop :=
  ∀ t, db.table (metadataTable x.name) = some t → t.name = metadataTable x.name ∧ t.columns = metadataColumns ∧ (t.rows = [] ∨ ∃ a b, t.rows = [[.int 1, .int a, .int b, .int 0]])

theorem NotDone.shape {x : StoredIndex} {db : SqlDb} (h : NotDone x db) : MetaShape x db := by
  intro t ht
  obtain ⟨h1, h2, h3⟩ := h t ht
  refine ⟨h1, h2, ?_⟩
  rcases h3 with h3 | ⟨a, b, h3⟩
  · exact .inl h3
  · exact .inr ⟨a, b, false, h3⟩

theorem NotDone.not_ok {x : StoredIndex} {db : SqlDb} {input : Input} (h : NotDone x db) (hok : MetaOk x input db) : False := by
  obtain ⟨t, size, time, h1, _, _, _, _, h6⟩ := hok
  obtain ⟨_, _, h | ⟨a, b, h⟩⟩ := h t h1
  · rw [h6] at h
    cases h
  · rw [h6] at h
    injection h with h _
    injection h with _ h
    injection h with _ h
    injection h with _ h
    injection h with h _
    injection h with h
    cases h

theorem notDone_stable {x : StoredIndex} (hx : NoNul x.name) : IndexStable x (NotDone x) where
  index db db' t hu h u htab := by
    rw [hu.other (by rw [sameName_comm]; exact metadata_ne_index hx hx)] at htab
    exact h u htab
  same db db' he h u htab := by
    rw [he] at htab
    exact h u htab

theorem notDone_other {x y : StoredIndex} (hx : NoNul x.name) (hy : NoNul y.name) (hne : sameName y.name.toList x.name.toList = false) : IndexStable y (NotDone x) ∧
    ∀ db db' t, Upd (metadataTable y.name) t db db' → NotDone x db → NotDone x db' := by
  refine ⟨⟨?_, ?_⟩, ?_⟩
  · intro db db' t hu h u htab
    rw [hu.other (by rw [sameName_comm]; exact metadata_ne_index hx hy)] at htab
    exact h u htab
  · intro db db' he h u htab
    rw [he] at htab
    exact h u htab
  · intro db db' t hu h u htab
    rw [hu.other (by rw [sameName_metadata hy hx]; exact hne)] at htab
    exact h u htab

/-- Saving the metadata at the beginning of a build. -/
theorem save_notDone {x : StoredIndex} {m : SqliteMetadata} (hm : m.indexName = x.name) (hv : m.version = 1) (hc : m.completed = false) :
    Triple (NotDone x) m.save (fun _ => NotDone x) (NotDone x) := by
  unfold SqliteMetadata.save
  rw [hm]
  refine Triple.bind (Q := fun _ => NotDone x) (triple_exec ?_ (fun _ h => h)) (fun _ =>
    Triple.bind (Q := fun _ db => ∃ t, db.table (metadataTable x.name) = some t ∧ t.name = metadataTable x.name ∧ t.columns = metadataColumns ∧ t.rows = [])
      (triple_exec ?_ (fun _ h => h)) (fun _ => triple_exec ?_ ?_))
  · intro db db' _ hp _ hx
    rcases exec_createMetadata hx with ⟨_, hu⟩ | ⟨_, rfl⟩
    · intro t ht
      rw [hu.same (sameName_refl _)] at ht
      cases ht
      exact ⟨rfl, rfl, .inl rfl⟩
    · exact hp
  · intro db db' _ hp _ hx
    obtain ⟨t, ht, hu⟩ := exec_deleteMetadata hx
    obtain ⟨h1, h2, _⟩ := hp t ht
    exact ⟨_, hu.same (sameName_refl _), h1, h2, rfl⟩
  · rintro db db' vals ⟨t, ht, h1, h2, h3⟩ hb hx
    obtain ⟨t', ht', _, hu⟩ := exec_insertMetadata hx
    rw [ht] at ht'
    cases ht'
    rw [hv, hc] at hb
    intro u htab
    rw [hu.same (sameName_refl _)] at htab
    cases htab
    refine ⟨h1, h2, .inr ⟨m.modTime, m.size, ?_⟩⟩
    simp only [bindValues, bindValue, Bind.bind, Except.bind, if_true, if_false, Bool.false_eq_true, Except.ok.injEq] at hb
    subst hb
    dsimp only
    rw [h3, h2]
    rfl
  · rintro db ⟨t, ht, h1, h2, h3⟩ u hu
    rw [ht] at hu
    cases hu
    exact ⟨h1, h2, .inl h3⟩

/-- A build whose middle never succeeds. -/
theorem build_fails {x : StoredIndex} {input : Input} {P : SqlDb → Prop} {lib : SqlLib} {count : List Char}
    (hfirst : ∀ m, newSqliteMetadata x.name input = .ok m → Triple P m.save (fun _ => P) P) {middle : List (Res Rec) → SqlM Unit}
    (hmiddle : ∀ l, Triple P (middle l) (fun _ _ => False) P) :
    Triple P (do
      let metadata ← SqlM.lift (newSqliteMetadata x.name input)
      metadata.save
      let records ← SqlM.lift input.scan
      middle records
      { metadata with completed := true }.save
      let _ ← query lib count []
      pure ()) (fun _ _ => False) P := by
  refine Triple.bind (Q := fun m db => newSqliteMetadata x.name input = .ok m ∧ P db) (triple_lift (fun _ m h e => ⟨e, h⟩) (fun _ h => h)) (fun m => ?_)
  refine Triple.intro (fun db ⟨hm, h⟩ => ⟨P, h, ?_⟩)
  refine Triple.bind (hfirst m hm) (fun _ => ?_)
  refine Triple.bind (Q := fun _ => P) (triple_lift (fun _ _ h _ => h) (fun _ h => h)) (fun l => ?_)
  exact Triple.bind (hmiddle l) (fun _ => Triple.intro (fun _ h => h.elim))

theorem sqlite_fails {c : SqliteDecl} (hacc : SqliteAccepted c) (hbad : ¬ SqliteBuildable c) {input : Input} {P : SqlDb → Prop} {lib : SqlLib}
    (hfirst : ∀ m, newSqliteMetadata c.name input = .ok m → Triple P m.save (fun _ => P) P) : Triple P (sqliteCreateIndex lib c input) (fun _ _ => False) P := by
  have h := build_fails (x := .sqlite c) (input := input) (lib := lib) (count := "SELECT COUNT(1) FROM ".toList ++ indexTableIdentifier c.name ++ ";".toList) hfirst
    (middle := fun records => do
      exec (createTableText c) []
      createIndexes c c.properties
      prepare (insertText c)
      insertRecords (insertText c) (c.properties.map (·.name)) records) (by
      intro l
      refine Triple.bind (Q := fun _ _ => False) (triple_exec ?_ (fun _ h => h)) (fun _ => Triple.intro (fun _ h => h.elim))
      intro db db' vals h hb hx
      cases hb
      exact hbad (createTable_inv hacc hx))
  simp only [SqlM.assoc] at h
  exact h

theorem fts5_fails {c : Fts5Decl} (hacc : Fts5Accepted c) (hbad : ¬ FtsBuildable c) {input : Input} {P : SqlDb → Prop} (hp : IndexStable (.fts5 c) P) {lib : SqlLib}
    (hfirst : ∀ m, newSqliteMetadata c.name input = .ok m → Triple P m.save (fun _ => P) P) : Triple P (fts5CreateIndex lib c input) (fun _ _ => False) P := by
  have h := build_fails (x := .fts5 c) (input := input) (lib := lib) (count := "SELECT COUNT(1) FROM ".toList ++ indexTableIdentifier c.name ++ ";".toList) hfirst
    (middle := fun records => do
      SqlM.lift (if "__offset" ∈ c.properties then .error (.err "__offset is a reserved property name for the fts5 index.") else .ok ())
      exec (fts5CreateText c) []
      prepare (fts5InsertText c)
      insertRecords (fts5InsertText c) c.properties records) (by
      intro l
      refine Triple.bind (Q := fun _ => P) (triple_lift (fun _ _ h _ => h) (fun _ h => h)) (fun _ => ?_)
      refine Triple.bind (Q := fun _ db => c.properties = [] ∧ P db) (triple_exec ?_ (fun _ h => h)) (fun _ => ?_)
      · intro db db' vals h hb hx
        cases hb
        obtain ⟨_, _, hu⟩ := exec_createFts hacc hx
        exact ⟨Classical.byContradiction (fun hne => hbad (createFts_inv hacc hx hne)), hp.index _ _ _ hu h⟩
      refine Triple.intro (fun db ⟨he, h⟩ => ⟨P, h, ?_⟩)
      refine Triple.bind (prepare_ok (P := P) (fun _ h => h)) (fun _ => ?_)
      exact Triple.intro (fun db ⟨hne, _⟩ => absurd (parseSql_ftsInsert_empty he) hne))
  simp only [SqlM.assoc] at h
  exact h

/-- A start of an index that cannot be built fails, and leaves its build undone. -/
theorem start_never {lib : SqlLib} (hlib : PlansPermute lib) {x : StoredIndex} (hacc : x.Accepted) (hbad : ¬ x.Buildable) (input : Input) :
    Triple (NotDone x) (x.start lib input) (fun _ _ => False) (NotDone x) := by
  have hx := accepted_name hacc
  have hfirst : ∀ m, newSqliteMetadata x.name input = .ok m → Triple (NotDone x) m.save (fun _ => NotDone x) (NotDone x) := by
    intro m h
    obtain ⟨h1, h2, h3, _⟩ := newMetadata_ok (s := ⟨x, input, none⟩) h
    exact save_notDone h1 h2 h3
  cases x with
  | sqlite c => exact opening (Q := fun _ => False) (sqlite_fails hacc hbad hfirst) (fun db rows hdb hq m hm hv => hdb.not_ok (shape_loads hlib hx db rows hdb.shape hq m hm hv))
  | fts5 c => exact opening (Q := fun _ => False) (fts5_fails hacc hbad (notDone_stable hx) hfirst) (fun db rows hdb hq m hm hv => hdb.not_ok (shape_loads hlib hx db rows hdb.shape hq m hm hv))

/-! ### The program -/

/-- The build of the index in the database of this name has not ended. -/
def Undone (st : Storage) (x : StoredIndex) (dsn : String) : Prop := NotDone x (st.db dsn)

section
variable {lib : StartLib} {inputs : GoMap Input} {st st' : Storage} {d e : IndexDecl} {x : StoredIndex} {dsn : String}

theorem OpenEffect.undone (hlib : PlansPermute st.sql) (h : OpenEffect inputs st d st') (hd : Allowed d) (hx : x.Accepted) (hbad : ¬ x.Buildable) (he : storedOf e = some (x, dsn))
    (hc : d = e ∨ KeptApart d e) (hs : Undone st x dsn) : Undone st' x dsn := by
  unfold Undone at hs ⊢
  cases h with
  | none => exact hs
  | file _ _ => exact hs
  | @table y dsn' input writes hy hi =>
    simp only [Storage.writeDb]
    by_cases hdsn : dsn = dsn'
    · rw [if_pos hdsn]
      subst hdsn
      have hacc := hd y dsn hy
      rcases hc with e' | ha
      · subst e'
        rw [he] at hy
        cases hy
        exact (start_never hlib hx hbad input).final (fun _ _ h => h.elim) (fun _ h => h) (s := ⟨st.db dsn, writes⟩) hs
      · have hne := ha.tables _ _ hy he rfl
        obtain ⟨k1, k2⟩ := notDone_other (accepted_name hx) (accepted_name hacc) hne
        exact (start_keeps hacc k1 k2 st.sql input).final (fun _ _ h => h) (fun _ h => h) (s := ⟨st.db dsn, writes⟩) hs
    · rw [if_neg hdsn]
      exact hs

theorem Steps.undone {l : GoMap IndexDecl} (h : Steps inputs l st st') (hlib : PlansPermute st.sql) (hallow : ∀ a ∈ l, Allowed a.2) (hx : x.Accepted) (hbad : ¬ x.Buildable)
    (he : storedOf e = some (x, dsn)) (hapart : ApartFrom l e) (hs : Undone st x dsn) : Undone st' x dsn := by
  induction h with
  | refl st => exact hs
  | step ha h _ ih => exact ih (by rw [h.same.2]; exact hlib) (h.undone hlib (hallow _ ha) hx hbad he (hapart _ ha) hs)

theorem afterProgramRuns_undone {c : Config} (hallow : ∀ a ∈ c.indexes, Allowed a.2) (hx : x.Accepted) (hbad : ¬ x.Buildable) (he : storedOf e = some (x, dsn))
    (hapart : ApartFrom c.indexes e) : ∀ (runs : List Run) (st : Storage), PlansPermute st.sql → (∀ r ∈ runs, Reordered c r.config) → Undone st x dsn →
      (afterProgramRuns lib st runs).sql = st.sql ∧ Undone (afterProgramRuns lib st runs) x dsn
  | [], _, _, _, h => ⟨rfl, h⟩
  | r :: rest, st, hlib, hre, h => by
    have hr := hre _ List.mem_cons_self
    have back : ∀ a ∈ r.config.indexes, a ∈ c.indexes := fun a ha => hr.indexes.symm.subset ha
    have hstep : (r.leaves lib st).sql = st.sql ∧ Undone (r.leaves lib st) x dsn := by
      rcases r.effect lib st with e' | ⟨texts, inputs, _, _, hs | ⟨st1, w, input, content, hs, hcut, _⟩⟩
      · rw [e']
        exact ⟨rfl, h⟩
      · exact ⟨hs.same.2, hs.undone hlib (fun a ha => hallow a (back a ha)) hx hbad he (fun b hb => hapart b (back b hb)) h⟩
      · rw [hcut.left]
        exact ⟨hs.same.2, hs.undone hlib (fun a ha => hallow a (back a ha)) hx hbad he (fun b hb => hapart b (back b hb)) h⟩
    rw [afterProgramRuns]
    obtain ⟨j1, j2⟩ := afterProgramRuns_undone hallow hx hbad he hapart rest _ (by rw [hstep.1]; exact hlib) (fun r hr => hre r (List.mem_cons_of_mem _ hr)) hstep.2
    exact ⟨j1.trans hstep.1, j2⟩

/-- An index whose build is undone and cannot be done is not opened. -/
theorem openOn_never (hlib : PlansPermute st.sql) (hx : x.Accepted) (hbad : ¬ x.Buildable) (hd : storedOf d = some (x, dsn)) (hs : Undone st x dsn) (f : OpenIndex) :
    (d.openOn lib inputs st).1 ≠ .ok f := by
  intro ho
  cases hin : findInput inputs (indexInput d) with
  | error e =>
    cases d with
    | sqlite c =>
      have hin : findInput inputs c.input = .error e := hin
      simp only [IndexDecl.openOn, hin] at ho
      cases ho
    | fts5 c =>
      have hin : findInput inputs c.input = .error e := hin
      simp only [IndexDecl.openOn, hin] at ho
      cases ho
    | wildcard c | map c | noop c => cases hd
  | ok input =>
    have hok := (openOn_stored (lib := lib) (st := st) hd hin).2 f ho
    exact (start_never hlib hx hbad input).ok (s := ⟨st.db dsn, none⟩) hs hok

theorem openIndexes_never : ∀ {l : GoMap IndexDecl} {st st' : Storage} {fs : GoMap OpenIndex}, PlansPermute st.sql → (∀ a ∈ l, Allowed a.2) → x.Accepted → ¬ x.Buildable →
    storedOf e = some (x, dsn) → ApartFrom l e → (∃ a ∈ l, a.2 = e) → Undone st x dsn → openIndexes lib inputs st l ≠ (.ok fs, st')
  | [], _, _, _, _, _, _, _, _, _, ⟨_, ha, _⟩, _ => by cases ha
  | (k, d) :: l, st, st', fs, hlib, hallow, hx, hbad, he, hapart, ⟨a, ha, e'⟩, hs => by
    intro h
    unfold openIndexes at h
    cases ho : d.openOn lib inputs st with
    | mk r st1 =>
      rw [ho] at h
      cases r with
      | error e => cases h
      | ok f =>
        dsimp only at h
        cases hr : openIndexes lib inputs st1 l with
        | mk r2 st2 =>
          rw [hr] at h
          cases r2 with
          | error e => cases h
          | ok gs =>
            rcases List.mem_cons.1 ha with rfl | hm
            · subst e'
              exact openOn_never hlib hx hbad he hs f (by rw [ho])
            · have heff := openOn_effect (lib := lib) (inputs := inputs) (st := st) d
              rw [ho] at heff
              exact openIndexes_never (by rw [heff.same.2]; exact hlib) (fun b hb => hallow b (.tail _ hb)) hx hbad he (fun b hb => hapart b (.tail _ hb)) ⟨a, hm, e'⟩
                (heff.undone hlib (hallow _ (.head _)) hx hbad he (hapart _ (.head _)) hs) hr
end

theorem startOn_never {lib : StartLib} {st : Storage} {c : Config} {e : IndexDecl} {x : StoredIndex} {dsn : String} (hlib : PlansPermute st.sql) (hallow : ∀ a ∈ c.indexes, Allowed a.2) (hx : x.Accepted)
    (hbad : ¬ x.Buildable) (he : storedOf e = some (x, dsn)) (hapart : ApartFrom c.indexes e) (hmem : ∃ a ∈ c.indexes, a.2 = e) (hs : Undone st x dsn)
    (services : GoMap (String × List Route)) : (startOn lib st c).1 ≠ .ok services := by
  intro h
  unfold startOn at h
  split at h
  · cases h
  · split at h
    · cases h
    · rename_i ho
      exact openIndexes_never hlib hallow hx hbad he hapart hmem hs ho

end Rodb
