import Verif.Proofs.RestartSql
import Verif.Proofs.Running
import Verif.Props.StorageProps
import Verif.Spec.Restart
/-
  Starts of the program on the same machine: the indexes that one start has opened are opened again by the next one, without a change.
-/
namespace Rodb
open Rodb.Spec

/-! ### Databases -/

theorem afterStarts_shape {lib : SqlLib} (hlib : PlansPermute lib) {x : StoredIndex} (hx : NoNul x.name) (starts : List SqliteStart) (hacc : ∀ s ∈ starts, s.index.Accepted)
    (hown : ∀ s ∈ starts, sameName s.index.name.toList x.name.toList = true → s.index = x) (db : SqlDb) (h : MetaShape x db) : MetaShape x (afterStarts lib db starts) := by
  induction starts generalizing db with
  | nil => exact h
  | cons s rest ih =>
    rw [afterStarts]
    refine ih (fun s hs => hacc s (List.mem_cons_of_mem _ hs)) (fun s hs => hown s (List.mem_cons_of_mem _ hs)) _ ?_
    have hs := hacc s List.mem_cons_self
    unfold afterStart
    by_cases hn : sameName s.index.name.toList x.name.toList = true
    · have e := hown s List.mem_cons_self hn
      rw [e] at hs ⊢
      exact (start_own hlib hs s.input).final (fun _ _ h => h.shape) (fun _ h => h) (s := ⟨db, s.writes⟩) h
    · obtain ⟨h1, h2⟩ := metaShape_other hx (accepted_name hs) (by simpa using hn)
      exact (start_keeps hs h1 h2 lib s.input).final (fun _ _ h => h) (fun _ h => h) (s := ⟨db, s.writes⟩) h

theorem disk_shape {st : Storage} (hlib : PlansPermute st.sql) {x : StoredIndex} {dsn : String} {input : Input} (h : StoredDisk st x dsn input) : MetaShape x (st.db dsn) := by
  obtain ⟨empty, starts, h1, h2, h3, h4⟩ := h.database
  rw [h4]
  refine afterStarts_shape hlib h.name starts h2 (fun s hs hn => (h3 s hs hn).1) _ ?_
  intro t ht
  rw [metadata_table x.name h.name, h1] at ht
  cases ht

/-! ### What an open index is -/

/-- The index is open and would be opened again without a change. -/
def Opened (lib : StartLib) (inputs : GoMap Input) (st : Storage) (d : IndexDecl) (f : OpenIndex) : Prop :=
  match d with
  | .wildcard c => ∃ input file w, findInput inputs c.input = .ok input ∧ st.file c.path = some file ∧ newWildcard st.lower c.settings input (some file) = (.ok w, file) ∧
      f = fun _ input filters => w.getRecordPositions st.lower input.name filters
  | .sqlite c => ∃ input, findInput inputs c.input = .ok input ∧ NoNul c.name ∧ MetaOk (.sqlite c) input (st.db c.dsn) ∧
      f = fun st input filters => sqliteGetRecordPositions st.sql c (st.db c.dsn) input.name filters
  | .fts5 c => ∃ input, findInput inputs c.input = .ok input ∧ NoNul c.name ∧ MetaOk (.fts5 c) input (st.db c.dsn) ∧
      f = fun st input filters => fts5GetRecordPositions st.sql c (st.db c.dsn) input.name filters
  | .map c => ∃ index, (IndexDecl.map c).instantiate lib inputs = .ok index ∧ f = fun _ => index
  | .noop c => ∃ index, (IndexDecl.noop c).instantiate lib inputs = .ok index ∧ f = fun _ => index

theorem writeFile_same {st : Storage} {path : String} {content : Bytes} (h : st.file path = some content) : st.writeFile path content = st := by
  unfold Storage.writeFile
  have : (fun p => if p = path then some content else st.file p) = st.file := by
    funext p
    by_cases hp : p = path
    · rw [if_pos hp, hp, h]
    · rw [if_neg hp]
  rw [this]

theorem writeDb_same (st : Storage) (dsn : String) : st.writeDb dsn (st.db dsn) = st := by
  unfold Storage.writeDb
  have : (fun d => if d = dsn then st.db dsn else st.db d) = st.db := by
    funext d
    by_cases hd : d = dsn
    · rw [if_pos hd, hd]
    · rw [if_neg hd]
  rw [this]

theorem Opened.again {lib : StartLib} {inputs : GoMap Input} {st : Storage} (hlib : PlansPermute st.sql) {d : IndexDecl} {f : OpenIndex} (h : Opened lib inputs st d f) :
    d.openOn lib inputs st = (.ok f, st) ∧ d.instantiate { lib with index := openIndex st } inputs = .ok (f st) := by
  cases d with
  | wildcard c =>
    obtain ⟨input, file, w, h1, h2, h3, rfl⟩ := h
    constructor
    · simp only [IndexDecl.openOn, h1, h2, h3, writeFile_same h2]
    · show (findInput inputs c.input >>= _) = _
      rw [h1]
      show openIndex st (.wildcard c) input = _
      simp only [openIndex, h2, h3]
      rfl
  | sqlite c =>
    obtain ⟨input, h1, h2, h3, rfl⟩ := h
    have hs : newSqlite st.sql c input ⟨st.db c.dsn, none⟩ = _ := start_again (x := .sqlite c) hlib h2 h3 none
    constructor
    · simp only [IndexDecl.openOn, h1, hs, writeDb_same]
    · have e : openIndex st (.sqlite c) input = sqliteIndex st.sql c (newSqlite st.sql c input ⟨st.db c.dsn, none⟩) := by rw [openIndex]
      rw [hs] at e
      simp only [IndexDecl.instantiate, h1, bind, Except.bind]
      exact e
  | fts5 c =>
    obtain ⟨input, h1, h2, h3, rfl⟩ := h
    have hs : newFts5 st.sql c input ⟨st.db c.dsn, none⟩ = _ := start_again (x := .fts5 c) hlib h2 h3 none
    constructor
    · simp only [IndexDecl.openOn, h1, hs, writeDb_same]
    · have e : openIndex st (.fts5 c) input = fts5Index st.sql c (newFts5 st.sql c input ⟨st.db c.dsn, none⟩) := by rw [openIndex]
      rw [hs] at e
      simp only [IndexDecl.instantiate, h1, bind, Except.bind]
      exact e
  | map c =>
    obtain ⟨index, h1, rfl⟩ := h
    exact ⟨by simp only [IndexDecl.openOn, h1], h1⟩
  | noop c =>
    obtain ⟨index, h1, rfl⟩ := h
    exact ⟨by simp only [IndexDecl.openOn, h1], h1⟩

/-- The name of the input of an index. -/
def indexInput : IndexDecl → String
  | .wildcard c => c.input
  | .sqlite c => c.input
  | .fts5 c => c.input
  | .map c => c.input
  | .noop _ => ""

/-- The disk is as the index needs it. -/
def DiskOk (inputs : GoMap Input) (st : Storage) (d : IndexDecl) : Prop := ∀ input, findInput inputs (indexInput d) = .ok input → IndexDisk st d input

theorem Spec.StoredDisk.write {st : Storage} {x y : StoredIndex} {dsn dsn' : String} {input input' : Input} {writes : Option Nat} (h : StoredDisk st x dsn input) (hacc : y.Accepted)
    (hc : dsn' = dsn → sameName y.name.toList x.name.toList = true → y = x ∧ (SameStat input' input → input'.scan = input.scan)) :
    StoredDisk (st.writeDb dsn' (y.start st.sql input' ⟨st.db dsn', writes⟩).2.db) x dsn input where
  name := h.name
  properties := h.properties
  tokenize := h.tokenize
  database := by
    obtain ⟨empty, starts, h1, h2, h3, h4⟩ := h.database
    by_cases hd : dsn' = dsn
    · refine ⟨empty, starts ++ [⟨y, input', writes⟩], h1, ?_, ?_, ?_⟩
      · intro s hs
        rcases List.mem_append.1 hs with hs | hs
        · exact h2 s hs
        · rw [List.mem_singleton.1 hs]
          exact hacc
      · intro s hs
        rcases List.mem_append.1 hs with hs | hs
        · exact h3 s hs
        · rw [List.mem_singleton.1 hs]
          exact hc hd
      · rw [afterStarts_last]
        subst hd
        unfold afterStart
        simp only [Storage.writeDb, if_true, h4]
    · refine ⟨empty, starts, h1, h2, h3, ?_⟩
      simp only [Storage.writeDb]
      rw [if_neg (fun e => hd e.symm), h4]

theorem Spec.WildcardDisk.writeDb {st : Storage} {d : WildcardDecl} {input : Input} {records : List Rec} (h : WildcardDisk st d input records) (dsn : String) (db : SqlDb) :
    WildcardDisk (st.writeDb dsn db) d input records := ⟨h.texts, h.small, h.count, h.file⟩

theorem Spec.StoredDisk.writeFile {st : Storage} {x : StoredIndex} {dsn : String} {input : Input} (h : StoredDisk st x dsn input) (path : String) (content : Bytes) :
    StoredDisk (st.writeFile path content) x dsn input := ⟨h.name, h.properties, h.tokenize, h.database⟩

theorem newWildcard_file {lower : Bytes → Bytes} {cfg : WildcardConfig} {input : Input} {file : Option Bytes} (h : file = none ∨ file = some (newWildcard lower cfg input none).2) :
    (newWildcard lower cfg input file).2 = (newWildcard lower cfg input none).2 := by
  rcases h with rfl | rfl
  · rfl
  · exact newWildcard_readOnly lower cfg input _

theorem Spec.WildcardDisk.writeFile {st : Storage} {d d' : WildcardDecl} {input : Input} {records : List Rec} (h : WildcardDisk st d input records) {content : Bytes}
    (hc : d'.path = d.path → content = (newWildcard st.lower d.settings input none).2) : WildcardDisk (st.writeFile d'.path content) d input records where
  texts := h.texts
  small := h.small
  count := h.count
  file := by
    by_cases hp : d.path = d'.path
    · refine .inr ?_
      simp only [Storage.writeFile]
      rw [if_pos hp, hc hp.symm]
    · simp only [Storage.writeFile]
      rw [if_neg hp]
      exact h.file

section
variable {lib : StartLib} {inputs : GoMap Input} {st : Storage}

theorem openOn_stored {d : IndexDecl} {x : StoredIndex} {dsn : String} (hd : storedOf d = some (x, dsn)) {input : Input} (hi : findInput inputs (indexInput d) = .ok input) :
    (d.openOn lib inputs st).2 = st.writeDb dsn (x.start st.sql input ⟨st.db dsn, none⟩).2.db ∧
      ∀ f, (d.openOn lib inputs st).1 = .ok f → (x.start st.sql input ⟨st.db dsn, none⟩).1 = .ok () := by
  cases d with
  | sqlite c =>
    cases hd
    have hi : findInput inputs c.input = .ok input := hi
    simp only [IndexDecl.openOn, hi, start_sqlite]
    cases newSqlite st.sql c input ⟨st.db c.dsn, none⟩ with
    | mk r s => cases r <;> simp
  | fts5 c =>
    cases hd
    have hi : findInput inputs c.input = .ok input := hi
    simp only [IndexDecl.openOn, hi, start_fts5]
    cases newFts5 st.sql c input ⟨st.db c.dsn, none⟩ with
    | mk r s => cases r <;> simp
  | wildcard c | map c | noop c => cases hd

theorem openOn_wildcard {c : WildcardDecl} {input : Input} (hi : findInput inputs c.input = .ok input) :
    ((IndexDecl.wildcard c).openOn lib inputs st).2 = st.writeFile c.path (newWildcard st.lower c.settings input (st.file c.path)).2 ∧
      ∀ f, ((IndexDecl.wildcard c).openOn lib inputs st).1 = .ok f → ∃ w, (newWildcard st.lower c.settings input (st.file c.path)).1 = .ok w ∧
        f = fun _ input filters => w.getRecordPositions st.lower input.name filters := by
  simp only [IndexDecl.openOn, hi]
  cases newWildcard st.lower c.settings input (st.file c.path) with
  | mk r file =>
    cases r with
    | error e => simp
    | ok w =>
      refine ⟨rfl, fun f hf => ⟨w, rfl, ?_⟩⟩
      cases hf
      rfl

/-- The other cases of opening change nothing. -/
theorem openOn_else {d : IndexDecl} (h : (∀ c, d ≠ .wildcard c) ∧ storedOf d = none ∨ ∀ input, findInput inputs (indexInput d) ≠ .ok input) : (d.openOn lib inputs st).2 = st := by
  have key : (∀ input, findInput inputs (indexInput d) ≠ .ok input) → ∃ e, findInput inputs (indexInput d) = .error e := by
    intro h
    cases hf : findInput inputs (indexInput d) with
    | error e => exact ⟨e, rfl⟩
    | ok i => exact absurd hf (h i)
  cases d with
  | wildcard c =>
    rcases h with h | h
    · exact absurd rfl (h.1 c)
    · obtain ⟨e, he⟩ := key h
      have he : findInput inputs c.input = .error e := he
      simp only [IndexDecl.openOn, he]
  | sqlite c =>
    rcases h with h | h
    · cases h.2
    · obtain ⟨e, he⟩ := key h
      have he : findInput inputs c.input = .error e := he
      simp only [IndexDecl.openOn, he]
  | fts5 c =>
    rcases h with h | h
    · cases h.2
    · obtain ⟨e, he⟩ := key h
      have he : findInput inputs c.input = .error e := he
      simp only [IndexDecl.openOn, he]
  | map c =>
    simp only [IndexDecl.openOn]
    cases (IndexDecl.map c).instantiate lib inputs <;> rfl
  | noop c =>
    simp only [IndexDecl.openOn]
    cases (IndexDecl.noop c).instantiate lib inputs <;> rfl

/-- What opening an index does to the machine, when the process does not die or dies while it uses a database. -/
inductive OpenEffect (inputs : GoMap Input) (st : Storage) (d : IndexDecl) : Storage → Prop
  | none : OpenEffect inputs st d st
  | file {c : WildcardDecl} {input : Input} (hd : d = .wildcard c) (hi : findInput inputs c.input = .ok input) :
      OpenEffect inputs st d (st.writeFile c.path (newWildcard st.lower c.settings input (st.file c.path)).2)
  | table {x : StoredIndex} {dsn : String} {input : Input} {writes : Option Nat} (hd : storedOf d = some (x, dsn)) (hi : findInput inputs (indexInput d) = .ok input) :
      OpenEffect inputs st d (st.writeDb dsn (x.start st.sql input ⟨st.db dsn, writes⟩).2.db)

theorem openOn_effect (d : IndexDecl) : OpenEffect inputs st d (d.openOn lib inputs st).2 := by
  by_cases hin : ∃ input, findInput inputs (indexInput d) = .ok input
  · obtain ⟨input, hi⟩ := hin
    cases hs : storedOf d with
    | some x =>
      rw [(openOn_stored (lib := lib) (st := st) hs hi).1]
      exact .table hs hi
    | none =>
      cases d with
      | wildcard c =>
        rw [(openOn_wildcard (lib := lib) (st := st) hi).1]
        exact .file rfl hi
      | sqlite c | fts5 c => cases hs
      | map c | noop c =>
        rw [openOn_else (.inl ⟨by simp, rfl⟩)]
        exact .none
  · rw [openOn_else (.inr (fun i h => hin ⟨i, h⟩))]
    exact .none

theorem OpenEffect.same {d : IndexDecl} {st' : Storage} (h : OpenEffect inputs st d st') : st'.lower = st.lower ∧ st'.sql = st.sql := by
  cases h <;> exact ⟨rfl, rfl⟩

/-- Opening an index leaves the disk as it is needed, for this index and for those apart from it. -/
theorem OpenEffect.disk {d e : IndexDecl} {st' : Storage} (h : OpenEffect inputs st d st') (hd : DiskOk inputs st d) (he : DiskOk inputs st e) (hc : d = e ∨ KeptApart d e) : DiskOk inputs st' e := by
  intro input hi
  have hde := he input hi
  cases h with
  | none => exact hde
  | @file c input' hdc hi' =>
    subst hdc
    refine ⟨?_, fun x dsn hx => ⟨(hde.stored x dsn hx).1.writeFile _ _, (hde.stored x dsn hx).2⟩⟩
    rintro b rfl
    obtain ⟨hn, records, hw⟩ := hde.wildcard b rfl
    refine ⟨hn, records, hw.writeFile (d' := c) ?_⟩
    intro hp
    rcases hc with e | ha
    · cases e
      have : input' = input := by
        have hi : findInput inputs c.input = .ok input := hi
        rw [hi] at hi'
        cases hi'
        rfl
      subst this
      exact newWildcard_file hw.file
    · exact absurd hp (ha.files _ _ rfl rfl)
  | @table x dsn input' writes hx hi' =>
    refine ⟨fun b hb => ⟨(hde.wildcard b hb).1, ?_⟩, ?_⟩
    · obtain ⟨_, records, hw⟩ := hde.wildcard b hb
      exact ⟨records, hw.writeDb _ _⟩
    · intro y dsn' hy
      obtain ⟨h1, h2⟩ := hde.stored y dsn' hy
      refine ⟨h1.write ((hd input' hi').stored x dsn hx).2 ?_, h2⟩
      intro hdsn hn
      rcases hc with e | ha
      · subst e
        rw [hx] at hy
        cases hy
        rw [hi] at hi'
        cases hi'
        exact ⟨rfl, fun _ => rfl⟩
      · have := ha.tables _ _ hx hy hdsn
        rw [hn] at this
        cases this

/-- An open index stays open when another one is opened. -/
theorem OpenEffect.opened {d e : IndexDecl} {st' : Storage} {f : OpenIndex} (hlib : PlansPermute st.sql) (h : OpenEffect inputs st d st') (hd : DiskOk inputs st d) (ho : Opened lib inputs st e f)
    (hc : d = e ∨ KeptApart d e) : Opened lib inputs st' e f := by
  have tables : ∀ {y : StoredIndex} {dsn' : String} {input : Input}, storedOf e = some (y, dsn') → NoNul y.name → findInput inputs (indexInput e) = .ok input → MetaOk y input (st.db dsn') →
      MetaOk y input (st'.db dsn') := by
    intro y dsn' input hy hn hi hm
    cases h with
    | none => exact hm
    | file _ _ => exact hm
    | @table x dsn input' writes hx hi' =>
      simp only [Storage.writeDb]
      by_cases hdsn : dsn' = dsn
      · rw [if_pos hdsn]
        subst hdsn
        rcases hc with e' | ha
        · subst e'
          rw [hx] at hy
          cases hy
          rw [hi] at hi'
          cases hi'
          rw [start_again hlib hn hm]
          exact hm
        · have hne := ha.tables _ _ hx hy rfl
          have hacc := ((hd input' hi').stored x dsn' hx).2
          obtain ⟨k1, k2⟩ := metaOk_other (input := input) hn (accepted_name hacc) hne
          exact (start_keeps hacc k1 k2 st.sql input').final (fun _ _ h => h) (fun _ h => h) (s := ⟨st.db dsn', writes⟩) hm
      · rw [if_neg hdsn]
        exact hm
  cases e with
  | wildcard b =>
    obtain ⟨input, file, w, h1, h2, h3, rfl⟩ := ho
    rw [← h.same.1] at h3 ⊢
    refine ⟨input, file, w, h1, ?_, h3, rfl⟩
    have hl := h.same.1
    cases h with
    | none => exact h2
    | table _ _ => exact h2
    | @file c input' hdc hi' =>
      subst hdc
      simp only [Storage.writeFile]
      by_cases hp : b.path = c.path
      · rw [if_pos hp]
        rcases hc with e' | ha
        · cases e'
          rw [h1] at hi'
          cases hi'
          rw [h2, newWildcard_readOnly]
        · exact absurd hp.symm (ha.files _ _ rfl rfl)
      · rw [if_neg hp]
        exact h2
  | sqlite c =>
    obtain ⟨input, h1, h2, h3, rfl⟩ := ho
    exact ⟨input, h1, h2, tables rfl h2 h1 h3, rfl⟩
  | fts5 c =>
    obtain ⟨input, h1, h2, h3, rfl⟩ := ho
    exact ⟨input, h1, h2, tables rfl h2 h1 h3, rfl⟩
  | map c => exact ho
  | noop c => exact ho

/-- An index that was opened is open. -/
theorem openOn_opened (hlib : PlansPermute st.sql) {d : IndexDecl} (hd : DiskOk inputs st d) {f : OpenIndex} {st' : Storage} (h : d.openOn lib inputs st = (.ok f, st')) :
    Opened lib inputs st' d f := by
  have h1 : (d.openOn lib inputs st).1 = .ok f := by rw [h]
  have h2 : (d.openOn lib inputs st).2 = st' := by rw [h]
  have stored : ∀ {x : StoredIndex} {dsn : String}, storedOf d = some (x, dsn) → ∃ input, findInput inputs (indexInput d) = .ok input ∧ NoNul x.name ∧ MetaOk x input (st'.db dsn) := by
    intro x dsn hx
    cases hi : findInput inputs (indexInput d) with
    | error e =>
      cases d with
      | sqlite c =>
        have hi : findInput inputs c.input = .error e := hi
        simp only [IndexDecl.openOn, hi] at h1
        cases h1
      | fts5 c =>
        have hi : findInput inputs c.input = .error e := hi
        simp only [IndexDecl.openOn, hi] at h1
        cases h1
      | wildcard c | map c | noop c => cases hx
    | ok input =>
      obtain ⟨k1, k2⟩ := openOn_stored (lib := lib) (st := st) hx hi
      obtain ⟨k3, k4⟩ := (hd input hi).stored x dsn hx
      refine ⟨input, rfl, k3.name, ?_⟩
      rw [← h2, k1]
      simp only [Storage.writeDb, if_true]
      have hok := k2 f h1
      exact (start_own hlib k4 input).ok (s := ⟨st.db dsn, none⟩) (disk_shape hlib k3) hok
  cases d with
  | wildcard c =>
    cases hi : findInput inputs c.input with
    | error e =>
      simp only [IndexDecl.openOn, hi] at h1
      cases h1
    | ok input =>
      obtain ⟨k1, k2⟩ := openOn_wildcard (lib := lib) (st := st) hi
      obtain ⟨w, k3, rfl⟩ := k2 f h1
      rw [h2] at k1
      obtain ⟨hnd, records, hw⟩ := (hd input hi).wildcard c rfl
      obtain ⟨rows, htab, rfl⟩ := hw.texts
      obtain ⟨t, ht, _⟩ := htab.modTime
      obtain ⟨w1, file1, w', e1, e2, e3⟩ := C08_reload_same_answers st.lower c.settings input input rows hnd htab hw.small hw.count rfl rfl ⟨t, t, ht, ht, rfl⟩
      have hl : st'.lower = st.lower := by rw [k1]; rfl
      have hfile : st'.file c.path = some file1 := by
        rw [k1]
        simp only [Storage.writeFile, if_true]
        rw [newWildcard_file hw.file, e1]
      refine ⟨input, file1, w', hi, hfile, by rw [hl]; exact e2, ?_⟩
      funext s i fl
      rw [hl, e3]
      rcases hw.file with hf | hf
      · rw [hf, e1] at k3
        cases k3
        rfl
      · rw [hf, e1] at k3
        dsimp only at k3
        rw [e2] at k3
        cases k3
        exact e3 _ _
  | sqlite c =>
    obtain ⟨input, h3, h4, h5⟩ := stored rfl
    refine ⟨input, h3, h4, h5, ?_⟩
    have h3 : findInput inputs c.input = .ok input := h3
    simp only [IndexDecl.openOn, h3] at h1
    cases hn : newSqlite st.sql c input ⟨st.db c.dsn, none⟩ with
    | mk r s =>
      rw [hn] at h1
      cases r with
      | error e => cases h1
      | ok u => cases h1; rfl
  | fts5 c =>
    obtain ⟨input, h3, h4, h5⟩ := stored rfl
    refine ⟨input, h3, h4, h5, ?_⟩
    have h3 : findInput inputs c.input = .ok input := h3
    simp only [IndexDecl.openOn, h3] at h1
    cases hn : newFts5 st.sql c input ⟨st.db c.dsn, none⟩ with
    | mk r s =>
      rw [hn] at h1
      cases r with
      | error e => cases h1
      | ok u => cases h1; rfl
  | map c =>
    simp only [IndexDecl.openOn] at h1
    cases hm : (IndexDecl.map c).instantiate lib inputs with
    | error e => rw [hm] at h1; cases h1
    | ok index =>
      rw [hm] at h1
      cases h1
      exact ⟨index, hm, rfl⟩
  | noop c =>
    simp only [IndexDecl.openOn] at h1
    cases hm : (IndexDecl.noop c).instantiate lib inputs with
    | error e => rw [hm] at h1; cases h1
    | ok index =>
      rw [hm] at h1
      cases h1
      exact ⟨index, hm, rfl⟩

end

/-! ### All the indexes -/

/-- The indexes of the list are open. -/
def AllOpened (lib : StartLib) (inputs : GoMap Input) (st : Storage) : GoMap IndexDecl → GoMap OpenIndex → Prop
  | [], [] => True
  | (k, d) :: rest, (k', f) :: opened => k = k' ∧ Opened lib inputs st d f ∧ AllOpened lib inputs st rest opened
  | _, _ => False

theorem AllOpened.again {lib : StartLib} {inputs : GoMap Input} {st : Storage} (hlib : PlansPermute st.sql) : ∀ {l : GoMap IndexDecl} {fs : GoMap OpenIndex}, AllOpened lib inputs st l fs →
    openIndexes lib inputs st l = (.ok fs, st) ∧ instantiateMap (IndexDecl.instantiate { lib with index := openIndex st } inputs) l = .ok (fs.map (fun x => (x.1, x.2 st)))
  | [], [], _ => ⟨rfl, rfl⟩
  | (k, d) :: rest, (k', f) :: opened, h => by
    obtain ⟨rfl, h1, h2⟩ := h
    obtain ⟨e1, e2⟩ := h1.again hlib
    obtain ⟨e3, e4⟩ := AllOpened.again hlib h2
    exact ⟨by simp only [openIndexes, e1, e3], by simp only [instantiateMap, e2, e4, List.map_cons]; rfl⟩
  | [], _ :: _, h => h.elim
  | _ :: _, [], h => h.elim

theorem AllOpened.each {lib : StartLib} {inputs : GoMap Input} {st : Storage} : ∀ {l : GoMap IndexDecl} {fs : GoMap OpenIndex}, AllOpened lib inputs st l fs →
    ∀ a ∈ l, ∃ f, Opened lib inputs st a.2 f
  | [], [], _, _, ha => by cases ha
  | (k, d) :: rest, (k', f) :: opened, h, a, ha => by
    rcases List.mem_cons.1 ha with rfl | ha
    · exact ⟨f, h.2.1⟩
    · exact AllOpened.each h.2.2 a ha
  | [], _ :: _, h, _, _ => h.elim
  | _ :: _, [], h, _, _ => h.elim

theorem allOpened_of_each {lib : StartLib} {inputs : GoMap Input} {st : Storage} : ∀ {l : GoMap IndexDecl}, (∀ a ∈ l, ∃ f, Opened lib inputs st a.2 f) → ∃ fs, AllOpened lib inputs st l fs
  | [], _ => ⟨[], trivial⟩
  | (k, d) :: rest, h => by
    obtain ⟨f, hf⟩ := h _ List.mem_cons_self
    obtain ⟨fs, hfs⟩ := allOpened_of_each (fun a ha => h a (List.mem_cons_of_mem _ ha))
    exact ⟨(k, f) :: fs, rfl, hf, hfs⟩

/-- The indexes of the list are kept apart from each other and from this one. -/
def ApartFrom (l : GoMap IndexDecl) (e : IndexDecl) : Prop := ∀ a ∈ l, a.2 = e ∨ KeptApart a.2 e

theorem openIndexes_effect {lib : StartLib} {inputs : GoMap Input} : ∀ {l : GoMap IndexDecl} {st : Storage}, PlansPermute st.sql → (∀ a ∈ l, DiskOk inputs st a.2) → (∀ a ∈ l, ApartFrom l a.2) →
    ((openIndexes lib inputs st l).2.lower = st.lower ∧ (openIndexes lib inputs st l).2.sql = st.sql) ∧
    (∀ e, DiskOk inputs st e → ApartFrom l e → DiskOk inputs (openIndexes lib inputs st l).2 e) ∧
    (∀ e f, Opened lib inputs st e f → ApartFrom l e → Opened lib inputs (openIndexes lib inputs st l).2 e f) ∧
    ∀ fs, (openIndexes lib inputs st l).1 = .ok fs → AllOpened lib inputs (openIndexes lib inputs st l).2 l fs
  | [], st, _, _, _ => ⟨⟨rfl, rfl⟩, fun _ h _ => h, fun _ _ h _ => h, fun fs h => by cases h; trivial⟩
  | (k, d) :: rest, st, hlib, hdisk, hapart => by
    have heff := openOn_effect (lib := lib) (inputs := inputs) (st := st) d
    have hd : DiskOk inputs st d := hdisk _ List.mem_cons_self
    have hsame := heff.same
    have keep : ∀ e, DiskOk inputs st e → ApartFrom ((k, d) :: rest) e → DiskOk inputs (d.openOn lib inputs st).2 e :=
      fun e he ha => heff.disk hd he (ha _ List.mem_cons_self)
    have keep' : ∀ e f, Opened lib inputs st e f → ApartFrom ((k, d) :: rest) e → Opened lib inputs (d.openOn lib inputs st).2 e f :=
      fun e f he ha => heff.opened hlib hd he (ha _ List.mem_cons_self)
    have tail : ∀ {e}, ApartFrom ((k, d) :: rest) e → ApartFrom rest e := fun h a ha => h a (List.mem_cons_of_mem _ ha)
    cases ho : d.openOn lib inputs st with
    | mk r st1 =>
      rw [ho] at heff hsame keep keep'
      dsimp only at heff hsame keep keep'
      cases r with
      | error e =>
        have e1 : openIndexes lib inputs st ((k, d) :: rest) = (.error e, st1) := by simp only [openIndexes, ho]
        rw [e1]
        exact ⟨hsame, keep, keep', fun fs h => by cases h⟩
      | ok f =>
        have hopened := openOn_opened hlib hd ho
        obtain ⟨i1, i2, i3, i4⟩ := openIndexes_effect (lib := lib) (inputs := inputs) (l := rest) (st := st1) (by rw [hsame.2]; exact hlib)
          (fun a ha => keep _ (hdisk a (List.mem_cons_of_mem _ ha)) (hapart a (List.mem_cons_of_mem _ ha))) (fun a ha => tail (hapart a (List.mem_cons_of_mem _ ha)))
        have hhead := i3 d f hopened (tail (hapart _ List.mem_cons_self))
        cases hr : openIndexes lib inputs st1 rest with
        | mk r2 st2 =>
          rw [hr] at i1 i2 i3 i4 hhead
          dsimp only at i1 i2 i3 i4 hhead
          have hs : st2.lower = st.lower ∧ st2.sql = st.sql := ⟨i1.1.trans hsame.1, i1.2.trans hsame.2⟩
          cases r2 with
          | error e =>
            have e1 : openIndexes lib inputs st ((k, d) :: rest) = (.error e, st2) := by simp only [openIndexes, ho, hr]
            rw [e1]
            exact ⟨hs, fun e he ha => i2 e (keep e he ha) (tail ha), fun e f he ha => i3 e f (keep' e f he ha) (tail ha), fun fs h => by cases h⟩
          | ok fs =>
            have e1 : openIndexes lib inputs st ((k, d) :: rest) = (.ok ((k, f) :: fs), st2) := by simp only [openIndexes, ho, hr]
            rw [e1]
            exact ⟨hs, fun e he ha => i2 e (keep e he ha) (tail ha), fun e f he ha => i3 e f (keep' e f he ha) (tail ha), fun fs' h => by
              cases h
              exact ⟨rfl, hhead, i4 fs rfl⟩⟩

/-! ### The program -/

/-- A start that has found its parsers and inputs. -/
theorem startOn_inputs {lib : StartLib} {st : Storage} {c : Config} {texts : GoMap TextParser} {inputs : GoMap Input} (h1 : instantiateMap (ParserDecl.instantiate lib) c.parsers = .ok texts)
    (h2 : instantiateMap (InputDecl.instantiate lib texts) c.inputs = .ok inputs) :
    (startOn lib st c).2 = (openIndexes lib inputs st c.indexes).2 ∧
    ∀ running, (startOn lib st c).1 = .ok running → ∃ fs, (openIndexes lib inputs st c.indexes).1 = .ok fs := by
  have e : (do
    let parsers ← instantiateMap (ParserDecl.instantiate lib) c.parsers
    let inputs ← instantiateMap (InputDecl.instantiate lib parsers) c.inputs
    .ok (parsers, inputs) : Res (GoMap TextParser × GoMap Input)) = .ok (texts, inputs) := by
    rw [h1]
    simp only [bind, Except.bind, h2]
  unfold startOn
  rw [e]
  dsimp only
  cases openIndexes lib inputs st c.indexes with
  | mk r s =>
    cases r with
    | error e => exact ⟨rfl, fun _ h => by cases h⟩
    | ok fs => exact ⟨rfl, fun _ _ => ⟨fs, rfl⟩⟩

/-- A start with all its indexes open already is a start that leaves the machine alone. -/
theorem startOn_opened {lib : StartLib} {st : Storage} (hlib : PlansPermute st.sql) {c : Config} {texts : GoMap TextParser} {inputs : GoMap Input}
    (h1 : instantiateMap (ParserDecl.instantiate lib) c.parsers = .ok texts) (h2 : instantiateMap (InputDecl.instantiate lib texts) c.inputs = .ok inputs)
    {fs : GoMap OpenIndex} (h3 : AllOpened lib inputs st c.indexes fs) : startOn lib st c = (start { lib with index := openIndex st } c, st) := by
  have e : (do
    let parsers ← instantiateMap (ParserDecl.instantiate lib) c.parsers
    let inputs ← instantiateMap (InputDecl.instantiate lib parsers) c.inputs
    .ok (parsers, inputs) : Res (GoMap TextParser × GoMap Input)) = .ok (texts, inputs) := by
    rw [h1]
    simp only [bind, Except.bind, h2]
  obtain ⟨e1, e2⟩ := h3.again hlib
  have e3 : start { lib with index := openIndex st } c = (do
      let outputs ← instantiateMap (OutputDecl.instantiate { lib with index := openIndex st } inputs (fs.map (fun x => (x.1, x.2 st))) texts) c.outputs
      instantiateMap (ServiceDecl.instantiate { lib with index := openIndex st } outputs) c.services) := by
    have h1' : instantiateMap (ParserDecl.instantiate { lib with index := openIndex st }) c.parsers = .ok texts := h1
    have h2' : instantiateMap (InputDecl.instantiate { lib with index := openIndex st } texts) c.inputs = .ok inputs := h2
    unfold start
    rw [h1']
    simp only [bind, Except.bind, h2', e2]
  unfold startOn
  rw [e, e3]
  simp only [e1]
  rfl

/-! ### Indexes with files of their own -/

/-- The machine is the same as far as the index is concerned. -/
structure SameFor (d : IndexDecl) (st st' : Storage) : Prop where
  lower : st'.lower = st.lower
  sql : st'.sql = st.sql
  file : ∀ c, d = .wildcard c → st'.file c.path = st.file c.path
  db : ∀ x dsn, storedOf d = some (x, dsn) → st'.db dsn = st.db dsn

theorem SameFor.refl (d : IndexDecl) (st : Storage) : SameFor d st st := ⟨rfl, rfl, fun _ _ => rfl, fun _ _ _ => rfl⟩

theorem SameFor.trans {d : IndexDecl} {a b c : Storage} (h : SameFor d a b) (h' : SameFor d b c) : SameFor d a c :=
  ⟨h'.lower.trans h.lower, h'.sql.trans h.sql, fun x hx => (h'.file x hx).trans (h.file x hx), fun x dsn hx => (h'.db x dsn hx).trans (h.db x dsn hx)⟩

theorem OpenEffect.sameFor {inputs : GoMap Input} {st st' : Storage} {d e : IndexDecl} (h : OpenEffect inputs st d st') (hs : Separate d e) : SameFor e st st' := by
  cases h with
  | none => exact .refl _ _
  | @file c input hd hi =>
    refine ⟨rfl, rfl, ?_, fun _ _ _ => rfl⟩
    intro b hb
    simp only [Storage.writeFile]
    rw [if_neg (fun e => hs.files _ _ hd hb e.symm)]
  | @table x dsn input writes hd hi =>
    refine ⟨rfl, rfl, fun _ _ => rfl, ?_⟩
    intro y dsn' hy
    simp only [Storage.writeDb]
    rw [if_neg (fun e => hs.databases _ _ hd hy e.symm)]

theorem openIndexes_sameFor {lib : StartLib} {inputs : GoMap Input} {e : IndexDecl} : ∀ {l : GoMap IndexDecl} {st : Storage}, (∀ a ∈ l, Separate a.2 e) →
    SameFor e st (openIndexes lib inputs st l).2
  | [], st, _ => .refl _ _
  | (k, d) :: rest, st, hs => by
    have h1 := (openOn_effect (lib := lib) (inputs := inputs) (st := st) d).sameFor (hs _ List.mem_cons_self)
    simp only [openIndexes]
    cases ho : d.openOn lib inputs st with
    | mk r st1 =>
      rw [ho] at h1
      cases r with
      | error _ => exact h1
      | ok f =>
        have h2 := openIndexes_sameFor (lib := lib) (inputs := inputs) (e := e) (l := rest) (st := st1) (fun a ha => hs a (List.mem_cons_of_mem _ ha))
        dsimp only
        cases hr : openIndexes lib inputs st1 rest with
        | mk r2 st2 =>
          rw [hr] at h2
          cases r2 <;> exact h1.trans h2

theorem instantiate_sameFor {lib : StartLib} {inputs : GoMap Input} {d : IndexDecl} {st st' : Storage} (h : SameFor d st st') :
    d.instantiate { lib with index := openIndex st' } inputs = d.instantiate { lib with index := openIndex st } inputs := by
  have key : ∀ input, openIndex st' d input = openIndex st d input := by
    intro input
    cases d with
    | wildcard c => simp only [openIndex, h.lower, h.file c rfl]
    | sqlite c => simp only [openIndex, h.sql, h.db _ _ rfl]
    | fts5 c => simp only [openIndex, h.sql, h.db _ _ rfl]
    | map c => rfl
    | noop c => rfl
  cases d with
  | wildcard c => simp only [IndexDecl.instantiate, key]
  | sqlite c => simp only [IndexDecl.instantiate, key]
  | fts5 c => simp only [IndexDecl.instantiate, key]
  | map c => rfl
  | noop c => rfl

/-- Opening an index: its answers are those of `openIndex`, as long as its place is not changed. -/
theorem openOn_alone {lib : StartLib} {inputs : GoMap Input} (d : IndexDecl) (st : Storage) :
    match d.openOn lib inputs st with
    | (.error e, _) => d.instantiate { lib with index := openIndex st } inputs = .error e
    | (.ok f, st1) => ∀ st2, SameFor d st1 st2 → d.instantiate { lib with index := openIndex st } inputs = .ok (f st2) := by
  cases d with
  | wildcard c =>
    simp only [IndexDecl.openOn, IndexDecl.instantiate]
    cases hi : findInput inputs c.input with
    | error e => rfl
    | ok input =>
      simp only [bind, Except.bind, openIndex]
      cases newWildcard st.lower c.settings input (st.file c.path) with
      | mk r file =>
        cases r with
        | error e => rfl
        | ok w => exact fun st2 h => rfl
  | sqlite c =>
    simp only [IndexDecl.openOn, IndexDecl.instantiate]
    cases hi : findInput inputs c.input with
    | error e => rfl
    | ok input =>
      have e : openIndex st (.sqlite c) input = sqliteIndex st.sql c (newSqlite st.sql c input ⟨st.db c.dsn, none⟩) := by rw [openIndex]
      simp only [bind, Except.bind, e]
      cases newSqlite st.sql c input ⟨st.db c.dsn, none⟩ with
      | mk r s =>
        cases r with
        | error e => rfl
        | ok u =>
          intro st2 h
          have h1 := h.db _ _ rfl
          have h2 := h.sql
          simp only [Storage.writeDb, if_true] at h1 h2
          simp only [sqliteIndex, h1, h2]
  | fts5 c =>
    simp only [IndexDecl.openOn, IndexDecl.instantiate]
    cases hi : findInput inputs c.input with
    | error e => rfl
    | ok input =>
      have e : openIndex st (.fts5 c) input = fts5Index st.sql c (newFts5 st.sql c input ⟨st.db c.dsn, none⟩) := by rw [openIndex]
      simp only [bind, Except.bind, e]
      cases newFts5 st.sql c input ⟨st.db c.dsn, none⟩ with
      | mk r s =>
        cases r with
        | error e => rfl
        | ok u =>
          intro st2 h
          have h1 := h.db _ _ rfl
          have h2 := h.sql
          simp only [Storage.writeDb, if_true] at h1 h2
          simp only [fts5Index, h1, h2]
  | map c =>
    have e : (IndexDecl.map c).instantiate { lib with index := openIndex st } inputs = (IndexDecl.map c).instantiate lib inputs := rfl
    simp only [IndexDecl.openOn, e]
    cases (IndexDecl.map c).instantiate lib inputs with
    | error e => rfl
    | ok index => exact fun _ _ => rfl
  | noop c =>
    have e : (IndexDecl.noop c).instantiate { lib with index := openIndex st } inputs = (IndexDecl.noop c).instantiate lib inputs := rfl
    simp only [IndexDecl.openOn, e]
    cases (IndexDecl.noop c).instantiate lib inputs with
    | error e => rfl
    | ok index => exact fun _ _ => rfl

theorem instantiateMap_eq {α β : Type} {f g : α → Res β} : ∀ {l : GoMap α}, (∀ a ∈ l, f a.2 = g a.2) → instantiateMap f l = instantiateMap g l
  | [], _ => rfl
  | (k, x) :: rest, h => by
    have h1 : f x = g x := h _ List.mem_cons_self
    simp only [instantiateMap, h1, instantiateMap_eq (fun a ha => h a (List.mem_cons_of_mem _ ha))]

theorem openIndexes_alone {lib : StartLib} {inputs : GoMap Input} : ∀ (l : GoMap IndexDecl) (st : Storage), l.Pairwise (fun a b => Separate a.2 b.2 ∧ Separate b.2 a.2) →
    match openIndexes lib inputs st l with
    | (.error e, _) => instantiateMap (IndexDecl.instantiate { lib with index := openIndex st } inputs) l = .error e
    | (.ok fs, st1) => instantiateMap (IndexDecl.instantiate { lib with index := openIndex st } inputs) l = .ok (fs.map (fun x => (x.1, x.2 st1)))
  | [], st, _ => rfl
  | (k, d) :: rest, st, hp => by
    obtain ⟨hp1, hp2⟩ := List.pairwise_cons.1 hp
    have h1 := openOn_alone (lib := lib) (inputs := inputs) d st
    have heff := openOn_effect (lib := lib) (inputs := inputs) (st := st) d
    simp only [openIndexes, instantiateMap]
    cases ho : d.openOn lib inputs st with
    | mk r st1 =>
      rw [ho] at h1 heff
      cases r with
      | error e =>
        dsimp only at h1 ⊢
        rw [h1]
        rfl
      | ok f =>
        have h2 := openIndexes_alone (lib := lib) (inputs := inputs) rest st1 hp2
        have hrest : instantiateMap (IndexDecl.instantiate { lib with index := openIndex st1 } inputs) rest = instantiateMap (IndexDecl.instantiate { lib with index := openIndex st } inputs) rest :=
          instantiateMap_eq (fun a ha => instantiate_sameFor (heff.sameFor (hp1 a ha).1))
        have hd := openIndexes_sameFor (lib := lib) (inputs := inputs) (e := d) (l := rest) (st := st1) (fun a ha => (hp1 a ha).2)
        rw [hrest] at h2
        dsimp only
        cases hr : openIndexes lib inputs st1 rest with
        | mk r2 st2 =>
          rw [hr] at h2 hd
          have h1 := h1 st2 hd
          cases r2 with
          | error e =>
            dsimp only at h2 ⊢
            rw [h1, h2]
            rfl
          | ok fs =>
            dsimp only at h2 ⊢
            rw [h1, h2]
            rfl

/-- With indexes that have places of their own, the result of starting is what it is for each index on its own. -/
theorem startOn_alone (lib : StartLib) (st : Storage) (c : Config) (hp : c.indexes.Pairwise (fun a b => Separate a.2 b.2 ∧ Separate b.2 a.2)) :
    (startOn lib st c).1 = start { lib with index := openIndex st } c := by
  have ep : instantiateMap (ParserDecl.instantiate { lib with index := openIndex st }) c.parsers = instantiateMap (ParserDecl.instantiate lib) c.parsers := rfl
  unfold startOn start
  rw [ep]
  cases instantiateMap (ParserDecl.instantiate lib) c.parsers with
  | error e => rfl
  | ok texts =>
    have ei : instantiateMap (InputDecl.instantiate { lib with index := openIndex st } texts) c.inputs = instantiateMap (InputDecl.instantiate lib texts) c.inputs := rfl
    simp only [bind, Except.bind, ei]
    cases instantiateMap (InputDecl.instantiate lib texts) c.inputs with
    | error e => rfl
    | ok inputs =>
      have h := openIndexes_alone (lib := lib) (inputs := inputs) c.indexes st hp
      dsimp only
      cases ho : openIndexes lib inputs st c.indexes with
      | mk r st1 =>
        rw [ho] at h
        cases r with
        | error e =>
          dsimp only at h ⊢
          rw [h]
        | ok fs =>
          dsimp only at h ⊢
          rw [h]
          rfl

end Rodb
