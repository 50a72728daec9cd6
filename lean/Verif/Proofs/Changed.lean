import Verif.Proofs.Killed
import Verif.Proofs.WildcardHeader
import Verif.Spec.Changed
/-
  Starts of the program with files that change in between.
-/
namespace Rodb
open Rodb.Spec

/-! ### One index -/

/-- The second input has the size and the modification second of the first. -/
def SameStamp (a b : Input) : Prop := ∀ size t, a.size = .ok size → a.modTimeNs = .ok t → Int64Range size → Int64Range (unixSeconds t) →
  b.size = .ok size ∧ ∃ t', b.modTimeNs = .ok t' ∧ unixSeconds t' = unixSeconds t

/-- An index that has been built is not changed by a start, and is accepted for files of the same size and second only. -/
theorem metaOk_start {lib : SqlLib} (hlib : PlansPermute lib) {x : StoredIndex} (hx : NoNul x.name) {input : Input} {db : SqlDb} (h : MetaOk x input db) (w : Option Nat) (input' : Input) :
    (x.start lib input' ⟨db, w⟩).2 = ⟨db, w⟩ ∧ ((x.start lib input' ⟨db, w⟩).1 = .ok () → SameStamp input input') := by
  obtain ⟨t, size, time, h1, h2, h3, h4, h5, h6⟩ := h
  have hload : loadSqliteMetadata lib x.name ⟨db, w⟩ = (.ok ⟨x.name, 1, unixSeconds time, size, true⟩, ⟨db, w⟩) := by
    have hq : ∃ rows, sqlQuery lib db (loadMetadataText x.name) [] = .ok rows := by
      simp only [sqlQuery, parse_loadMetadata, SqlDb.source, metadata_not_master hx, Bool.false_eq_true, if_false, h1, List.all_nil, Bool.not_true, countParams, List.length_nil, ne_eq,
        not_true_eq_false]
      exact ⟨_, rfl⟩
    obtain ⟨rows, hq⟩ := hq
    have hp := load_rows hlib h1 (metadata_not_master hx) h3 hq
    rw [h6] at hp
    have hrows := List.perm_singleton.1 hp
    unfold loadSqliteMetadata
    show SqlM.bind _ _ _ = _
    simp only [SqlM.bind, query, bindValues, hq, hrows, SqlM.lift]
    rfl
  have hopen : ∀ create, openStored lib x.name input' create ⟨db, w⟩ = ((⟨x.name, 1, unixSeconds time, size, true⟩ : SqliteMetadata).assertValid input', ⟨db, w⟩) := by
    intro create
    unfold openStored
    show SqlM.bind _ _ _ = _
    simp only [SqlM.bind, hasMetadata_found hx h1 h2, if_true]
    show SqlM.bind _ _ _ = _
    simp only [SqlM.bind, hload, SqlM.lift]
  have hstart : x.start lib input' ⟨db, w⟩ = ((⟨x.name, 1, unixSeconds time, size, true⟩ : SqliteMetadata).assertValid input', ⟨db, w⟩) := by
    cases x with
    | sqlite c => exact hopen _
    | fts5 c => exact hopen _
  rw [hstart]
  refine ⟨rfl, ?_⟩
  intro hok size' t' hs ht _ _
  rw [h4] at hs
  rw [h5] at ht
  cases hs
  cases ht
  dsimp only at hok
  obtain ⟨_, _, v3, t0, v4, v5⟩ := sqlAssertValid_ok hok
  exact ⟨v3, t0, v4, v5.symm⟩

/-- A wildcard index that was opened has the size and second of its input in its header. -/
theorem wildcard_marks {lower : Bytes → Bytes} {cfg : WildcardConfig} {input : Input} {file : Option Bytes} {w : Wildcard} (h : (newWildcard lower cfg input file).1 = .ok w) :
    ∀ size t, input.size = .ok size → input.modTimeNs = .ok t → Int64Range size → Int64Range (unixSeconds t) → HeaderOf size (unixSeconds t) (newWildcard lower cfg input file).2 := by
  intro size t hs ht h1 h2
  cases file with
  | none =>
    have key : ∀ index, (createIndex lower cfg input (Stream.new [] 0 cfg.bufferSize)).1 = .ok index → _ := fun index => createIndex_header hs ht h1 h2
    simp only [newWildcard] at h ⊢
    cases hc : createIndex lower cfg input (Stream.new [] 0 cfg.bufferSize) with
    | mk r s =>
      rw [hc] at h key
      cases r with
      | error e => cases h
      | ok index => exact key index rfl
  | some f =>
    rw [newWildcard_readOnly]
    obtain ⟨m, t', hm, _, _, _, a1, a2, a3, _⟩ := C10_accepted_header_partial lower cfg input f w h
    intro m' hm'
    rw [hm] at hm'
    cases hm'
    rw [hs] at a1
    rw [ht] at a2
    cases a1
    cases a2
    exact ⟨rfl, a3⟩

/-- The index has been built for its input. -/
def Marked (inputs : GoMap Input) (st : Storage) (d : IndexDecl) : Prop :=
  (∀ c, d = .wildcard c → ∃ input file, findInput inputs c.input = .ok input ∧ st.file c.path = some file ∧
    ∀ size t, input.size = .ok size → input.modTimeNs = .ok t → Int64Range size → Int64Range (unixSeconds t) → HeaderOf size (unixSeconds t) file) ∧
  ∀ x dsn, storedOf d = some (x, dsn) → ∃ input, findInput inputs (indexInput d) = .ok input ∧ MetaOk x input (st.db dsn)

/-- The index is one that the validation accepts. -/
def Allowed (d : IndexDecl) : Prop := ∀ x dsn, storedOf d = some (x, dsn) → x.Accepted

/-- The databases hold nothing of the index but what its starts have left. -/
def Shaped (st : Storage) (d : IndexDecl) : Prop := ∀ x dsn, storedOf d = some (x, dsn) → MetaShape x (st.db dsn)

section
variable {lib : StartLib} {inputs inputs' : GoMap Input} {st st' : Storage} {d e : IndexDecl}

theorem Marked.again (hlib : PlansPermute st.sql) (hd : Allowed d) (h : Marked inputs st d) : (d.openOn lib inputs' st).2 = st ∧
    ∀ f, (d.openOn lib inputs' st).1 = .ok f → ((∃ c, d = .wildcard c) ∨ (storedOf d).isSome) → ∃ input input', findInput inputs (indexInput d) = .ok input ∧
      findInput inputs' (indexInput d) = .ok input' ∧ SameStamp input input' := by
  cases hi : findInput inputs' (indexInput d) with
  | error e =>
    refine ⟨openOn_else (.inr (by rw [hi]; simp)), ?_⟩
    intro f hf hk
    cases d with
    | wildcard c =>
      have hi : findInput inputs' c.input = .error e := hi
      simp only [IndexDecl.openOn, hi] at hf
      cases hf
    | sqlite c =>
      have hi : findInput inputs' c.input = .error e := hi
      simp only [IndexDecl.openOn, hi] at hf
      cases hf
    | fts5 c =>
      have hi : findInput inputs' c.input = .error e := hi
      simp only [IndexDecl.openOn, hi] at hf
      cases hf
    | map c => rcases hk with ⟨_, hk⟩ | hk <;> cases hk
    | noop c => rcases hk with ⟨_, hk⟩ | hk <;> cases hk
  | ok input' =>
    cases hs : storedOf d with
    | some x =>
      obtain ⟨x, dsn⟩ := x
      obtain ⟨input, h1, h2⟩ := h.2 x dsn hs
      obtain ⟨k1, k2⟩ := openOn_stored (lib := lib) (st := st) hs hi
      obtain ⟨m1, m2⟩ := metaOk_start hlib (accepted_name (hd x dsn hs)) h2 none input'
      refine ⟨?_, fun f hf _ => ⟨input, input', h1, rfl, m2 (k2 f hf)⟩⟩
      rw [k1, m1]
      exact writeDb_same _ _
    | none =>
      cases d with
      | wildcard c =>
        obtain ⟨input, file, h1, h2, h3⟩ := h.1 c rfl
        have hi : findInput inputs' c.input = .ok input' := hi
        obtain ⟨k1, k2⟩ := openOn_wildcard (lib := lib) (st := st) hi
        rw [h2, newWildcard_readOnly] at k1
        refine ⟨by rw [k1, writeFile_same h2], ?_⟩
        intro f hf _
        obtain ⟨w, hw, _⟩ := k2 f hf
        rw [h2] at hw
        refine ⟨input, input', h1, rfl, ?_⟩
        intro size t hs ht r1 r2
        obtain ⟨m, t', hm, _, _, _, a1, a2, a3, _⟩ := C10_accepted_header_partial _ _ _ _ w hw
        obtain ⟨b1, b2⟩ := h3 size t hs ht r1 r2 m hm
        exact ⟨by rw [a1, b1], t', a2, by rw [← b2, a3]; rfl⟩
      | sqlite c | fts5 c => cases hs
      | map c | noop c =>
        refine ⟨openOn_else (.inl ⟨by simp, rfl⟩), fun f _ hk => ?_⟩
        rcases hk with ⟨_, hk⟩ | hk <;> cases hk

theorem OpenEffect.shaped (hlib : PlansPermute st.sql) (h : OpenEffect inputs' st d st') (hd : Allowed d) (he : Allowed e) (hc : d = e ∨ KeptApart d e) (hs : Shaped st e) : Shaped st' e := by
  intro y dsn' hy
  have hm := hs y dsn' hy
  cases h with
  | none => exact hm
  | file _ _ => exact hm
  | @table x dsn input' writes hx hi' =>
    simp only [Storage.writeDb]
    by_cases hdsn : dsn' = dsn
    · rw [if_pos hdsn]
      subst hdsn
      have hacc := hd x dsn' hx
      rcases hc with e' | ha
      · subst e'
        rw [hx] at hy
        cases hy
        exact (start_own hlib hacc input').final (fun _ _ h => h.shape) (fun _ h => h) (s := ⟨st.db dsn', writes⟩) hm
      · have hne := ha.tables _ _ hx hy rfl
        obtain ⟨k1, k2⟩ := metaShape_other (accepted_name (he y dsn' hy)) (accepted_name hacc) hne
        exact (start_keeps hacc k1 k2 st.sql input').final (fun _ _ h => h) (fun _ h => h) (s := ⟨st.db dsn', writes⟩) hm
    · rw [if_neg hdsn]
      exact hm

theorem OpenEffect.marked (hlib : PlansPermute st.sql) (h : OpenEffect inputs' st d st') (hd : Allowed d) (he : Allowed e) (hc : d = e ∨ KeptApart d e) (hm : Marked inputs st e) :
    Marked inputs st' e := by
  constructor
  · rintro b rfl
    obtain ⟨input, file, h1, h2, h3⟩ := hm.1 b rfl
    refine ⟨input, file, h1, ?_, h3⟩
    cases h with
    | none => exact h2
    | table _ _ => exact h2
    | @file c input' hdc hi' =>
      subst hdc
      simp only [Storage.writeFile]
      by_cases hp : b.path = c.path
      · rw [if_pos hp]
        rcases hc with e' | ha
        · cases e'
          rw [h2, newWildcard_readOnly]
        · exact absurd hp.symm (ha.files _ _ rfl rfl)
      · rw [if_neg hp]
        exact h2
  · intro y dsn' hy
    obtain ⟨input, h1, h2⟩ := hm.2 y dsn' hy
    refine ⟨input, h1, ?_⟩
    cases h with
    | none => exact h2
    | file _ _ => exact h2
    | @table x dsn input' writes hx hi' =>
      simp only [Storage.writeDb]
      by_cases hdsn : dsn' = dsn
      · rw [if_pos hdsn]
        subst hdsn
        have hacc := hd x dsn' hx
        rcases hc with e' | ha
        · subst e'
          rw [hx] at hy
          cases hy
          rw [(metaOk_start hlib (accepted_name hacc) h2 writes input').1]
          exact h2
        · have hne := ha.tables _ _ hx hy rfl
          obtain ⟨k1, k2⟩ := metaOk_other (input := input) (accepted_name (he y dsn' hy)) (accepted_name (hd x dsn' hx)) hne
          exact (start_keeps (hd x dsn' hx) k1 k2 st.sql input').final (fun _ _ h => h) (fun _ h => h) (s := ⟨st.db dsn', writes⟩) h2
      · rw [if_neg hdsn]
        exact h2

theorem openOn_marks (hlib : PlansPermute st.sql) (hd : Allowed d) (hs : Shaped st d) {f : OpenIndex} (h : d.openOn lib inputs st = (.ok f, st')) : Marked inputs st' d := by
  have h1 : (d.openOn lib inputs st).1 = .ok f := by rw [h]
  have h2 : (d.openOn lib inputs st).2 = st' := by rw [h]
  constructor
  · rintro c rfl
    cases hi : findInput inputs c.input with
    | error e =>
      simp only [IndexDecl.openOn, hi] at h1
      cases h1
    | ok input =>
      obtain ⟨k1, k2⟩ := openOn_wildcard (lib := lib) (st := st) hi
      obtain ⟨w, k3, rfl⟩ := k2 f h1
      rw [h2] at k1
      refine ⟨input, _, rfl, ?_, wildcard_marks k3⟩
      rw [k1]
      simp only [Storage.writeFile, if_true]
  · intro x dsn hx
    cases hi : findInput inputs (indexInput d) with
    | error e =>
      cases d with
      | sqlite c =>
        have hi : findInput inputs c.input = .error e := hi
        simp only [IndexDecl.openOn, hi] at h1
        cases h1
      | fts5 c =>
        have hi : findInput inputs c.input = .error e := hi
        simp only [IndexDecl.openOn, hi] at h1
        cases h1
      | wildcard c | map c | noop c => cases hx
    | ok input =>
      obtain ⟨k1, k2⟩ := openOn_stored (lib := lib) (st := st) hx hi
      refine ⟨input, rfl, ?_⟩
      rw [← h2, k1]
      simp only [Storage.writeDb, if_true]
      exact (start_own hlib (hd x dsn hx) input).ok (s := ⟨st.db dsn, none⟩) (hs x dsn hx) (k2 f h1)
end

/-! ### All the indexes -/

theorem openIndexes_marks {lib : StartLib} {inputs : GoMap Input} : ∀ {l : GoMap IndexDecl} {st : Storage}, PlansPermute st.sql → (∀ a ∈ l, Allowed a.2) → (∀ a ∈ l, Shaped st a.2) →
    (∀ a ∈ l, ApartFrom l a.2) →
    (openIndexes lib inputs st l).2.sql = st.sql ∧
    (∀ e, Allowed e → Shaped st e → ApartFrom l e → Shaped (openIndexes lib inputs st l).2 e) ∧
    (∀ ins e, Allowed e → Marked ins st e → ApartFrom l e → Marked ins (openIndexes lib inputs st l).2 e) ∧
    ∀ fs, (openIndexes lib inputs st l).1 = .ok fs → ∀ a ∈ l, Marked inputs (openIndexes lib inputs st l).2 a.2
  | [], st, _, _, _, _ => ⟨rfl, fun _ _ h _ => h, fun _ _ _ h _ => h, fun fs h a ha => by cases ha⟩
  | (k, d) :: rest, st, hlib, hallow, hshape, hapart => by
    have heff := openOn_effect (lib := lib) (inputs := inputs) (st := st) d
    have hd : Allowed d := hallow _ List.mem_cons_self
    have hsame := heff.same.2
    have keep : ∀ e, Allowed e → Shaped st e → ApartFrom ((k, d) :: rest) e → Shaped (d.openOn lib inputs st).2 e :=
      fun e ha he hc => heff.shaped hlib hd ha (hc _ List.mem_cons_self) he
    have keep' : ∀ ins e, Allowed e → Marked ins st e → ApartFrom ((k, d) :: rest) e → Marked ins (d.openOn lib inputs st).2 e :=
      fun ins e ha he hc => heff.marked hlib hd ha (hc _ List.mem_cons_self) he
    have tail : ∀ {e}, ApartFrom ((k, d) :: rest) e → ApartFrom rest e := fun h a ha => h a (List.mem_cons_of_mem _ ha)
    cases ho : d.openOn lib inputs st with
    | mk r st1 =>
      rw [ho] at heff hsame keep keep'
      dsimp only at heff hsame keep keep'
      cases r with
      | error e =>
        have e1 : openIndexes lib inputs st ((k, d) :: rest) = (.error e, st1) := by simp only [openIndexes, ho]
        rw [e1]
        exact ⟨hsame, keep, keep', fun fs h => by cases h⟩
      | ok f =>
        have hmarked := openOn_marks hlib hd (hshape _ List.mem_cons_self) ho
        obtain ⟨i1, i2, i3, i4⟩ := openIndexes_marks (lib := lib) (inputs := inputs) (l := rest) (st := st1) (by rw [hsame]; exact hlib)
          (fun a ha => hallow a (List.mem_cons_of_mem _ ha))
          (fun a ha => keep _ (hallow a (List.mem_cons_of_mem _ ha)) (hshape a (List.mem_cons_of_mem _ ha)) (hapart a (List.mem_cons_of_mem _ ha)))
          (fun a ha => tail (hapart a (List.mem_cons_of_mem _ ha)))
        have hhead := i3 inputs d hd hmarked (tail (hapart _ List.mem_cons_self))
        cases hr : openIndexes lib inputs st1 rest with
        | mk r2 st2 =>
          rw [hr] at i1 i2 i3 i4 hhead
          dsimp only at i1 i2 i3 i4 hhead
          cases r2 with
          | error e =>
            have e1 : openIndexes lib inputs st ((k, d) :: rest) = (.error e, st2) := by simp only [openIndexes, ho, hr]
            rw [e1]
            exact ⟨i1.trans hsame, fun e ha he hc => i2 e ha (keep e ha he hc) (tail hc), fun ins e ha he hc => i3 ins e ha (keep' ins e ha he hc) (tail hc), fun fs h => by cases h⟩
          | ok fs =>
            have e1 : openIndexes lib inputs st ((k, d) :: rest) = (.ok ((k, f) :: fs), st2) := by simp only [openIndexes, ho, hr]
            rw [e1]
            refine ⟨i1.trans hsame, fun e ha he hc => i2 e ha (keep e ha he hc) (tail hc), fun ins e ha he hc => i3 ins e ha (keep' ins e ha he hc) (tail hc), fun fs' h a ha => ?_⟩
            rcases List.mem_cons.1 ha with rfl | ha
            · exact hhead
            · exact i4 fs rfl a ha

/-- Indexes that have been built are not changed, and are accepted for files of the same size and second only. -/
theorem openIndexes_again {lib : StartLib} {inputs inputs' : GoMap Input} : ∀ {l : GoMap IndexDecl} {st : Storage}, PlansPermute st.sql → (∀ a ∈ l, Allowed a.2) →
    (∀ a ∈ l, Marked inputs st a.2) →
    (openIndexes lib inputs' st l).2 = st ∧ ∀ fs, (openIndexes lib inputs' st l).1 = .ok fs → ∀ a ∈ l, ((∃ c, a.2 = .wildcard c) ∨ (storedOf a.2).isSome) →
      ∃ input input', findInput inputs (indexInput a.2) = .ok input ∧ findInput inputs' (indexInput a.2) = .ok input' ∧ SameStamp input input'
  | [], st, _, _, _ => ⟨rfl, fun fs h a ha => by cases ha⟩
  | (k, d) :: rest, st, hlib, hallow, hmarked => by
    obtain ⟨h1, h2⟩ := (hmarked _ List.mem_cons_self).again (lib := lib) (inputs' := inputs') hlib (hallow _ List.mem_cons_self)
    obtain ⟨i1, i2⟩ := openIndexes_again (lib := lib) (inputs' := inputs') (l := rest) hlib (fun a ha => hallow a (List.mem_cons_of_mem _ ha)) (fun a ha => hmarked a (List.mem_cons_of_mem _ ha))
    dsimp only at h1 h2
    cases ho : d.openOn lib inputs' st with
    | mk r st1 =>
      rw [ho] at h1 h2
      dsimp only at h1 h2
      subst h1
      cases r with
      | error e =>
        have e1 : openIndexes lib inputs' st1 ((k, d) :: rest) = (.error e, st1) := by simp only [openIndexes, ho]
        rw [e1]
        exact ⟨rfl, fun fs h => by cases h⟩
      | ok f =>
        cases hr : openIndexes lib inputs' st1 rest with
        | mk r2 st2 =>
          rw [hr] at i1 i2
          dsimp only at i1 i2
          subst i1
          cases r2 with
          | error e =>
            have e1 : openIndexes lib inputs' st2 ((k, d) :: rest) = (.error e, st2) := by simp only [openIndexes, ho, hr]
            rw [e1]
            exact ⟨rfl, fun fs h => by cases h⟩
          | ok fs =>
            have e1 : openIndexes lib inputs' st2 ((k, d) :: rest) = (.ok ((k, f) :: fs), st2) := by simp only [openIndexes, ho, hr]
            rw [e1]
            refine ⟨rfl, fun fs' h a ha => ?_⟩
            rcases List.mem_cons.1 ha with rfl | ha
            · exact h2 f rfl
            · exact i2 fs rfl a ha

/-! ### The program -/

theorem Steps.shaped {inputs : GoMap Input} {l : GoMap IndexDecl} {st st' : Storage} (h : Steps inputs l st st') (hlib : PlansPermute st.sql) (hallow : ∀ a ∈ l, Allowed a.2)
    (hapart : ∀ a ∈ l, ApartFrom l a.2) (hs : ∀ a ∈ l, Shaped st a.2) : ∀ a ∈ l, Shaped st' a.2 := by
  induction h with
  | refl st => exact hs
  | step ha h _ ih => exact ih (by rw [h.same.2]; exact hlib) (fun b hb => h.shaped hlib (hallow _ ha) (hallow b hb) (hapart b hb _ ha) (hs b hb))

/-- Any starts leave the databases in shape. -/
theorem afterProgramRuns_shaped {lib : StartLib} {c : Config} (hallow : ∀ a ∈ c.indexes, Allowed a.2) (hapart : ∀ a ∈ c.indexes, ApartFrom c.indexes a.2) :
    ∀ (runs : List Run) (st : Storage), PlansPermute st.sql → (∀ r ∈ runs, Reordered c r.config) → (∀ a ∈ c.indexes, Shaped st a.2) →
      (afterProgramRuns lib st runs).sql = st.sql ∧ ∀ a ∈ c.indexes, Shaped (afterProgramRuns lib st runs) a.2
  | [], _, _, _, h => ⟨rfl, h⟩
  | r :: rest, st, hlib, hre, h => by
    have hr := hre _ List.mem_cons_self
    have back : ∀ a ∈ r.config.indexes, a ∈ c.indexes := fun a ha => hr.indexes.symm.subset ha
    have ha' := apart_reordered hr hapart
    have hstep : (r.leaves lib st).sql = st.sql ∧ ∀ a ∈ c.indexes, Shaped (r.leaves lib st) a.2 := by
      rcases r.effect lib st with e | ⟨texts, inputs, _, _, hs | ⟨st1, w, input, content, hs, hcut, _⟩⟩
      · rw [e]
        exact ⟨rfl, h⟩
      · exact ⟨hs.same.2, fun a ha => hs.shaped hlib (fun a ha => hallow a (back a ha)) ha' (fun a ha => h a (back a ha)) a (hr.indexes.subset ha)⟩
      · rw [hcut.left]
        exact ⟨hs.same.2, fun a ha => hs.shaped hlib (fun a ha => hallow a (back a ha)) ha' (fun a ha => h a (back a ha)) a (hr.indexes.subset ha)⟩
    rw [afterProgramRuns]
    obtain ⟨j1, j2⟩ := afterProgramRuns_shaped hallow hapart rest _ (by rw [hstep.1]; exact hlib) (fun r hr => hre r (List.mem_cons_of_mem _ hr)) hstep.2
    exact ⟨j1.trans hstep.1, j2⟩

/-- When the index has been built, no start changes it. -/
theorem OpenEffect.untouched {inputs inputs' : GoMap Input} {st st' : Storage} {d : IndexDecl} (hlib : PlansPermute st.sql) (h : OpenEffect inputs' st d st') (hd : Allowed d) (hm : Marked inputs st d) :
    st' = st := by
  cases h with
  | none => rfl
  | @file c input hc hi =>
    obtain ⟨_, file, _, hf, _⟩ := hm.1 c hc
    rw [hf, newWildcard_readOnly, writeFile_same hf]
  | @table x dsn input writes hx hi =>
    obtain ⟨_, _, h2⟩ := hm.2 x dsn hx
    rw [(metaOk_start hlib (accepted_name (hd x dsn hx)) h2 writes input).1]
    exact writeDb_same _ _

theorem Steps.untouched {inputs inputs' : GoMap Input} {l : GoMap IndexDecl} {st st' : Storage} (h : Steps inputs' l st st') (hlib : PlansPermute st.sql) (hallow : ∀ a ∈ l, Allowed a.2)
    (hm : ∀ a ∈ l, Marked inputs st a.2) : st' = st := by
  induction h with
  | refl st => rfl
  | step ha h _ ih =>
    have e := h.untouched hlib (hallow _ ha) (hm _ ha)
    subst e
    exact ih hlib hm

/-- When all the indexes have been built, no start changes anything. -/
theorem Run.untouched {lib : StartLib} {c : Config} (hallow : ∀ a ∈ c.indexes, Allowed a.2) {st : Storage} (hlib : PlansPermute st.sql)
    {inputs : GoMap Input} (hm : ∀ a ∈ c.indexes, Marked inputs st a.2) {r : Run} (hre : Reordered c r.config) : r.leaves lib st = st := by
  have back : ∀ a ∈ r.config.indexes, a ∈ c.indexes := fun a ha => hre.indexes.symm.subset ha
  rcases r.effect lib st with e | ⟨texts, inputs', _, _, hs | ⟨st1, w, input, content, hs, hcut, _⟩⟩
  · exact e
  · exact hs.untouched hlib (fun a ha => hallow a (back a ha)) (fun a ha => hm a (back a ha))
  · have e := hs.untouched hlib (fun a ha => hallow a (back a ha)) (fun a ha => hm a (back a ha))
    subst e
    obtain ⟨k, hk⟩ := hcut.index
    obtain ⟨_, file, _, hf, _⟩ := (hm _ (back _ hk)).1 w rfl
    rw [hcut.absent] at hf
    cases hf

theorem afterProgramRuns_marked {lib : StartLib} {c : Config} (hallow : ∀ a ∈ c.indexes, Allowed a.2) {st : Storage} (hlib : PlansPermute st.sql)
    {inputs : GoMap Input} (hm : ∀ a ∈ c.indexes, Marked inputs st a.2) : ∀ runs : List Run, (∀ r ∈ runs, Reordered c r.config) → afterProgramRuns lib st runs = st
  | [], _ => rfl
  | r :: rest, hre => by
    rw [afterProgramRuns, Run.untouched hallow hlib hm (hre _ List.mem_cons_self)]
    exact afterProgramRuns_marked hallow hlib hm rest (fun r hr => hre r (List.mem_cons_of_mem _ hr))

/-- The inputs have the sizes and times of their files. -/
theorem openInput_stamp {files : Files} {x : InputDecl} {types : String → Option ParserType} {functions : GoMap (Bytes → Res Value)} {input : Input}
    (h : openInput files x types functions = .ok input) :
    ∃ content, files.content (inputPath x) = some content ∧ input.size = .ok content.length ∧ input.modTimeNs = .ok (files.modTimeNs (inputPath x)) := by
  cases x with
  | csv d =>
    simp only [openInput, openCsvInput] at h
    cases hc : files.content d.path with
    | none => rw [hc] at h; cases h
    | some content =>
      rw [hc] at h
      simp only [bind_ok, ok_inj] at h
      obtain ⟨comma, _, rfl⟩ := h
      exact ⟨content, hc, rfl, rfl⟩
  | json d =>
    simp only [openInput, openJsonInput] at h
    cases hc : files.content d.path with
    | none => rw [hc] at h; cases h
    | some content =>
      rw [hc] at h
      cases h
      exact ⟨content, hc, rfl, rfl⟩
  | xml d =>
    simp only [openInput, openXmlInput] at h
    cases hc : files.content d.path with
    | none => rw [hc] at h; cases h
    | some content =>
      rw [hc] at h
      cases h
      exact ⟨content, hc, rfl, rfl⟩

end Rodb
