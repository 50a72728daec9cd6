import Verif.Proofs.Killed
import Verif.Proofs.Failing
import Verif.Props.WildcardProps
/-
  Starts of the program that are killed anywhere, also while the file of a wildcard index is completed.
-/
namespace Rodb
open Rodb.Spec

/-! ### The disk -/

/-- The file of the wildcard index was cut; nothing else is wrong with it. -/
structure CutShort (inputs : GoMap Input) (st : Storage) (c : WildcardDecl) (i : Input) : Prop where
  input : findInput inputs c.input = .ok i
  nodup : c.properties.Nodup
  texts : ∃ rows, TextTable i c.properties rows
  small : (createIndex st.lower c.settings i (Stream.new [] 0 c.settings.bufferSize)).2.streamSize < 2^63
  count : c.properties.length ≤ 2^45
  file : ∃ k j, st.file c.path = some (crashFile (createIndex st.lower c.settings i (Stream.new [] 0 c.settings.bufferSize)).2.log k j)

/-- The disk is as the index needs it, or its file was cut. -/
def DiskShort (inputs : GoMap Input) (st : Storage) (d : IndexDecl) : Prop := DiskOk inputs st d ∨ ∃ c input, d = .wildcard c ∧ CutShort inputs st c input

section
variable {lib : StartLib} {inputs : GoMap Input} {l : GoMap IndexDecl} {st st1 st' : Storage} {d e : IndexDecl}

theorem CutShort.congr {c : WildcardDecl} {input : Input} (h : CutShort inputs st c input) (hl : st'.lower = st.lower) (hf : ∀ content, st.file c.path = some content → st'.file c.path = some content) :
    CutShort inputs st' c input := by
  obtain ⟨h1, h2, h3, h4, h5, k, j, h6⟩ := h
  refine ⟨h1, h2, h3, ?_, h5, k, j, ?_⟩
  · rw [hl]
    exact h4
  · rw [hl]
    exact hf _ h6

/-- The disk is as the index needs it, its file was cut, or its file is refused. -/
def DiskLeft (inputs : GoMap Input) (st : Storage) (d : IndexDecl) : Prop := DiskShort inputs st d ∨ ∃ c content input, d = .wildcard c ∧ FileRefused inputs st c content input

theorem DiskKept.left (h : DiskKept inputs st d) : DiskLeft inputs st d := by
  rcases h with h | h
  · exact .inl (.inl h)
  · exact .inr h

theorem DiskLeft.cases (h : DiskLeft inputs st d) : DiskKept inputs st d ∨ ∃ c input, d = .wildcard c ∧ CutShort inputs st c input := by
  rcases h with (h | h) | h
  · exact .inl (.inl h)
  · exact .inr h
  · exact .inl (.inr h)

theorem OpenEffect.short {inputs' : GoMap Input} (hE : EarlierInputs inputs inputs' st.lower l) {a : String × IndexDecl} (ha : a ∈ l) (h : OpenEffect inputs' st a.2 st') (hd : DiskLeft inputs st a.2)
    (he : DiskLeft inputs st e) (hc : a.2 = e ∨ KeptApart a.2 e) : DiskLeft inputs st' e := by
  rcases hd.cases with hd | ⟨c, input, hdc, hcut⟩
  · rcases he.cases with he | ⟨c, input, rfl, hcut⟩
    · exact (h.kept hE ha hd he hc).left
    · exact .inl (.inr ⟨c, input, rfl, hcut.congr h.same.1 (fun _ hf => h.file_kept hf)⟩)
  · have : st' = st := by
      obtain ⟨k, j, hf⟩ := hcut.file
      cases h with
      | none => rfl
      | table hx _ =>
        rw [hdc] at hx
        cases hx
      | file hc _ =>
        rw [hdc] at hc
        cases hc
        rw [hf, newWildcard_readOnly, writeFile_same hf]
    rw [this]
    exact he

theorem Steps.short {inputs' : GoMap Input} {lower : Bytes → Bytes} (h : Steps inputs' l st st') (hl : st.lower = lower) (hE : EarlierInputs inputs inputs' lower l) (hapart : ∀ a ∈ l, ApartFrom l a.2)
    (hd : ∀ a ∈ l, DiskLeft inputs st a.2) : ∀ a ∈ l, DiskLeft inputs st' a.2 := by
  induction h with
  | refl st => exact hd
  | step ha h _ ih => exact ih (h.same.1.trans hl) (fun b hb => h.short (hl ▸ hE) ha (hd _ ha) (hd b hb) (hapart b hb _ ha))

theorem CutAt.short {inputs' : GoMap Input} {c : WildcardDecl} {input' : Input} {content : Bytes} (h : CutAt inputs' l st st' c input' content) (hE : EarlierInputs inputs inputs' st.lower l)
    (hapart : ∀ a ∈ l, ApartFrom l a.2) (hl : ∀ a ∈ l, DiskLeft inputs st a.2) : ∀ a ∈ l, DiskLeft inputs st' a.2 := by
  intro a ha
  obtain ⟨k, hk⟩ := h.index
  obtain ⟨input, hi, hsame⟩ := hE.found _ _ h.input
  obtain ⟨writes, bytes, hpart⟩ := h.part
  rw [h.left]
  rcases hapart a ha _ hk with e | hap
  · dsimp only at e
    rw [← e]
    rcases hl _ hk with (hd | ⟨c', i', hc', hcut⟩) | ⟨c', content', i', hc', hr⟩
    · obtain ⟨hn, records, hw⟩ := (hd input hi).wildcard c rfl
      obtain ⟨rows, ht, _⟩ := hw.texts
      have hfile : (st.writeFile c.path content).file c.path = some content := by simp only [Storage.writeFile, if_true]
      by_cases hs : SameStat input' input
      · rw [createIndex_stat hs (hsame hs)] at hpart
        exact .inl (.inr ⟨c, input, rfl, hi, hn, ⟨rows, ht⟩, hw.small, hw.count, writes, bytes, by rw [hfile, hpart]; rfl⟩)
      · refine .inr ⟨c, content, input, rfl, hfile, hi, ?_⟩
        rw [hpart]
        exact crash_other hn (hE.fits _ hk c rfl _ h.input) hs writes bytes
    · cases hc'
      obtain ⟨k, j, hf⟩ := hcut.file
      rw [h.absent] at hf
      cases hf
    · cases hc'
      have hf := hr.file
      rw [h.absent] at hf
      cases hf
  · rcases hl a ha with (hd | ⟨b, i', hb, hcut⟩) | ⟨b, old, i', hb, hr⟩
    · exact .inl (.inl (diskOk_writeFile hd (fun b hb => hap.files _ _ rfl hb)))
    · refine .inl (.inr ⟨b, i', hb, hcut.congr (st' := st.writeFile c.path content) rfl (fun content' hf => ?_)⟩)
      simp only [Storage.writeFile]
      rw [if_neg (fun e => hap.files _ _ rfl hb e.symm)]
      exact hf
    · refine .inr ⟨b, old, i', hb, hr.congr rfl (fun hf => ?_)⟩
      simp only [Storage.writeFile]
      rw [if_neg (fun e => hap.files _ _ rfl hb e.symm)]
      exact hf
end

/-- After starts of the program, killed anywhere or not at all, the disk is as the indexes need it, or the files of some of them were cut or are refused. -/
theorem afterProgramRuns_short {lib : StartLib} {c : Config} {inputs : GoMap Input} (hapart : ∀ a ∈ c.indexes, ApartFrom c.indexes a.2) :
    ∀ (runs : List Run) (st : Storage), EarlierRuns lib c inputs st.lower runs → (∀ a ∈ c.indexes, DiskLeft inputs st a.2) →
      ((afterProgramRuns lib st runs).lower = st.lower ∧ (afterProgramRuns lib st runs).sql = st.sql) ∧ ∀ a ∈ c.indexes, DiskLeft inputs (afterProgramRuns lib st runs) a.2
  | [], st, _, hd => ⟨⟨rfl, rfl⟩, hd⟩
  | r :: rest, st, hruns, hd => by
    obtain ⟨hr, hearlier⟩ := hruns r List.mem_cons_self
    have hsub : ∀ a ∈ r.config.indexes, a ∈ c.indexes := fun a ha => hr.indexes.symm.subset ha
    have hstep : ((r.leaves lib st).lower = st.lower ∧ (r.leaves lib st).sql = st.sql) ∧ ∀ a ∈ c.indexes, DiskLeft inputs (r.leaves lib st) a.2 := by
      rcases r.effect lib st with h | ⟨texts2, inputs2, g1, g2, g3⟩
      · rw [h]
        exact ⟨⟨rfl, rfl⟩, hd⟩
      · have hE := hearlier texts2 inputs2 g1 g2
        rcases g3 with h | ⟨st1, w, input, content, s1, s2, _⟩
        · exact ⟨h.same, (h.mono hsub).short rfl hE hapart hd⟩
        · exact ⟨by rw [s2.left]; exact s1.same, (s2.mono hsub).short (s1.same.1 ▸ hE) hapart ((s1.mono hsub).short rfl hE hapart hd)⟩
    obtain ⟨j1, j2⟩ := afterProgramRuns_short hapart rest (r.leaves lib st) (by rw [hstep.1.1]; exact fun r hr => hruns r (List.mem_cons_of_mem _ hr)) hstep.2
    exact ⟨⟨j1.1.trans hstep.1.1, j1.2.trans hstep.1.2⟩, j2⟩

/-! ### The same machine with the files that were cut gone or complete -/

structure Twin (inputs : GoMap Input) (l : GoMap IndexDecl) (st full : Storage) : Prop where
  lower : full.lower = st.lower
  sql : full.sql = st.sql
  db : full.db = st.db
  file : ∀ path, full.file path = st.file path ∨ ∃ k c input, (k, IndexDecl.wildcard c) ∈ l ∧ c.path = path ∧ CutShort inputs st c input ∧
    (full.file path = none ∨ full.file path = some (newWildcard st.lower c.settings input none).2)

/-- An open index of the machine, and that of the other one. -/
def OpenTwin (f g : OpenIndex) : Prop := ∀ st full : Storage, full.sql = st.sql → full.db = st.db → ∀ input filters, SearchMayFail (g full input filters) (f st input filters)

theorem searchMayFail_refl (r : Res PIter) : SearchMayFail r r := .inl rfl

section
variable {lib : StartLib} {inputs : GoMap Input} {l : GoMap IndexDecl} {st st1 full : Storage}

theorem Twin.writeFile (h : Twin inputs l st full) (path : String) (content : Bytes) : Twin inputs l (st.writeFile path content) (full.writeFile path content) where
  lower := h.lower
  sql := h.sql
  db := h.db
  file := by
    intro q
    simp only [Storage.writeFile]
    by_cases hq : q = path
    · simp only [if_pos hq, true_or]
    · simp only [if_neg hq]
      rcases h.file q with e | ⟨k, c, input, hm, hp, hc, hf⟩
      · exact .inl e
      · refine .inr ⟨k, c, input, hm, hp, hc.congr rfl (fun content' hx => ?_), hf⟩
        simp only
        rw [if_neg (by rw [hp]; exact hq)]
        exact hx

theorem Twin.writeDb (h : Twin inputs l st full) (dsn : String) (db : SqlDb) : Twin inputs l (st.writeDb dsn db) (full.writeDb dsn db) where
  lower := h.lower
  sql := h.sql
  db := by
    simp only [Storage.writeDb, h.db]
  file := by
    intro q
    rcases h.file q with e | ⟨k, c, input, hm, hp, hc, hf⟩
    · exact .inl e
    · exact .inr ⟨k, c, input, hm, hp, hc.congr rfl (fun _ hx => hx), hf⟩

theorem openOn_twin (h : Twin inputs l st full) {k : String} {d : IndexDecl} (hm : (k, d) ∈ l) (hapart : ApartFrom l d) {f : OpenIndex} (ho : d.openOn lib inputs st = (.ok f, st1)) :
    ∃ g full1, d.openOn lib inputs full = (.ok g, full1) ∧ Twin inputs l st1 full1 ∧ OpenTwin f g := by
  cases d with
  | wildcard c =>
    simp only [IndexDecl.openOn] at ho ⊢
    cases hi : findInput inputs c.input with
    | error e =>
      rw [hi] at ho
      cases ho
    | ok input =>
      rw [hi] at ho
      dsimp only at ho ⊢
      rcases h.file c.path with hf | ⟨k0, c0, input0, hm0, hp0, hcut, hfull⟩
      · rw [hf, h.lower]
        cases hn : newWildcard st.lower c.settings input (st.file c.path) with
        | mk r file =>
          rw [hn] at ho
          cases r with
          | error e => cases ho
          | ok w =>
            cases ho
            exact ⟨_, _, rfl, h.writeFile _ _, fun _ _ _ _ _ _ => .inl rfl⟩
      · have hc : c0 = c := by
          rcases hapart _ hm0 with e | hap
          · cases e
            rfl
          · exact absurd hp0 (hap.files _ _ rfl rfl)
        subst hc
        have hin : input0 = input := by
          have := hcut.input
          rw [hi] at this
          cases this
          rfl
        subst hin
        obtain ⟨rows, htab⟩ := hcut.texts
        obtain ⟨kk, jj, hfile⟩ := hcut.file
        obtain ⟨w, file, hw, hcrash⟩ := C09_crash_never_silently_wrong_partial st.lower c0.settings input0 rows hcut.nodup htab hcut.small hcut.count
        obtain ⟨t, ht, _⟩ := htab.modTime
        obtain ⟨w2, file2, w3, hw2, hw3, hsame⟩ := C08_reload_same_answers st.lower c0.settings input0 input0 rows hcut.nodup htab hcut.small hcut.count rfl rfl ⟨t, t, ht, ht, rfl⟩
        rw [hw] at hw2
        cases hw2
        rcases hcrash input0 kk jj rfl with ⟨e, he⟩ | ⟨w', hw', hans⟩
        · rw [hfile, he] at ho
          cases ho
        · rw [hfile, hw'] at ho
          cases ho
          rw [writeFile_same hfile, h.lower]
          have hsearch : ∀ inputName filters, SearchMayFail (w.getRecordPositions st.lower inputName filters) (w'.getRecordPositions st.lower inputName filters) := by
            intro inputName filters
            rcases hans inputName filters with e | ⟨e, he⟩ | ⟨it, n, e, e1, e2⟩
            · exact .inl e
            · exact .inr (.inl ⟨e, he⟩)
            · exact .inr (.inr ⟨it, n, e, e1, e2⟩)
          have htwin : Twin inputs l st (full.writeFile c0.path file) := by
            refine ⟨h.lower, h.sql, h.db, ?_⟩
            intro q
            simp only [Storage.writeFile]
            by_cases hq : q = c0.path
            · simp only [if_pos hq]
              exact .inr ⟨k, c0, input0, hm, hq.symm, hcut, .inr (by rw [hw])⟩
            · simp only [if_neg hq]
              exact h.file q
          rcases hfull with hnone | hsome
          · rw [hnone, hw]
            exact ⟨_, _, rfl, htwin, fun _ _ _ _ _ _ => hsearch _ _⟩
          · rw [hsome, hw]
            dsimp only
            rw [hw3]
            exact ⟨_, _, rfl, htwin, fun _ _ _ _ _ _ => by dsimp only; rw [hsame]; exact hsearch _ _⟩
  | sqlite c =>
    simp only [IndexDecl.openOn] at ho ⊢
    cases hi : findInput inputs c.input with
    | error e =>
      rw [hi] at ho
      cases ho
    | ok input =>
      rw [hi] at ho
      dsimp only at ho ⊢
      rw [h.sql, h.db]
      cases hn : newSqlite st.sql c input ⟨st.db c.dsn, none⟩ with
      | mk r s =>
        rw [hn] at ho
        cases r with
        | error e => cases ho
        | ok u =>
          cases ho
          exact ⟨_, _, rfl, h.writeDb _ _, fun st full e1 e2 input filters => by dsimp only; rw [e1, e2]; exact .inl rfl⟩
  | fts5 c =>
    simp only [IndexDecl.openOn] at ho ⊢
    cases hi : findInput inputs c.input with
    | error e =>
      rw [hi] at ho
      cases ho
    | ok input =>
      rw [hi] at ho
      dsimp only at ho ⊢
      rw [h.sql, h.db]
      cases hn : newFts5 st.sql c input ⟨st.db c.dsn, none⟩ with
      | mk r s =>
        rw [hn] at ho
        cases r with
        | error e => cases ho
        | ok u =>
          cases ho
          exact ⟨_, _, rfl, h.writeDb _ _, fun st full e1 e2 input filters => by dsimp only; rw [e1, e2]; exact .inl rfl⟩
  | map c =>
    simp only [IndexDecl.openOn] at ho ⊢
    cases hi : (IndexDecl.map c).instantiate lib inputs with
    | error e =>
      rw [hi] at ho
      cases ho
    | ok index =>
      rw [hi] at ho
      cases ho
      exact ⟨_, _, rfl, h, fun _ _ _ _ _ _ => .inl rfl⟩
  | noop c =>
    simp only [IndexDecl.openOn] at ho ⊢
    cases hi : (IndexDecl.noop c).instantiate lib inputs with
    | error e =>
      rw [hi] at ho
      cases ho
    | ok index =>
      rw [hi] at ho
      cases ho
      exact ⟨_, _, rfl, h, fun _ _ _ _ _ _ => .inl rfl⟩
end

/-! ### Maps whose values are related -/

/-- The same keys, with related values. -/
def MapRel {α β : Type} (R : α → β → Prop) : GoMap α → GoMap β → Prop
  | [], [] => True
  | (k, a) :: m, (k', b) :: m' => k = k' ∧ R a b ∧ MapRel R m m'
  | _, _ => False

theorem MapRel.get {α β : Type} {R : α → β → Prop} : ∀ {m : GoMap α} {m' : GoMap β}, MapRel R m m' → ∀ n, (mapGet m n = none ∧ mapGet m' n = none) ∨
    ∃ a b, mapGet m n = some a ∧ mapGet m' n = some b ∧ R a b
  | [], [], _, n => .inl ⟨rfl, rfl⟩
  | (k, a) :: m, (k', b) :: m', ⟨hk, hr, h⟩, n => by
    subst hk
    simp only [mapGet_eq_lookup, List.lookup_cons]
    by_cases hn : n = k
    · subst hn
      simp only [beq_self_eq_true]
      exact .inr ⟨a, b, rfl, rfl, hr⟩
    · simp only [beq_eq_false_iff_ne.2 hn, ← mapGet_eq_lookup]
      exact h.get n

theorem instantiateMap_rel {α β γ : Type} {R : β → γ → Prop} {f : α → Res β} {g : α → Res γ} (h : ∀ x y, f x = .ok y → ∃ z, g x = .ok z ∧ R y z) : ∀ {m : GoMap α} {r : GoMap β},
    instantiateMap f m = .ok r → ∃ r', instantiateMap g m = .ok r' ∧ MapRel R r r'
  | [], r, hr => by
    cases hr
    exact ⟨[], rfl, trivial⟩
  | (k, x) :: m, r, hr => by
    simp only [instantiateMap, bind, Except.bind] at hr ⊢
    cases hx : f x with
    | error e =>
      rw [hx] at hr
      cases hr
    | ok y =>
      rw [hx] at hr
      obtain ⟨z, hz, hyz⟩ := h x y hx
      dsimp only at hr
      cases hm : instantiateMap f m with
      | error e =>
        rw [hm] at hr
        cases hr
      | ok rest =>
        rw [hm] at hr
        cases hr
        obtain ⟨rest', h1, h2⟩ := instantiateMap_rel h hm
        rw [hz]
        dsimp only
        rw [h1]
        exact ⟨_, rfl, rfl, hyz, h2⟩

theorem openIndexes_twin {lib : StartLib} {inputs : GoMap Input} {l : GoMap IndexDecl} (hapart : ∀ a ∈ l, ApartFrom l a.2) : ∀ (m : GoMap IndexDecl) {st st' full : Storage} {fs : GoMap OpenIndex},
    (∀ a ∈ m, a ∈ l) → Twin inputs l st full → openIndexes lib inputs st m = (.ok fs, st') →
    ∃ gs full', openIndexes lib inputs full m = (.ok gs, full') ∧ Twin inputs l st' full' ∧ MapRel OpenTwin fs gs
  | [], st, st', full, fs, _, h, ho => by
    cases ho
    exact ⟨[], full, rfl, h, trivial⟩
  | (k, d) :: rest, st, st', full, fs, hm, h, ho => by
    simp only [openIndexes] at ho ⊢
    cases h1 : d.openOn lib inputs st with
    | mk r st1 =>
      rw [h1] at ho
      cases r with
      | error e => cases ho
      | ok f =>
        dsimp only at ho
        obtain ⟨g, full1, g1, htwin, hfg⟩ := openOn_twin h (hm _ List.mem_cons_self) (hapart _ (hm _ List.mem_cons_self)) h1
        rw [g1]
        dsimp only
        cases h2 : openIndexes lib inputs st1 rest with
        | mk r2 st2 =>
          rw [h2] at ho
          cases r2 with
          | error e => cases ho
          | ok fs2 =>
            cases ho
            obtain ⟨gs, full2, g2, htwin2, hgs⟩ := openIndexes_twin hapart rest (fun a ha => hm a (List.mem_cons_of_mem _ ha)) htwin h2
            rw [g2]
            exact ⟨_, _, rfl, htwin2, rfl, hfg, hgs⟩

/-! ### The outputs and services -/

/-- Two outputs that differ only in their answers. -/
structure ApiMayFail (api api' : OutputApi) : Prop where
  payloadType : api'.payloadType = api.payloadType
  responseType : api'.responseType = api.responseType
  hasParameter : api'.hasParameter = api.hasParameter
  parameterParser : api'.parameterParser = api.parameterParser
  handle : ∀ params payload, SameOrError (api.handle params payload) (api'.handle params payload)

theorem inputMayFail_refl (i : Option Input) : InputMayFail i i := by
  cases i with
  | none => trivial
  | some i => exact fun _ => .inl rfl

theorem mayFail_env {lib : StartLib} {inputs inputs' : GoMap Input} {indexes indexes' : GoMap IndexFn} {parsers : GoMap TextParser} {f f' : IndexFn}
    (hi : ∀ n, InputMayFail (mapGet inputs n) (mapGet inputs' n)) (hx : ∀ n, IndexMayFail inputs inputs' (mapGet indexes n) (mapGet indexes' n)) (hf : IndexMayFail inputs inputs' (some f) (some f')) :
    MayFail (outputEnv lib inputs indexes f parsers) (outputEnv lib inputs' indexes' f' parsers) where
  inputs := hi
  indexes := hx
  defaultIndex := hf
  parsers := rfl
  sort := rfl
  visit _ _ _ := rfl

section
variable {inputs inputs' : GoMap Input} (h : ∀ n, (mapGet inputs' n).isSome = (mapGet inputs n).isSome)
include h

mutual
theorem checkRelationship_same : ∀ r, checkRelationship inputs' r = checkRelationship inputs r
  | .mk _ _ _ _ _ relationships => by
    simp only [checkRelationship]
    exact checkNested_same relationships
theorem checkNested_same : ∀ l, checkNested inputs' l = checkNested inputs l
  | [] => by simp only [checkNested]
  | (_, .mk inputName isArray limit sort matching relationships) :: rest => by
    simp only [checkNested, h, checkNested_same rest, checkRelationship_same (.mk inputName isArray limit sort matching relationships)]
end

theorem checkRelationships_same : ∀ l, checkRelationships inputs' l = checkRelationships inputs l
  | [] => rfl
  | (_, r) :: rest => by
    simp only [checkRelationships, checkRelationship_same h r, checkRelationships_same rest]
end

theorem Spec.InputMayFail.isSome {i i' : Option Input} (h : InputMayFail i i') : i'.isSome = i.isSome := by
  cases i <;> cases i' <;> first | rfl | exact h.elim

theorem output_fails {lib : StartLib} {inputs inputs' : GoMap Input} {indexes indexes' : GoMap IndexFn} {parsers : GoMap TextParser}
    (hi : ∀ n, InputMayFail (mapGet inputs n) (mapGet inputs' n)) (hx : ∀ n, IndexMayFail inputs inputs' (mapGet indexes n) (mapGet indexes' n)) (o : OutputDecl) {api' : OutputApi}
    (h : o.instantiate lib inputs' indexes' parsers = .ok api') : ∃ api, o.instantiate lib inputs indexes parsers = .ok api ∧ ApiMayFail api api' := by
  have hsome : ∀ n, (mapGet inputs' n).isSome = (mapGet inputs n).isSome := fun n => (hi n).isSome
  unfold OutputDecl.instantiate at h ⊢
  rcases (hx "default").cases with ⟨e1, e2⟩ | ⟨f, f', e1, e2, hf⟩
  · simp only [e2] at h
    cases h
  · simp only [e1]
    simp only [e2, hsome, checkRelationships_same hsome] at h
    have henv := mayFail_env (lib := lib) (parsers := parsers) hi hx (f := f) (f' := f') hf
    cases o with
    | graphql n => cases h
    | array n c =>
      simp only [bind, Except.bind] at h ⊢
      cases h1 : require (mapGet inputs c.input).isSome "Input not found in inputs list." with
      | error e =>
        rw [h1] at h
        cases h
      | ok u =>
        rw [h1] at h
        dsimp only at h ⊢
        cases h2 : checkRelationships inputs c.relationships with
        | error e =>
          rw [h2] at h
          cases h
        | ok u =>
          rw [h2] at h
          cases h
          exact ⟨_, rfl, rfl, rfl, rfl, rfl, fun params _ => handleArray_fails henv c params⟩
    | object n c =>
      simp only [bind, Except.bind] at h ⊢
      cases h0 : require (c.parameters.all (fun p => (mapGet parsers p.2.parser).isSome)) "Parser does not exist" with
      | error e =>
        rw [h0] at h
        cases h
      | ok u =>
        rw [h0] at h
        dsimp only at h ⊢
        cases h1 : require (mapGet inputs c.input).isSome "There is no such input" with
        | error e =>
          rw [h1] at h
          cases h
        | ok u =>
          rw [h1] at h
          dsimp only at h ⊢
          cases h2 : checkRelationships inputs c.relationships with
          | error e =>
            rw [h2] at h
            cases h
          | ok u =>
            rw [h2] at h
            cases h
            exact ⟨_, rfl, rfl, rfl, rfl, rfl, fun params _ => handleObject_fails henv c params⟩

theorem ApiMayFail.pattern {api api' : OutputApi} (h : ApiMayFail api api') : ∀ placeholders, pathPattern api' placeholders = pathPattern api placeholders
  | [] => rfl
  | (name, text) :: rest => by
    simp only [pathPattern, h.parameterParser, h.pattern rest]

theorem routes_fail {outputs outputs' : GoMap OutputApi} (h : ∀ n, (mapGet outputs n = none ∧ mapGet outputs' n = none) ∨
    ∃ a b, mapGet outputs n = some a ∧ mapGet outputs' n = some b ∧ ApiMayFail a b) : ∀ (l : List (String × List Char)) {routes' : List Route}, createRoutes outputs' l = .ok routes' →
    ∃ routes, createRoutes outputs l = .ok routes ∧ RoutesMayFail routes routes'
  | [], routes', hr => by
    cases hr
    exact ⟨[], rfl, trivial⟩
  | (output, path) :: rest, routes', hr => by
    simp only [createRoutes, createRoute] at hr ⊢
    rcases h output with ⟨e1, e2⟩ | ⟨a, b, e1, e2, hab⟩
    · simp only [e2] at hr
      cases hr
    · simp only [e1]
      simp only [e2] at hr
      have hre : createPathRegexp path b = createPathRegexp path a := by
        unfold createPathRegexp
        simp only [hab.pattern]
      rw [hre, hab.hasParameter] at hr
      cases hp : createPathRegexp path a with
      | error e =>
        rw [hp] at hr
        cases hr
      | ok x =>
        obtain ⟨regexp, parameters⟩ := x
        rw [hp] at hr
        dsimp only at hr ⊢
        by_cases hall : parameters.all a.hasParameter = true
        · simp only [if_pos hall] at hr ⊢
          cases hrest : createRoutes outputs' rest with
          | error e =>
            rw [hrest] at hr
            cases hr
          | ok routes2 =>
            rw [hrest] at hr
            cases hr
            obtain ⟨routes, g1, g2⟩ := routes_fail h rest hrest
            rw [g1]
            exact ⟨_, rfl, ⟨rfl, rfl, rfl, hab.payloadType, hab.responseType, hab.handle⟩, g2⟩
        · simp only [if_neg hall] at hr
          cases hr

theorem service_fails {lib : StartLib} {outputs outputs' : GoMap OutputApi} (h : ∀ n, (mapGet outputs n = none ∧ mapGet outputs' n = none) ∨
    ∃ a b, mapGet outputs n = some a ∧ mapGet outputs' n = some b ∧ ApiMayFail a b) (s : ServiceDecl) {y : String × List Route} (hy : s.instantiate lib outputs' = .ok y) :
    ∃ z, s.instantiate lib outputs = .ok z ∧ y.1 = z.1 ∧ RoutesMayFail z.2 y.2 := by
  simp only [ServiceDecl.instantiate, bind, Except.bind] at hy ⊢
  cases hr : createRoutes outputs' (s.routes.map (fun r => (r.output, r.path.toList))) with
  | error e =>
    rw [hr] at hy
    cases hy
  | ok routes' =>
    rw [hr] at hy
    obtain ⟨routes, g1, g2⟩ := routes_fail h _ hr
    rw [g1]
    dsimp only at hy ⊢
    cases hl : lib.listen s with
    | error e =>
      rw [hl] at hy
      cases hy
    | ok u =>
      rw [hl] at hy
      cases hy
      exact ⟨_, rfl, rfl, g2⟩

theorem answersRightOr500_of {service : ServiceLib} {running right : GoMap (String × List Route)} (h : MapRel (fun y z => y.1 = z.1 ∧ RoutesMayFail z.2 y.2) running right) :
    AnswersRightOr500 service right running := by
  intro name
  rcases h.get name with ⟨e1, e2⟩ | ⟨⟨t, routes'⟩, ⟨t', routes⟩, e1, e2, e3, hr⟩
  · exact .inl ⟨e2, e1⟩
  · dsimp only at e3
    subst e3
    exact .inr ⟨_, _, _, e2, e1, fun old visit method contentType target body => serveTarget_fails hr old visit method contentType target body⟩

/-- A start on the machine, and on the other one. -/
theorem startOn_twin {lib : StartLib} {st st' full : Storage} {c : Config} {texts : GoMap TextParser} {inputs : GoMap Input} (h1 : instantiateMap (ParserDecl.instantiate lib) c.parsers = .ok texts)
    (h2 : instantiateMap (InputDecl.instantiate lib texts) c.inputs = .ok inputs) (hapart : ∀ a ∈ c.indexes, ApartFrom c.indexes a.2) (htwin : Twin inputs c.indexes st full)
    {running : GoMap (String × List Route)} (hs : startOn lib st c = (.ok running, st')) :
    ∃ right full', startOn lib full c = (.ok right, full') ∧ MapRel (fun y z => y.1 = z.1 ∧ RoutesMayFail z.2 y.2) running right := by
  have e : (do
    let parsers ← instantiateMap (ParserDecl.instantiate lib) c.parsers
    let inputs ← instantiateMap (InputDecl.instantiate lib parsers) c.inputs
    .ok (parsers, inputs) : Res (GoMap TextParser × GoMap Input)) = .ok (texts, inputs) := by
    rw [h1]
    simp only [bind, Except.bind, h2]
  unfold startOn at hs ⊢
  rw [e] at hs ⊢
  dsimp only at hs ⊢
  cases ho : openIndexes lib inputs st c.indexes with
  | mk r st1 =>
    rw [ho] at hs
    cases r with
    | error e => cases hs
    | ok fs =>
      dsimp only at hs
      obtain ⟨gs, full', g1, htwin', hrel⟩ := openIndexes_twin hapart c.indexes (fun a ha => ha) htwin ho
      rw [g1]
      dsimp only
      have hx : ∀ n, IndexMayFail inputs inputs (mapGet (gs.map (fun x => (x.1, x.2 full'))) n) (mapGet (fs.map (fun x => (x.1, x.2 st1))) n) := by
        intro n
        rw [mapGet_mapValues (fun f : OpenIndex => f full') gs n, mapGet_mapValues (fun f : OpenIndex => f st1) fs n]
        rcases hrel.get n with ⟨e1, e2⟩ | ⟨f, g, e1, e2, hfg⟩
        · rw [e1, e2]
          trivial
        · rw [e1, e2]
          intro m input input' hi hi' filters
          rw [hi] at hi'
          cases hi'
          exact hfg st1 full' htwin'.sql htwin'.db input filters
      have hs1 := congrArg Prod.fst hs
      simp only [bind, Except.bind] at hs1 ⊢
      cases hout : instantiateMap (OutputDecl.instantiate lib inputs (fs.map (fun x => (x.1, x.2 st1))) texts) c.outputs with
      | error e =>
        rw [hout] at hs1
        cases hs1
      | ok outputs =>
        rw [hout] at hs1
        dsimp only at hs1
        obtain ⟨outputs', g2, hrel2⟩ := instantiateMap_rel (R := fun y z => ApiMayFail z y) (fun o api' h => output_fails (fun n => inputMayFail_refl _) hx o h) hout
        rw [g2]
        dsimp only
        obtain ⟨right, g3, hrel3⟩ := instantiateMap_rel (R := fun (y z : String × List Route) => y.1 = z.1 ∧ RoutesMayFail z.2 y.2) (g := ServiceDecl.instantiate lib outputs')
          (fun s y hy => service_fails (fun n => by
            rcases hrel2.get n with ⟨a, b⟩ | ⟨a, b, e1, e2, hab⟩
            · exact .inl ⟨b, a⟩
            · exact .inr ⟨b, a, e2, e1, hab⟩) s hy) hs1
        rw [g3]
        exact ⟨_, _, rfl, hrel3⟩

/-- The other machine: the files that were cut are gone. -/
theorem twin_exists {inputs : GoMap Input} {l : GoMap IndexDecl} {st : Storage} :
    ∃ full, Twin inputs l st full ∧ ((∀ a ∈ l, DiskShort inputs st a.2) → ∀ a ∈ l, DiskOk inputs full a.2) := by
  classical
  refine ⟨{ st with file := fun path => if ∃ k c input, (k, IndexDecl.wildcard c) ∈ l ∧ c.path = path ∧ CutShort inputs st c input then none else st.file path }, ⟨rfl, rfl, rfl, ?_⟩, ?_⟩
  · intro path
    by_cases hp : ∃ k c input, (k, IndexDecl.wildcard c) ∈ l ∧ c.path = path ∧ CutShort inputs st c input
    · obtain ⟨k, c, input, h1, h2, h3⟩ := hp
      refine .inr ⟨k, c, input, h1, h2, h3, .inl ?_⟩
      exact if_pos ⟨k, c, input, h1, h2, h3⟩
    · exact .inl (if_neg hp)
  · intro h a ha input hi
    rcases h a ha with hd | ⟨c, input', hc, hcut⟩
    · have hde := hd input hi
      refine ⟨?_, fun x dsn hx => ?_⟩
      · intro c hc
        obtain ⟨hn, records, hw⟩ := hde.wildcard c hc
        refine ⟨hn, records, hw.texts, hw.small, hw.count, ?_⟩
        dsimp only
        split
        · exact .inl rfl
        · exact hw.file
      · obtain ⟨hs, hacc⟩ := hde.stored x dsn hx
        exact ⟨⟨hs.name, hs.properties, hs.tokenize, hs.database⟩, hacc⟩
    · obtain ⟨k, d⟩ := a
      dsimp only at hc
      subst hc
      have hin : input' = input := by
        have := hcut.input
        rw [show findInput inputs c.input = .ok input from hi] at this
        cases this
        rfl
      subst hin
      refine ⟨?_, fun x dsn hx => (by cases hx)⟩
      intro c' hc'
      cases hc'
      obtain ⟨rows, htab⟩ := hcut.texts
      refine ⟨hcut.nodup, _, ⟨rows, htab, rfl⟩, hcut.small, hcut.count, .inl ?_⟩
      exact if_pos ⟨k, c, input', ha, rfl, hcut⟩

end Rodb
