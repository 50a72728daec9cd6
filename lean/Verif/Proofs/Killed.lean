import Verif.Proofs.RestartOrder
import Verif.Proofs.WildcardFail
import Verif.Proofs.WildcardOther
/-
  Starts of the program that are killed.
-/
namespace Rodb
open Rodb.Spec

/-- A start gets to its indexes or changes nothing. -/
theorem startOn_cases (lib : StartLib) (st : Storage) (c : Config) :
    (∃ e, startOn lib st c = (.error e, st)) ∨ ∃ texts inputs, instantiateMap (ParserDecl.instantiate lib) c.parsers = .ok texts ∧
      instantiateMap (InputDecl.instantiate lib texts) c.inputs = .ok inputs ∧ (startOn lib st c).2 = (openIndexes lib inputs st c.indexes).2 ∧
      ∀ running, (startOn lib st c).1 = .ok running → ∃ fs, (openIndexes lib inputs st c.indexes).1 = .ok fs := by
  cases h1 : instantiateMap (ParserDecl.instantiate lib) c.parsers with
  | error e =>
    refine .inl ⟨e, ?_⟩
    simp only [startOn, h1, bind, Except.bind]
  | ok texts =>
    cases h2 : instantiateMap (InputDecl.instantiate lib texts) c.inputs with
    | error e =>
      refine .inl ⟨e, ?_⟩
      simp only [startOn, h1, h2, bind, Except.bind]
    | ok inputs =>
      obtain ⟨s1, s2⟩ := startOn_inputs (st := st) h1 h2
      exact .inr ⟨texts, inputs, rfl, h2, s1, s2⟩

theorem apart_reordered {c c' : Config} (hre : Reordered c c') (h : ∀ a ∈ c.indexes, ApartFrom c.indexes a.2) : ∀ a ∈ c'.indexes, ApartFrom c'.indexes a.2 :=
  fun a ha b hb => h a (hre.indexes.symm.subset ha) b (hre.indexes.symm.subset hb)

/-! ### What a start does to the machine -/

/-- Some of the indexes are opened, one after the other. -/
inductive Steps (inputs : GoMap Input) (l : GoMap IndexDecl) : Storage → Storage → Prop
  | refl (st : Storage) : Steps inputs l st st
  | step {a : String × IndexDecl} {st st1 st2 : Storage} (ha : a ∈ l) (h : OpenEffect inputs st a.2 st1) (rest : Steps inputs l st1 st2) : Steps inputs l st st2

/-- The machine after the process has died while it wrote the file of a wildcard index. -/
structure CutAt (inputs : GoMap Input) (l : GoMap IndexDecl) (st st' : Storage) (c : WildcardDecl) (i : Input) (content : Bytes) : Prop where
  index : ∃ k, (k, IndexDecl.wildcard c) ∈ l
  input : findInput inputs c.input = .ok i
  absent : st.file c.path = none
  left : st' = st.writeFile c.path content
  part : ∃ writes bytes, content = crashFile (createIndex st.lower c.settings i (Stream.new [] 0 c.settings.bufferSize)).2.log writes bytes

section
variable {lib : StartLib} {inputs : GoMap Input} {l l' : GoMap IndexDecl} {st st1 st' : Storage}

theorem Steps.mono (hl : ∀ a ∈ l, a ∈ l') (h : Steps inputs l st st') : Steps inputs l' st st' := by
  induction h with
  | refl st => exact .refl st
  | step ha h _ ih => exact .step (hl _ ha) h ih

theorem Steps.trans (h : Steps inputs l st st1) (h' : Steps inputs l st1 st') : Steps inputs l st st' := by
  induction h with
  | refl st => exact h'
  | step ha h _ ih => exact .step ha h (ih h')

theorem Steps.same (h : Steps inputs l st st') : st'.lower = st.lower ∧ st'.sql = st.sql := by
  induction h with
  | refl st => exact ⟨rfl, rfl⟩
  | step _ h _ ih => exact ⟨ih.1.trans h.same.1, ih.2.trans h.same.2⟩

theorem openIndexes_steps : ∀ (l : GoMap IndexDecl) (st : Storage), Steps inputs l st (openIndexes lib inputs st l).2
  | [], st => .refl st
  | (k, d) :: rest, st => by
    have heff := openOn_effect (lib := lib) (inputs := inputs) (st := st) d
    cases ho : d.openOn lib inputs st with
    | mk r st1 =>
      rw [ho] at heff
      dsimp only at heff
      have hrest := (openIndexes_steps rest st1).mono (l' := (k, d) :: rest) (fun a ha => List.mem_cons_of_mem _ ha)
      cases r with
      | error e =>
        simp only [openIndexes, ho]
        exact .step (a := (k, d)) List.mem_cons_self heff (.refl _)
      | ok f =>
        cases hr : openIndexes lib inputs st1 rest with
        | mk r2 st2 =>
          rw [hr] at hrest
          cases r2 <;> (simp only [openIndexes, ho, hr]; exact .step (a := (k, d)) List.mem_cons_self heff hrest)

/-- A file is only written if it does not exist. -/
theorem OpenEffect.file_kept {d : IndexDecl} {path : String} {content : Bytes} (h : OpenEffect inputs st d st') (hf : st.file path = some content) : st'.file path = some content := by
  cases h with
  | none => exact hf
  | table _ _ => exact hf
  | @file b input hd _ =>
    simp only [Storage.writeFile]
    by_cases hp : path = b.path
    · rw [if_pos hp]
      subst hp
      rw [hf, newWildcard_readOnly]
    · rw [if_neg hp]
      exact hf

theorem Steps.file_kept {path : String} {content : Bytes} (h : Steps inputs l st st') (hf : st.file path = some content) : st'.file path = some content := by
  induction h with
  | refl st => exact hf
  | step ha h _ ih => exact ih (h.file_kept hf)

/-- Opening an index in a process that dies. -/
theorem openKilled_effect (d : IndexDecl) (writes bytes : Nat) : OpenEffect inputs st d (d.openKilled inputs st writes bytes) ∨
    ∃ c input, d = .wildcard c ∧ findInput inputs c.input = .ok input ∧ st.file c.path = none ∧
      d.openKilled inputs st writes bytes = st.writeFile c.path (crashFile (createIndex st.lower c.settings input (Stream.new [] 0 c.settings.bufferSize)).2.log writes bytes) := by
  cases d with
  | wildcard c =>
    simp only [IndexDecl.openKilled]
    cases hi : findInput inputs c.input with
    | error e => exact .inl .none
    | ok input =>
      cases hf : st.file c.path with
      | some f => exact .inl .none
      | none => exact .inr ⟨c, input, rfl, hi, hf, rfl⟩
  | sqlite c =>
    simp only [IndexDecl.openKilled]
    cases hi : findInput inputs c.input with
    | error e => exact .inl .none
    | ok input =>
      left
      dsimp only
      rw [← start_sqlite]
      exact .table (d := .sqlite c) rfl hi
  | fts5 c =>
    simp only [IndexDecl.openKilled]
    cases hi : findInput inputs c.input with
    | error e => exact .inl .none
    | ok input =>
      left
      dsimp only
      rw [← start_fts5]
      exact .table (d := .fts5 c) rfl hi
  | map c => exact .inl .none
  | noop c => exact .inl .none

/-- All the indexes in a process that dies: some are opened, and the file of the next one may be cut; a process that does not die would have left the whole file. -/
theorem openIndexesKilled_effect {writes bytes : Nat} : ∀ (n : Nat) (l : GoMap IndexDecl) (st : Storage),
    Steps inputs l st (openIndexesKilled lib inputs writes bytes n st l) ∨
    ∃ st1 c input content, Steps inputs l st st1 ∧ CutAt inputs l st1 (openIndexesKilled lib inputs writes bytes n st l) c input content ∧
      (openIndexes lib inputs st l).2.file c.path = some (newWildcard st1.lower c.settings input none).2
  | n, [], st => by
    left
    cases n <;> exact .refl st
  | 0, (k, d) :: rest, st => by
    rcases openKilled_effect (inputs := inputs) (st := st) d writes bytes with h | ⟨c, input, rfl, hi, hf, h⟩
    · exact .inl (.step (a := (k, d)) List.mem_cons_self h (.refl _))
    · refine .inr ⟨st, c, input, _, .refl _, ⟨⟨k, List.mem_cons_self⟩, hi, hf, h, writes, bytes, rfl⟩, ?_⟩
      have hone : ((IndexDecl.wildcard c).openOn lib inputs st).2.file c.path = some (newWildcard st.lower c.settings input none).2 := by
        rw [(openOn_wildcard (lib := lib) (st := st) hi).1, hf]
        simp only [Storage.writeFile, if_true]
      cases ho : (IndexDecl.wildcard c).openOn lib inputs st with
      | mk r st1 =>
        rw [ho] at hone
        cases r with
        | error e =>
          simp only [openIndexes, ho]
          exact hone
        | ok f =>
          have hrest := (openIndexes_steps (lib := lib) (inputs := inputs) rest st1).file_kept hone
          cases hr : openIndexes lib inputs st1 rest with
          | mk r2 st2 =>
            rw [hr] at hrest
            cases r2 <;> (simp only [openIndexes, ho, hr]; exact hrest)
  | n + 1, (k, d) :: rest, st => by
    have heff := openOn_effect (lib := lib) (inputs := inputs) (st := st) d
    cases ho : d.openOn lib inputs st with
    | mk r st1 =>
      rw [ho] at heff
      dsimp only at heff
      cases r with
      | error e =>
        simp only [openIndexesKilled, ho]
        exact .inl (.step (a := (k, d)) List.mem_cons_self heff (.refl _))
      | ok f =>
        simp only [openIndexesKilled, ho]
        rcases openIndexesKilled_effect n rest st1 with h | ⟨st2, c, input, content, h1, h2, h3⟩
        · exact .inl (.step (a := (k, d)) List.mem_cons_self heff (h.mono (fun a ha => List.mem_cons_of_mem _ ha)))
        · refine .inr ⟨st2, c, input, content, .step (a := (k, d)) List.mem_cons_self heff (h1.mono (fun a ha => List.mem_cons_of_mem _ ha)), ⟨?_, h2.input, h2.absent, h2.left, h2.part⟩, ?_⟩
          · obtain ⟨k', hk⟩ := h2.index
            exact ⟨k', List.mem_cons_of_mem _ hk⟩
          · cases hr : openIndexes lib inputs st1 rest with
            | mk r2 st3 =>
              rw [hr] at h3
              cases r2 <;> (simp only [openIndexes, ho, hr]; exact h3)
end

/-- A start of the program. -/
theorem Run.effect (lib : StartLib) (st : Storage) (r : Run) :
    r.leaves lib st = st ∨ ∃ texts inputs, instantiateMap (ParserDecl.instantiate (lib.onFiles r.files)) r.config.parsers = .ok texts ∧
      instantiateMap (InputDecl.instantiate (lib.onFiles r.files) texts) r.config.inputs = .ok inputs ∧
      (Steps inputs r.config.indexes st (r.leaves lib st) ∨ ∃ st1 c input content, Steps inputs r.config.indexes st st1 ∧ CutAt inputs r.config.indexes st1 (r.leaves lib st) c input content ∧
        (Run.leaves lib st { r with death := none }).file c.path = some (newWildcard st1.lower c.settings input none).2) := by
  rcases startOn_cases (lib.onFiles r.files) st r.config with ⟨e, he⟩ | ⟨texts, inputs, h1, h2, h3, _⟩
  · cases hd : r.death with
    | none =>
      left
      simp only [Run.leaves, hd, he]
    | some death =>
      cases h1 : instantiateMap (ParserDecl.instantiate (lib.onFiles r.files)) r.config.parsers with
      | error e =>
        left
        simp only [Run.leaves, hd, startKilled, h1, bind, Except.bind]
      | ok texts =>
        cases h2 : instantiateMap (InputDecl.instantiate (lib.onFiles r.files) texts) r.config.inputs with
        | error e =>
          left
          simp only [Run.leaves, hd, startKilled, h1, h2, bind, Except.bind]
        | ok inputs =>
          refine .inr ⟨texts, inputs, rfl, h2, ?_⟩
          simp only [Run.leaves, hd, startKilled, h1, h2, bind, Except.bind, (startOn_inputs (st := st) h1 h2).1]
          exact openIndexesKilled_effect _ _ _
  · refine .inr ⟨texts, inputs, h1, h2, ?_⟩
    cases hd : r.death with
    | none =>
      left
      simp only [Run.leaves, hd, h3]
      exact openIndexes_steps _ _
    | some death =>
      simp only [Run.leaves, hd, startKilled, h1, h2, bind, Except.bind, h3]
      exact openIndexesKilled_effect _ _ _

/-- A process that dies in a database leaves only files that a process that does not die leaves too. -/
theorem openIndexesKilled_files {lib : StartLib} {inputs : GoMap Input} {writes bytes : Nat} {path : String} {content : Bytes} : ∀ (n : Nat) (l : GoMap IndexDecl) (st : Storage),
    (∀ k c, l[n]? ≠ some (k, .wildcard c)) → (openIndexesKilled lib inputs writes bytes n st l).file path = some content → (openIndexes lib inputs st l).2.file path = some content
  | 0, [], st, _, h => h
  | n + 1, [], st, _, h => h
  | 0, (k, d) :: rest, st, hn, h => by
    refine (openIndexes_steps ((k, d) :: rest) st).file_kept ?_
    rcases openKilled_effect (inputs := inputs) (st := st) d writes bytes with he | ⟨c, input, rfl, _⟩
    · simp only [openIndexesKilled] at h
      cases d with
      | wildcard c => exact absurd rfl (hn k c)
      | map c => exact h
      | noop c => exact h
      | sqlite c =>
        simp only [IndexDecl.openKilled] at h
        split at h <;> exact h
      | fts5 c =>
        simp only [IndexDecl.openKilled] at h
        split at h <;> exact h
    · exact absurd rfl (hn k c)
  | n + 1, (k, d) :: rest, st, hn, h => by
    cases ho : d.openOn lib inputs st with
    | mk r st1 =>
      cases r with
      | error e =>
        simp only [openIndexesKilled, ho] at h
        simp only [openIndexes, ho]
        exact h
      | ok f =>
        simp only [openIndexesKilled, ho] at h
        have hrest := openIndexesKilled_files n rest st1 (fun k c => by simpa using hn k c) h
        cases hr : openIndexes lib inputs st1 rest with
        | mk r2 st2 =>
          rw [hr] at hrest
          cases r2 <;> (simp only [openIndexes, ho, hr]; exact hrest)

/-- A start that is killed, but not while it writes the file of a wildcard index. -/
theorem Run.files_left {lib : StartLib} {st : Storage} {r : Run} (h : ∀ death, r.death = some death → ∀ k c, r.config.indexes[death.index]? ≠ some (k, .wildcard c)) {path : String} {content : Bytes}
    (hf : (r.leaves lib st).file path = some content) : (Run.leaves lib st { r with death := none }).file path = some content := by
  cases hd : r.death with
  | none =>
    simp only [Run.leaves, hd] at hf ⊢
    exact hf
  | some death =>
    simp only [Run.leaves, hd, startKilled] at hf ⊢
    cases h1 : instantiateMap (ParserDecl.instantiate (lib.onFiles r.files)) r.config.parsers with
    | error e =>
      simp only [h1, startOn, bind, Except.bind] at hf ⊢
      exact hf
    | ok texts =>
      cases h2 : instantiateMap (InputDecl.instantiate (lib.onFiles r.files) texts) r.config.inputs with
      | error e =>
        simp only [h1, h2, startOn, bind, Except.bind] at hf ⊢
        exact hf
      | ok inputs =>
        simp only [h1, h2, bind, Except.bind] at hf
        rw [(startOn_inputs (st := st) h1 h2).1]
        exact openIndexesKilled_files _ _ _ (h death hd) hf

theorem noneInGap_of {lib : StartLib} : ∀ {runs : List Run} {st : Storage}, (∀ r ∈ runs, ∀ death, r.death = some death → ∀ k c, r.config.indexes[death.index]? ≠ some (k, .wildcard c)) →
    NoneInGap lib st runs
  | [], _, _ => trivial
  | r :: _, _, h => ⟨fun _ _ hf _ => Run.files_left (h r List.mem_cons_self) hf, noneInGap_of (fun r' hr => h r' (List.mem_cons_of_mem _ hr))⟩

/-! ### The disk as the indexes need it -/

/-- The inputs of an earlier start: those that have the size and the second of the inputs of today have their records. -/
structure EarlierInputs (inputs inputs' : GoMap Input) (lower : Bytes → Bytes) (l : GoMap IndexDecl) : Prop where
  found : ∀ n input', findInput inputs' n = .ok input' → ∃ input, findInput inputs n = .ok input ∧ (SameStat input' input → input'.scan = input.scan)
  fits : ∀ a ∈ l, ∀ c, a.2 = .wildcard c → ∀ input', findInput inputs' c.input = .ok input' → WildcardFits lower c.settings input'

/-- The file of the wildcard index is refused: it was cut, or made for another input. -/
structure FileRefused (inputs : GoMap Input) (st : Storage) (c : WildcardDecl) (content : Bytes) (i : Input) : Prop where
  file : st.file c.path = some content
  input : findInput inputs c.input = .ok i
  refused : ∀ w, (newWildcard st.lower c.settings i (some content)).1 ≠ .ok w

/-- The disk is as the index needs it, or its file is refused. -/
def DiskKept (inputs : GoMap Input) (st : Storage) (d : IndexDecl) : Prop := DiskOk inputs st d ∨ ∃ c content input, d = .wildcard c ∧ FileRefused inputs st c content input

section
variable {lib : StartLib} {inputs inputs' : GoMap Input} {l : GoMap IndexDecl} {st st1 st' : Storage} {d e : IndexDecl}

theorem FileRefused.congr {c : WildcardDecl} {content : Bytes} {input : Input} (h : FileRefused inputs st c content input) (hl : st'.lower = st.lower)
    (hf : st.file c.path = some content → st'.file c.path = some content) : FileRefused inputs st' c content input :=
  ⟨hf h.file, h.input, by rw [hl]; exact h.refused⟩

/-- Writing a file that did not exist. -/
theorem diskOk_writeFile {c : WildcardDecl} {content : Bytes} (he : DiskOk inputs st e) (hc : ∀ b, e = .wildcard b → c.path ≠ b.path) : DiskOk inputs (st.writeFile c.path content) e := by
  intro input hi
  have hde := he input hi
  refine ⟨?_, fun x dsn hx => ⟨(hde.stored x dsn hx).1.writeFile _ _, (hde.stored x dsn hx).2⟩⟩
  intro b hb
  obtain ⟨hn, records, hw⟩ := hde.wildcard b hb
  exact ⟨hn, records, hw.writeFile (d' := c) (fun hp => absurd hp (hc b hb))⟩

/-- An earlier start opens an index. -/
theorem OpenEffect.kept (hE : EarlierInputs inputs inputs' st.lower l) {a : String × IndexDecl} (ha : a ∈ l) (h : OpenEffect inputs' st a.2 st') (hd : DiskKept inputs st a.2)
    (he : DiskKept inputs st e) (hc : a.2 = e ∨ KeptApart a.2 e) : DiskKept inputs st' e := by
  rcases he with he | ⟨c, content, input, rfl, hr⟩
  · cases h with
    | none => exact .inl he
    | @file c input' hdc hi' =>
      cases hf : st.file c.path with
      | some content =>
        rw [newWildcard_readOnly, writeFile_same hf]
        exact .inl he
      | none =>
        rcases hc with hce | hap
        · rw [hdc] at hce
          subst hce
          obtain ⟨input, hi, hsame⟩ := hE.found _ _ hi'
          obtain ⟨hn, records, hw⟩ := (he input hi).wildcard c rfl
          rcases newWildcard_other (lower := st.lower) (cfg := c.settings) hn (hE.fits a ha c hdc _ hi') hsame with hq | hq
          · left
            intro input2 hi2
            have hi2' : findInput inputs c.input = .ok input2 := hi2
            rw [hi] at hi2'
            cases hi2'
            refine ⟨?_, fun _ _ hx => (by cases hx)⟩
            rintro b hb
            cases hb
            exact ⟨hn, records, hw.writeFile (d' := c) (fun _ => hq)⟩
          · exact .inr ⟨c, _, input, rfl, by simp only [Storage.writeFile, if_true], hi, hq⟩
        · exact .inl (diskOk_writeFile he (fun b hb => hap.files _ _ hdc hb))
    | @table x dsn input' writes hx hi' =>
      left
      intro input hi
      have hde := he input hi
      refine ⟨fun b hb => ⟨(hde.wildcard b hb).1, ?_⟩, ?_⟩
      · obtain ⟨_, records, hw⟩ := hde.wildcard b hb
        exact ⟨records, hw.writeDb _ _⟩
      · intro y dsn' hy
        obtain ⟨h1, h2⟩ := hde.stored y dsn' hy
        obtain ⟨inputd, hid, hsame⟩ := hE.found _ _ hi'
        have hacc : x.Accepted := by
          rcases hd with hd | ⟨c, _, _, hcd, _⟩
          · exact ((hd inputd hid).stored x dsn hx).2
          · rw [hcd] at hx
            cases hx
        refine ⟨h1.write hacc ?_, h2⟩
        intro hdsn hn
        rcases hc with hce | hap
        · rw [hce] at hx hid
          rw [hx] at hy
          cases hy
          rw [hi] at hid
          cases hid
          exact ⟨rfl, hsame⟩
        · have := hap.tables _ _ hx hy hdsn
          rw [hn] at this
          cases this
  · exact .inr ⟨c, content, input, rfl, hr.congr h.same.1 (fun hf => h.file_kept hf)⟩

theorem Steps.kept {lower : Bytes → Bytes} (h : Steps inputs' l st st') (hl : st.lower = lower) (hE : EarlierInputs inputs inputs' lower l) (hapart : ∀ a ∈ l, ApartFrom l a.2)
    (hd : ∀ a ∈ l, DiskKept inputs st a.2) : ∀ a ∈ l, DiskKept inputs st' a.2 := by
  induction h with
  | refl st => exact hd
  | step ha h _ ih => exact ih (h.same.1.trans hl) (fun b hb => h.kept (hl ▸ hE) ha (hd _ ha) (hd b hb) (hapart b hb _ ha))

theorem CutAt.kept {c : WildcardDecl} {input input' : Input} {content : Bytes} (h : CutAt inputs' l st st' c input' content) (hi : findInput inputs c.input = .ok input)
    (h0 : ∀ w, (newWildcard st.lower c.settings input (some content)).1 ≠ .ok w) (hapart : ∀ a ∈ l, ApartFrom l a.2) (hl : ∀ a ∈ l, DiskKept inputs st a.2) : ∀ a ∈ l, DiskKept inputs st' a.2 := by
  intro a ha
  obtain ⟨k, hk⟩ := h.index
  rw [h.left]
  rcases hapart a ha _ hk with e | hap
  · dsimp only at e
    rw [← e]
    exact .inr ⟨c, content, input, rfl, by simp only [Storage.writeFile, if_true], hi, h0⟩
  · rcases hl a ha with hd | ⟨b, old, inputb, hb, hr⟩
    · exact .inl (diskOk_writeFile hd (fun b hb => hap.files _ _ rfl hb))
    · refine .inr ⟨b, old, inputb, hb, hr.congr rfl (fun hf => ?_)⟩
      simp only [Storage.writeFile]
      rw [if_neg (fun e => hap.files _ _ rfl hb e.symm)]
      exact hf

/-- If the file of an index is refused, the program does not start. -/
theorem openIndexes_cut : ∀ (l : GoMap IndexDecl) (st : Storage), (∃ a ∈ l, ∃ c content input, a.2 = .wildcard c ∧ FileRefused inputs st c content input) →
    ∃ e, (openIndexes lib inputs st l).1 = .error e
  | [], st, ⟨a, ha, _⟩ => by cases ha
  | (k, d) :: rest, st, ⟨a, ha, c, content, input, hc, hr⟩ => by
    have heff := openOn_effect (lib := lib) (inputs := inputs) (st := st) d
    cases ho : d.openOn lib inputs st with
    | mk r st1 =>
      rw [ho] at heff
      dsimp only at heff
      cases r with
      | error e => exact ⟨e, by simp only [openIndexes, ho]⟩
      | ok f =>
        rcases List.mem_cons.1 ha with rfl | ha'
        · dsimp only at hc
          subst hc
          exfalso
          obtain ⟨w, hw, _⟩ := (openOn_wildcard (lib := lib) (st := st) hr.input).2 f (by rw [ho])
          rw [hr.file] at hw
          exact hr.refused w hw
        · obtain ⟨e, he⟩ := openIndexes_cut rest st1 ⟨a, ha', c, content, input, hc, hr.congr heff.same.1 (fun hf => heff.file_kept hf)⟩
          refine ⟨e, ?_⟩
          cases hr : openIndexes lib inputs st1 rest with
          | mk r2 st2 =>
            rw [hr] at he
            dsimp only at he
            subst he
            simp only [openIndexes, ho, hr]
end

theorem flag_says {content : Bytes} (h : flag content ≠ 0) : SaysComplete content := by
  unfold flag flagOffset at h
  cases hc : content[38]? with
  | none => rw [hc] at h; exact absurd rfl h
  | some b => rw [hc] at h; exact ⟨b, hc, h⟩

theorem CutAt.mono {inputs : GoMap Input} {l l' : GoMap IndexDecl} {st st' : Storage} {c : WildcardDecl} {i : Input} {content : Bytes} (hl : ∀ a ∈ l, a ∈ l') (h : CutAt inputs l st st' c i content) :
    CutAt inputs l' st st' c i content := by
  obtain ⟨⟨k, hk⟩, h2, h3, h4, h5⟩ := h
  exact ⟨⟨k, hl _ hk⟩, h2, h3, h4, h5⟩

/-- The starts used the configuration, on inputs of before. -/
def EarlierRuns (lib : StartLib) (c : Config) (inputs : GoMap Input) (lower : Bytes → Bytes) (runs : List Run) : Prop :=
  ∀ r ∈ runs, Reordered c r.config ∧ ∀ texts' inputs', instantiateMap (ParserDecl.instantiate (lib.onFiles r.files)) r.config.parsers = .ok texts' →
    instantiateMap (InputDecl.instantiate (lib.onFiles r.files) texts') r.config.inputs = .ok inputs' → EarlierInputs inputs inputs' lower c.indexes

/-- After starts of the program, killed or not, the disk is as the indexes need it, or the files of some of them are refused. -/
theorem afterProgramRuns_kept {lib : StartLib} {c : Config} {inputs : GoMap Input} (hapart : ∀ a ∈ c.indexes, ApartFrom c.indexes a.2) :
    ∀ (runs : List Run) (st : Storage), EarlierRuns lib c inputs st.lower runs → NoneInGap lib st runs → (∀ a ∈ c.indexes, DiskKept inputs st a.2) →
      ((afterProgramRuns lib st runs).lower = st.lower ∧ (afterProgramRuns lib st runs).sql = st.sql) ∧ ∀ a ∈ c.indexes, DiskKept inputs (afterProgramRuns lib st runs) a.2
  | [], st, _, _, hd => ⟨⟨rfl, rfl⟩, hd⟩
  | r :: rest, st, hruns, hgap, hd => by
    obtain ⟨hr, hearlier⟩ := hruns r List.mem_cons_self
    obtain ⟨hgap, hgaps⟩ := hgap
    have hsub : ∀ a ∈ r.config.indexes, a ∈ c.indexes := fun a ha => hr.indexes.symm.subset ha
    have hstep : ((r.leaves lib st).lower = st.lower ∧ (r.leaves lib st).sql = st.sql) ∧ ∀ a ∈ c.indexes, DiskKept inputs (r.leaves lib st) a.2 := by
      rcases r.effect lib st with h | ⟨texts2, inputs2, g1, g2, g3⟩
      · rw [h]
        exact ⟨⟨rfl, rfl⟩, hd⟩
      · have hE := hearlier texts2 inputs2 g1 g2
        rcases g3 with h | ⟨st1, w, input', content, s1, s2, s3⟩
        · exact ⟨h.same, (h.mono hsub).kept rfl hE hapart hd⟩
        · refine ⟨by rw [s2.left]; exact s1.same, ?_⟩
          have hkept := (s1.mono hsub).kept rfl hE hapart hd
          obtain ⟨input, hi, hsame⟩ := hE.found _ _ s2.input
          by_cases h0 : flag content = 0
          · refine (s2.mono hsub).kept hi (fun w' hx => ?_) hapart hkept
            obtain ⟨e, he⟩ := newWildcard_flag (lower := st1.lower) (cfg := w.settings) (input := input) h0
            rw [he] at hx
            cases hx
          · have hwhole := hgap w.path content (by rw [s2.left]; simp only [Storage.writeFile, if_true]) (flag_says h0)
            rw [s3] at hwhole
            cases hwhole
            obtain ⟨k, hk⟩ := (s2.mono hsub).index
            have heff : OpenEffect inputs2 st1 (k, IndexDecl.wildcard w).2 (r.leaves lib st) := by
              rw [s2.left]
              have := OpenEffect.file (st := st1) (d := .wildcard w) rfl s2.input
              rw [s2.absent] at this
              exact this
            intro a ha
            exact heff.kept (l := c.indexes) (s1.same.1 ▸ hE) hk (hkept _ hk) (hkept a ha) (hapart a ha _ hk)
    obtain ⟨j1, j2⟩ := afterProgramRuns_kept hapart rest (r.leaves lib st) (by rw [hstep.1.1]; exact fun r hr => hruns r (List.mem_cons_of_mem _ hr)) hgaps hstep.2
    exact ⟨⟨j1.1.trans hstep.1.1, j1.2.trans hstep.1.2⟩, j2⟩

end Rodb
