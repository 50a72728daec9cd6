import Verif.Proofs.Changed
import Verif.Props.RestartProps
/-
  C114: starting the program after its data files have changed.
-/
namespace Rodb
open Spec

section
variable {config : ConfigLib} {p : ParsedConfig} {c : Config}

theorem allowed_indexes (hload : loadConfig config p = .ok c) (hnames : PlainNames p) : ∀ a ∈ c.indexes, Allowed a.2 := by
  have hw := (C76_accepted config p).1 ⟨c, hload⟩
  intro a ha x dsn hx
  rcases indexes_declared hload ha with ⟨i, hi, e⟩ | ⟨n, e⟩
  · rw [e] at hx
    have hwf := hw.indexes i hi
    cases i with
    | sqlite d =>
      cases hx
      obtain ⟨h1, h2⟩ := hnames.1 d hi
      refine ⟨h1, ?_, ?_⟩
      · intro q hq
        obtain ⟨q', hq', rfl⟩ := List.mem_map.1 hq
        exact h2 q' hq'
      · intro q hq
        obtain ⟨q', hq', rfl⟩ := List.mem_map.1 hq
        simp only
        rcases hwf.2.2.2 q' hq' with h | h
        · simp [h]
        · by_cases h0 : q'.collate = ""
          · simp [h0]
          · rw [if_neg h0]
            exact h
    | fts5 d =>
      cases hx
      obtain ⟨h1, h2, h3⟩ := hnames.2 d hi
      refine ⟨h1, h2, ?_⟩
      show NoNul (if d.tokenize = "" then "unicode61" else d.tokenize)
      split
      · unfold NoNul
        decide
      · exact h3
    | wildcard d | map d | noop d => cases hx
  · rw [e] at hx
    cases hx

theorem shaped_indexes (hload : loadConfig config p = .ok c) (hnames : PlainNames p) {st : Storage} (hempty : NothingStored p st) : ∀ a ∈ c.indexes, Shaped st a.2 := by
  intro a ha x dsn hx t ht
  rcases indexes_declared hload ha with ⟨i, hi, e⟩ | ⟨n, e⟩
  · rw [e] at hx
    cases i with
    | sqlite d =>
      cases hx
      have ht : (st.db d.dsn).table (metadataTable d.name) = some t := ht
      rw [metadata_table _ (hnames.1 d hi).1, hempty.1 d hi] at ht
      cases ht
    | fts5 d =>
      cases hx
      have ht : (st.db d.dsn).table (metadataTable d.name) = some t := ht
      rw [metadata_table _ (hnames.2 d hi).1, hempty.2 d hi] at ht
      cases ht
    | wildcard d | map d | noop d => cases hx
  · rw [e] at hx
    cases hx

/-- After a start that succeeds, all the indexes have been built for the inputs of that start. -/
theorem started_marked (hload : loadConfig config p = .ok c) (hown : OwnPlaces config p) (hnames : PlainNames p) {lib : StartLib} {st : Storage} (hplan : PlansPermute st.sql)
    (hempty : NothingStored p st) {before : List Run} (hbefore : ∀ r ∈ before, Reordered c r.config) {files : Files} {c' : Config} (hre : Reordered c c')
    {running : GoMap (String × List Route)} {st' : Storage} (hstart : startOn (lib.onFiles files) (afterProgramRuns lib st before) c' = (.ok running, st')) :
    PlansPermute st'.sql ∧ ∃ texts inputs, instantiateMap (ParserDecl.instantiate (lib.onFiles files)) c'.parsers = .ok texts ∧
      instantiateMap (InputDecl.instantiate (lib.onFiles files) texts) c'.inputs = .ok inputs ∧ ∀ a ∈ c.indexes, Marked inputs st' a.2 := by
  have hallow := allowed_indexes hload hnames
  have hapart := ownPlaces_apart hload hown
  obtain ⟨j1, j2⟩ := afterProgramRuns_shaped (lib := lib) hallow hapart before st hplan hbefore (shaped_indexes hload hnames hempty)
  rcases startOn_cases (lib.onFiles files) (afterProgramRuns lib st before) c' with ⟨e, he⟩ | ⟨texts, inputs, h1, h2, s1, s2⟩
  · rw [hstart] at he
    cases he
  · rw [hstart] at s1 s2
    obtain ⟨fs, hfs⟩ := s2 running rfl
    obtain ⟨i1, _, _, i4⟩ := openIndexes_marks (lib := lib.onFiles files) (inputs := inputs) (l := c'.indexes) (st := afterProgramRuns lib st before) (by rw [j1]; exact hplan)
      (fun a ha => hallow a (hre.indexes.symm.subset ha)) (fun a ha => j2 a (hre.indexes.symm.subset ha)) (apart_reordered hre hapart)
    dsimp only at s1
    rw [← s1] at i1 i4
    exact ⟨by rw [i1, j1]; exact hplan, texts, inputs, h1, h2, fun a ha => i4 fs hfs a (hre.indexes.subset ha)⟩
end

/-- **C114** Once the program has started, starting it again never changes the files and databases of its indexes, whatever the data files are then, and wherever these starts are killed. -/
theorem C114_untouched (config : ConfigLib) (p : ParsedConfig) (c : Config) (hload : loadConfig config p = .ok c) (hown : OwnPlaces config p) (hnames : PlainNames p) (lib : StartLib)
    (st : Storage) (hplan : PlansPermute st.sql) (hempty : NothingStored p st) (before after : List Run) (hbefore : ∀ r ∈ before, Reordered c r.config)
    (hafter : ∀ r ∈ after, Reordered c r.config) (files : Files) (c' : Config) (hre : Reordered c c') (running : GoMap (String × List Route)) (st' : Storage)
    (hstart : startOn (lib.onFiles files) (afterProgramRuns lib st before) c' = (.ok running, st')) : afterProgramRuns lib st' after = st' := by
  obtain ⟨hp, _, inputs, _, _, hm⟩ := started_marked hload hown hnames hplan hempty hbefore hre hstart
  exact afterProgramRuns_marked (allowed_indexes hload hnames) hp hm after hafter

/-- **C114** Data files that have changed. Nothing of the SQLite and full-text indexes was in the databases at first; the files of wildcard indexes may be anything. After any starts, with any data files, killed
anywhere or not at all, the program has started with `files`; then there were any other such starts. A start with `files'`, in which the file of an input that a wildcard, SQLite or full-text index is for has
another size or was modified in another second, fails.
Missing for the full C114: a change that keeps the size of the file and the second of its modification time (`C114_false`). -/
theorem C114_changed_partial (config : ConfigLib) (p : ParsedConfig) (c : Config) (hload : loadConfig config p = .ok c) (hown : OwnPlaces config p) (hnames : PlainNames p) (lib : StartLib)
    (st : Storage) (hplan : PlansPermute st.sql) (hempty : NothingStored p st) (before after : List Run) (hbefore : ∀ r ∈ before, Reordered c r.config)
    (hafter : ∀ r ∈ after, Reordered c r.config) (files files' : Files) (hreal : RealFiles files) (c' c'' : Config) (hre : Reordered c c') (hre' : Reordered c c'')
    (running : GoMap (String × List Route)) (st' : Storage) (hstart : startOn (lib.onFiles files) (afterProgramRuns lib st before) c' = (.ok running, st'))
    (x : InputDecl) (hx : x ∈ p.inputs) (i : IndexDecl) (hi : i ∈ p.indexes) (hkept : keptFor i x.name) (htouched : Touched files files' (inputPath x)) :
    ∃ e, (startOn (lib.onFiles files') (afterProgramRuns lib st' after) c'').1 = .error e := by
  rw [C114_untouched config p c hload hown hnames lib st hplan hempty before after hbefore hafter files c' hre running st' hstart]
  obtain ⟨hp, texts, inputs, h1, h2, hm⟩ := started_marked hload hown hnames hplan hempty hbefore hre hstart
  cases hres : (startOn (lib.onFiles files') st' c'').1 with
  | error e => exact ⟨e, rfl⟩
  | ok running' =>
    exfalso
    rcases startOn_cases (lib.onFiles files') st' c'' with ⟨e, he⟩ | ⟨texts', inputs', g1, g2, _, s2⟩
    · rw [he] at hres
      cases hres
    · obtain ⟨fs, hfs⟩ := s2 running' hres
      have hmem := ((C77_defaults config p c hload i.name).2.2.1 _).2 ⟨i, .inl ⟨hi, rfl⟩, rfl⟩
      have hmem := mapGet_mem hmem
      have hsame := (openIndexes_again (lib := lib.onFiles files') (inputs' := inputs') hp (fun a ha => allowed_indexes hload hnames a (hre'.indexes.symm.subset ha))
        (fun a ha => hm a (hre'.indexes.symm.subset ha))).2 fs hfs _ (hre'.indexes.subset hmem)
      have hin : indexInput (completedIndex config i) = x.name ∧ ((∃ d, completedIndex config i = .wildcard d) ∨ (storedOf (completedIndex config i)).isSome) := by
        cases i with
        | wildcard d => exact ⟨hkept, .inl ⟨_, rfl⟩⟩
        | sqlite d => exact ⟨hkept, .inr rfl⟩
        | fts5 d => exact ⟨hkept, .inr rfl⟩
        | map d | noop d => exact hkept.elim
      obtain ⟨input, input', e1, e2, hst⟩ := hsame hin.2
      rw [hin.1] at e1 e2
      obtain ⟨y, a, k1, k2, k3⟩ := (inputs_declared hload hre h1 h2).2.2 x hx
      obtain ⟨y', a', k1', k2', k3'⟩ := (inputs_declared hload hre' g1 g2).2.2 x hx
      rw [e1] at k1
      rw [e2] at k1'
      cases k1
      cases k1'
      have path : ∀ {l : StartLib} {y}, WithColumns l (completedInput x) y → inputPath y = inputPath x := by
        intro l y h
        cases x with
        | csv d =>
          simp only [completedInput, WithColumns] at h
          split at h
          · obtain ⟨_, _, _, rfl⟩ := h
            rfl
          · rw [h]
            rfl
        | json d => rw [show y = _ from h]; rfl
        | xml d => rw [show y = _ from h]; rfl
      obtain ⟨content, f1, f2, f3⟩ := openInput_stamp k3
      obtain ⟨content', f1', f2', f3'⟩ := openInput_stamp k3'
      rw [path k2] at f1 f3
      rw [path k2'] at f1' f3'
      obtain ⟨r1, r2⟩ := hreal _ _ f1
      obtain ⟨b1, t', b2, b3⟩ := hst _ _ f2 f3 (by unfold Int64Range; omega) (by unfold Int64Range unixSeconds at *; omega)
      rw [f2'] at b1
      rw [f3'] at b2
      cases b2
      rw [ok_inj] at b1
      rcases htouched with h | h
      · rw [f1, f1'] at h
        apply h
        simp only [Option.map_some, Option.some.injEq]
        omega
      · exact h b3.symm

namespace ChangedExample
/-- The library of `RestartExample`. -/
def lib : StartLib := StoredFilesExample.startLib FilesExample.noParsers
/-- The number in the second row is now 9; the size of the file and its modification time are the same. -/
def changed : Files := { FilesExample.machine with
  content := fun path => if path = "in.csv" then some [110, 44, 115, 10, 49, 44, 97, 10, 57, 44, 98, 13, 10, 10, 50, 44, 34, 99, 34, 34, 34] else none }
/-- The file with one more line. -/
def longer : Files := { FilesExample.machine with
  content := fun path => if path = "in.csv" then some [110, 44, 115, 10, 49, 44, 97, 10, 49, 44, 98, 13, 10, 10, 50, 44, 34, 99, 34, 34, 34, 10, 51, 44, 100] else none }
/-- What the first route of the service "web" answers for a number. -/
def answer (running : GoMap (String × List Route)) (params : GoMap Bytes) : Option Answer :=
  match mapGet running "web" with
  | some (kind, route :: _) => if kind = "application/json" then some (route.output.handle params []) else none
  | _ => none
/-- The number of rows in the list. -/
def rows : Option Answer → Option Nat
  | some (.data (.arr l)) => some l.length
  | _ => none
/-- The numbers of rows that the program finds for 9: started with the first data; then started with the changed data; and started with the changed data on a new machine. -/
def outcome (c : Config) : Option (Option Nat × Option Nat × Option Nat) :=
  match startOn (lib.onFiles FilesExample.machine) StoredFilesExample.storage c, startOn (lib.onFiles changed) StoredFilesExample.storage c with
  | (.ok first, st), (.ok new, _) =>
    match startOn (lib.onFiles changed) st c with
    | (.ok again, _) => some (rows (answer first [("number", [57])]), rows (answer again [("number", [57])]), rows (answer new [("number", [57])]))
    | _ => none
  | _, _ => none

theorem starts : ∃ c, loadConfig ConfigExample.lib RestartExample.parsed = .ok c ∧ outcome c = some (some 0, some 0, some 1) := by
  have h : (match loadConfig ConfigExample.lib RestartExample.parsed with
      | .ok c => outcome c
      | .error _ => none) = some (some 0, some 0, some 1) := by decide +kernel
  cases hc : loadConfig ConfigExample.lib RestartExample.parsed with
  | error e => rw [hc] at h; cases h
  | ok c =>
    rw [hc] at h
    exact ⟨c, rfl, h⟩

theorem outcome_starts {c : Config} {a b d} (h : outcome c = some (a, b, d)) : ∃ first st again st2 new st3,
    startOn (lib.onFiles FilesExample.machine) StoredFilesExample.storage c = (.ok first, st) ∧ startOn (lib.onFiles changed) st c = (.ok again, st2) ∧
    startOn (lib.onFiles changed) StoredFilesExample.storage c = (.ok new, st3) ∧ rows (answer first [("number", [57])]) = a ∧
    rows (answer again [("number", [57])]) = b ∧ rows (answer new [("number", [57])]) = d := by
  unfold outcome at h
  split at h
  · rename_i first st new st3 e1 e2
    split at h
    · rename_i again st2 e3
      cases h
      exact ⟨first, st, again, st2, new, st3, e1, e3, e2, rfl, rfl, rfl⟩
    · cases h
  · cases h

theorem rows_answer {running : GoMap (String × List Route)} {params : GoMap Bytes} {n : Nat} (h : rows (answer running params) = some n) :
    ∃ (route : Route) (others : List Route), mapGet running "web" = some ("application/json", route :: others) ∧ ∃ l : List Value, route.output.handle params [] = .data (.arr l) ∧ l.length = n := by
  unfold answer at h
  split at h
  · rename_i kind route others e
    split at h
    · rename_i hk
      subst hk
      refine ⟨route, others, e, ?_⟩
      unfold rows at h
      split at h
      · rename_i l e2
        cases h
        exact ⟨l, by injection e2, rfl⟩
      · cases h
    · cases h
  · cases h

theorem plain : PlainNames RestartExample.parsed := by
  refine ⟨?_, ?_⟩ <;> intro d hd <;> simp only [RestartExample.parsed, List.mem_cons, List.not_mem_nil, or_false, reduceCtorEq, false_or, IndexDecl.sqlite.injEq, IndexDecl.fts5.injEq] at hd
  · subst hd
    unfold NoNul
    decide
  · subst hd
    unfold NoNul
    decide

theorem nothing : NothingStored RestartExample.parsed StoredFilesExample.storage := ⟨fun _ _ => rfl, fun _ _ => rfl⟩

theorem real : RealFiles FilesExample.machine ∧ RealFiles changed := by
  constructor <;> intro path content h
  all_goals
    simp only [FilesExample.machine, changed] at h ⊢
    split at h
    · cases h
      exact ⟨by decide, by unfold Int64Range; decide⟩
    · cases h
theorem same (c : Config) : Reordered c c := ⟨.refl _, .refl _, .refl _, .refl _, .refl _⟩
end ChangedExample

/-- In the example, a start with one more line in the file fails, however often a start with the changed number was killed in between. -/
example : ∃ c running st', startOn (ChangedExample.lib.onFiles FilesExample.machine) StoredFilesExample.storage c = (.ok running, st') ∧
    ∀ n, ∃ e, (startOn (ChangedExample.lib.onFiles ChangedExample.longer) (afterProgramRuns ChangedExample.lib st' (List.replicate n ⟨ChangedExample.changed, c, some ⟨1, n, 0⟩⟩)) c).1 = .error e := by
  obtain ⟨c, hload, h⟩ := ChangedExample.starts
  obtain ⟨running, st', _, _, _, _, h1, _⟩ := ChangedExample.outcome_starts h
  refine ⟨c, running, st', h1, fun n => ?_⟩
  exact C114_changed_partial ConfigExample.lib RestartExample.parsed c hload RestartExample.own ChangedExample.plain ChangedExample.lib StoredFilesExample.storage (fun _ _ => .refl _)
    ChangedExample.nothing [] _ (by simp) (by intro r hr; rw [List.eq_of_mem_replicate hr]; exact ChangedExample.same c) FilesExample.machine ChangedExample.longer ChangedExample.real.1 c c
    (ChangedExample.same c) (ChangedExample.same c) running st' h1 (.csv FilesExample.decl) (by simp [RestartExample.parsed, StoredFilesExample.parsed]) (.sqlite StoredFilesExample.sqlite)
    (by simp [RestartExample.parsed]) rfl (.inl (by decide))

/-- **C114** is false for changes that keep the size of a file and the second of its modification time: then the program starts, leaves its indexes as they were, and answers from them. Here it finds no row
with the number 9, which it does find in the same file on a machine where it was never started before. -/
theorem C114_false : ∃ (config : ConfigLib) (p : ParsedConfig) (c : Config) (lib : StartLib) (st : Storage) (files files' : Files) (first again new : GoMap (String × List Route)) (st' st'' : Storage),
    loadConfig config p = .ok c ∧ OwnPlaces config p ∧ PlainNames p ∧ NothingStored p st ∧ PlansPermute st.sql ∧ RealFiles files ∧ RealFiles files' ∧ files.content ≠ files'.content ∧
    (∀ path, ¬ Touched files files' path) ∧
    startOn (lib.onFiles files) st c = (.ok first, st') ∧ startOn (lib.onFiles files') st' c = (.ok again, st') ∧ startOn (lib.onFiles files') st c = (.ok new, st'') ∧
    ∃ (before after : Route) (others others' : List Route), mapGet again "web" = some ("application/json", before :: others) ∧ mapGet new "web" = some ("application/json", after :: others') ∧
      before.output.handle [("number", [57])] [] = .data (.arr []) ∧ ∃ row, after.output.handle [("number", [57])] [] = .data (.arr [row]) := by
  obtain ⟨c, hload, h⟩ := ChangedExample.starts
  obtain ⟨first, st', again, st2, new, st3, h1, h2, h3, _, k2, k3⟩ := ChangedExample.outcome_starts h
  have hsame := C114_untouched ConfigExample.lib RestartExample.parsed c hload RestartExample.own ChangedExample.plain ChangedExample.lib StoredFilesExample.storage (fun _ _ => .refl _)
    ChangedExample.nothing [] [⟨ChangedExample.changed, c, none⟩] (by simp) (by intro r hr; rw [List.mem_singleton.1 hr]; exact ChangedExample.same c) FilesExample.machine c (ChangedExample.same c) first st' h1
  simp only [afterProgramRuns, Run.leaves, h2] at hsame
  subst hsame
  obtain ⟨before, others, b1, l, b2, b3⟩ := ChangedExample.rows_answer k2
  obtain ⟨after, others', a1, l', a2, a3⟩ := ChangedExample.rows_answer k3
  cases l with
  | cons x l => simp at b3
  | nil =>
    match l', a3 with
    | [row], _ =>
      refine ⟨ConfigExample.lib, RestartExample.parsed, c, ChangedExample.lib, StoredFilesExample.storage, FilesExample.machine, ChangedExample.changed, first, again, new, st2, st3, hload,
        RestartExample.own, ChangedExample.plain, ChangedExample.nothing, fun _ _ => .refl _, ChangedExample.real.1, ChangedExample.real.2, ?_, ?_, h1, h2, h3, before, after, others, others', b1, a1,
        b2, row, a2⟩
      · intro e
        have := congrFun e "in.csv"
        revert this
        decide
      · rintro path (h | h)
        · apply h
          simp only [FilesExample.machine, ChangedExample.changed]
          split <;> rfl
        · exact h rfl

end Rodb
