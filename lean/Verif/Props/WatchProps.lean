import Verif.Proofs.Watch
import Verif.Props.FilesProps
import Verif.Spec.JsonFiles
/-
  C88: changes of the input files.
-/
namespace Rodb
open Spec

variable {die : Bool} {s t : WatchState} {actions opening : List WatchAction} {file : Nat} {original : Bytes}

/-- **C88** Unchanged data: with `dieOnInputChange`, as long as the program runs and no notice that the file was written is waiting, the fetches and the scans read what the file contained
when it was added to the watcher; whatever was done to it, provided that its path was not made to lead to another file and that the system dropped no notices. -/
theorem C88_unchanged_partial (h : Serving true s file original opening actions) (ho : InPlace opening) (ha : InPlace actions) (halive : s.alive = true) (hn : ¬ NoticeWaits s) :
    s.fetchReads = some original ∧ s.scanReads = some original := by
  obtain ⟨h1, h2, _⟩ := h.watched ho ha
  have hc : s.content file = original := by
    rcases h2 with h2 | h2 | h2 | ⟨h2, _⟩
    · exact h2.2
    · rw [halive] at h2; cases h2
    · exact absurd h2 hn
    · cases h2
  simp only [WatchState.fetchReads, WatchState.scanReads, h1.opened, h1.path, Option.map_some, hc, and_self]

/-- **C88** A written file is noticed: with `dieOnInputChange`, after the file was written the program has ended or a notice of it is waiting. -/
theorem C88_written_partial (h : Serving true s file original opening actions) (ho : InPlace opening) (ha : InPlace actions) (hw : Written file actions) :
    s.alive = false ∨ NoticeWaits s := by
  rcases (h.watched ho ha).2.2 hw with h | h | ⟨h, _⟩
  · exact .inl h
  · exact .inr h
  · cases h

/-- **C88** A notice ends the program: in every schedule, a program that is still running has not yet taken all the events that were there with the notice. -/
theorem C88_notice_ends (hn : NoticeWaits s) (h : WatchState.Run true s actions t) (ha : InPlace actions) (halive : t.alive = true) : actions.count .takeEvent < s.events.length := by
  refine notice_bound h ha _ ?_ halive
  rw [List.take_length]
  exact hn

/-- **C88** Nothing else ends it: whatever happens, a program whose input files are not written does not end, with or without `dieOnInputChange`. -/
theorem C88_unwritten (atPath : Option Nat) (content : Nat → Bytes) (h : WatchState.Run die (.fresh atPath content) actions s) (hw : ∀ file c, .write file c ∉ actions) : s.alive = true := by
  have : ∀ {s actions t}, WatchState.Run die s actions t → (∀ file c, .write file c ∉ actions) → (s.alive = true ∧ ∀ op ∈ s.events, op.write = false) →
      t.alive = true ∧ ∀ op ∈ t.events, op.write = false := by
    intro s actions t h
    induction h with
    | nil => exact fun _ h => h
    | @cons s t u a rest g1 _ ih => exact fun hw hs => ih (fun f c hm => hw f c (.tail _ hm)) (quiet_step g1 (fun f c e => hw f c (e ▸ .head _)) hs)
  exact (this h hw ⟨rfl, fun _ h => nomatch h⟩).1

/-- **C88** Without `dieOnInputChange` the program never ends by itself, and after the file was written it has warned, or a notice is waiting. -/
theorem C88_tolerant (h : Serving false s file original opening actions) : s.alive = true ∧ (InPlace opening → InPlace actions → Written file actions → 0 < s.warnings ∨ NoticeWaits s) := by
  have ha : s.alive = true := by
    obtain ⟨_, _, s₀, s₁, h1, h2, h3, _⟩ := h
    have : ∀ {s actions t}, WatchState.Run false s actions t → s.alive = true → t.alive = true := by
      intro s actions t h
      induction h with
      | nil => exact id
      | cons g1 _ ih => exact fun hs => ih (tolerant_step g1 hs)
    exact this h3 (tolerant_step h2 (this h1 rfl))
  refine ⟨ha, fun ho hp hw => ?_⟩
  rcases (h.watched ho hp).2.2 hw with h | h | ⟨_, h⟩
  · rw [ha] at h; cases h
  · exact .inr h
  · exact .inl h

/-- **C88** A missing file stops the start: the files of all the inputs of a running program were there when it started. -/
theorem C88_files_exist {config : ConfigLib} {lib : StartLib} {files : Files} {p : ParsedConfig} {texts : GoMap TextParser} {env : OutputEnv} {apis : GoMap OutputApi}
    {running : GoMap (String × List Route)} (hrun : Running config (lib.onFiles files) p texts env apis running) :
    ∀ x ∈ p.inputs, ∃ content, files.content (inputPath x) = some content := by
  intro x hx
  obtain ⟨d, input, h1, h2, _⟩ := hrun.inputs _ hx
  cases x with
  | csv c =>
    have hd : ∃ e : CsvDecl, d = .csv e ∧ e.path = c.path := by
      simp only [completedInput, WithColumns] at h1
      split at h1
      · obtain ⟨names, _, _, rfl⟩ := h1
        exact ⟨_, rfl, rfl⟩
      · exact ⟨_, h1, rfl⟩
    obtain ⟨e, rfl, he⟩ := hd
    simp only [StartLib.onFiles, openInput, openCsvInput] at h2
    rw [inputPath, ← he]
    cases hf : files.content e.path with
    | none => rw [hf] at h2; cases h2
    | some content => exact ⟨content, rfl⟩
  | json c =>
    simp only [completedInput, WithColumns] at h1
    subst h1
    simp only [StartLib.onFiles, openInput, openJsonInput] at h2
    rw [inputPath]
    cases hf : files.content c.path with
    | none => rw [hf] at h2; cases h2
    | some content => exact ⟨content, rfl⟩
  | xml c =>
    simp only [completedInput, WithColumns] at h1
    subst h1
    simp only [StartLib.onFiles, openInput, openXmlInput] at h2
    rw [inputPath]
    cases hf : files.content c.path with
    | none => rw [hf] at h2; cases h2
    | some content => exact ⟨content, rfl⟩

namespace WatchExample
/-- A CSV file without a header, with one column of texts. -/
def input : CsvInput := { columns := [{ name := "n", parse := fun cell => .ok (.str cell) }], ignoreFirstRow := false, reader := csvReader 44 }
/-- Two files: xxx / yy and a / bb. -/
def old : Bytes := [120, 120, 120, 10, 121, 121, 10]
def new : Bytes := [97, 10, 98, 98, 10]
def content (file : Nat) : Bytes := if file = 0 then old else new
/-- The objects that a scan gives, with their positions. -/
def rows (content : Bytes) : Res (List (Res (Res (GoMap Value) × Int))) :=
  (csvScan input content (fun _ => [])).map (fun l => l.map (fun r => r.map (fun r => (r.all, r.position))))
def fetched (content : Bytes) (position : Int) : Res (Res (GoMap Value)) := (csvFetch input [] (csvOpen content) position).1.map (fun r => r.all)
end WatchExample

/-- **C88** is false when the path is made to lead to another file, as editors and deployments do: the program goes on, scans find positions in the new file, and fetches read the old
one. Here the row at the position of the second row of the new file is in neither file. -/
theorem C88_false : ∃ s actions, Serving true s 0 WatchExample.old [.openFile] actions ∧ s.alive = true ∧ s.events = [] ∧ s.errors = 0 ∧
    s.fetchReads = some WatchExample.old ∧ s.scanReads = some WatchExample.new ∧
    WatchExample.rows WatchExample.old = .ok [.ok (.ok [("n", .str [120, 120, 120])], 0), .ok (.ok [("n", .str [121, 121])], 4)] ∧
    WatchExample.rows WatchExample.new = .ok [.ok (.ok [("n", .str [97])], 0), .ok (.ok [("n", .str [98, 98])], 2)] ∧
    WatchExample.fetched WatchExample.old 2 = .ok (.ok [("n", .str [120])]) := by
  refine ⟨_, [.replace (some 1), .takeEvent], ⟨some 0, WatchExample.content, _, _, .cons (.openFile rfl rfl rfl) .nil, .addWatch rfl (by simp) rfl rfl,
    .cons (.replace (events := [{ remove := true }]) (by simp) (by simp)) (.cons (.takeEvent rfl (by simp [WatchState.fresh])) .nil), rfl, rfl⟩, rfl, rfl, rfl, rfl, rfl, by rfl, by rfl, by rfl⟩

/-- A run in which the file is written twice, its permissions changed, and the program ends at the third event. -/
example : ∃ s, Serving true s 0 WatchExample.old [.openFile] [.other, .write 0 [1], .takeEvent, .write 0 [2], .takeEvent] ∧ InPlace [.openFile] ∧
    InPlace [.other, .write 0 [1], .takeEvent, .write 0 [2], .takeEvent] ∧ s.alive = false := by
  refine ⟨_, ⟨some 0, WatchExample.content, _, _, .cons (.openFile rfl rfl rfl) .nil, .addWatch rfl (by simp) rfl rfl,
    .cons (.other (events := [{ chmod := true }]) (errors := 1) (by simp) (by simp)) (.cons (.write (op := { write := true }) rfl rfl)
      (.cons (.takeEvent rfl (by simp)) (.cons (.writeMerged (earlier := []) rfl rfl rfl) (.cons (.takeEvent rfl (by simp [WatchState.takeEvent, WatchState.handle, WatchState.fresh])) .nil)))),
    rfl, rfl⟩, ?_, ?_, rfl⟩ <;> simp [InPlace]

/-- And one in which the file is not written: what is read is what it contained. -/
example : ∃ s, Serving true s 0 WatchExample.old [.openFile] [.other, .takeEvent] ∧ s.alive = true ∧ ¬ NoticeWaits s ∧ s.fetchReads = some WatchExample.old := by
  refine ⟨_, ⟨some 0, WatchExample.content, _, _, .cons (.openFile rfl rfl rfl) .nil, .addWatch rfl (by simp) rfl rfl,
    .cons (.other (events := [{ chmod := true }]) (errors := 0) (by simp) (by simp)) (.cons (.takeEvent rfl (by simp)) .nil), rfl, rfl⟩, rfl, ?_, rfl⟩
  rintro ⟨op, hop, _⟩
  cases hop

end Rodb
