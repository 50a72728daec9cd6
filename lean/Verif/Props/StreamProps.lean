import Verif.Proofs.Stream
/-
  C01, C02 : the index stream is a flat byte array; flushing makes it durable.
-/
namespace Rodb
open Spec

/-- Run one client operation on the modelled stream and observe it. -/
def streamStep (s : Stream) : ArrayOp → Obs × Stream
  | .add bs =>
    match s.add bs with
    | (.ok o, s') => (.offset o, s')
    | (.error (.panic _), s') => (.panic, s')
    | (.error _, s') => (.error, s')
  | .replace o bs =>
    match s.replace o bs with
    | (.ok (), s') => (.done, s')
    | (.error (.panic _), s') => (.panic, s')
    | (.error _, s') => (.error, s')
  | .flush => (.done, s.flush)
  | .get o n =>
    match s.get o n with
    | .ok bs => (.bytes bs, s)
    | .error (.panic _) => (.panic, s)
    | .error _ => (.error, s)

/-- Run a history on the modelled stream; it stops at a panic. -/
def streamRun (s : Stream) : List ArrayOp → List Obs × Stream
  | [] => ([], s)
  | op :: ops =>
    match streamStep s op with
    | (.panic, s') => ([.panic], s')
    | (o, s') => let (os, s'') := streamRun s' ops; (o :: os, s'')

private theorem step_refines {s : Stream} (h : s.Inv) (op : ArrayOp) :
    (streamStep s op).1 = (arrayStep s.content op).1 ∧ (streamStep s op).2.Inv ∧
      (streamStep s op).2.content = (arrayStep s.content op).2 := by
  cases op with
  | add bs =>
    obtain ⟨s', h1, h2, h3, _⟩ := Stream.add_spec h bs
    simp [streamStep, arrayStep, h1, h2, h3]
  | replace o bs =>
    by_cases ho : o ≤ s.content.length
    · obtain ⟨s', h1, h2, h3, _⟩ := Stream.replace_spec h o bs ho
      simp [streamStep, arrayStep, h1, h2, h3, ho]
    · obtain ⟨m, hm⟩ := Stream.replace_panic h o bs (by omega)
      simp [streamStep, arrayStep, hm, ho, h]
  | flush =>
    have := Stream.flush_spec h
    exact ⟨rfl, this.1, this.2.1⟩
  | get o n =>
    by_cases ho : o + n ≤ s.content.length
    · simp [streamStep, arrayStep, Stream.get_spec h o n ho, ho, h, slice]
    · obtain ⟨m, hm⟩ := Stream.get_err h o n ho
      simp [streamStep, arrayStep, hm, ho, h]

private theorem run_refines (ops : List ArrayOp) : ∀ {s : Stream}, s.Inv →
    (streamRun s ops).1 = (arrayRun s.content ops).1 ∧ (streamRun s ops).2.Inv ∧
      (streamRun s ops).2.content = (arrayRun s.content ops).2 := by
  induction ops with
  | nil => intro s h; exact ⟨rfl, h, rfl⟩
  | cons op ops ih =>
    intro s h
    obtain ⟨h1, h2, h3⟩ := step_refines h op
    rcases hs : streamStep s op with ⟨o, s'⟩
    rcases ha : arrayStep s.content op with ⟨o', a'⟩
    rw [hs] at h1 h2 h3
    rw [ha] at h1 h3
    simp only at h1 h2 h3
    subst h1 h3
    have ih' := ih h2
    cases o <;> simp_all [streamRun, arrayRun]

/-- **C01.** Whatever the content of the file when the stream is opened, whatever the buffer size and
whatever the history of add / replace / flush / get calls, the client observes exactly what it would
observe of a flat byte array initially holding the file content. -/
theorem C01_stream_is_flat_array (file : Bytes) (bufferSize : Nat) (ops : List ArrayOp) :
    (streamRun (Stream.new file file.length bufferSize) ops).1 = (arrayRun file ops).1 := by
  have := (run_refines ops (Stream.new_inv file bufferSize)).1
  simpa [Stream.content, Stream.new] using this

/-- A history crossing the buffer boundary (buffer of 4 bytes): the replace straddles file and buffer. -/
example : (streamRun (Stream.new [] 0 4)
    [.add [1,2,3,4,5], .add [6,7], .replace 3 [40,50,60], .get 2 5, .get 6 2, .replace 9 [0]]).1
    = [.offset 0, .offset 5, .done, .bytes [3,40,50,60,7], .error, .panic] := by decide

/-- **C02.** After any history followed by a flush, the file holds exactly the content of the flat
array, and a stream reopened on that file shows the same observations as the flat array for any
further history. -/
theorem C02_flush_then_reopen (bufferSize bufferSize' : Nat) (ops ops' : List ArrayOp) :
    let s := (streamRun (Stream.new [] 0 bufferSize) ops).2.flush
    s.file = (arrayRun [] ops).2 ∧
      (streamRun (Stream.new s.file s.file.length bufferSize') ops').1 =
        (arrayRun (arrayRun [] ops).2 ops').1 := by
  intro s
  obtain ⟨_, h2, h3⟩ := run_refines ops (Stream.new_inv [] bufferSize)
  have hf : s.file = (arrayRun [] ops).2 := by
    have := (Stream.flush_spec h2).2.2.1
    simp only [s]
    have e : Stream.new [] 0 bufferSize = Stream.new [] ([] : Bytes).length bufferSize := rfl
    rw [e, this, h3]; rfl
  refine ⟨hf, ?_⟩
  rw [C01_stream_is_flat_array, hf]

example : let s := (streamRun (Stream.new [] 0 4) [.add [1,2,3], .replace 1 [9]]).2
    s.file = [] ∧ s.flush.file = [1,9,3] := by decide

end Rodb
