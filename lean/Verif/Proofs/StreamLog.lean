import Verif.Proofs.Stream
import Verif.Spec.Crash
/-
  What reaches the file: every `WriteAt` writes bytes of the logical content of that moment.
-/
namespace Rodb
open Spec

theorem replay_append (f : Bytes) (l r : List (Nat × Bytes)) : replay f (l ++ r) = replay (replay f l) r := by
  simp [replay]

/-- No write starts after the end of the file of that moment. -/
def NoGap : Bytes → List (Nat × Bytes) → Prop
  | _, [] => True
  | f, e :: l => e.1 ≤ f.length ∧ NoGap (fileWriteAt f e.1 e.2) l

theorem NoGap.append {f : Bytes} {l r : List (Nat × Bytes)} (h1 : NoGap f l) (h2 : NoGap (replay f l) r) : NoGap f (l ++ r) := by
  induction l generalizing f with
  | nil => exact h2
  | cons e l ih => exact ⟨h1.1, ih h1.2 h2⟩

/-- The writes done between `s` and `s'`, each agreeing with content `c`. -/
def Writes (s s' : Stream) (c : Bytes) : Prop :=
  ∃ ext, s'.log = s.log ++ ext ∧ s'.file = replay s.file ext ∧ NoGap s.file ext ∧
    ∀ e ∈ ext, ∀ i b, e.2[i]? = some b → c[e.1 + i]? = some b

theorem Writes.refl (s : Stream) (c : Bytes) : Writes s s c := ⟨[], by simp, rfl, trivial, by simp⟩

theorem Writes.trans {s1 s2 s3 : Stream} {c : Bytes} (h1 : Writes s1 s2 c) (h2 : Writes s2 s3 c) : Writes s1 s3 c := by
  obtain ⟨e1, a1, b1, g1, c1⟩ := h1
  obtain ⟨e2, a2, b2, g2, c2⟩ := h2
  refine ⟨e1 ++ e2, by rw [a2, a1, List.append_assoc], by rw [b2, b1, replay_append], g1.append (b1 ▸ g2), ?_⟩
  intro e he
  rcases List.mem_append.mp he with h | h
  · exact c1 e h
  · exact c2 e h

theorem Stream.flush_writes {s : Stream} (h : s.file.length = s.bufferOffset) : Writes s s.flush s.content := by
  unfold Stream.flush
  split
  · exact Writes.refl _ _
  · refine ⟨[(s.bufferOffset, s.buffer)], rfl, rfl, ⟨Nat.le_of_eq h.symm, trivial⟩, ?_⟩
    intro e he i b hb
    simp only [List.mem_singleton] at he
    subst he
    simp only [content] at *
    rw [List.getElem?_append_right (by omega), h]
    simpa using hb

theorem Stream.replaceEnd_writes {s : Stream} (o len : Nat) (h : s.file.length = s.bufferOffset) :
    Writes s (s.replaceEnd o len) s.content := by
  unfold replaceEnd
  by_cases hc : o + len > s.streamSize
  · simp only [if_pos hc]
    split
    · exact Stream.flush_writes (s := { s with streamSize := o + len }) h
    · exact ⟨[], by simp, rfl, trivial, by simp⟩
  · simp only [if_neg hc]
    split
    · exact Stream.flush_writes h
    · exact Writes.refl _ _

theorem Stream.replace_writes {s : Stream} (h : s.Inv) (o : Nat) (bs : Bytes) (ho : o ≤ s.content.length) :
    Writes s (s.replace o bs).2 (s.replace o bs).2.content := by
  obtain ⟨s', e1, _, e2, _⟩ := Stream.replace_spec h o bs ho
  have hl := h.len
  have h1 := h.file_len
  have h2 := h.size_eq
  have hfinal : (s.replace o bs).2.content = overwrite s.content o bs := by rw [e1]; exact e2
  rw [hfinal]
  have first : ∀ k, ∀ i b, (bs.take k)[i]? = some b → (overwrite s.content o bs)[o + i]? = some b := by
    intro k i b hb
    rw [List.getElem?_take] at hb
    split at hb
    · have hi : i < bs.length := by
        by_cases h : i < bs.length
        · exact h
        · rw [List.getElem?_eq_none (by omega)] at hb; cases hb
      rw [getElem?_overwrite _ _ _ _ ho, if_neg (by omega), if_pos (by omega)]
      rw [← hb]; congr 1; omega
    · cases hb
  unfold Stream.replace
  by_cases hlt : o < s.bufferOffset
  · simp only [if_pos hlt]
    by_cases hb : o + bs.length > s.bufferOffset
    · simp only [if_pos hb]
      rw [if_pos (by omega)]
      rw [Stream.replaceInBuffer_spec _ _ _ (by simp) (by simp)]
      simp only
      have hfw : fileWriteAt s.file o (bs.take (s.bufferOffset - o)) = overwrite s.file o (bs.take (s.bufferOffset - o)) :=
        fileWriteAt_mid _ _ _ (by omega)
      let s1 : Stream := { s with
          file := fileWriteAt s.file o (bs.take (s.bufferOffset - o))
          log := s.log ++ [(o, bs.take (s.bufferOffset - o))]
          buffer := overwrite s.buffer (s.bufferOffset - s.bufferOffset) (bs.drop (s.bufferOffset - o)) }
      have hc : s1.content = overwrite s.content o bs := by
        simp only [s1, content, hfw, Nat.sub_self]
        simp only [← h1]
        rw [overwrite_append_split _ _ _ _ (by omega) (by omega)]
      have hw1 : Writes s s1 (overwrite s.content o bs) := by
        refine ⟨[(o, bs.take (s.bufferOffset - o))], rfl, rfl, ⟨by simp only []; omega, trivial⟩, ?_⟩
        intro e he
        simp only [List.mem_singleton] at he
        subst he
        exact first _
      have hw2 := Stream.replaceEnd_writes (s := s1) o bs.length (by
        simp only [s1, hfw]; rw [length_overwrite _ _ _ (by omega)]; simp; omega)
      rw [hc] at hw2
      exact hw1.trans hw2
    · simp only [if_neg hb]
      rw [if_neg (by omega)]
      have hfw : fileWriteAt s.file o (bs.take bs.length) = overwrite s.file o bs := by
        rw [List.take_length]; exact fileWriteAt_mid _ _ _ (by omega)
      let s1 : Stream := { s with
          file := fileWriteAt s.file o (bs.take bs.length)
          log := s.log ++ [(o, bs.take bs.length)] }
      have hc : s1.content = overwrite s.content o bs := by
        simp only [s1, content, hfw]
        rw [overwrite_append_left _ _ _ _ (by omega)]
      have hw1 : Writes s s1 (overwrite s.content o bs) := by
        refine ⟨[(o, bs.take bs.length)], rfl, rfl, ⟨by simp only []; omega, trivial⟩, ?_⟩
        intro e he
        simp only [List.mem_singleton] at he
        subst he
        exact first _
      have hw2 := Stream.replaceEnd_writes (s := s1) o bs.length (by
        simp only [s1, hfw]; rw [length_overwrite _ _ _ (by omega)]; omega)
      rw [hc] at hw2
      exact hw1.trans hw2
  · rw [if_neg hlt, Stream.replaceInBuffer_spec _ _ _ (by omega) (by omega)]
    simp only
    let s1 : Stream := { s with buffer := overwrite s.buffer (o - s.bufferOffset) bs }
    have hc : s1.content = overwrite s.content o bs := by
      simp only [s1, content]
      rw [overwrite_append_right _ _ _ _ (by omega) (by omega), h1]
    have hw2 := Stream.replaceEnd_writes (s := s1) o bs.length h1
    rw [hc] at hw2
    exact (show Writes s s1 _ from ⟨[], by simp [s1], rfl, trivial, by simp⟩).trans hw2

/-! ### The completion flag -/

/-- Offset of the byte saying that the index is complete (wildcard/metadata.go:96-116). -/
def flagOffset : Nat := 38

/-- That byte in a file or content (0 when the file is too short). -/
def flag (c : Bytes) : UInt8 := (c[flagOffset]?).getD 0

/-- Between `s` and `s'` the flag of the logical content did not change, and every write that reached
the file either did not touch the flag or wrote that same value. -/
def Quiet (s s' : Stream) : Prop :=
  flag s'.content = flag s.content ∧
  ∃ ext, s'.log = s.log ++ ext ∧ s'.file = replay s.file ext ∧
    ∀ e ∈ ext, ∀ i b, e.2[i]? = some b → e.1 + i = flagOffset → b = flag s.content

theorem Quiet.refl (s : Stream) : Quiet s s := ⟨rfl, [], by simp, rfl, by simp⟩

theorem Quiet.trans {s1 s2 s3 : Stream} (h1 : Quiet s1 s2) (h2 : Quiet s2 s3) : Quiet s1 s3 := by
  obtain ⟨f1, e1, a1, b1, c1⟩ := h1
  obtain ⟨f2, e2, a2, b2, c2⟩ := h2
  refine ⟨f2.trans f1, e1 ++ e2, by rw [a2, a1, List.append_assoc], by rw [b2, b1, replay_append], ?_⟩
  intro e he
  rcases List.mem_append.mp he with h | h
  · exact c1 e h
  · rw [← f1]; exact c2 e h

theorem Writes.quiet {s s' : Stream} (h : Writes s s' s'.content) (hf : flag s'.content = flag s.content) : Quiet s s' := by
  obtain ⟨e, a, b, _, c⟩ := h
  refine ⟨hf, e, a, b, ?_⟩
  intro x hx i y hy ho
  have := c x hx i y hy
  rw [ho] at this
  rw [← hf, flag, this]; rfl

theorem flag_append {c bs : Bytes} (h : flagOffset < c.length) : flag (c ++ bs) = flag c := by
  unfold flag; rw [List.getElem?_append_left h]

theorem flag_overwrite {c bs : Bytes} {o : Nat} (h : flagOffset < o) (ho : o ≤ c.length) : flag (overwrite c o bs) = flag c := by
  unfold flag; rw [getElem?_overwrite _ _ _ _ ho, if_pos h]

theorem flag_fileWriteAt {f bs : Bytes} {o : Nat} (hf : flag f = 0)
    (h : ∀ i b, bs[i]? = some b → o + i = flagOffset → b = 0) : flag (fileWriteAt f o bs) = 0 := by
  unfold fileWriteAt
  split
  · exact hf
  · rename_i hne
    unfold flag
    by_cases h1 : flagOffset < o
    · by_cases h2 : flagOffset < f.length
      · rw [List.append_assoc, List.append_assoc, List.getElem?_append_left (by simp; omega), List.getElem?_take, if_pos h1]
        exact hf
      · rw [List.append_assoc, List.append_assoc, List.getElem?_append_right (by simp; omega),
          List.getElem?_append_left (by simp; omega), List.getElem?_replicate]
        split <;> rfl
    · by_cases h2 : flagOffset < o + bs.length
      · have hl : (List.take o f ++ List.replicate (o - f.length) 0).length = o := by simp; omega
        rw [List.append_assoc, List.getElem?_append_right (by omega), hl,
          List.getElem?_append_left (by omega)]
        have := h (flagOffset - o) (bs[flagOffset - o]'(by omega)) (List.getElem?_eq_getElem _) (by omega)
        rw [List.getElem?_eq_getElem (by omega), this]; rfl
      · have hl : (List.take o f ++ List.replicate (o - f.length) 0 ++ bs).length = o + bs.length := by simp; omega
        rw [List.getElem?_append_right (by omega), hl, List.getElem?_drop]
        have : o + bs.length + (flagOffset - (o + bs.length)) = flagOffset := by omega
        rw [this]; exact hf

theorem flag_replay {log : List (Nat × Bytes)} : ∀ {f : Bytes}, flag f = 0 →
    (∀ e ∈ log, ∀ i b, e.2[i]? = some b → e.1 + i = flagOffset → b = 0) → flag (replay f log) = 0 := by
  induction log with
  | nil => intro f hf _; exact hf
  | cons e log ih =>
    intro f hf h
    exact ih (f := fileWriteAt f e.1 e.2) (flag_fileWriteAt hf (h e (by simp))) (fun e' he' => h e' (by simp [he']))

end Rodb
