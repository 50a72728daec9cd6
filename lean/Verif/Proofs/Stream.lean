import Verif.Model.Stream
import Verif.Proofs.Bytes
namespace Rodb
open Spec

/-- Invariant of a stream whose file holds exactly the flushed part. -/
structure Stream.Inv (s : Stream) : Prop where
  file_len : s.file.length = s.bufferOffset
  size_eq : s.streamSize = s.bufferOffset + s.buffer.length

/-- Logical content: flushed part followed by the buffer. -/
def Stream.content (s : Stream) : Bytes := s.file ++ s.buffer

theorem Stream.Inv.len {s : Stream} (h : s.Inv) : s.content.length = s.streamSize := by
  simp [content, h.file_len, h.size_eq]

theorem Stream.new_inv (file : Bytes) (b : Nat) : (Stream.new file file.length b).Inv :=
  ⟨rfl, by simp [Stream.new]⟩

theorem fileWriteAt_end (f bs : Bytes) : fileWriteAt f f.length bs = f ++ bs := by
  unfold fileWriteAt
  split
  · simp [*]
  · simp

theorem fileWriteAt_mid (f : Bytes) (o : Nat) (bs : Bytes) (h : o ≤ f.length) :
    fileWriteAt f o bs = overwrite f o bs := by
  unfold fileWriteAt overwrite
  split
  · simp [*]
  · simp [Nat.sub_eq_zero_of_le h]

theorem Stream.flush_spec {s : Stream} (h : s.Inv) :
    s.flush.Inv ∧ s.flush.content = s.content ∧ s.flush.file = s.content ∧ s.flush.buffer = [] ∧
      s.flush.bufferMaxSize = s.bufferMaxSize := by
  unfold Stream.flush
  split
  · rename_i hb
    have : s.buffer = [] := List.eq_nil_of_length_eq_zero hb
    exact ⟨h, rfl, by simp [content, this], this, rfl⟩
  · rw [← h.file_len, fileWriteAt_end]
    refine ⟨⟨?_, ?_⟩, ?_, ?_, rfl, rfl⟩
    · simp [h.size_eq, h.file_len]
    · simp
    · simp [content]
    · simp [content]

theorem Stream.get_spec {s : Stream} (h : s.Inv) (o n : Nat) (hle : o + n ≤ s.content.length) :
    s.get o n = .ok (slice s.content o n) := by
  have hl := h.len
  have h1 := h.file_len
  have h2 := h.size_eq
  unfold Stream.get
  by_cases ho : o < s.bufferOffset
  · simp only [if_pos ho]
    by_cases hb : o + n > s.bufferOffset
    · have hr : fileReadAt s.file o (s.bufferOffset - o) = .ok (slice s.file o (s.bufferOffset - o)) := by
        unfold fileReadAt; rw [if_pos (by left; omega)]
      simp only [if_pos hb, hr]
      rw [if_pos (by omega)]
      unfold getFromBuffer
      have hlen : (slice s.file o (s.bufferOffset - o)).length = s.bufferOffset - o :=
        length_slice _ _ _ (by omega)
      simp only
      rw [if_neg (by omega), if_pos (by omega)]
      have hlen2 : (slice s.buffer (s.bufferOffset - s.bufferOffset) (n - (s.bufferOffset - o))).length
          = n - (s.bufferOffset - o) := length_slice _ _ _ (by omega)
      rw [if_neg (by rw [List.length_append, hlen, hlen2]; omega)]
      congr 1
      apply List.ext_getElem?
      intro i
      rw [getElem?_slice]
      by_cases hi : i < s.bufferOffset - o
      · rw [List.getElem?_append_left (by omega), getElem?_slice, if_pos hi, if_pos (by omega), content,
          List.getElem?_append_left (by omega)]
      · rw [List.getElem?_append_right (by omega), hlen, getElem?_slice, content]
        by_cases hi2 : i < n
        · rw [if_pos (by omega), if_pos hi2, List.getElem?_append_right (by omega)]
          congr 1; omega
        · rw [if_neg (by omega), if_neg hi2]
    · have hr : fileReadAt s.file o n = .ok (slice s.file o n) := by
        unfold fileReadAt; rw [if_pos (by left; omega)]
      simp only [if_neg hb, hr]
      rw [if_neg (by omega), content, slice_append_left _ _ _ _ (by omega)]
  · rw [if_neg ho]
    unfold getFromBuffer
    simp only
    rw [if_neg (by omega), if_neg (by simp), content, slice_append_right _ _ _ _ (by omega), h1]

theorem Stream.get_err {s : Stream} (h : s.Inv) (o n : Nat) (hgt : ¬ o + n ≤ s.content.length) :
    ∃ m, s.get o n = .error (.err m) := by
  have hl := h.len
  have h1 := h.file_len
  have h2 := h.size_eq
  unfold Stream.get
  by_cases ho : o < s.bufferOffset
  · have hb : o + n > s.bufferOffset := by omega
    have hr : fileReadAt s.file o (s.bufferOffset - o) = .ok (slice s.file o (s.bufferOffset - o)) := by
      unfold fileReadAt; rw [if_pos (by left; omega)]
    simp only [if_pos ho, if_pos hb, hr]
    rw [if_pos (by omega)]
    unfold getFromBuffer
    simp only
    rw [if_pos (by omega)]
    exact ⟨_, rfl⟩
  · rw [if_neg ho]
    unfold getFromBuffer
    simp only
    rw [if_pos (by omega)]
    exact ⟨_, rfl⟩

theorem length_overwriteFrom (b : Bytes) (k : Nat) (r : Bytes) : (overwriteFrom b k r).length = b.length := by
  induction b generalizing k r with
  | nil => simp [overwriteFrom]
  | cons x b ih =>
    cases k with
    | zero => cases r <;> simp [overwriteFrom, ih]
    | succ k => simp [overwriteFrom, ih]

theorem getElem?_overwriteFrom (b : Bytes) (k : Nat) (r : Bytes) (i : Nat) :
    (overwriteFrom b k r)[i]? =
      if i < b.length ∧ k ≤ i ∧ i < k + r.length then r[i - k]? else b[i]? := by
  induction b generalizing k r i with
  | nil => simp [overwriteFrom]
  | cons x b ih =>
    cases k with
    | zero =>
      cases r with
      | nil => simp [overwriteFrom]
      | cons y r =>
        cases i with
        | zero => simp [overwriteFrom]
        | succ i =>
          simp only [overwriteFrom, List.getElem?_cons_succ, ih, List.length_cons]
          by_cases hc : i < b.length ∧ 0 ≤ i ∧ i < 0 + r.length
          · rw [if_pos hc, if_pos (by omega)]; simp
          · rw [if_neg hc, if_neg (by omega)]
    | succ k =>
      cases i with
      | zero => simp [overwriteFrom]
      | succ i =>
        simp only [overwriteFrom, List.getElem?_cons_succ, ih, List.length_cons]
        by_cases hc : i < b.length ∧ k ≤ i ∧ i < k + r.length
        · rw [if_pos hc, if_pos (by omega)]; congr 1; omega
        · rw [if_neg hc, if_neg (by omega)]

theorem Stream.replaceInBuffer_spec (s : Stream) (o : Nat) (bs : Bytes)
    (h1 : s.bufferOffset ≤ o) (h2 : o ≤ s.bufferOffset + s.buffer.length) :
    s.replaceInBuffer o bs = .ok { s with buffer := overwrite s.buffer (o - s.bufferOffset) bs } := by
  unfold replaceInBuffer
  simp only [length_overwriteFrom]
  have key : ∀ i, i < s.buffer.length →
      (overwriteFrom s.buffer (o - s.bufferOffset) bs)[i]? = (overwrite s.buffer (o - s.bufferOffset) bs)[i]? := by
    intro i hi
    rw [getElem?_overwriteFrom, getElem?_overwrite _ _ _ _ (by omega)]
    by_cases ha : i < o - s.bufferOffset
    · rw [if_neg (by omega), if_pos ha]
    · by_cases hb : i < o - s.bufferOffset + bs.length
      · rw [if_pos (by omega), if_neg ha, if_pos hb]
      · rw [if_neg (by omega), if_neg ha, if_neg hb]
  split
  · rw [if_neg (by omega)]
    congr 2
    apply List.ext_getElem?
    intro i
    by_cases hi : i < s.buffer.length
    · rw [List.getElem?_append_left (by rw [length_overwriteFrom]; exact hi), key i hi]
    · rw [List.getElem?_append_right (by rw [length_overwriteFrom]; omega), length_overwriteFrom,
        getElem?_overwrite _ _ _ _ (by omega), if_neg (by omega), List.getElem?_drop]
      by_cases hb : i < o - s.bufferOffset + bs.length
      · rw [if_pos hb]; congr 1; omega
      · rw [if_neg hb, List.getElem?_eq_none (by omega), List.getElem?_eq_none (by omega)]
  · congr 2
    apply List.ext_getElem?
    intro i
    by_cases hi : i < s.buffer.length
    · exact key i hi
    · rw [List.getElem?_eq_none (by rw [length_overwriteFrom]; omega),
        List.getElem?_eq_none (by rw [length_overwrite _ _ _ (by omega)]; omega)]

theorem Stream.replaceInBuffer_panic (s : Stream) (o : Nat) (bs : Bytes)
    (h2 : s.bufferOffset + s.buffer.length < o) :
    ∃ m, s.replaceInBuffer o bs = .error (.panic m) := by
  unfold replaceInBuffer
  simp only [length_overwriteFrom]
  rw [if_pos (by omega), if_pos (by omega)]
  exact ⟨_, rfl⟩

theorem Stream.replaceEnd_spec (s : Stream) (o len : Nat)
    (hf : s.file.length = s.bufferOffset)
    (hs : (if o + len > s.streamSize then o + len else s.streamSize) = s.bufferOffset + s.buffer.length) :
    (s.replaceEnd o len).Inv ∧ (s.replaceEnd o len).content = s.content ∧
      (s.replaceEnd o len).bufferMaxSize = s.bufferMaxSize := by
  unfold replaceEnd
  by_cases hc : o + len > s.streamSize
  · simp only [if_pos hc] at hs ⊢
    have hinv : ({ s with streamSize := o + len } : Stream).Inv := ⟨hf, hs⟩
    split
    · have := Stream.flush_spec hinv; exact ⟨this.1, this.2.1, this.2.2.2.2⟩
    · exact ⟨hinv, rfl, rfl⟩
  · simp only [if_neg hc] at hs ⊢
    have hinv : s.Inv := ⟨hf, hs⟩
    split
    · have := Stream.flush_spec hinv; exact ⟨this.1, this.2.1, this.2.2.2.2⟩
    · exact ⟨hinv, rfl, rfl⟩

theorem overwrite_append_left (f b : Bytes) (o : Nat) (bs : Bytes) (h : o + bs.length ≤ f.length) :
    overwrite (f ++ b) o bs = overwrite f o bs ++ b := by
  apply List.ext_getElem?
  intro i
  rw [getElem?_overwrite _ _ _ _ (by simp; omega)]
  by_cases hi : i < f.length
  · have : i < (overwrite f o bs).length := by rw [length_overwrite _ _ _ (by omega)]; omega
    rw [List.getElem?_append_left this, List.getElem?_append_left hi, getElem?_overwrite _ _ _ _ (by omega)]
  · have : (overwrite f o bs).length = f.length := by rw [length_overwrite _ _ _ (by omega)]; omega
    rw [List.getElem?_append_right (by omega), if_neg (by omega), if_neg (by omega),
      List.getElem?_append_right (by omega), this]

theorem overwrite_append_right (f b : Bytes) (o : Nat) (bs : Bytes) (h : f.length ≤ o)
    (h2 : o ≤ f.length + b.length) :
    overwrite (f ++ b) o bs = f ++ overwrite b (o - f.length) bs := by
  apply List.ext_getElem?
  intro i
  rw [getElem?_overwrite _ _ _ _ (by simp; omega)]
  by_cases hi : i < f.length
  · rw [List.getElem?_append_left hi, List.getElem?_append_left hi, if_pos (by omega)]
  · rw [List.getElem?_append_right (by omega), List.getElem?_append_right (by omega),
      getElem?_overwrite _ _ _ _ (by omega)]
    by_cases ha : i < o
    · rw [if_pos ha, if_pos (by omega)]
    · by_cases hb : i < o + bs.length
      · rw [if_neg ha, if_pos hb, if_neg (by omega), if_pos (by omega)]; congr 1; omega
      · rw [if_neg ha, if_neg hb, if_neg (by omega), if_neg (by omega)]

theorem overwrite_append_split (f b : Bytes) (o : Nat) (bs : Bytes) (h : o < f.length)
    (h2 : f.length < o + bs.length) :
    overwrite (f ++ b) o bs = overwrite f o (bs.take (f.length - o)) ++ overwrite b 0 (bs.drop (f.length - o)) := by
  have hl : (overwrite f o (bs.take (f.length - o))).length = f.length := by
    rw [length_overwrite _ _ _ (by omega)]; simp; omega
  apply List.ext_getElem?
  intro i
  rw [getElem?_overwrite _ _ _ _ (by simp; omega)]
  by_cases hi : i < f.length
  · rw [List.getElem?_append_left hi, List.getElem?_append_left (by omega), getElem?_overwrite _ _ _ _ (by omega)]
    by_cases ha : i < o
    · rw [if_pos ha, if_pos ha]
    · rw [if_neg ha, if_neg ha, if_pos (by omega), if_pos (by simp; omega), List.getElem?_take, if_pos (by omega)]
  · rw [List.getElem?_append_right (l₁ := f) (by omega), List.getElem?_append_right (by omega), hl, if_neg (show ¬ i < o by omega),
      getElem?_overwrite _ _ _ _ (by omega), if_neg (show ¬ i - f.length < 0 by omega)]
    by_cases hb : i < o + bs.length
    · rw [if_pos hb, if_pos (by simp; omega), List.getElem?_drop]; congr 1; omega
    · rw [if_neg hb, if_neg (by simp; omega)]

/-- `Replace` within bounds overwrites the logical content. -/
theorem Stream.replace_spec {s : Stream} (h : s.Inv) (o : Nat) (bs : Bytes) (ho : o ≤ s.content.length) :
    ∃ s', s.replace o bs = (.ok (), s') ∧ s'.Inv ∧ s'.content = overwrite s.content o bs ∧
      s'.bufferMaxSize = s.bufferMaxSize := by
  have hl := h.len
  have h1 := h.file_len
  have h2 := h.size_eq
  unfold Stream.replace
  by_cases hlt : o < s.bufferOffset
  · simp only [if_pos hlt]
    by_cases hb : o + bs.length > s.bufferOffset
    · simp only [if_pos hb]
      rw [if_pos (by omega)]
      rw [Stream.replaceInBuffer_spec _ _ _ (by simp) (by simp)]
      simp only
      have hfw : fileWriteAt s.file o (bs.take (s.bufferOffset - o)) = overwrite s.file o (bs.take (s.bufferOffset - o)) :=
        fileWriteAt_mid _ _ _ (by omega)
      refine ⟨_, rfl, ?_⟩
      have := Stream.replaceEnd_spec
        { s with
          file := fileWriteAt s.file o (bs.take (s.bufferOffset - o))
          log := s.log ++ [(o, bs.take (s.bufferOffset - o))]
          buffer := overwrite s.buffer (s.bufferOffset - s.bufferOffset) (bs.drop (s.bufferOffset - o)) }
        o bs.length ?_ ?_
      · refine ⟨this.1, this.2.1.trans ?_, this.2.2⟩
        simp only [content, hfw, Nat.sub_self]
        simp only [← h1]
        rw [overwrite_append_split _ _ _ _ (by omega) (by omega)]
      · simp only [hfw]; rw [length_overwrite _ _ _ (by omega)]; simp; omega
      · simp only; rw [length_overwrite _ _ _ (by omega)]; simp; split <;> omega
    · simp only [if_neg hb]
      rw [if_neg (by omega)]
      refine ⟨_, rfl, ?_⟩
      have hfw : fileWriteAt s.file o (bs.take bs.length) = overwrite s.file o bs := by
        rw [List.take_length]; exact fileWriteAt_mid _ _ _ (by omega)
      have := Stream.replaceEnd_spec
        { s with
          file := fileWriteAt s.file o (bs.take bs.length)
          log := s.log ++ [(o, bs.take bs.length)] } o bs.length ?_ ?_
      · refine ⟨this.1, this.2.1.trans ?_, this.2.2⟩
        simp only [content, hfw]
        rw [overwrite_append_left _ _ _ _ (by omega)]
      · simp only [hfw]; rw [length_overwrite _ _ _ (by omega)]; omega
      · simp only; split <;> omega
  · rw [if_neg hlt, Stream.replaceInBuffer_spec _ _ _ (by omega) (by omega)]
    simp only
    refine ⟨_, rfl, ?_⟩
    have := Stream.replaceEnd_spec
      { s with buffer := overwrite s.buffer (o - s.bufferOffset) bs } o bs.length h1 ?_
    · refine ⟨this.1, this.2.1.trans ?_, this.2.2⟩
      simp only [content]
      rw [overwrite_append_right _ _ _ _ (by omega) (by omega), h1]
    · simp only; rw [length_overwrite _ _ _ (by omega)]; split <;> omega

theorem Stream.replace_panic {s : Stream} (h : s.Inv) (o : Nat) (bs : Bytes) (ho : s.content.length < o) :
    ∃ m, s.replace o bs = (.error (.panic m), s) := by
  have hl := h.len
  have h2 := h.size_eq
  unfold Stream.replace
  rw [if_neg (by omega)]
  obtain ⟨m, hm⟩ := Stream.replaceInBuffer_panic s o bs (by omega)
  exact ⟨m, by rw [hm]⟩

theorem Stream.add_spec {s : Stream} (h : s.Inv) (bs : Bytes) :
    ∃ s', s.add bs = (.ok s.content.length, s') ∧ s'.Inv ∧ s'.content = s.content ++ bs ∧
      s'.bufferMaxSize = s.bufferMaxSize := by
  obtain ⟨s', h1, h2, h3, h4⟩ := Stream.replace_spec h s.content.length bs (Nat.le_refl _)
  refine ⟨s', ?_, h2, ?_, h4⟩
  · unfold Stream.add; rw [← h.len, h1]
  · rw [h3, overwrite_end]

end Rodb
