import Verif.Proofs.WildcardFail
/-
  Crash points of a build.
-/
namespace Rodb
open Spec Forest

/-! ### Crash files -/

theorem crashFile_append_left {l r : List (Nat × Bytes)} {k j : Nat} (h : k < l.length) :
    crashFile (l ++ r) k j = crashFile l k j := by
  unfold crashFile
  rw [List.getElem?_append_left h, List.take_append_of_le_length (Nat.le_of_lt h)]

/-- `crashFile` from a file that is not empty. -/
def crashFrom (f : Bytes) (log : List (Nat × Bytes)) (k j : Nat) : Bytes :=
  match log[k]? with
  | none => replay f (log.take k)
  | some e => fileWriteAt (replay f (log.take k)) e.1 (e.2.take j)

theorem crashFile_append_right {l r : List (Nat × Bytes)} {k j : Nat} (h : l.length ≤ k) :
    crashFile (l ++ r) k j = crashFrom (replay [] l) r (k - l.length) j := by
  unfold crashFile crashFrom
  rw [List.getElem?_append_right h, List.take_append, List.take_of_length_le h, replay_append]
  rfl

theorem flag_crashFile {log : List (Nat × Bytes)}
    (h : ∀ e ∈ log, ∀ i b, e.2[i]? = some b → e.1 + i = flagOffset → b = 0) (k j : Nat) :
    flag (crashFile log k j) = 0 := by
  have h1 : flag (replay [] (log.take k)) = 0 :=
    flag_replay (by rfl) (fun e he => h e (List.mem_of_mem_take he))
  unfold crashFile
  split
  · exact h1
  · rename_i e he
    refine flag_fileWriteAt h1 ?_
    intro i b hb
    rw [List.getElem?_take] at hb
    split at hb
    · exact h e (List.mem_of_getElem? he) i b hb
    · cases hb

/-- Every byte of `f` is the one of `c`, except that the completion flag may still be 0. -/
def Agrees (c f : Bytes) : Prop := ∀ i b, f[i]? = some b → c[i]? = some b ∨ (i = flagOffset ∧ b = 0)

theorem Agrees.write {c f bs : Bytes} {o : Nat} (h : Agrees c f) (ho : o ≤ f.length)
    (hb : ∀ i b, bs[i]? = some b → c[o + i]? = some b) : Agrees c (fileWriteAt f o bs) := by
  rw [fileWriteAt_mid _ _ _ ho]
  intro i b hi
  rw [getElem?_overwrite _ _ _ _ ho] at hi
  split at hi
  · exact h i b hi
  · split at hi
    · have := hb (i - o) b hi
      rw [show o + (i - o) = i by omega] at this
      exact Or.inl this
    · exact h i b hi

theorem Agrees.replay {c : Bytes} : ∀ {log : List (Nat × Bytes)} {f : Bytes}, Agrees c f → NoGap f log →
    (∀ e ∈ log, ∀ i b, e.2[i]? = some b → c[e.1 + i]? = some b) → ∀ k, Agrees c (replay f (log.take k)) := by
  intro log
  induction log with
  | nil => intro f h _ _ k; simpa [Rodb.replay] using h
  | cons e log ih =>
    intro f h hg hb k
    cases k with
    | zero => simpa [Rodb.replay] using h
    | succ k =>
      exact ih (h.write hg.1 (hb e List.mem_cons_self)) hg.2 (fun e' he' => hb e' (List.mem_cons_of_mem _ he')) k

theorem NoGap.at {log : List (Nat × Bytes)} : ∀ {f : Bytes}, NoGap f log → ∀ {k e}, log[k]? = some e →
    e.1 ≤ (replay f (log.take k)).length := by
  induction log with
  | nil => intro f _ k e he; simp at he
  | cons x log ih =>
    intro f h k e he
    cases k with
    | zero =>
      simp only [List.getElem?_cons_zero, Option.some.injEq] at he
      subst he
      exact h.1
    | succ k => exact ih h.2 (by simpa using he)

theorem Agrees.crashFrom {c f : Bytes} {log : List (Nat × Bytes)} (h : Agrees c f) (hg : NoGap f log)
    (hb : ∀ e ∈ log, ∀ i b, e.2[i]? = some b → c[e.1 + i]? = some b) (k j : Nat) :
    Agrees c (crashFrom f log k j) := by
  have h1 := h.replay hg hb k
  unfold Rodb.crashFrom
  split
  · exact h1
  · rename_i e he
    refine h1.write (hg.at he) ?_
    intro i b hi
    rw [List.getElem?_take] at hi
    split at hi
    · exact hb e (List.mem_of_getElem? he) i b hi
    · cases hi

theorem Agrees.isPrefix {c f : Bytes} (h : Agrees c f) (hf : flag f ≠ 0) : f <+: c := by
  have key : ∀ (i : Nat) (b : UInt8), f[i]? = some b → c[i]? = some b := by
    intro i b hi
    rcases h i b hi with h1 | ⟨rfl, rfl⟩
    · exact h1
    · exact absurd (by unfold flag; rw [hi]; rfl) hf
  rw [List.prefix_iff_eq_take]
  apply List.ext_getElem?
  intro i
  rw [List.getElem?_take]
  by_cases hi : i < f.length
  · rw [if_pos hi, List.getElem?_eq_getElem hi, key i f[i] (List.getElem?_eq_getElem hi)]
  · rw [if_neg hi, List.getElem?_eq_none (by omega)]

/-! ### The whole build -/

theorem serialize_completed (m : Metadata) (h : m.magic.length = 19) (b : Bool) (i : Nat) (hi : i ≠ flagOffset) :
    (Metadata.serialize { m with completed := b })[i]? = m.serialize[i]? := by
  have hA : (m.magic ++ toBE 2 m.version ++ toBE 8 (toU64 m.modTime) ++ toBE 8 (toU64 m.size) ++
    [boolByte m.ignoreCase]).length = 38 := by simp [length_toBE, h]
  simp only [Metadata.serialize]
  generalize m.magic ++ toBE 2 m.version ++ toBE 8 (toU64 m.modTime) ++ toBE 8 (toU64 m.size) ++
    [boolByte m.ignoreCase] = A at hA
  simp only [flagOffset] at hi
  by_cases h1 : i < 38
  · simp only [List.append_assoc]
    rw [List.getElem?_append_left (by omega), List.getElem?_append_left (by omega)]
  · simp only [List.append_assoc]
    rw [List.getElem?_append_right (l₁ := A) (by omega), List.getElem?_append_right (l₁ := A) (by omega)]
    obtain ⟨n, hn⟩ : ∃ n, i - A.length = n + 1 := ⟨i - A.length - 1, by omega⟩
    rw [hn]
    simp

/-- The last writes of a build, in relation with its final content. -/
theorem finish_log {cfg : WildcardConfig} {size t : Int} {offsets : List Nat} {own : Own} {idx : WIndex} {s1 : Stream} (hi1 : s1.Inv) (hq1 : Quiet (Stream.new [] 0 cfg.bufferSize) s1)
    (hm : MetaAt s1.content own (buildMeta cfg size t offsets false).serialize) :
    let s := ((do
      Metadata.save { buildMeta cfg size t offsets false with completed := true }
      mFlush
      pure idx : M WIndex) s1).2
    s.content = s.file ∧ s.file = replay [] s.log ∧ ∀ k j, flag (crashFile s.log k j) = 0 ∨ crashFile s.log k j <+: s.content := by
  have hmeta : ({ buildMeta cfg size t offsets false with completed := true } : Metadata) =
    buildMeta cfg size t offsets true := rfl
  obtain ⟨s2, g1, g2, g3, g4, g5, g6⟩ := Metadata.save_run hi1 hm (m := buildMeta cfg size t offsets true)
    (by rw [buildMeta_length, buildMeta_length])
  rw [hmeta]
  have hrun : ((do
      Metadata.save (buildMeta cfg size t offsets true)
      mFlush
      pure idx : M WIndex) s1).2 = s2.flush := by
    rw [M.bind_def, g1]
    rfl
  rw [hrun]
  have hf := Stream.flush_spec g2
  have hw2 := Stream.flush_writes g2.file_len
  have hw : Writes s1 s2.flush s2.content := g6.trans hw2
  obtain ⟨hqf, ext1, hl1, hfile1, hq⟩ := hq1
  obtain ⟨ext2, hl2, hfile2, hgap, hagree⟩ := hw
  have hl1' : s1.log = ext1 := by rw [hl1]; rfl
  have hquiet : ∀ e ∈ s1.log, ∀ i b, e.2[i]? = some b → e.1 + i = flagOffset → b = 0 := by
    rw [hl1']
    exact hq
  refine ⟨hf.2.1.trans hf.2.2.1.symm, ?_, ?_⟩
  · rw [hl2, replay_append, hl1', hfile2, hfile1]
    rfl
  intro k j
  rw [hl2, hf.2.1]
  by_cases hk : k < s1.log.length
  · rw [crashFile_append_left hk]
    exact Or.inl (flag_crashFile hquiet k j)
  · rw [crashFile_append_right (by omega)]
    have hfe : replay [] s1.log = s1.file := by rw [hl1']; exact hfile1.symm
    rw [hfe]
    have hA : Agrees s2.content s1.file := by
      intro i b hi
      have hc1 : s1.content[i]? = some b := by
        have hlt : i < s1.file.length := by
          by_cases hh : i < s1.file.length
          · exact hh
          · rw [List.getElem?_eq_none (by omega)] at hi; cases hi
        unfold Stream.content
        rw [List.getElem?_append_left hlt]
        exact hi
      by_cases hio : i = flagOffset
      · right
        refine ⟨hio, ?_⟩
        have h0 : flag s1.content = 0 := hqf
        unfold flag at h0
        rw [← hio, hc1] at h0
        exact h0
      · left
        by_cases hlt : i < (buildMeta cfg size t offsets false).serialize.length
        · have e1 : s1.content[i]? = (buildMeta cfg size t offsets false).serialize[i]? := by
            have : (slice s1.content 0 _)[i]? = _ := congrArg (fun (l : Bytes) => l[i]?) hm.eq
            rw [getElem?_slice, if_pos hlt, Nat.zero_add] at this
            exact this
          have hlt2 : i < (buildMeta cfg size t offsets true).serialize.length := by
            rw [buildMeta_length] at hlt ⊢; exact hlt
          have e2 : s2.content[i]? = (buildMeta cfg size t offsets true).serialize[i]? := by
            have : (slice s2.content 0 _)[i]? = _ := congrArg (fun (l : Bytes) => l[i]?) g3.eq
            rw [getElem?_slice, if_pos hlt2, Nat.zero_add] at this
            exact this
          rw [e2, ← hmeta, serialize_completed _ rfl _ _ hio, ← e1, hc1]
        · obtain ⟨s2', k1, k2, k3, k4⟩ := Stream.replace_spec hi1 0 (buildMeta cfg size t offsets true).serialize (Nat.zero_le _)
          have : s2' = s2 := by
            have hh : (Except.ok (), s2') = ((Except.ok (), s2) : Res Unit × Stream) := by
              rw [← k1, ← g1]; rfl
            cases hh
            rfl
          subst this
          rw [k3, getElem?_overwrite _ _ _ _ (Nat.zero_le _), if_neg (by omega), if_neg (by rw [buildMeta_length] at hlt ⊢; omega), hc1]
    have := hA.crashFrom hgap hagree (k - s1.log.length) j
    by_cases hff : flag (crashFrom s1.file ext2 (k - s1.log.length) j) = 0
    · exact Or.inl hff
    · exact Or.inr (this.isPrefix hff)

/-- The writes of a build, in relation with its final content. -/
theorem createIndex_log {lower} {cfg : WildcardConfig} {input : Input} {rows : List Row} {size t : Int}
    (hnd : cfg.properties.Nodup) (hs : input.size = .ok size) (ht : input.modTimeNs = .ok t)
    (htab : TextTable input cfg.properties rows)
    (hb : (createIndex lower cfg input (Stream.new [] 0 cfg.bufferSize)).2.streamSize < maxSize) :
    let s := (createIndex lower cfg input (Stream.new [] 0 cfg.bufferSize)).2
    ∀ k j, flag (crashFile s.log k j) = 0 ∨ crashFile s.log k j <+: s.content := by
  have hwp := WP.createAndFill (lower := lower) (Q := fun r c => ∃ (own : Own) (roots : RootsOf),
      MetaAt c own (buildMeta cfg size t (roots.map (·.2.1.offset)) false).serialize ∧
      r.1 = buildMeta cfg size t (roots.map (·.2.1.offset)) false) hnd hs ht htab
      (by
        intro c own roots h1 h2 h3
        exact ⟨own, roots, h1, rfl⟩)
  have hmono : ∀ r : Metadata × WIndex, Mono (do
      Metadata.save { r.1 with completed := true }
      mFlush
      pure r.2 : M WIndex) := fun r => Mono.bind (Mono.replace _ _) fun _ => Mono.bind Mono.flush fun _ => Mono.pure _
  have hdef : createIndex lower cfg input = (createAndFill lower cfg input >>= fun r => (do
      Metadata.save { r.1 with completed := true }
      mFlush
      pure r.2 : M WIndex)) := rfl
  rw [hdef] at hb ⊢
  have hb1 : (createAndFill lower cfg input (Stream.new [] 0 cfg.bufferSize)).2.streamSize < maxSize := by
    rw [M.bind_def] at hb
    revert hb
    cases hc : createAndFill lower cfg input (Stream.new [] 0 cfg.bufferSize) with
    | mk r s =>
      cases r with
      | ok a =>
        intro hb
        exact Nat.lt_of_le_of_lt (hmono a s) hb
      | error e => exact id
  obtain ⟨⟨m, idx⟩, s1, h1, hi1, hq1, own, roots, hm, hr⟩ := hwp (Stream.new [] 0 cfg.bufferSize) (Stream.new_inv [] _) rfl hb1
  simp only at hr
  subst hr
  rw [M.bind_def, h1] at hb ⊢
  simp only at hb ⊢
  exact (finish_log hi1 hq1 hm).2.2

end Rodb
