import Verif.Proofs.WildcardHeader
import Verif.Props.WildcardProps
import Verif.Spec.Sqlite
/-
  The file of a wildcard index that was made for an input that has changed since.
-/
namespace Rodb
open Rodb.Spec

/-- A build uses the size, the second of the modification time, and the records of its input. -/
theorem createIndex_stat {lower : Bytes → Bytes} {cfg : WildcardConfig} {a b : Input} (h : SameStat a b) (hs : a.scan = b.scan) : createIndex lower cfg a = createIndex lower cfg b := by
  obtain ⟨s, t, u, h1, h2, h3, h4, h5⟩ := h
  have key : ∀ (x : Input) (v : Int), x.size = .ok s → x.modTimeNs = .ok v → newMetadata (cfg.metadataInput x) =
      (fun st => (do
        let m : Metadata := { magic := magicBytes, version := currentVersion, modTime := unixSeconds v, size := s, ignoreCase := cfg.ignoreCase, completed := false, roots := List.replicate cfg.properties.length 0 }
        m.save
        pure m : M Metadata) st) := by
    intro x v e1 e2
    funext st
    simp only [newMetadata, WildcardConfig.metadataInput, e1, e2, M.bind_def, M.lift]
  simp only [createIndex, createAndFill, createEmpty, key a t h1 h3, key b u h2 h4, h5, hs]

theorem newWildcard_stat {lower : Bytes → Bytes} {cfg : WildcardConfig} {a b : Input} (h : SameStat a b) (hs : a.scan = b.scan) : (newWildcard lower cfg a none).2 = (newWildcard lower cfg b none).2 := by
  simp only [newWildcard, createIndex_stat h hs]
  split <;> rfl

/-- The file that a build leaves is the result of all its writes. Either it is never marked as complete, or the build succeeds and a part of the writes is marked as complete only if it
leaves the beginning of that file. -/
theorem createIndex_parts {lower : Bytes → Bytes} {cfg : WildcardConfig} {input : Input} (hnd : cfg.properties.Nodup) (hpos : PositionsFit input)
    (hb : (createIndex lower cfg input (Stream.new [] 0 cfg.bufferSize)).2.streamSize < 2^63) :
    let r := createIndex lower cfg input (Stream.new [] 0 cfg.bufferSize)
    r.2.file = replay [] r.2.log ∧
    ((∀ k j, flag (crashFile r.2.log k j) = 0) ∨ ((∃ index, r.1 = .ok index) ∧ ∀ k j, flag (crashFile r.2.log k j) = 0 ∨ crashFile r.2.log k j <+: r.2.file)) := by
  have hin : InputFails (fun _ => True) input cfg.properties := ⟨fun _ _ => trivial, fun _ _ => trivial, fun _ _ => trivial, fun _ _ _ _ => trivial, fun _ _ _ _ _ _ _ _ => trivial⟩
  have hwp := WPX.createAndFill (lower := lower) (E := fun _ => True) trivial hnd hin hpos (Stream.new [] 0 cfg.bufferSize) (Stream.new_inv [] _) rfl
  have hmono : ∀ r : Metadata × WIndex, Mono (do
      Metadata.save { r.1 with completed := true }
      mFlush
      pure r.2 : M WIndex) := fun r => Mono.bind (Mono.replace _ _) fun _ => Mono.bind Mono.flush fun _ => Mono.pure _
  have hdef : createIndex lower cfg input = (createAndFill lower cfg input >>= fun r => (do
      Metadata.save { r.1 with completed := true }
      mFlush
      pure r.2 : M WIndex)) := rfl
  rw [hdef, M.bind_def] at hb ⊢
  cases hc : createAndFill lower cfg input (Stream.new [] 0 cfg.bufferSize) with
  | mk res s =>
    rw [hc] at hb hwp
    cases res with
    | error e =>
      simp only at hb ⊢
      obtain ⟨_, ⟨hfl, ext, hlog, hfile, hext⟩, _, _⟩ := hwp hb
      simp only at hlog hfile hfl
      have hl : s.log = ext := by rw [hlog]; rfl
      refine ⟨by rw [hl]; exact hfile, .inl ?_⟩
      intro k j
      rw [hl]
      exact flag_crashFile hext k j
    | ok r =>
      simp only at hb ⊢
      obtain ⟨h1, h2, h3, _⟩ := hwp (Nat.lt_of_le_of_lt (hmono r s) hb)
      obtain ⟨size, t, offsets, _, _, hr, _, own, _, _, hm, _⟩ := h3 r rfl
      have hfin := finish_log (idx := r.2) h1 h2 hm
      rw [← hr] at hfin
      refine ⟨hfin.2.1, .inr ⟨?_, fun k j => by rw [← hfin.1]; exact hfin.2.2 k j⟩⟩
      rw [hr]
      obtain ⟨s', b1, _⟩ := Stream.replace_spec h1 0 ({ buildMeta cfg size t offsets false with completed := true } : Metadata).serialize (Nat.zero_le _)
      have hsave : Metadata.save { buildMeta cfg size t offsets false with completed := true } s = (.ok (), s') := b1
      exact ⟨r.2, by simp only [M.bind_def, hsave]; rfl⟩

theorem readOffsets_append (rest : Bytes) : ∀ {n : Nat} {data : Bytes} {l : List Nat}, readOffsets n data = .ok l → readOffsets n (data ++ rest) = .ok l
  | 0, _, _, h => h
  | n + 1, data, l, h => by
    simp only [readOffsets, bind, Except.bind] at h ⊢
    by_cases hl : data.length < 8
    · rw [readBytes_err hl] at h
      cases h
    · rw [readBytes_ok (by omega)] at h
      rw [readBytes_ok (by rw [List.length_append]; omega), List.take_append_of_le_length (by omega), List.drop_append_of_le_length (by omega)]
      dsimp only at h ⊢
      cases hr : readOffsets n (List.drop 8 data) with
      | error e =>
        rw [hr] at h
        cases h
      | ok l' =>
        rw [hr] at h
        rw [readOffsets_append rest hr]
        exact h

/-- A header that can be read from the beginning of a file is that of the file. -/
theorem unserialize_append {file rest : Bytes} {m : Metadata} (h : Metadata.unserialize file = .ok m) : Metadata.unserialize (file ++ rest) = .ok m := by
  by_cases hl : file.length < 47
  · rw [unserialize_short hl] at h
    cases h
  · have hs : ∀ a n, a + n ≤ 47 → slice (file ++ rest) a n = slice file a n := by
      intro a n hn
      unfold slice
      rw [List.drop_append_of_le_length (by omega), List.take_append_of_le_length (by rw [List.length_drop]; omega)]
    have hc : rootCount (file ++ rest) = rootCount file := by
      unfold rootCount
      rw [hs _ _ (by omega)]
    rw [unserialize_long (by omega)] at h
    rw [unserialize_long (by rw [List.length_append]; omega), hc, List.drop_append_of_le_length (by omega)]
    split at h
    · cases h
    · rename_i hn
      rw [if_neg hn]
      cases hr : readOffsets (rootCount file).toNat (List.drop 47 file) with
      | error e =>
        rw [hr] at h
        cases h
      | ok roots =>
        rw [hr] at h
        rw [readOffsets_append rest hr]
        cases h
        simp only [Except.map, headerOf, hs _ _ (show 0 + 19 ≤ 47 by omega), hs _ _ (show 19 + 2 ≤ 47 by omega), hs _ _ (show 21 + 8 ≤ 47 by omega), hs _ _ (show 29 + 8 ≤ 47 by omega),
          hs _ _ (show 37 + 1 ≤ 47 by omega), hs _ _ (show 38 + 1 ≤ 47 by omega)]

/-- What an input is for the file of a wildcard index: positions, size and time in 64 bits, and a file that is not too large. -/
structure WildcardFits (lower : Bytes → Bytes) (cfg : WildcardConfig) (input : Input) : Prop where
  positions : PositionsFit input
  small : (createIndex lower cfg input (Stream.new [] 0 cfg.bufferSize)).2.streamSize < 2^63
  size : ∀ n, input.size = .ok n → Int64Range n
  time : ∀ t, input.modTimeNs = .ok t → Int64Range (unixSeconds t)

/-- What any part of a build leaves is refused if the size or the second of the input has changed since. -/
theorem crash_other {lower : Bytes → Bytes} {cfg : WildcardConfig} {input input' : Input} (hnd : cfg.properties.Nodup) (hfit : WildcardFits lower cfg input') (hne : ¬ SameStat input' input)
    (k j : Nat) (w : Wildcard) :
    (newWildcard lower cfg input (some (crashFile (createIndex lower cfg input' (Stream.new [] 0 cfg.bufferSize)).2.log k j))).1 ≠ .ok w := by
  intro h
  have refused : ∀ {file : Bytes}, flag file = 0 → (newWildcard lower cfg input (some file)).1 ≠ .ok w := by
    intro file hf hx
    obtain ⟨e, he⟩ := newWildcard_flag (lower := lower) (cfg := cfg) (input := input) hf
    rw [he] at hx
    cases hx
  obtain ⟨_, hp | ⟨⟨index, hok⟩, hp⟩⟩ := createIndex_parts hnd hfit.positions hfit.small
  · exact refused (hp k j) h
  · rcases hp k j with hf | ⟨rest, hrest⟩
    · exact refused hf h
    · obtain ⟨m, t, hm, _, _, _, h5, h6, h7, _⟩ := C10_accepted_header_partial lower cfg input _ w h
      have hk : ∃ size v, input'.size = .ok size ∧ input'.modTimeNs = .ok v := by
        have hb := hok
        simp only [createIndex, createAndFill, createEmpty, newMetadata, WildcardConfig.metadataInput, M.bind_def, M.lift] at hb
        cases e1 : input'.size with
        | error e =>
          rw [e1] at hb
          cases hb
        | ok size =>
          cases e2 : input'.modTimeNs with
          | error e =>
            rw [e1, e2] at hb
            cases hb
          | ok v => exact ⟨size, v, rfl, rfl⟩
      obtain ⟨size, v, e1, e2⟩ := hk
      have hhead := createIndex_header e1 e2 (hfit.size size e1) (hfit.time v e2) hok
      have hm' := unserialize_append (rest := rest) hm
      rw [hrest] at hm'
      obtain ⟨g1, g2⟩ := hhead m hm'
      exact hne ⟨size, v, t, e1, by rw [h5, g1], e2, h6, by rw [← g2, h7]; rfl⟩

/-- The file for another input is the one that is needed, or it is refused. -/
theorem newWildcard_other {lower : Bytes → Bytes} {cfg : WildcardConfig} {input input' : Input} (hnd : cfg.properties.Nodup) (hfit : WildcardFits lower cfg input')
    (hsame : SameStat input' input → input'.scan = input.scan) : (newWildcard lower cfg input' none).2 = (newWildcard lower cfg input none).2 ∨
      ∀ w, (newWildcard lower cfg input (some (newWildcard lower cfg input' none).2)).1 ≠ .ok w := by
  by_cases hs : SameStat input' input
  · exact .inl (newWildcard_stat hs (hsame hs))
  · right
    have hfile : (newWildcard lower cfg input' none).2 = (createIndex lower cfg input' (Stream.new [] 0 cfg.bufferSize)).2.file := by
      simp only [newWildcard]
      split <;> (rename_i h; rw [h])
    have hall := crash_other (lower := lower) (input := input) hnd hfit hs (createIndex lower cfg input' (Stream.new [] 0 cfg.bufferSize)).2.log.length 0
    have : crashFile (createIndex lower cfg input' (Stream.new [] 0 cfg.bufferSize)).2.log (createIndex lower cfg input' (Stream.new [] 0 cfg.bufferSize)).2.log.length 0 =
        (createIndex lower cfg input' (Stream.new [] 0 cfg.bufferSize)).2.file := by
      unfold crashFile
      rw [List.getElem?_eq_none (Nat.le_refl _), List.take_length, (createIndex_parts hnd hfit.positions hfit.small).1]
    rw [hfile, ← this]
    exact hall

end Rodb
