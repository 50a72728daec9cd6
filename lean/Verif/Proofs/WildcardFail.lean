import Verif.Proofs.WildcardLife
/-
  Builds on arbitrary inputs: whatever fails, and wherever the process stops before the metadata is
  marked as completed, the file is not marked as completed.
-/
namespace Rodb
open Spec Forest

/-- Like `WP`, for code that may fail: the stream stays consistent and the completion flag untouched;
failures satisfy `E`. -/
def WPX {α : Type} (E : Fail → Prop) (c : Bytes) (m : M α) (Q : α → Bytes → Prop) : Prop :=
  ∀ s : Stream, s.Inv → s.content = c → (m s).2.streamSize < maxSize →
    (m s).2.Inv ∧ Quiet s (m s).2 ∧ (∀ a, (m s).1 = .ok a → Q a (m s).2.content) ∧
      (∀ e, (m s).1 = .error e → E e)

theorem WP.toX {α : Type} {E c} {m : M α} {Q} (h : WP c m Q) : WPX E c m Q := by
  intro s hi hc hb
  obtain ⟨a, s', h1, h2, h3, h4⟩ := h s hi hc hb
  rw [h1]
  refine ⟨h2, h3, ?_, ?_⟩
  · intro a' ha
    cases ha
    exact h4
  · intro e he
    cases he

theorem WPX.bind {α β : Type} {E c} {m : M α} {f : α → M β} {Q : β → Bytes → Prop}
    (hf : ∀ a, Mono (f a)) (h : WPX E c m (fun a c' => WPX E c' (f a) Q)) : WPX E c (m >>= f) Q := by
  intro s hi hc hb
  rw [M.bind_def] at hb ⊢
  have h1 := h s hi hc
  cases hm : m s with
  | mk r s' =>
    rw [hm] at hb h1
    cases r with
    | error e =>
      simp only at hb h1 ⊢
      obtain ⟨h2, h3, _, h5⟩ := h1 hb
      refine ⟨h2, h3, ?_, ?_⟩
      · intro a ha
        cases ha
      · intro e' he
        cases he
        exact h5 e rfl
    | ok a =>
      simp only at hb h1 ⊢
      obtain ⟨h2, h3, h4, _⟩ := h1 (Nat.lt_of_le_of_lt (hf a s') hb)
      obtain ⟨h6, h7, h8, h9⟩ := h4 a rfl s' h2 rfl hb
      exact ⟨h6, h3.trans h7, h8, h9⟩

theorem WPX.pure {α : Type} {E c} {a : α} {Q : α → Bytes → Prop} (h : Q a c) : WPX E c (Pure.pure a : M α) Q :=
  (WP.pure h).toX

theorem WPX.fail {α : Type} {E : Fail → Prop} {c} {e : Fail} {Q : α → Bytes → Prop} (h : E e) : WPX E c (M.fail e : M α) Q := by
  intro s hi hc _
  refine ⟨hi, Quiet.refl _, ?_, ?_⟩
  · intro a ha
    cases ha
  · intro e' he
    cases he
    exact h

theorem WPX.lift {α : Type} {E : Fail → Prop} {c} {r : Res α} {Q : α → Bytes → Prop}
    (hok : ∀ a, r = .ok a → Q a c) (he : ∀ e, r = .error e → E e) : WPX E c (M.lift r) Q := by
  intro s hi hc _
  exact ⟨hi, Quiet.refl _, fun a ha => by subst hc; exact hok a ha, he⟩

/-- Some trees of the properties `keys` are in place under the metadata `mb`. -/
def Built (keys : List String) (mb : Bytes) (index : WIndex) (c : Bytes) : Prop :=
  ∃ own T roots, MetaAt c own mb ∧ Trees c own T roots ∧ roots.map (·.1) = keys ∧ index = indexOf roots

theorem WPX.addString {E lower cfg keys mb index c} {p : String} {s : Bytes} {pos : Int}
    (hnd : keys.Nodup) (hp : p ∈ keys) (hpos : InI64 pos) (h : Built keys mb index c) :
    WPX E c (addString lower cfg index p s pos) (Built keys mb) := by
  obtain ⟨own, T, roots, hm, ht, hk, rfl⟩ := h
  subst hk
  refine (WP.addString hnd hp hpos hm ht ?_).toX
  intro c' own' roots' h1 h2 h3 _
  exact ⟨own', _, roots', h1, h2, h3, rfl⟩

mutual
theorem WPX.addValueToIndex {E : Fail → Prop} {lower cfg keys mb} {p : String} {pos : Int}
    (hE : E (.err "Cannot index the value because it is not a string"))
    (hnd : keys.Nodup) (hp : p ∈ keys) (hpos : InI64 pos) :
    ∀ (v : Value) {index c}, Built keys mb index c →
      WPX E c (addValueToIndex lower cfg index p v pos) (Built keys mb)
  | .str s, index, c, h => WPX.addString hnd hp hpos h
  | .arr l, index, c, h => by
    rw [Rodb.addValueToIndex]
    refine WPX.bind (fun _ => Mono.fail _) ?_
    intro s hi hc hb
    obtain ⟨h1, h2, h3, h4⟩ := WPX.addValuesToIndex hE hnd hp hpos l h s hi hc hb
    exact ⟨h1, h2, fun _ _ => WPX.fail hE, h4⟩
  | .null, index, c, h => WPX.fail hE
  | .bool _, index, c, h => WPX.fail hE
  | .int _, index, c, h => WPX.fail hE
  | .float _, index, c, h => WPX.fail hE
  | .obj _, index, c, h => WPX.fail hE
theorem WPX.addValuesToIndex {E : Fail → Prop} {lower cfg keys mb} {p : String} {pos : Int}
    (hE : E (.err "Cannot index the value because it is not a string"))
    (hnd : keys.Nodup) (hp : p ∈ keys) (hpos : InI64 pos) :
    ∀ (l : List Value) {index c}, Built keys mb index c →
      WPX E c (addValuesToIndex lower cfg index p l pos) (Built keys mb)
  | [], index, c, h => WPX.pure h
  | v :: vs, index, c, h => by
    rw [Rodb.addValuesToIndex]
    refine WPX.bind (fun _ => Mono.addValuesToIndex _ _ _ _ _ _) ?_
    intro s hi hc hb
    obtain ⟨h1, h2, h3, h4⟩ := WPX.addValueToIndex hE hnd hp hpos v h s hi hc hb
    exact ⟨h1, h2, fun a ha => WPX.addValuesToIndex hE hnd hp hpos vs (h3 a ha), h4⟩
end

theorem WPX.indexProperties {E : Fail → Prop} {lower cfg keys mb} {r : Rec}
    (hE : E (.err "Cannot index the value because it is not a string")) (hnd : keys.Nodup) (hpos : InI64 r.position)
    (hget : ∀ p ∈ keys, ∀ e, r.get p = .error e → E e) :
    ∀ {ps : List String} {index c}, (∀ p ∈ ps, p ∈ keys) → Built keys mb index c →
      WPX E c (indexProperties lower cfg r ps index) (Built keys mb) := by
  intro ps
  induction ps with
  | nil => intro index c _ h; exact WPX.pure h
  | cons p ps ih =>
    intro index c hin h
    unfold Rodb.indexProperties
    refine WPX.bind (fun _ => Mono.bind (Mono.addValueToIndex _ _ _ _ _ _) fun _ => Mono.indexProperties _ _ _ _ _) ?_
    refine WPX.lift ?_ (hget p (hin p List.mem_cons_self))
    intro v _
    refine WPX.bind (fun _ => Mono.indexProperties _ _ _ _ _) ?_
    intro s hi hc hb
    obtain ⟨h1, h2, h3, h4⟩ := WPX.addValueToIndex hE hnd (hin p List.mem_cons_self) hpos v h s hi hc hb
    exact ⟨h1, h2, fun a ha => ih (fun q hq => hin q (List.mem_cons_of_mem _ hq)) (h3 a ha), h4⟩

theorem WPX.indexRecords {E : Fail → Prop} {lower} {cfg : WildcardConfig} {mb}
    (hE : E (.err "Cannot index the value because it is not a string")) (hnd : cfg.properties.Nodup) :
    ∀ {rs : List (Res Rec)} {index c},
      (∀ r ∈ rs, ∀ e, r = .error e → E e) →
      (∀ r rec, r ∈ rs → r = .ok rec → InI64 rec.position ∧ ∀ p ∈ cfg.properties, ∀ e, rec.get p = .error e → E e) →
      Built cfg.properties mb index c →
      WPX E c (indexRecords lower cfg rs index) (Built cfg.properties mb) := by
  intro rs
  induction rs with
  | nil => intro index c _ _ h; exact WPX.pure h
  | cons r rs ih =>
    intro index c he hr h
    unfold Rodb.indexRecords
    refine WPX.bind (fun _ => Mono.bind (Mono.indexProperties _ _ _ _ _) fun _ => Mono.indexRecords _ _ _ _) ?_
    refine WPX.lift ?_ (he r List.mem_cons_self)
    intro rec hrec
    obtain ⟨hp, hg⟩ := hr r rec List.mem_cons_self hrec
    refine WPX.bind (fun _ => Mono.indexRecords _ _ _ _) ?_
    intro s hi hc hb
    obtain ⟨h1, h2, h3, h4⟩ := WPX.indexProperties hE hnd hp hg (fun _ h => h) h s hi hc hb
    exact ⟨h1, h2, fun a ha => ih (fun r' h' => he r' (List.mem_cons_of_mem _ h'))
      (fun r' rec' h' => hr r' rec' (List.mem_cons_of_mem _ h')) (h3 a ha), h4⟩

theorem WPX.createAndFill {E : Fail → Prop} {lower} {cfg : WildcardConfig} {input : Input}
    (hE : E (.err "Cannot index the value because it is not a string")) (hnd : cfg.properties.Nodup)
    (hin : InputFails E input cfg.properties) (hpos : PositionsFit input) :
    WPX E [] (createAndFill lower cfg input) (fun r c => ∃ size t roots,
      input.size = .ok size ∧ input.modTimeNs = .ok t ∧
      r.1 = buildMeta cfg size t roots false ∧ roots.length = cfg.properties.length ∧
      Built cfg.properties (buildMeta cfg size t roots false).serialize r.2 c) := by
  unfold Rodb.createAndFill
  refine WPX.bind (fun _ => Mono.bind (Mono.lift _) fun _ => Mono.bind (Mono.indexRecords _ _ _ _) fun _ => Mono.pure _) ?_
  cases hs : input.size with
  | error e =>
    have hfail : createEmpty cfg input = M.fail e := by
      funext s
      simp [createEmpty, newMetadata, M.bind_def, WildcardConfig.metadataInput, hs, M.lift, M.fail]
    rw [hfail]
    exact WPX.fail (hin.size e hs)
  | ok size =>
    cases ht : input.modTimeNs with
    | error e =>
      have hfail : createEmpty cfg input = M.fail e := by
        funext s
        simp [createEmpty, newMetadata, M.bind_def, WildcardConfig.metadataInput, hs, ht, M.lift, M.fail]
      rw [hfail]
      exact WPX.fail (hin.modTime e ht)
    | ok t =>
      refine (WP.createEmpty hnd hs ht ?_).toX
      intro c own roots hm htr hk
      refine WPX.bind (fun _ => Mono.bind (Mono.indexRecords _ _ _ _) fun _ => Mono.pure _) ?_
      refine WPX.lift ?_ hin.scan
      intro rs hrs
      refine WPX.bind (fun _ => Mono.pure _) ?_
      intro s hi hc hb
      have hB : Built cfg.properties (buildMeta cfg size t (roots.map (·.2.1.offset)) false).serialize (indexOf roots) c :=
        ⟨own, _, roots, hm, htr, hk, rfl⟩
      obtain ⟨h1, h2, h3, h4⟩ := WPX.indexRecords (E := E) (lower := lower) (rs := rs) hE hnd (fun r hr e he => hin.next rs hrs e (he ▸ hr))
        (fun r rec hr he => ⟨hpos rs hrs rec (he ▸ hr), hin.get rs hrs rec (he ▸ hr)⟩) hB s hi hc hb
      refine ⟨h1, h2, ?_, h4⟩
      intro a ha
      have hl : (roots.map (·.2.1.offset)).length = cfg.properties.length := by
        rw [← hk]
        simp
      have hfin := h3 a ha
      generalize roots.map (·.2.1.offset) = offs at *
      refine WPX.pure ?_
      exact ⟨size, t, offs, rfl, rfl, rfl, hl, hfin⟩

/-- The fixed part of the metadata found in a file, with the given roots. -/
def headerOf (file : Bytes) (roots : List Nat) : Metadata :=
  { magic := slice file 0 19, version := ofBE (slice file 19 2), modTime := toI64 (ofBE (slice file 21 8)),
    size := toI64 (ofBE (slice file 29 8)), ignoreCase := decide (slice file 37 1 ≠ [0]),
    completed := decide (slice file 38 1 ≠ [0]), roots := roots }

/-- The number of root nodes announced in a file. -/
def rootCount (file : Bytes) : Int := toI64 (ofBE (slice file 39 8))

theorem readBytes_ok {n : Nat} {data : Bytes} (h : n ≤ data.length) : readBytes n data = .ok (data.take n, data.drop n) := by
  unfold readBytes; rw [if_neg (by omega)]
theorem readBytes_err {n : Nat} {data : Bytes} (h : data.length < n) : readBytes n data = .error (.err "EOF") := by
  unfold readBytes; rw [if_pos h]

theorem unserialize_short {file : Bytes} (h : file.length < 47) : Metadata.unserialize file = .error (.err "EOF") := by
  unfold Metadata.unserialize
  have hm : magicBytes.length = 19 := rfl
  rw [hm]
  by_cases h1 : file.length < 19
  · rw [readBytes_err h1]; rfl
  rw [readBytes_ok (by omega)]
  simp only [bind, Except.bind]
  by_cases h2 : file.length < 21
  · rw [readBytes_err (by rw [List.length_drop]; omega)]
  rw [readBytes_ok (by rw [List.length_drop]; omega)]
  simp only [List.drop_drop]
  by_cases h3 : file.length < 29
  · rw [readBytes_err (by rw [List.length_drop]; omega)]
  rw [readBytes_ok (by rw [List.length_drop]; omega)]
  simp only [List.drop_drop]
  by_cases h4 : file.length < 37
  · rw [readBytes_err (by rw [List.length_drop]; omega)]
  rw [readBytes_ok (by rw [List.length_drop]; omega)]
  simp only [List.drop_drop]
  by_cases h5 : file.length < 38
  · rw [readBytes_err (by rw [List.length_drop]; omega)]
  rw [readBytes_ok (by rw [List.length_drop]; omega)]
  simp only [List.drop_drop]
  by_cases h6 : file.length < 39
  · rw [readBytes_err (by rw [List.length_drop]; omega)]
  rw [readBytes_ok (by rw [List.length_drop]; omega)]
  simp only [List.drop_drop]
  rw [readBytes_err (by rw [List.length_drop]; omega)]

theorem unserialize_long {file : Bytes} (h : 47 ≤ file.length) : Metadata.unserialize file =
    if rootCount file < 0 ∨ rootCount file > maxSliceLen then .error (.panic "makeslice: len out of range")
    else (readOffsets (rootCount file).toNat (file.drop 47)).map (headerOf file) := by
  unfold Metadata.unserialize
  have hm : magicBytes.length = 19 := rfl
  rw [hm]
  rw [readBytes_ok (by omega)]
  simp only [bind, Except.bind]
  rw [readBytes_ok (by rw [List.length_drop]; omega)]
  simp only [List.drop_drop]
  rw [readBytes_ok (by rw [List.length_drop]; omega)]
  simp only [List.drop_drop]
  rw [readBytes_ok (by rw [List.length_drop]; omega)]
  simp only [List.drop_drop]
  rw [readBytes_ok (by rw [List.length_drop]; omega)]
  simp only [List.drop_drop]
  rw [readBytes_ok (by rw [List.length_drop]; omega)]
  simp only [List.drop_drop]
  rw [readBytes_ok (by rw [List.length_drop]; omega)]
  simp only [List.drop_drop]
  have : toI64 (ofBE (List.take 8 (List.drop (19 + 2 + 8 + 8 + 1 + 1) file))) = rootCount file := rfl
  rw [this]
  split
  · rfl
  · have : (19 + 2 + 8 + 8 + 1 + 1 + 8 : Nat) = 47 := rfl
    rw [this]
    generalize readOffsets (rootCount file).toNat (List.drop 47 file) = e
    cases e <;> rfl

theorem unserialize_flag {file : Bytes} {m : Metadata} (hm : Metadata.unserialize file = .ok m) (h : flag file = 0) :
    m.completed = false := by
  by_cases hl : file.length < 47
  · rw [unserialize_short hl] at hm; cases hm
  · rw [unserialize_long (by omega)] at hm
    split at hm
    · cases hm
    · generalize readOffsets (rootCount file).toNat (List.drop 47 file) = e at hm
      cases e with
      | error e => cases hm
      | ok roots =>
        cases hm
        have hs : slice file 38 1 = [0] := by
          unfold flag flagOffset at h
          unfold slice
          rw [List.getElem?_eq_getElem (by omega)] at h
          rw [List.drop_eq_getElem_cons (by omega), List.take_succ_cons, List.take_zero]
          simp only [Option.getD_some] at h
          rw [h]
        simp [headerOf, hs]

/-- A file whose flag is 0 is refused. -/
theorem newWildcard_flag {lower cfg input} {file : Bytes} (h : flag file = 0) :
    ∃ e, (newWildcard lower cfg input (some file)).1 = .error e := by
  have hno : ∀ m, Metadata.unserialize file = .ok m → m.completed = false := by
    intro m hm
    exact unserialize_flag hm h
  have hload : loadMetadata (Stream.new file file.length cfg.bufferSize) =
      (Metadata.unserialize file, Stream.new file file.length cfg.bufferSize) := rfl
  simp only [newWildcard, loadIndex, M.bind_def, hload]
  cases hu : Metadata.unserialize file with
  | error e => exact ⟨e, rfl⟩
  | ok m =>
    simp only [M.lift]
    have := hno m hu
    have hv : ∃ e, m.assertValid (cfg.metadataInput input) = .error e := by
      unfold Metadata.assertValid
      split
      · exact ⟨_, rfl⟩
      · split
        · exact ⟨_, rfl⟩
        · split
          · exact ⟨_, rfl⟩
          · split
            · exact ⟨_, rfl⟩
            · split
              · exact ⟨_, rfl⟩
              · split
                · exact ⟨_, rfl⟩
                · split
                  · exact ⟨_, rfl⟩
                  · exact ⟨_, rfl⟩
    obtain ⟨e, he⟩ := hv
    rw [he]
    exact ⟨e, rfl⟩

end Rodb
