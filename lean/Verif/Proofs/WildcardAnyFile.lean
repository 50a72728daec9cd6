import Verif.Spec.WildcardFile
import Verif.Proofs.WildcardCut
import Verif.Proofs.WildcardAccept
/-
  Lemmas for C10 and C11: what opening does with any file.
-/
namespace Rodb
open Spec

theorem readOffsets_exact : ∀ (n : Nat) (data : Bytes), 8 * n ≤ data.length →
    ∃ l, readOffsets n data = .ok l ∧ l.length = n ∧ ∀ k, k < n → l[k]? = some (ofBE (slice data (8 * k) 8))
  | 0, _, _ => ⟨[], rfl, rfl, fun _ h => absurd h (Nat.not_lt_zero _)⟩
  | n + 1, data, h => by
    obtain ⟨l, h1, h2, h3⟩ := readOffsets_exact n (data.drop 8) (by rw [List.length_drop]; omega)
    refine ⟨ofBE (data.take 8) :: l, ?_, by simp [h2], fun k hk => ?_⟩
    · simp only [readOffsets, bind, Except.bind, readBytes_ok (show 8 ≤ data.length by omega), h1]
    · cases k with
      | zero => simp [slice]
      | succ k =>
        rw [List.getElem?_cons_succ, h3 k (by omega)]
        simp only [slice, List.drop_drop]
        rw [show 8 + 8 * k = 8 * (k + 1) by omega]

theorem byte_zero {file : Bytes} {k : Nat} (h : k < file.length) : slice file k 1 ≠ [0] ↔ numberAt file k 1 ≠ 0 := by
  have : (file.drop k).take 1 = [file[k]] := by
    rw [List.drop_eq_getElem_cons h]; rfl
  simp only [slice, numberAt, this, List.foldl_cons, List.foldl_nil, ne_eq, List.cons.injEq, and_true, Nat.zero_mul, Nat.zero_add]
  constructor
  · intro h1 h2; exact h1 (UInt8.toNat_inj.1 h2)
  · intro h1 h2; exact h1 (by rw [h2]; rfl)

/-- What the checks of the header accept. -/
theorem header_valid {file : Bytes} {roots : List Nat} {cfg : WildcardConfig} {input : Input} (hl : 47 ≤ file.length) (hr : (roots.length : Int) = signedAt file 39)
    (hlen : 47 + 8 * roots.length ≤ file.length) :
    (headerOf file roots).assertValid (cfg.metadataInput input) = .ok () ↔
      ∃ size t, input.size = .ok size ∧ input.modTimeNs = .ok t ∧ HeaderFor file size (t / 10^9) cfg.ignoreCase cfg.properties.length := by
  have hic : (headerOf file roots).ignoreCase = cfg.ignoreCase ↔ (numberAt file 37 1 ≠ 0 ↔ cfg.ignoreCase = true) := by
    simp only [headerOf, byte_zero (show 37 < file.length by omega)]
    cases cfg.ignoreCase <;> simp
  have hco : (headerOf file roots).completed = true ↔ numberAt file 38 1 ≠ 0 := by
    simp only [headerOf, byte_zero (show 38 < file.length by omega), decide_eq_true_eq]
  rw [assertValid_ok]
  constructor
  · rintro ⟨h1, h2, ⟨t, h3, h4⟩, h5, h6, h7, h8⟩
    replace h8 : roots.length = cfg.properties.length := h8
    refine ⟨_, t, h5, h3, ⟨by omega, h2, h1, ?_, rfl, hic.1 h6, hco.1 h7, by rw [← h8, hr]⟩⟩
    have : signedAt file 21 = unixSeconds t := h4
    rw [this]
    rfl
  · rintro ⟨size, t, h1, h2, h⟩
    have h8 : (cfg.properties.length : Int) = roots.length := by rw [← h.count, hr]
    refine ⟨h.version, h.magic, ⟨t, h2, ?_⟩, ?_, hic.2 h.case, hco.2 h.complete, show roots.length = cfg.properties.length by omega⟩
    · exact h.second
    · show input.size = .ok (signedAt file 29)
      rw [h1, h.size]

/-- Reading the root at a place of the file. -/
theorem getRootNode_cases {m : Metadata} {i r : Nat} {f : Bytes} {b : Nat} (hr : m.roots[i]? = some r) :
    ((r = 0 ∨ r + 56 ≤ f.length) ∧ ∃ o, m.getRootNode i (Stream.new f f.length b) = (.ok o, Stream.new f f.length b)) ∨
    (¬ (r = 0 ∨ r + 56 ≤ f.length) ∧ ¬ (f.length ≤ r ∧ r < 2^63 ∧ 2^63 ≤ r - f.length + 56) ∧
      ∃ msg, m.getRootNode i (Stream.new f f.length b) = (.error (.err msg), Stream.new f f.length b)) ∨
    (¬ (r = 0 ∨ r + 56 ≤ f.length) ∧ (f.length ≤ r ∧ r < 2^63 ∧ 2^63 ≤ r - f.length + 56) ∧
      ∃ msg, m.getRootNode i (Stream.new f f.length b) = (.error (.panic msg), Stream.new f f.length b)) := by
  have hi := Stream.new_inv f b
  have hc : (Stream.new f f.length b).content = f := by simp [Stream.content, Stream.new]
  have hoff : (Stream.new f f.length b).bufferOffset = f.length := rfl
  unfold Metadata.getRootNode
  rw [hr]
  simp only [hoff, treeNodeSize]
  by_cases hp : f.length ≤ r ∧ r < 2^63 ∧ 2^63 ≤ r - f.length + 56
  · rw [if_pos hp]
    exact .inr (.inr ⟨by omega, hp, _, rfl⟩)
  · rw [if_neg hp]
    unfold getTreeNode
    by_cases h0 : r = 0
    · rw [if_pos h0]
      exact .inl ⟨.inl h0, _, rfl⟩
    · rw [if_neg h0]
      simp only [M.bind_def, mGet]
      by_cases hle : r + 56 ≤ f.length
      · rw [Stream.get_spec hi r treeNodeSize (by rw [hc]; exact hle)]
        exact .inl ⟨.inr hle, _, rfl⟩
      · obtain ⟨x, hx⟩ := Stream.get_err hi r treeNodeSize (by rw [hc]; exact hle)
        rw [hx]
        exact .inr (.inl ⟨by omega, hp, _, rfl⟩)

/-- The roots are read exactly if all of them are in the file. -/
theorem loadRoots_ok_iff {m : Metadata} {f : Bytes} {b : Nat} : ∀ (props : List String) (i : Nat) (index : WIndex), i + props.length ≤ m.roots.length →
    ((∃ x, (loadRoots m props i index (Stream.new f f.length b)).1 = .ok x) ↔
      ∀ k, i ≤ k → k < i + props.length → ∀ r, m.roots[k]? = some r → r = 0 ∨ r + 56 ≤ f.length)
  | [], i, index, _ => ⟨fun _ k h1 h2 => absurd h2 (by simp only [List.length_nil]; omega), fun _ => ⟨index, rfl⟩⟩
  | p :: props, i, index, h => by
    simp only [List.length_cons] at h ⊢
    have hr : m.roots[i]? = some m.roots[i] := List.getElem?_eq_getElem (by omega)
    simp only [loadRoots, M.bind_def]
    rcases getRootNode_cases (f := f) (b := b) hr with ⟨h1, o, h2⟩ | ⟨h1, _, msg, h2⟩ | ⟨h1, _, msg, h2⟩
    · rw [h2]
      refine Iff.trans (loadRoots_ok_iff props (i + 1) _ (by omega)) ?_
      constructor
      · intro hk k k1 k2 r hr'
        by_cases he : k = i
        · subst he
          rw [hr] at hr'
          cases hr'
          exact h1
        · exact hk k (by omega) (by omega) r hr'
      · intro hk k k1 k2
        exact hk k (by omega) (by omega)
    · rw [h2]
      exact ⟨fun ⟨x, hx⟩ => (by cases hx), fun hk => absurd (hk i (Nat.le_refl _) (by omega) _ hr) h1⟩
    · rw [h2]
      exact ⟨fun ⟨x, hx⟩ => (by cases hx), fun hk => absurd (hk i (Nat.le_refl _) (by omega) _ hr) h1⟩

theorem signedAt_toI64 (file : Bytes) : signedAt file 39 = rootCount file := rfl

/-- Opening fails as reading the header does, or the checks, or reading the roots. -/
theorem opening_stages (lower : Bytes → Bytes) (cfg : WildcardConfig) (input : Input) (file : Bytes) :
    (file.length < 47 ∧ ∃ msg, (newWildcard lower cfg input (some file)).1 = .error (.err msg)) ∨
    (47 ≤ file.length ∧ (signedAt file 39 < 0 ∨ signedAt file 39 > 2^45) ∧ ∃ msg, (newWildcard lower cfg input (some file)).1 = .error (.panic msg)) ∨
    (47 ≤ file.length ∧ 0 ≤ signedAt file 39 ∧ signedAt file 39 ≤ 2^45 ∧ (file.length : Int) < 47 + 8 * signedAt file 39 ∧
      ∃ msg, (newWildcard lower cfg input (some file)).1 = .error (.err msg)) ∨
    (47 ≤ file.length ∧ ∃ roots : List Nat, (roots.length : Int) = signedAt file 39 ∧ roots.length ≤ 2^45 ∧ 47 + 8 * roots.length ≤ file.length ∧
      (∀ k, k < roots.length → roots[k]? = some (rootAt file k)) ∧
      (newWildcard lower cfg input (some file)).1 = (match (headerOf file roots).assertValid (cfg.metadataInput input) with
        | .error e => .error e
        | .ok () => (loadRoots (headerOf file roots) cfg.properties 0 [] (Stream.new file file.length cfg.bufferSize)).1.map
            (fun index => { config := cfg, inputName := input.name, index := index, stream := Stream.new file file.length cfg.bufferSize }))) := by
  have h := newWildcard_load lower cfg input file
  rw [loadIndex_new] at h
  by_cases hl : file.length < 47
  · rw [unserialize_short hl] at h
    exact .inl ⟨hl, _, h⟩
  · rw [unserialize_long (by omega)] at h
    by_cases hc : rootCount file < 0 ∨ rootCount file > maxSliceLen
    · rw [if_pos hc] at h
      exact .inr (.inl ⟨by omega, hc, _, h⟩)
    · rw [if_neg hc] at h
      have hm : maxSliceLen = 2^45 := rfl
      rw [← signedAt_toI64, hm] at hc
      rw [← signedAt_toI64] at h
      by_cases hs : (file.length : Int) < 47 + 8 * signedAt file 39
      · rw [readOffsets_short _ _ (by rw [List.length_drop]; omega)] at h
        exact .inr (.inr (.inl ⟨by omega, by omega, by omega, hs, _, h⟩))
      · obtain ⟨roots, h1, h2, h3⟩ := readOffsets_exact (signedAt file 39).toNat (file.drop 47) (by rw [List.length_drop]; omega)
        rw [h1] at h
        refine .inr (.inr (.inr ⟨by omega, roots, by omega, by omega, by omega, fun k hk => ?_, ?_⟩))
        · rw [h3 k (by omega)]
          simp only [slice, List.drop_drop]
          rfl
        · rw [h]
          simp only [Except.map]
          cases (headerOf file roots).assertValid (cfg.metadataInput input) <;> rfl

end Rodb
