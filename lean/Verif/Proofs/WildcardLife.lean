import Verif.Proofs.WildcardQuery
/-
  A whole build, its crash states, and reloading the file.
-/
namespace Rodb
open Spec Forest

theorem unix_range {t : Int} (h : Int64Range t) : InI64 (unixSeconds t) := by
  unfold unixSeconds InI64
  obtain ⟨h1, h2⟩ := h
  omega

theorem Metadata.save_run {s : Stream} {own mb} {m : Metadata} (hi : s.Inv) (hm : MetaAt s.content own mb)
    (hl : m.serialize.length = mb.length) :
    ∃ s', m.save s = (.ok (), s') ∧ s'.Inv ∧ MetaAt s'.content own m.serialize ∧
      Ext own s.content own s'.content (· = .other) ∧ s'.content.length = s.content.length ∧
      Writes s s' s'.content := by
  obtain ⟨s', h1, h2, h3, h4⟩ := Stream.replace_spec hi 0 m.serialize (Nat.zero_le _)
  have hw := Stream.replace_writes hi 0 m.serialize (Nat.zero_le _)
  rw [h1] at hw
  obtain ⟨g1, g2, g3⟩ := hm.rewrite hl
  rw [← h3] at g1 g2 g3
  exact ⟨s', h1, h2, g1, g2, g3, hw⟩

/-- A finished index on a stream: everything flushed, metadata complete, trees in place. -/
structure Finished (cfg : WildcardConfig) (size t : Int) (T : String → Trie) (index : WIndex) (s : Stream) : Prop where
  inv : s.Inv
  flushed : s.file = s.content
  small : s.content.length < maxSize
  data : ∃ own roots, MetaAt s.content own (buildMeta cfg size t (roots.map (·.2.1.offset)) true).serialize ∧
    Trees s.content own T roots ∧ roots.map (·.1) = cfg.properties ∧ index = indexOf roots

theorem createIndex_spec {lower} {cfg : WildcardConfig} {input : Input} {rows : List Row} {size t : Int}
    (hnd : cfg.properties.Nodup) (hs : input.size = .ok size) (ht : input.modTimeNs = .ok t)
    (htab : TextTable input cfg.properties rows)
    (hb : (createIndex lower cfg input (Stream.new [] 0 cfg.bufferSize)).2.streamSize < maxSize) :
    ∃ index s, createIndex lower cfg input (Stream.new [] 0 cfg.bufferSize) = (.ok index, s) ∧
      Finished cfg size t (fun p => trieOf (cfg.normalize lower) rows .nil p) index s := by
  have hwp := WP.createAndFill (lower := lower) (Q := fun r c => ∃ (own : Own) (roots : RootsOf),
      MetaAt c own (buildMeta cfg size t (roots.map (·.2.1.offset)) false).serialize ∧
      Trees c own (fun p => trieOf (cfg.normalize lower) rows .nil p) roots ∧ roots.map (·.1) = cfg.properties ∧
      r = (buildMeta cfg size t (roots.map (·.2.1.offset)) false, indexOf roots)) hnd hs ht htab
      (by
        intro c own roots h1 h2 h3
        exact ⟨own, roots, h1, h2, h3, rfl⟩)
  have hmono : ∀ r : Metadata × WIndex, Mono (do
      Metadata.save { r.1 with completed := true }
      mFlush
      pure r.2 : M WIndex) := fun r => Mono.bind (Mono.replace _ _) fun _ => Mono.bind Mono.flush fun _ => Mono.pure _
  have hdef : createIndex lower cfg input = (createAndFill lower cfg input >>= fun r => (do
      Metadata.save { r.1 with completed := true }
      mFlush
      pure r.2 : M WIndex)) := rfl
  rw [hdef] at hb ⊢
  have hb1 : (createAndFill lower cfg input (Stream.new [] 0 cfg.bufferSize)).2.streamSize < maxSize := by
    rw [M.bind_def] at hb
    revert hb
    cases hc : createAndFill lower cfg input (Stream.new [] 0 cfg.bufferSize) with
    | mk r s =>
      cases r with
      | ok a =>
        intro hb
        exact Nat.lt_of_le_of_lt (hmono a s) hb
      | error e => exact id
  obtain ⟨r, s1, h1, hi1, hq1, own, roots, hm, htr, hk, rfl⟩ := hwp (Stream.new [] 0 cfg.bufferSize) (Stream.new_inv [] _) rfl hb1
  rw [M.bind_def, h1] at hb ⊢
  simp only at hb ⊢
  have hmeta : ({ buildMeta cfg size t (roots.map (·.2.1.offset)) false with completed := true } : Metadata) =
    buildMeta cfg size t (roots.map (·.2.1.offset)) true := rfl
  rw [hmeta] at hb ⊢
  obtain ⟨s2, g1, g2, g3, g4, g5, g6⟩ := Metadata.save_run hi1 hm (m := buildMeta cfg size t (roots.map (·.2.1.offset)) true)
    (by rw [buildMeta_length, buildMeta_length])
  rw [M.bind_def, g1] at hb ⊢
  simp only [M.bind_def, mFlush, M.pure_def] at hb ⊢
  have hf := Stream.flush_spec g2
  refine ⟨_, _, rfl, hf.1, hf.2.2.1.trans hf.2.1.symm, ?_, own, roots, ?_, ?_, hk, rfl⟩
  · rw [hf.1.len]; exact hb
  · rw [hf.2.1]; exact g3
  · rw [hf.2.1]; exact htr.frame_other g4 htr.wf

/-- A stream freshly opened on the file of a finished index. -/
theorem loadRoots_spec {T c own} {m : Metadata} {all : RootsOf}
    (htr : Trees c own T all) (hm : m.roots = all.map (·.2.1.offset)) {s : Stream} (hi : s.Inv) (hc : s.content = c)
    (hfl : s.bufferOffset = c.length) (hsm : c.length < maxSize) :
    ∀ {rest done : RootsOf}, all = done ++ rest → (all.map (·.1)).Nodup →
      loadRoots m (rest.map (·.1)) done.length (indexOf done) s = (.ok (indexOf all), s) := by
  intro rest
  induction rest with
  | nil => intro done h _; simp only [List.append_nil] at h; subst h; rfl
  | cons x rest ih =>
    intro done h hnd
    obtain ⟨p, r, f⟩ := x
    have hx : (p, r, f) ∈ all := by rw [h]; simp
    have hcell := (htr.rep _ hx).cell
    simp only at hcell
    have hget : m.roots[done.length]? = some r.offset := by
      rw [hm, h]
      simp
    have hnode : m.getRootNode done.length s = (.ok (some r), s) := by
      unfold Metadata.getRootNode
      rw [hget]
      simp only
      have := hcell.le
      rw [if_neg (by omega)]
      subst hc
      obtain ⟨a, h1, h2⟩ := (WP.getTreeNode (Q := fun a _ => a = some r) hcell rfl).run (ReadOnly.getTreeNode _) hi hsm
      rw [h1, h2]
    have hpn : p ∉ done.map (·.1) := by
      rw [h, List.map_append, List.nodup_append] at hnd
      intro hp
      exact hnd.2.2 p hp p (by simp) rfl
    simp only [List.map_cons, loadRoots, M.bind_def, hnode]
    rw [mapSet_indexOf_new r f hpn]
    have hlen : done.length + 1 = (done ++ [(p, r, f)]).length := by simp
    rw [hlen]
    exact ih (by rw [h]; simp) hnd

theorem roots_fit {c own T} {roots : RootsOf} (h : Trees c own T roots) (hc : c.length < maxSize) :
    ∀ o ∈ roots.map (·.2.1.offset), o < 2^64 := by
  intro o ho
  obtain ⟨x, hx, rfl⟩ := List.mem_map.mp ho
  have := (h.rep x hx).cell.le
  simp only [maxSize] at hc
  omega

theorem buildMeta_fits {cfg size t roots b} (h1 : Int64Range size) (h2 : Int64Range t)
    (h3 : (roots.length : Int) ≤ maxSliceLen) (h4 : ∀ o ∈ roots, o < 2^64) : (buildMeta cfg size t roots b).Fits :=
  ⟨rfl, by simp [buildMeta, currentVersion], unix_range h2, h1, h3, h4⟩

theorem roots_count {c own mb} {roots : RootsOf} (hm : MetaAt c own mb)
    {cfg size t b} (he : mb = (buildMeta cfg size t (roots.map (·.2.1.offset)) b).serialize) :
    47 + 8 * roots.length ≤ c.length := by
  have := hm.le
  rw [he, buildMeta_length] at this
  simpa using this

/-- Reloading: same configuration, same input size and same modification second. -/
theorem loadIndex_spec {cfg : WildcardConfig} {size t : Int} {T : String → Trie} {index : WIndex} {s : Stream}
    (hf : Finished cfg size t T index s) (hnd : cfg.properties.Nodup)
    (h1 : Int64Range size) (h2 : Int64Range t) (hcount : (cfg.properties.length : Int) ≤ maxSliceLen)
    {input : Input} {t' : Int} (hs : input.size = .ok size) (ht : input.modTimeNs = .ok t')
    (htt : unixSeconds t' = unixSeconds t) :
    loadIndex cfg input (Stream.new s.file s.file.length cfg.bufferSize) =
      (.ok index, Stream.new s.file s.file.length cfg.bufferSize) := by
  obtain ⟨own, roots, hm, htr, hk, rfl⟩ := hf.data
  have hfile := hf.flushed
  have hcontent : (Stream.new s.file s.file.length cfg.bufferSize).content = s.content := by
    show s.file ++ [] = s.content
    rw [List.append_nil, hfile]
  have hlen : roots.length = cfg.properties.length := by rw [← hk]; simp
  have hfits : (buildMeta cfg size t (roots.map (·.2.1.offset)) true).Fits :=
    buildMeta_fits h1 h2 (by rw [List.length_map, hlen]; exact hcount) (roots_fit htr hf.small)
  have hun : Metadata.unserialize s.file = .ok (buildMeta cfg size t (roots.map (·.2.1.offset)) true) := by
    rw [hfile]
    have hle := hm.le
    have heq := hm.eq
    generalize hmb : (buildMeta cfg size t (roots.map (·.2.1.offset)) true).serialize = mb at *
    have hsplit : s.content = mb ++ s.content.drop mb.length := by
      rw [← List.take_append_drop mb.length s.content]
      have : List.take mb.length s.content = mb := by simpa [slice] using heq
      rw [this]
      simp
    rw [hsplit, ← hmb]
    exact Metadata.unserialize_serialize _ hfits _
  have hload : loadMetadata (Stream.new s.file s.file.length cfg.bufferSize) =
      (.ok (buildMeta cfg size t (roots.map (·.2.1.offset)) true), Stream.new s.file s.file.length cfg.bufferSize) := by
    exact congrArg (fun r => (r, Stream.new s.file s.file.length cfg.bufferSize)) hun
  have hval : (buildMeta cfg size t (roots.map (·.2.1.offset)) true).assertValid (cfg.metadataInput input) = .ok () := by
    simp [Metadata.assertValid, buildMeta, WildcardConfig.metadataInput, hs, ht, htt, hlen]
  unfold loadIndex
  simp only [M.bind_def, hload, M.lift, hval]
  have := loadRoots_spec (m := buildMeta cfg size t (roots.map (·.2.1.offset)) true) htr rfl
    (s := Stream.new s.file s.file.length cfg.bufferSize) (Stream.new_inv _ _) hcontent
    (by simp [Stream.new, hfile]) hf.small (rest := roots) (done := []) (by simp) (by rw [hk]; exact hnd)
  rw [hk] at this
  exact this

theorem Finished.ready {cfg : WildcardConfig} {size t : Int} {T : String → Trie} {index : WIndex} {s : Stream}
    (hf : Finished cfg size t T index s) (hnd : cfg.properties.Nodup) (name : String) :
    Ready { config := cfg, inputName := name, index := index, stream := s } T := by
  obtain ⟨own, roots, hm, htr, hk, hx⟩ := hf.data
  exact ⟨hf.inv, hf.small, hnd, own, roots, htr, hk, hx⟩

theorem Finished.ready_reload {cfg : WildcardConfig} {size t : Int} {T : String → Trie} {index : WIndex} {s : Stream}
    (hf : Finished cfg size t T index s) (hnd : cfg.properties.Nodup) (name : String) (b : Nat) :
    Ready { config := cfg, inputName := name, index := index, stream := Stream.new s.file s.file.length b } T := by
  obtain ⟨own, roots, hm, htr, hk, hx⟩ := hf.data
  have hcontent : (Stream.new s.file s.file.length b).content = s.content := by
    show s.file ++ [] = s.content
    rw [List.append_nil, hf.flushed]
  exact ⟨Stream.new_inv _ _, by rw [hcontent]; exact hf.small, hnd, own, roots, by rw [hcontent]; exact htr, hk, hx⟩

/-! ### What the tries answer -/

theorem trieOf_lookup (norm : Bytes → Bytes) (rows : List Row) (p : String) (w : Bytes) (hw : w ≠ [])
    (hinc : (rows.map Row.pos).Pairwise (· < ·)) :
    ((trieOf norm rows .nil p).lookup w).getD [] = positionsWhere rows (fun r => decide (w <:+: norm (r.text p))) ∧
      (∀ ps, (trieOf norm rows .nil p).lookup w = some ps → ps ≠ []) := by
  have h := Trie.lookup_build w hw (rows.map (fun r => (norm (r.text p), r.pos))) .nil (by simp [Trie.lookup])
    (by simpa [Function.comp_def] using hinc) (by simp [Trie.lookup])
  refine ⟨?_, h.2⟩
  have h1 := h.1
  simp only [Trie.lookup, Option.getD_none, List.nil_append] at h1
  unfold trieOf
  rw [h1]
  simp [Trie.containing, positionsWhere, List.filter_map, Function.comp_def]

theorem filterSpec_text {props : List String} {norm : Bytes → Bytes} {rows : List Row}
    (hinc : (rows.map Row.pos).Pairwise (· < ·)) : ∀ (query : List (String × Bytes)),
    (∀ pq ∈ query, pq.1 ∈ props ∧ norm pq.2 ≠ []) →
    (filterSpec props norm (fun p => trieOf norm rows .nil p) (textFilters query) = .ok none ∧
      ∃ pq ∈ query, positionsWhere rows (fun r => decide (norm pq.2 <:+: norm (r.text pq.1))) = []) ∨
    filterSpec props norm (fun p => trieOf norm rows .nil p) (textFilters query) =
      .ok (some (query.map (fun pq => positionsWhere rows (fun r => decide (norm pq.2 <:+: norm (r.text pq.1)))))) := by
  intro query
  induction query with
  | nil => intro _; right; rfl
  | cons pq query ih =>
    intro h
    obtain ⟨p, q⟩ := pq
    obtain ⟨hp, hq⟩ := h (p, q) List.mem_cons_self
    simp only at hp hq
    have hl := (trieOf_lookup norm rows p (norm q) hq hinc).1
    simp only [textFilters, List.map_cons, filterSpec, if_neg (not_not_intro hp), if_neg hq]
    cases hlk : (trieOf norm rows .nil p).lookup (norm q) with
    | none =>
      left
      rw [hlk] at hl
      exact ⟨rfl, (p, q), List.mem_cons_self, hl.symm⟩
    | some l =>
      rw [hlk] at hl
      simp only [Option.getD_some] at hl
      rcases ih (fun x hx => h x (List.mem_cons_of_mem _ hx)) with ⟨h1, x, hx, h2⟩ | h1
      · left
        simp only [textFilters] at h1
        exact ⟨by rw [h1], x, List.mem_cons_of_mem _ hx, h2⟩
      · right
        simp only [textFilters] at h1
        rw [h1, hl]

theorem positionsWhere_increasing {rows : List Row} (hinc : (rows.map Row.pos).Pairwise (· < ·)) (cond : Row → Bool) :
    Increasing (positionsWhere rows cond) := by
  unfold positionsWhere Increasing
  exact List.Pairwise.sublist (List.Sublist.map _ List.filter_sublist) hinc

theorem mem_positionsWhere {rows : List Row} {cond : Row → Bool} {x : Int} :
    x ∈ positionsWhere rows cond ↔ ∃ r ∈ rows, cond r = true ∧ r.pos = x := by
  simp [positionsWhere, and_assoc]

theorem pos_inj {rows : List Row} (hinc : (rows.map Row.pos).Pairwise (· < ·)) :
    ∀ {a b : Row}, a ∈ rows → b ∈ rows → a.pos = b.pos → a = b := by
  induction rows with
  | nil => intro a b h; cases h
  | cons r rows ih =>
    simp only [List.map_cons, List.pairwise_cons] at hinc
    intro a b ha hb h
    rcases List.mem_cons.mp ha with rfl | ha' <;> rcases List.mem_cons.mp hb with rfl | hb'
    · rfl
    · have := hinc.1 b.pos (List.mem_map_of_mem hb'); omega
    · have := hinc.1 a.pos (List.mem_map_of_mem ha'); omega
    · exact ih hinc.2 ha' hb' h

theorem positionsWhere_all {rows : List Row} (hinc : (rows.map Row.pos).Pairwise (· < ·))
    {norm : Bytes → Bytes} {query : List (String × Bytes)} (hne : query ≠ []) (x : Int) :
    InAll (query.map (fun pq => positionsWhere rows (fun r => decide (norm pq.2 <:+: norm (r.text pq.1))))) x ↔
      x ∈ positionsWhere rows (containsAll norm query) := by
  simp only [InAll, List.mem_map, forall_exists_index, and_imp, forall_apply_eq_imp_iff₂, mem_positionsWhere, decide_eq_true_eq,
    containsAll, List.all_eq_true]
  constructor
  · intro h
    obtain ⟨pq, query', rfl⟩ : ∃ a l, query = a :: l := by
      cases query with
      | nil => exact absurd rfl hne
      | cons a l => exact ⟨a, l, rfl⟩
    obtain ⟨r, hr, _, hx⟩ := h pq List.mem_cons_self
    refine ⟨r, hr, ?_, hx⟩
    intro y hy
    obtain ⟨r', hr', h2, hx'⟩ := h y hy
    rw [pos_inj hinc hr hr' (hx.trans hx'.symm)]
    exact h2
  · rintro ⟨r, hr, h, hx⟩ pq hpq
    exact ⟨r, hr, h pq hpq, hx⟩

/-- What a usable index answers to a text query. -/
theorem query_text {lower} {w : Wildcard} {rows : List Row}
    (h : Ready w (fun p => trieOf (w.config.normalize lower) rows .nil p))
    (hinc : (rows.map Row.pos).Pairwise (· < ·)) (query : List (String × Bytes)) (hne : query ≠ [])
    (hq : ∀ pq ∈ query, pq.1 ∈ w.config.properties ∧ w.config.normalize lower pq.2 ≠ []) :
    w.getRecordPositions lower w.inputName (textFilters query) =
      .ok (iterateList (positionsWhere rows (containsAll (w.config.normalize lower) query))) := by
  rw [getRecordPositions_spec h]
  unfold querySpec
  rw [if_neg (by simp), if_neg (by simpa [textFilters] using hne)]
  rcases filterSpec_text hinc query hq with ⟨h1, pq, hpq, h2⟩ | h1
  · rw [h1]
    have : positionsWhere rows (containsAll (w.config.normalize lower) query) = [] := by
      apply List.eq_nil_iff_forall_not_mem.mpr
      intro x hx
      have := (positionsWhere_all hinc hne x).mpr hx _ (List.mem_map_of_mem hpq)
      rw [h2] at this
      cases this
    rw [this]
    rfl
  · rw [h1]
    simp only
    have hs : ∀ l ∈ query.map (fun pq => positionsWhere rows (fun r =>
        decide (w.config.normalize lower pq.2 <:+: w.config.normalize lower (r.text pq.1)))), Increasing l := by
      intro l hl
      obtain ⟨pq, _, rfl⟩ := List.mem_map.mp hl
      exact positionsWhere_increasing hinc _
    obtain ⟨out, h3, h4, h5⟩ := joinIters_sorted _ (by simpa using hne) hs
    rw [h3]
    congr 1
    have : out = positionsWhere rows (containsAll (w.config.normalize lower) query) := by
      apply increasing_ext h4 (positionsWhere_increasing hinc _)
      intro x
      rw [h5, positionsWhere_all hinc hne]
    rw [this]
    rfl

end Rodb
