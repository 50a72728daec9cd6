import Verif.Proofs.WildcardCrash
/-
  Which files are accepted, and builds that fail.
-/
namespace Rodb
open Spec Forest

/-! ### Opening a file never writes to it -/

theorem loadRoots_readOnly (m : Metadata) : ∀ props i index, ReadOnly (loadRoots m props i index) := by
  intro props
  induction props with
  | nil => intro i index; exact ReadOnly.pure _
  | cons p props ih =>
    intro i index
    refine ReadOnly.bind ?_ fun _ => ih _ _
    unfold Metadata.getRootNode
    split
    · exact ReadOnly.fail _
    · intro s
      dsimp only
      split
      · rfl
      · exact ReadOnly.getTreeNode _ s

theorem loadIndex_new (cfg : WildcardConfig) (input : Input) (f : Bytes) :
    loadIndex cfg input (Stream.new f f.length cfg.bufferSize) =
      match Metadata.unserialize f with
      | .error e => (.error e, Stream.new f f.length cfg.bufferSize)
      | .ok m =>
        match m.assertValid (cfg.metadataInput input) with
        | .error e => (.error e, Stream.new f f.length cfg.bufferSize)
        | .ok () => loadRoots m cfg.properties 0 [] (Stream.new f f.length cfg.bufferSize) := by
  have hload : loadMetadata (Stream.new f f.length cfg.bufferSize) =
      (Metadata.unserialize f, Stream.new f f.length cfg.bufferSize) := rfl
  simp only [loadIndex, M.bind_def, hload]
  cases Metadata.unserialize f with
  | error e => rfl
  | ok m =>
    simp only [M.lift]
    cases m.assertValid (cfg.metadataInput input) <;> rfl

theorem loadIndex_readOnly (cfg : WildcardConfig) (input : Input) (f : Bytes) :
    (loadIndex cfg input (Stream.new f f.length cfg.bufferSize)).2 = Stream.new f f.length cfg.bufferSize := by
  rw [loadIndex_new]
  split
  · rfl
  · split
    · rfl
    · exact loadRoots_readOnly _ _ _ _ _

theorem newWildcard_load (lower : Bytes → Bytes) (cfg : WildcardConfig) (input : Input) (f : Bytes) :
    (newWildcard lower cfg input (some f)).1 = (loadIndex cfg input (Stream.new f f.length cfg.bufferSize)).1.map
      (fun index => { config := cfg, inputName := input.name, index := index, stream := Stream.new f f.length cfg.bufferSize }) := by
  have h := loadIndex_readOnly cfg input f
  revert h
  simp only [newWildcard]
  generalize loadIndex cfg input (Stream.new f f.length cfg.bufferSize) = x
  obtain ⟨r, s⟩ := x
  intro h
  subst h
  cases r <;> rfl

theorem newWildcard_readOnly (lower : Bytes → Bytes) (cfg : WildcardConfig) (input : Input) (f : Bytes) :
    (newWildcard lower cfg input (some f)).2 = f := by
  have h := loadIndex_readOnly cfg input f
  revert h
  simp only [newWildcard]
  generalize loadIndex cfg input (Stream.new f f.length cfg.bufferSize) = x
  obtain ⟨r, s⟩ := x
  intro h
  simp only at h
  subst h
  cases r <;> rfl

theorem newWildcard_refused {lower : Bytes → Bytes} {cfg : WildcardConfig} {input : Input} {f : Bytes}
    (h : ∃ e, (newWildcard lower cfg input (some f)).1 = .error e) :
    ∃ e, newWildcard lower cfg input (some f) = (.error e, f) := by
  obtain ⟨e, he⟩ := h
  exact ⟨e, Prod.ext he (newWildcard_readOnly lower cfg input f)⟩

/-! ### The metadata check -/

theorem assertValid_ok {m : Metadata} {x : MetadataInput} :
    m.assertValid x = .ok () ↔ m.version = currentVersion ∧ m.magic = magicBytes ∧
      (∃ t, x.modTimeNs = .ok t ∧ m.modTime = unixSeconds t) ∧ x.size = .ok m.size ∧
      m.ignoreCase = x.ignoreCase ∧ m.completed = true ∧ m.roots.length = x.rootNodesCount := by
  unfold Metadata.assertValid
  by_cases h1 : m.version = currentVersion
  · rw [if_neg (not_not_intro h1)]
    by_cases h2 : m.magic = magicBytes
    · rw [if_neg (not_not_intro h2)]
      cases h3 : x.modTimeNs with
      | error e => simp
      | ok t =>
        by_cases h4 : m.modTime = unixSeconds t
        · simp only [if_neg (not_not_intro h4)]
          cases h5 : x.size with
          | error e => simp
          | ok n =>
            by_cases h6 : m.size = n
            · simp only [if_neg (not_not_intro h6)]
              by_cases h7 : m.ignoreCase = x.ignoreCase
              · simp only [if_neg (not_not_intro h7)]
                cases h8 : m.completed with
                | false => simp
                | true =>
                  by_cases h9 : m.roots.length = x.rootNodesCount
                  · simp [h1, h2, h4, h6, h7, h9]
                  · simp [h9]
              · simp [h7]
            · have h6' : ¬ n = m.size := fun h => h6 h.symm
              simp [h6, h6']
        · simp [h4]
    · simp [h2]
  · simp [h1]

theorem assertValid_fails {m : Metadata} {x : MetadataInput} {e : Fail} (h : m.assertValid x = .error e)
    (h1 : ∀ e, x.size = .error e → IsError e) (h2 : ∀ e, x.modTimeNs = .error e → IsError e) : IsError e := by
  unfold Metadata.assertValid at h
  split at h
  · cases h; exact ⟨_, rfl⟩
  split at h
  · cases h; exact ⟨_, rfl⟩
  split at h
  · rename_i he
    cases h; exact h2 _ he
  split at h
  · cases h; exact ⟨_, rfl⟩
  split at h
  · rename_i he
    cases h; exact h1 _ he
  split at h
  · cases h; exact ⟨_, rfl⟩
  split at h
  · cases h; exact ⟨_, rfl⟩
  split at h
  · cases h; exact ⟨_, rfl⟩
  split at h
  · cases h; exact ⟨_, rfl⟩
  · cases h

/-! ### The same file seen with other property names -/

/-- The roots under other names. -/
def renameRoots (names : List String) (roots : RootsOf) : RootsOf := List.zipWith (fun n x => (n, x.2)) names roots

theorem renameRoots_names : ∀ {names : List String} {roots : RootsOf}, names.length = roots.length →
    (renameRoots names roots).map (·.1) = names ∧ (renameRoots names roots).map (·.2) = roots.map (·.2) := by
  intro names
  induction names with
  | nil => intro roots h; cases roots <;> simp_all [renameRoots]
  | cons n names ih =>
    intro roots h
    cases roots with
    | nil => simp at h
    | cons x roots =>
      have := ih (roots := roots) (by simpa using h)
      simp only [renameRoots, List.zipWith_cons_cons, List.map_cons]
      simp only [renameRoots] at this
      rw [this.1, this.2]
      simp

/-- The tries of the given roots, by name. -/
def triesOf (roots : RootsOf) (p : String) : Trie :=
  match roots with
  | [] => .nil
  | x :: rest => if x.1 = p then x.2.2.erase else triesOf rest p

theorem triesOf_mem : ∀ {roots : RootsOf}, (roots.map (·.1)).Nodup → ∀ x ∈ roots, x.2.2.erase = triesOf roots x.1 := by
  intro roots
  induction roots with
  | nil => intro _ x hx; simp at hx
  | cons y roots ih =>
    intro h x hx
    simp only [List.map_cons, List.nodup_cons] at h
    simp only [triesOf]
    rcases List.mem_cons.mp hx with rfl | hx
    · simp
    · rw [if_neg (fun e : y.1 = x.1 => h.1 (by rw [e]; exact List.mem_map.mpr ⟨x, hx, rfl⟩))]
      exact ih h.2 x hx

theorem mem_rename {names : List String} {roots : RootsOf} {x} (h : x ∈ renameRoots names roots) :
    ∃ y ∈ roots, x.2 = y.2 := by
  induction names generalizing roots with
  | nil => simp [renameRoots] at h
  | cons n names ih =>
    cases roots with
    | nil => simp [renameRoots] at h
    | cons y roots =>
      simp only [renameRoots, List.zipWith_cons_cons, List.mem_cons] at h
      rcases h with rfl | h
      · exact ⟨y, List.mem_cons_self, rfl⟩
      · obtain ⟨z, hz, e⟩ := ih (roots := roots) h
        exact ⟨z, List.mem_cons_of_mem _ hz, e⟩

theorem apart_rename : ∀ {names : List String} {roots : RootsOf}, roots.Pairwise Apart → (renameRoots names roots).Pairwise Apart := by
  intro names
  induction names with
  | nil => intro roots _; simp [renameRoots]
  | cons n names ih =>
    intro roots h
    cases roots with
    | nil => simp [renameRoots]
    | cons y roots =>
      rw [List.pairwise_cons] at h
      simp only [renameRoots, List.zipWith_cons_cons, List.pairwise_cons]
      refine ⟨?_, ih h.2⟩
      intro x hx
      obtain ⟨z, hz, e⟩ := mem_rename hx
      have := h.1 z hz
      unfold Apart at *
      rw [e]
      exact this

/-- A finished file of one configuration is a finished file of any configuration with as many properties
and the same case sensitivity. -/
theorem Finished.rename {cfg cfg' : WildcardConfig} {size t : Int} {T : String → Trie} {index : WIndex} {s : Stream}
    (hf : Finished cfg size t T index s) (hlen : cfg'.properties.length = cfg.properties.length)
    (hcase : cfg'.ignoreCase = cfg.ignoreCase) (hnd : cfg'.properties.Nodup) :
    ∃ T' index', Finished cfg' size t T' index' s := by
  obtain ⟨own, roots, hm, htr, hk, rfl⟩ := hf.data
  have hl : cfg'.properties.length = roots.length := by rw [hlen, ← hk]; simp
  have hn := renameRoots_names hl
  have hb : ∀ roots b, buildMeta cfg' size t roots b = buildMeta cfg size t roots b := by
    intro roots b
    simp [buildMeta, hcase]
  refine ⟨triesOf (renameRoots cfg'.properties roots), _, hf.inv, hf.flushed, hf.small, own,
    renameRoots cfg'.properties roots, ?_, ⟨?_, apart_rename htr.apart, triesOf_mem (by rw [hn.1]; exact hnd), htr.wf⟩, hn.1, rfl⟩
  · have ho : (renameRoots cfg'.properties roots).map (·.2.1.offset) = roots.map (·.2.1.offset) := by
      have := congrArg (List.map (fun y : TreeNode × Forest => y.1.offset)) hn.2
      simpa [Function.comp_def] using this
    rw [ho, hb]
    exact hm
  · intro x hx
    obtain ⟨y, hy, e⟩ := mem_rename hx
    have := htr.rep y hy
    rw [e]
    exact this

/-- Reading the metadata of a finished file. -/
theorem Finished.unserialize {cfg : WildcardConfig} {size t : Int} {T : String → Trie} {index : WIndex} {s : Stream}
    (hf : Finished cfg size t T index s) (h1 : Int64Range size) (h2 : Int64Range t)
    (hcount : (cfg.properties.length : Int) ≤ maxSliceLen) :
    ∃ roots : List Nat, roots.length = cfg.properties.length ∧
      Metadata.unserialize s.file = .ok (buildMeta cfg size t roots true) := by
  obtain ⟨own, roots, hm, htr, hk, rfl⟩ := hf.data
  have hlen : roots.length = cfg.properties.length := by rw [← hk]; simp
  have hfits : (buildMeta cfg size t (roots.map (·.2.1.offset)) true).Fits :=
    buildMeta_fits h1 h2 (by rw [List.length_map, hlen]; exact hcount) (roots_fit htr hf.small)
  refine ⟨roots.map (·.2.1.offset), by simp [hlen], ?_⟩
  rw [hf.flushed]
  have hle := hm.le
  have heq := hm.eq
  generalize hmb : (buildMeta cfg size t (roots.map (·.2.1.offset)) true).serialize = mb at *
  have hsplit : s.content = mb ++ s.content.drop mb.length := by
    rw [← List.take_append_drop mb.length s.content]
    have : List.take mb.length s.content = mb := by simpa [slice] using heq
    rw [this]
    simp
  rw [hsplit, ← hmb]
  exact Metadata.unserialize_serialize _ hfits _

/-! ### Builds that fail -/

theorem addValueToIndex_str {lower cfg} {index : WIndex} {p : String} {v : Value} {pos : Int} {s : Stream} {index' : WIndex}
    (h : (addValueToIndex lower cfg index p v pos s).1 = .ok index') : ∃ b, v = .str b := by
  cases v with
  | str b => exact ⟨b, rfl⟩
  | arr l =>
    simp only [addValueToIndex, M.bind_def, M.fail] at h
    split at h <;> simp_all
  | _ => simp [addValueToIndex, M.fail] at h

theorem indexProperties_str {lower cfg} {r : Rec} : ∀ {props : List String} {index : WIndex} {s : Stream} {index' : WIndex},
    (indexProperties lower cfg r props index s).1 = .ok index' → ∀ p ∈ props, ∃ b, r.get p = .ok (.str b) := by
  intro props
  induction props with
  | nil => intro _ _ _ _ p hp; simp at hp
  | cons p props ih =>
    intro index s index' h q hq
    simp only [indexProperties, M.bind_def, M.lift] at h
    cases hg : r.get p with
    | error e => rw [hg] at h; simp at h
    | ok v =>
      rw [hg] at h
      simp only at h
      cases ha : addValueToIndex lower cfg index p v r.position s with
      | mk res s' =>
        rw [ha] at h
        cases res with
        | error e => simp at h
        | ok idx =>
          rcases List.mem_cons.mp hq with rfl | hq
          · obtain ⟨b, rfl⟩ := addValueToIndex_str (by rw [ha])
            exact ⟨b, hg⟩
          · exact ih h q hq

theorem indexRecords_str {lower} {cfg : WildcardConfig} : ∀ {rs : List (Res Rec)} {index : WIndex} {s : Stream} {index' : WIndex},
    (indexRecords lower cfg rs index s).1 = .ok index' →
    ∀ r, .ok r ∈ rs → ∀ p ∈ cfg.properties, ∃ b, r.get p = .ok (.str b) := by
  intro rs
  induction rs with
  | nil => intro _ _ _ _ r hr; simp at hr
  | cons x rs ih =>
    intro index s index' h r hr
    simp only [indexRecords, M.bind_def, M.lift] at h
    cases x with
    | error e => simp at h
    | ok r0 =>
      simp only at h
      cases ha : indexProperties lower cfg r0 cfg.properties index s with
      | mk res s' =>
        rw [ha] at h
        cases res with
        | error e => simp at h
        | ok idx =>
          rcases List.mem_cons.mp hr with hr | hr
          · cases hr
            exact indexProperties_str (by rw [ha])
          · exact ih h r hr

theorem createAndFill_str {lower} {cfg : WildcardConfig} {input : Input} {s : Stream} {r : Metadata × WIndex} {rs : List (Res Rec)}
    (h : (createAndFill lower cfg input s).1 = .ok r) (hs : input.scan = .ok rs) :
    ∀ r, .ok r ∈ rs → ∀ p ∈ cfg.properties, ∃ b, r.get p = .ok (.str b) := by
  simp only [createAndFill, M.bind_def, M.lift, hs] at h
  cases hc : createEmpty cfg input s with
  | mk res s1 =>
    rw [hc] at h
    cases res with
    | error e => simp at h
    | ok mi =>
      simp only at h
      cases hr : indexRecords lower cfg rs mi.2 s1 with
      | mk res s2 =>
        rw [hr] at h
        cases res with
        | error e => simp at h
        | ok idx => exact indexRecords_str (by rw [hr])

/-- A build that cannot succeed: it ends with an ordinary error and never marks the file as completed. -/
theorem createIndex_fails {lower} {cfg : WildcardConfig} {input : Input} (hnd : cfg.properties.Nodup)
    (hin : InputFails IsError input cfg.properties) (hpos : PositionsFit input)
    (hb : (createIndex lower cfg input (Stream.new [] 0 cfg.bufferSize)).2.streamSize < 2^63)
    (hbad : ∀ r, (createAndFill lower cfg input (Stream.new [] 0 cfg.bufferSize)).1 ≠ .ok r) :
    ∃ m s, createIndex lower cfg input (Stream.new [] 0 cfg.bufferSize) = (.error (.err m), s) ∧
      s.file = replay [] s.log ∧ ∀ k j, flag (crashFile s.log k j) = 0 := by
  have hwp := WPX.createAndFill (lower := lower) ⟨_, rfl⟩ hnd hin hpos (Stream.new [] 0 cfg.bufferSize) (Stream.new_inv [] _) rfl
  simp only [createIndex, M.bind_def] at hb ⊢
  cases hc : createAndFill lower cfg input (Stream.new [] 0 cfg.bufferSize) with
  | mk res s =>
    rw [hc] at hb hbad hwp
    cases res with
    | ok r => exact absurd rfl (hbad r)
    | error e =>
      simp only at hb ⊢
      obtain ⟨_, h2, _, h4⟩ := hwp hb
      obtain ⟨m, rfl⟩ := h4 e rfl
      obtain ⟨hfl, ext, hlog, hfile, hext⟩ := h2
      simp only at hlog hfile hfl
      have hl : s.log = ext := by rw [hlog]; rfl
      refine ⟨m, s, rfl, by rw [hl]; exact hfile, ?_⟩
      intro k j
      rw [hl]
      exact flag_crashFile hext k j

/-! ### Opening arbitrary files -/

theorem readOffsets_fails : ∀ {n : Nat} {data : Bytes} {e : Fail}, readOffsets n data = .error e → IsError e := by
  intro n
  induction n with
  | zero => intro data e h; cases h
  | succ n ih =>
    intro data e h
    simp only [readOffsets, bind, Except.bind, readBytes] at h
    split at h
    · split at *
      · rename_i h'
        cases h'
        cases h
        exact ⟨_, rfl⟩
      · rename_i h'
        cases h'
    · split at h
      · cases h
        rename_i h'
        exact ih h'
      · cases h

theorem readOffsets_length : ∀ {n : Nat} {data : Bytes} {l : List Nat}, readOffsets n data = .ok l → 8 * n ≤ data.length ∧ l.length = n := by
  intro n
  induction n with
  | zero => intro data l h; cases h; simp
  | succ n ih =>
    intro data l h
    simp only [readOffsets, bind, Except.bind, readBytes] at h
    split at h
    · cases h
    · rename_i v hv
      split at hv
      · cases hv
      · cases hv
        split at h
        · cases h
        · rename_i l' hl
          cases h
          have := ih hl
          simp only [List.length_drop, List.length_cons] at this ⊢
          omega

theorem unserialize_fails {file : Bytes} {e : Fail} (h : Metadata.unserialize file = .error e)
    (hc : 47 ≤ file.length → 0 ≤ rootCount file ∧ rootCount file ≤ 2^45) : IsError e := by
  by_cases hl : file.length < 47
  · rw [unserialize_short hl] at h
    cases h
    exact ⟨_, rfl⟩
  · have := hc (by omega)
    rw [unserialize_long (by omega), if_neg (by simp only [maxSliceLen]; omega)] at h
    cases hr : readOffsets (rootCount file).toNat (file.drop 47) with
    | ok l => rw [hr] at h; cases h
    | error e' =>
      rw [hr] at h
      cases h
      exact readOffsets_fails hr

theorem loadRoots_fails {m : Metadata} {s : Stream} (hi : s.Inv) (hbig : 56 ≤ s.bufferOffset) :
    ∀ {props : List String} {i : Nat} {index : WIndex} {e : Fail}, i + props.length ≤ m.roots.length →
    (loadRoots m props i index s).1 = .error e → IsError e := by
  intro props
  induction props with
  | nil => intro i index e _ h; cases h
  | cons p props ih =>
    intro i index e hle h
    simp only [List.length_cons] at hle
    simp only [loadRoots, M.bind_def] at h
    have hro : ReadOnly (m.getRootNode i) := by
      have := loadRoots_readOnly m [p] i index
      unfold Metadata.getRootNode
      split
      · exact ReadOnly.fail _
      · intro s
        dsimp only
        split
        · rfl
        · exact ReadOnly.getTreeNode _ s
    have hs := hro s
    cases hg : m.getRootNode i s with
    | mk r s' =>
      rw [hg] at h hs
      simp only at hs
      subst hs
      cases r with
      | ok o => exact ih (by omega) h
      | error e' =>
        simp only at h
        cases h
        unfold Metadata.getRootNode at hg
        rw [List.getElem?_eq_getElem (by omega)] at hg
        simp only at hg
        rw [if_neg (by simp only [treeNodeSize]; omega)] at hg
        unfold getTreeNode at hg
        split at hg
        · cases hg
        · simp only [M.bind_def, mGet] at hg
          cases hgt : s'.get m.roots[i] treeNodeSize with
          | ok b => rw [hgt] at hg; cases hg
          | error e' =>
            rw [hgt] at hg
            cases hg
            by_cases hle : m.roots[i] + treeNodeSize ≤ s'.content.length
            · rw [Stream.get_spec hi _ _ hle] at hgt
              cases hgt
            · obtain ⟨x, hx⟩ := Stream.get_err hi _ _ hle
              rw [hx] at hgt
              cases hgt
              exact ⟨_, rfl⟩

end Rodb
