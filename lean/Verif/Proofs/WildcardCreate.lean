import Verif.Proofs.WildcardBuild
import Verif.Spec.Table
/-
  `createIndex` up to the completion of the metadata.
-/
namespace Rodb
open Spec Forest

/-- The trie of one property. -/
def trieOf (norm : Bytes → Bytes) (rows : List Row) (t : Trie) (p : String) : Trie :=
  t.build (rows.map (fun r => (norm (r.text p), r.pos)))

theorem WP.indexRecords {lower cfg mb} {rows : List Row} : ∀ {c own T} {roots : RootsOf} {Q : WIndex → Bytes → Prop},
    (∀ r ∈ rows, ∀ p ∈ cfg.properties, r.record.get p = .ok (.str (r.text p))) → (∀ r ∈ rows, Int64Range r.pos) →
    cfg.properties.Nodup → roots.map (·.1) = cfg.properties → MetaAt c own mb → Trees c own T roots →
    (∀ c' own' roots', MetaAt c' own' mb →
      Trees c' own' (fun p => trieOf (cfg.normalize lower) rows (T p) p) roots' →
      roots'.map (·.1) = cfg.properties → roots'.map (·.2.1.offset) = roots.map (·.2.1.offset) →
      Q (indexOf roots') c') →
    WP c (indexRecords lower cfg (rows.map (fun r => .ok r.record)) (indexOf roots)) Q := by
  induction rows with
  | nil =>
    intro c own T roots Q _ _ _ hk hm ht hq
    exact WP.pure (hq c own roots hm ht hk rfl)
  | cons r rows ih =>
    intro c own T roots Q hv hr hn hk hm ht hq
    simp only [List.map_cons]
    unfold Rodb.indexRecords
    refine WP.bind (fun _ => Mono.bind (Mono.indexProperties _ _ _ _ _) fun _ => Mono.indexRecords _ _ _ _) ?_
    refine WP.lift rfl ?_
    refine WP.bind (fun _ => Mono.indexRecords _ _ _ _) ?_
    refine WP.indexProperties (hr r List.mem_cons_self) (hv r List.mem_cons_self) hn (by rw [hk]; exact fun _ h => h)
      (by rw [hk]; exact hn) hm ht ?_
    intro c1 own1 roots1 hm1 ht1 hk1 ho1
    refine ih (fun r' h => hv r' (List.mem_cons_of_mem _ h)) (fun r' h => hr r' (List.mem_cons_of_mem _ h)) hn
      (hk1.trans hk) hm1 ht1 ?_
    intro c2 own2 roots2 hm2 ht2 hk2 ho2
    refine hq c2 own2 roots2 hm2 (ht2.congr ?_) hk2 (ho2.trans ho1)
    intro p hp
    rw [hk2] at hp
    simp only [trieOf, List.map_cons, Trie.build, if_pos hp]
    rfl

theorem Mono.createRoots (ps i m index) : Mono (createRoots ps i m index) := by
  induction ps generalizing i m index with
  | nil => exact Mono.pure _
  | cons p ps ih => exact Mono.bind Mono.newEmptyTreeNode fun _ => Mono.bind (Mono.nodeSave _) fun _ => ih _ _ _

theorem emptyNode_fits (o : Nat) : (emptyNode o).Fits := by
  constructor <;> simp [emptyNode]

/-- Root nodes are created one after the other. -/
theorem WP.createRoots {mb : Bytes} : ∀ {ps : List String} {c own} {m : Metadata} {roots : RootsOf}
    {Q : Metadata × WIndex → Bytes → Prop},
    (roots.map (·.1) ++ ps).Nodup → MetaAt c own mb → Trees c own (fun _ => .nil) roots →
    m.roots = roots.map (·.2.1.offset) ++ List.replicate ps.length 0 →
    (∀ c' own' roots', MetaAt c' own' mb → Trees c' own' (fun _ => .nil) roots' →
      roots'.map (·.1) = roots.map (·.1) ++ ps →
      Q ({ m with roots := roots'.map (·.2.1.offset) }, indexOf roots') c') →
    WP c (createRoots ps roots.length m (indexOf roots)) Q := by
  intro ps
  induction ps with
  | nil =>
    intro c own m roots Q hn hm ht hr hq
    refine WP.pure ?_
    have := hq c own roots hm ht (by simp)
    simp only [List.length_nil, List.replicate_zero, List.append_nil] at hr
    rw [← hr] at this
    exact this
  | cons p ps ih =>
    intro c own m roots Q hn hm ht hr hq
    unfold Rodb.createRoots
    refine WP.bind (fun _ => Mono.bind (Mono.nodeSave _) fun _ => Mono.createRoots _ _ _ _) ?_
    have hlt : flagOffset < c.length := Nat.lt_of_lt_of_le hm.big hm.le
    refine WP.newEmptyTreeNode hlt ht.wf ?_
    intro c1 own1 hE e1 hw1 hl1
    refine WP.bind (fun _ => Mono.createRoots _ _ _ _) ?_
    refine WP.nodeSave hE rfl (emptyNode_fits _) ?_
    intro c2 hE2 e2 hl2
    have e : Ext own c own1 c2 (fun _ => False) := by
      refine Ext.trans' ht.wf e1 e2 ?_
      intro t ht'
      subst ht'
      exact Or.inr (Nat.le_refl _)
    have hpn : p ∉ roots.map (·.1) := by
      intro h
      exact (List.nodup_append.mp hn).2.2 p h p List.mem_cons_self rfl
    have hroot : RootRep c2 own1 (emptyNode c.length) .nil :=
      ⟨hE2, rfl, rfl, trivial, by simp [Forest.tags], rfl⟩
    have ht2 : Trees c2 own1 (fun _ => .nil) (roots ++ [(p, emptyNode c.length, Forest.nil)]) := by
      refine ⟨?_, ?_, ?_, hw1⟩
      · intro x hx
        rcases List.mem_append.mp hx with h | h
        · exact (ht.rep x h).frame e (by simp) (by simp)
        · rw [List.mem_singleton.mp h]; exact hroot
      · rw [List.pairwise_append]
        refine ⟨ht.apart, by simp, ?_⟩
        intro x hx y hy t h1 h2
        rw [List.mem_singleton.mp hy] at h2
        simp only [rootTags, Forest.tags, List.mem_singleton] at h2
        subst h2
        exact (ht.rep x hx).not_fresh _ h1 (Nat.le_refl _)
      · intro x hx
        rcases List.mem_append.mp hx with h | h
        · exact ht.erase x h
        · rw [List.mem_singleton.mp h]; rfl
    rw [mapSet_indexOf_new _ Forest.nil hpn]
    have hlen : roots.length + 1 = (roots ++ [(p, emptyNode c.length, Forest.nil)]).length := by simp
    rw [hlen]
    refine ih (by simpa using hn) (hm.frame e (by simp)) ht2 ?_ ?_
    · simp only [Metadata.setRootNode, hr, List.length_cons, List.map_append, List.map_cons, List.map_nil]
      rw [List.set_append_right _ _ (by simp)]
      simp [List.replicate_succ]
    · intro c3 own3 roots3 hm3 ht3 hk3
      exact hq c3 own3 roots3 hm3 ht3 (by simpa using hk3)

/-- Replacing the metadata by other metadata bytes of the same length. -/
theorem MetaAt.rewrite {c own mb mb'} (h : MetaAt c own mb) (hl : mb'.length = mb.length) :
    MetaAt (overwrite c 0 mb') own mb' ∧ Ext own c own (overwrite c 0 mb') (· = .other) ∧
      (overwrite c 0 mb').length = c.length := by
  have hle := h.le
  have hlen : (overwrite c 0 mb').length = c.length := by
    rw [length_overwrite _ _ _ (by omega)]; omega
  refine ⟨⟨by omega, slice_overwrite_same c 0 mb' (by omega), fun a ha => h.own a (by omega), by have := h.big; omega⟩, ?_, hlen⟩
  exact Ext.overwrite own c 0 mb' .other (by omega) (fun a _ ha => h.own a (by omega))

theorem Trees.frame_other {c own c' own' T} {roots : RootsOf} (h : Trees c own T roots)
    (e : Ext own c own' c' (· = .other)) (hw : OwnWF own') : Trees c' own' T roots := by
  refine ⟨?_, h.apart, h.erase, hw⟩
  intro x hx
  refine (h.rep x hx).frame e (by simp) ?_
  intro t ht he
  subst he
  exact other_not_mem_rootTags _ _ ht

theorem flag_of_meta {c own mb} (h : MetaAt c own mb) : flag c = flag mb := by
  have hb := h.big
  unfold flag
  have h1 : (slice c 0 mb.length)[flagOffset]? = mb[flagOffset]? := by rw [h.eq]
  rw [getElem?_slice, if_pos hb, Nat.zero_add] at h1
  rw [h1]

/-- The metadata written while the index is being built. -/
def buildMeta (cfg : WildcardConfig) (size modTime : Int) (roots : List Nat) (completed : Bool) : Metadata :=
  { magic := magicBytes, version := currentVersion, modTime := unixSeconds modTime, size := size,
    ignoreCase := cfg.ignoreCase, completed := completed, roots := roots }

theorem buildMeta_length (cfg size t roots b) : (buildMeta cfg size t roots b).serialize.length = 47 + 8 * roots.length :=
  Metadata.length_serialize _ rfl

theorem buildMeta_flag (cfg size t roots b) : flag (buildMeta cfg size t roots b).serialize = boolByte b := by
  have := Metadata.flag_serialize (buildMeta cfg size t roots b) rfl []
  rwa [List.append_nil] at this

theorem WP.newMetadata {cfg : WildcardConfig} {input : Input} {size t : Int} {Q : Metadata → Bytes → Prop}
    (hs : input.size = .ok size) (ht : input.modTimeNs = .ok t)
    (hq : ∀ own, MetaAt (buildMeta cfg size t (List.replicate cfg.properties.length 0) false).serialize own
      (buildMeta cfg size t (List.replicate cfg.properties.length 0) false).serialize → OwnWF own →
      Q (buildMeta cfg size t (List.replicate cfg.properties.length 0) false)
        (buildMeta cfg size t (List.replicate cfg.properties.length 0) false).serialize) :
    WP [] (newMetadata (cfg.metadataInput input)) Q := by
  unfold Rodb.newMetadata
  refine WP.bind (fun _ => Mono.bind (Mono.lift _) fun _ => Mono.bind (Mono.replace _ _) fun _ => Mono.pure _) (WP.lift hs ?_)
  refine WP.bind (fun _ => Mono.bind (Mono.replace _ _) fun _ => Mono.pure _) (WP.lift ht ?_)
  refine WP.bind (fun _ => Mono.pure _) ?_
  have hov : overwrite [] 0 (buildMeta cfg size t (List.replicate cfg.properties.length 0) false).serialize =
      (buildMeta cfg size t (List.replicate cfg.properties.length 0) false).serialize := by simp [overwrite]
  refine WP.replace (Nat.le_refl _) ?_ (WP.pure ?_)
  · exact (congrArg flag hov).trans (buildMeta_flag _ _ _ _ _)
  · have h := hq (fun _ => .other) ⟨Nat.le_refl _, slice_zero_length _, fun _ _ => rfl, ?_⟩ (by intro a n _ h; exact h)
    · rw [← hov] at h
      exact h
    · rw [buildMeta_length]; simp only [flagOffset]; omega

theorem Mono.newMetadata (i) : Mono (newMetadata i) :=
  Mono.bind (Mono.lift _) fun _ => Mono.bind (Mono.lift _) fun _ => Mono.bind (Mono.replace _ _) fun _ => Mono.pure _

theorem Mono.createEmpty (cfg input) : Mono (createEmpty cfg input) :=
  Mono.bind (Mono.newMetadata _) fun _ => Mono.bind (Mono.createRoots _ _ _ _) fun _ =>
    Mono.bind (Mono.replace _ _) fun _ => Mono.pure _

theorem WP.createEmpty {cfg : WildcardConfig} {input : Input} {size t : Int} {Q : Metadata × WIndex → Bytes → Prop}
    (hnd : cfg.properties.Nodup) (hs : input.size = .ok size) (ht : input.modTimeNs = .ok t)
    (hq : ∀ c own (roots : RootsOf),
      MetaAt c own (buildMeta cfg size t (roots.map (·.2.1.offset)) false).serialize →
      Trees c own (fun _ => .nil) roots → roots.map (·.1) = cfg.properties →
      Q (buildMeta cfg size t (roots.map (·.2.1.offset)) false, indexOf roots) c) :
    WP [] (createEmpty cfg input) Q := by
  unfold Rodb.createEmpty
  refine WP.bind (fun _ => Mono.bind (Mono.createRoots _ _ _ _) fun _ => Mono.bind (Mono.replace _ _) fun _ => Mono.pure _) ?_
  refine WP.newMetadata hs ht ?_
  intro own hm hw
  refine WP.bind (fun _ => Mono.bind (Mono.replace _ _) fun _ => Mono.pure _) ?_
  have h0 : Trees (buildMeta cfg size t (List.replicate cfg.properties.length 0) false).serialize own (fun _ => .nil) [] :=
    ⟨by simp, List.Pairwise.nil, by simp, hw⟩
  refine WP.createRoots (roots := []) (by simpa using hnd) hm h0 (by simp [buildMeta]) ?_
  intro c1 own1 roots1 hm1 ht1 hk1
  simp only [List.map_nil, List.nil_append] at hk1
  have hl1 : roots1.length = cfg.properties.length := by rw [← hk1]; simp
  refine WP.bind (fun _ => Mono.pure _) ?_
  have hmeta : ({ buildMeta cfg size t (List.replicate cfg.properties.length 0) false with roots := roots1.map (·.2.1.offset) } : Metadata) =
      buildMeta cfg size t (roots1.map (·.2.1.offset)) false := rfl
  simp only [hmeta]
  obtain ⟨g1, g2, g3⟩ := hm1.rewrite (mb' := (buildMeta cfg size t (roots1.map (·.2.1.offset)) false).serialize)
    (by rw [buildMeta_length, buildMeta_length]; simp [hl1])
  refine WP.replace (Nat.zero_le _) ?_ (WP.pure ?_)
  · rw [flag_of_meta g1, flag_of_meta hm1, buildMeta_flag, buildMeta_flag]
  · exact hq _ own1 roots1 g1 (ht1.frame_other g2 ht1.wf) hk1

theorem Mono.createAndFill (lower cfg input) : Mono (createAndFill lower cfg input) :=
  Mono.bind (Mono.createEmpty _ _) fun _ => Mono.bind (Mono.lift _) fun _ =>
    Mono.bind (Mono.indexRecords _ _ _ _) fun _ => Mono.pure _

theorem WP.createAndFill {lower} {cfg : WildcardConfig} {input : Input} {rows : List Row} {size t : Int}
    {Q : Metadata × WIndex → Bytes → Prop} (hnd : cfg.properties.Nodup)
    (hs : input.size = .ok size) (ht : input.modTimeNs = .ok t) (htab : TextTable input cfg.properties rows)
    (hq : ∀ c own (roots : RootsOf),
      MetaAt c own (buildMeta cfg size t (roots.map (·.2.1.offset)) false).serialize →
      Trees c own (fun p => trieOf (cfg.normalize lower) rows .nil p) roots → roots.map (·.1) = cfg.properties →
      Q (buildMeta cfg size t (roots.map (·.2.1.offset)) false, indexOf roots) c) :
    WP [] (createAndFill lower cfg input) Q := by
  unfold Rodb.createAndFill
  refine WP.bind (fun _ => Mono.bind (Mono.lift _) fun _ => Mono.bind (Mono.indexRecords _ _ _ _) fun _ => Mono.pure _) ?_
  refine WP.createEmpty hnd hs ht ?_
  intro c own roots hm htr hk
  refine WP.bind (fun _ => Mono.bind (Mono.indexRecords _ _ _ _) fun _ => Mono.pure _) (WP.lift htab.scan ?_)
  refine WP.bind (fun _ => Mono.pure _) ?_
  refine WP.indexRecords htab.text htab.range hnd hk hm htr ?_
  intro c1 own1 roots1 hm1 ht1 hk1 ho1
  refine WP.pure ?_
  rw [← ho1] at hm1 ⊢
  exact hq c1 own1 roots1 hm1 ht1 hk1

end Rodb
