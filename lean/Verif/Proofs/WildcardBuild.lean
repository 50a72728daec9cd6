import Verif.Proofs.Metadata
import Verif.Proofs.RootOps
import Verif.Proofs.TrieSem
/-
  Building a wildcard index: the file holds one tree per property.
-/
namespace Rodb
open Spec Forest

/-- A property with its root node and the forest below it. -/
abbrev RootsOf := List (String × TreeNode × Forest)

/-- The two roots share no cell. -/
def Apart (x y : String × TreeNode × Forest) : Prop := ∀ t ∈ rootTags x.2.1 x.2.2, t ∉ rootTags y.2.1 y.2.2

/-- The content starts with the metadata bytes `mb`, which no tree uses. -/
structure MetaAt (c : Bytes) (own : Own) (mb : Bytes) : Prop where
  le : mb.length ≤ c.length
  eq : slice c 0 mb.length = mb
  own : ∀ a, a < mb.length → own a = .other
  big : flagOffset < mb.length

/-- The content holds the trees `T` of the properties, under the root nodes of `index`. -/
structure Trees (c : Bytes) (own : Own) (T : String → Trie) (roots : RootsOf) : Prop where
  rep : ∀ x ∈ roots, RootRep c own x.2.1 x.2.2
  apart : roots.Pairwise Apart
  erase : ∀ x ∈ roots, x.2.2.erase = T x.1
  wf : OwnWF own

/-- The in-memory index map of the given roots. -/
def indexOf (roots : RootsOf) : WIndex := roots.map (fun x => (x.1, some x.2.1))

theorem mapGet_indexOf {roots : RootsOf} (h : (roots.map (·.1)).Nodup) {x : String × TreeNode × Forest} (hx : x ∈ roots) :
    mapGet (indexOf roots) x.1 = some (some x.2.1) := by
  induction roots with
  | nil => simp at hx
  | cons y roots ih =>
    simp only [indexOf, List.map_cons, mapGet]
    simp only [List.map_cons, List.nodup_cons] at h
    rcases List.mem_cons.mp hx with rfl | hx
    · simp
    · have : y.1 ≠ x.1 := fun e => h.1 (e ▸ List.mem_map.mpr ⟨x, hx, rfl⟩)
      rw [if_neg this]
      exact ih h.2 hx

theorem mapGet_indexOf_none {roots : RootsOf} {p : String} (h : p ∉ roots.map (·.1)) :
    mapGet (indexOf roots) p = none := by
  induction roots with
  | nil => rfl
  | cons y roots ih =>
    simp only [List.map_cons, List.mem_cons, not_or] at h
    simp only [indexOf, List.map_cons, mapGet]
    rw [if_neg (Ne.symm h.1)]
    exact ih h.2

theorem mapSet_indexOf {l r : RootsOf} {p : String} (n n' : TreeNode) (f f' : Forest) (h : p ∉ l.map (·.1)) :
    mapSet (indexOf (l ++ (p, n, f) :: r)) p (some n') = indexOf (l ++ (p, n', f') :: r) := by
  induction l with
  | nil => simp [indexOf, mapSet]
  | cons y l ih =>
    simp only [List.map_cons, List.mem_cons, not_or] at h
    simp only [indexOf, List.cons_append, List.map_cons, mapSet]
    rw [if_neg (Ne.symm h.1)]
    congr 1
    exact ih h.2

theorem mapSet_indexOf_new {l : RootsOf} {p : String} (n : TreeNode) (f : Forest) (h : p ∉ l.map (·.1)) :
    mapSet (indexOf l) p (some n) = indexOf (l ++ [(p, n, f)]) := by
  induction l with
  | nil => simp [indexOf, mapSet]
  | cons y l ih =>
    simp only [List.map_cons, List.mem_cons, not_or] at h
    simp only [indexOf, List.cons_append, List.map_cons, mapSet]
    rw [if_neg (Ne.symm h.1)]
    congr 1
    exact ih h.2

theorem MetaAt.frame {c own c' own' P mb} (h : MetaAt c own mb) (e : Ext own c own' c' P) (hp : ¬ P .other) :
    MetaAt c' own' mb := by
  refine ⟨Nat.le_trans h.le e.len, ?_, ?_, h.big⟩
  · rw [e.slice (by have := h.le; omega), h.eq]
    intro a _ ha
    rw [h.own a (by omega)]
    exact hp
  · intro a ha
    rw [e.own_eq a (Nat.lt_of_lt_of_le ha h.le), h.own a ha]

theorem other_not_mem_rootTags (r f) : Tag.other ∉ rootTags r f := fun h => isCell_of_mem_rootTags h

/-- Pointwise update. -/
def upd (T : String → Trie) (p : String) (t : Trie) : String → Trie := fun q => if q = p then t else T q

theorem WP.addString {lower cfg} {c own mb T} {roots : RootsOf} {p : String} {s : Bytes} {pos : Int}
    {Q : WIndex → Bytes → Prop}
    (hnd : (roots.map (·.1)).Nodup) (hp : p ∈ roots.map (·.1)) (hpos : InI64 pos)
    (hm : MetaAt c own mb) (ht : Trees c own T roots)
    (hq : ∀ c' own' roots', MetaAt c' own' mb →
      Trees c' own' (upd T p ((T p).insertSuffixes (cfg.normalize lower s) pos)) roots' →
      roots'.map (·.1) = roots.map (·.1) → roots'.map (·.2.1.offset) = roots.map (·.2.1.offset) →
      Q (indexOf roots') c') :
    WP c (addString lower cfg (indexOf roots) p s pos) Q := by
  obtain ⟨⟨p', r, f⟩, hx, rfl⟩ := List.mem_map.mp hp
  obtain ⟨l, rr, rfl⟩ := List.append_of_mem hx
  have hg := mapGet_indexOf hnd hx
  simp only at hg hp hq ⊢
  unfold Rodb.addString
  rw [hg]
  simp only
  have hrep := ht.rep _ hx
  simp only at hrep
  refine WP.bind (fun _ => Mono.pure _) ?_
  refine WP.addAllSequences hpos hrep ht.wf ?_
  intro c' own' r' f' hs he
  refine WP.pure ?_
  have hnd' := hnd
  simp only [List.map_append, List.map_cons, List.nodup_append, List.nodup_cons, List.mem_cons] at hnd'
  have hpl : p' ∉ l.map (·.1) := fun h => (hnd'.2.2 _ h _ (Or.inl rfl)) rfl
  have hpr : p' ∉ rr.map (·.1) := hnd'.2.1.1
  rw [mapSet_indexOf r r' f f' hpl]
  have hap := ht.apart
  rw [List.pairwise_append] at hap
  obtain ⟨ha1, ha2, ha3⟩ := hap
  rw [List.pairwise_cons] at ha2
  have hothers : ∀ x ∈ l ++ rr, RootRep c' own' x.2.1 x.2.2 ∧ x.1 ≠ p' ∧
      (∀ t ∈ rootTags x.2.1 x.2.2, t ∉ rootTags r' f') := by
    intro x hx'
    have hxr : x ∈ l ++ (p', r, f) :: rr := by
      rcases List.mem_append.mp hx' with h | h
      · exact List.mem_append.mpr (Or.inl h)
      · exact List.mem_append.mpr (Or.inr (List.mem_cons_of_mem _ h))
    have hdis : ∀ t ∈ rootTags x.2.1 x.2.2, t ∉ rootTags r f := by
      rcases List.mem_append.mp hx' with h | h
      · exact ha3 x h _ List.mem_cons_self
      · intro t h1 h2
        exact ha2.1 x h t h2 h1
    refine ⟨(ht.rep x hxr).frame hs.ext (val_not_mem_rootTags _ _) hdis, ?_, ?_⟩
    · rintro e
      rcases List.mem_append.mp hx' with h | h
      · exact hpl (e ▸ List.mem_map.mpr ⟨x, h, rfl⟩)
      · exact hpr (e ▸ List.mem_map.mpr ⟨x, h, rfl⟩)
    · intro t h1 h2
      rcases hs.tags t h2 with h | h
      · exact hdis t h1 h
      · exact (ht.rep x hxr).not_fresh t h1 h
  refine hq c' own' _ (hm.frame hs.ext (other_not_mem_rootTags _ _)) ⟨?_, ?_, ?_, hs.wf⟩ (by simp) (by simp [hs.off])
  · intro x hx'
    rcases List.mem_append.mp hx' with h | h
    · exact (hothers x (List.mem_append.mpr (Or.inl h))).1
    · rcases List.mem_cons.mp h with rfl | h
      · exact hs.rep
      · exact (hothers x (List.mem_append.mpr (Or.inr h))).1
  · rw [List.pairwise_append, List.pairwise_cons]
    refine ⟨ha1, ⟨?_, ha2.2⟩, ?_⟩
    · intro y hy t h1 h2
      exact (hothers y (List.mem_append.mpr (Or.inr hy))).2.2 t h2 h1
    · intro x hx' y hy
      rcases List.mem_cons.mp hy with rfl | hy
      · exact (hothers x (List.mem_append.mpr (Or.inl hx'))).2.2
      · exact ha3 x hx' y (List.mem_cons_of_mem _ hy)
  · intro x hx'
    unfold upd
    rcases List.mem_append.mp hx' with h | h
    · rw [if_neg (hothers x (List.mem_append.mpr (Or.inl h))).2.1]
      exact ht.erase x (List.mem_append.mpr (Or.inl h))
    · rcases List.mem_cons.mp h with rfl | h
      · simp only [if_true]
        rw [he]
        rw [ht.erase _ hx]
      · rw [if_neg (hothers x (List.mem_append.mpr (Or.inr h))).2.1]
        exact ht.erase x (List.mem_append.mpr (Or.inr (List.mem_cons_of_mem _ h)))

theorem Mono.lift {α : Type} (r : Res α) : Mono (M.lift r) := fun _ => Nat.le_refl _

theorem WP.lift {α : Type} {c : Bytes} {a : α} {r : Res α} {Q : α → Bytes → Prop} (hr : r = .ok a) (h : Q a c) :
    WP c (M.lift r) Q := fun s hi hc _ => ⟨a, s, by simp [M.lift, hr], hi, Quiet.refl _, hc ▸ h⟩

theorem Mono.addString (lower cfg index p s pos) : Mono (addString lower cfg index p s pos) := by
  unfold Rodb.addString
  split
  · exact Mono.bind (Mono.addAllSequences _ _ _) fun _ => Mono.pure _
  · exact Mono.fail _

mutual
theorem Mono.addValueToIndex (lower cfg) (index : WIndex) (p) : ∀ (v : Value) (pos : Int), Mono (addValueToIndex lower cfg index p v pos)
  | .str s, pos => Mono.addString _ _ _ _ _ _
  | .arr l, pos => by
    rw [Rodb.addValueToIndex]
    exact Mono.bind (Mono.addValuesToIndex lower cfg index p l pos) fun _ => Mono.fail _
  | .null, pos => Mono.fail _
  | .bool _, pos => Mono.fail _
  | .int _, pos => Mono.fail _
  | .float _, pos => Mono.fail _
  | .obj _, pos => Mono.fail _
theorem Mono.addValuesToIndex (lower cfg) (index : WIndex) (p) : ∀ (v : List Value) (pos : Int), Mono (addValuesToIndex lower cfg index p v pos)
  | [], pos => Mono.pure _
  | v :: vs, pos => by
    rw [Rodb.addValuesToIndex]
    exact Mono.bind (Mono.addValueToIndex lower cfg index p v pos) fun i => Mono.addValuesToIndex lower cfg i p vs pos
end

theorem Mono.indexProperties (lower cfg r ps index) : Mono (indexProperties lower cfg r ps index) := by
  induction ps generalizing index with
  | nil => exact Mono.pure _
  | cons p ps ih =>
    exact Mono.bind (Mono.lift _) fun _ => Mono.bind (Mono.addValueToIndex _ _ _ _ _ _) fun _ => ih _

theorem Mono.indexRecords (lower cfg rs index) : Mono (indexRecords lower cfg rs index) := by
  induction rs generalizing index with
  | nil => exact Mono.pure _
  | cons p ps ih =>
    exact Mono.bind (Mono.lift _) fun _ => Mono.bind (Mono.indexProperties _ _ _ _ _) fun _ => ih _

theorem Trees.congr {c own T T'} {roots : RootsOf} (h : Trees c own T roots)
    (he : ∀ p ∈ roots.map (·.1), T p = T' p) : Trees c own T' roots :=
  ⟨h.rep, h.apart, fun x hx => (h.erase x hx).trans (he _ (List.mem_map.mpr ⟨x, hx, rfl⟩)), h.wf⟩

/-- Indexing one record whose properties `ps` are strings. -/
theorem WP.indexProperties {lower cfg mb} {r : Rec} {val : String → Bytes} (hpos : InI64 r.position) :
    ∀ {ps : List String} {c own T} {roots : RootsOf} {Q : WIndex → Bytes → Prop},
    (∀ p ∈ ps, r.get p = .ok (.str (val p))) → ps.Nodup → (∀ p ∈ ps, p ∈ roots.map (·.1)) →
    (roots.map (·.1)).Nodup → MetaAt c own mb → Trees c own T roots →
    (∀ c' own' roots', MetaAt c' own' mb →
      Trees c' own' (fun p => if p ∈ ps then (T p).insertSuffixes (cfg.normalize lower (val p)) r.position else T p) roots' →
      roots'.map (·.1) = roots.map (·.1) → roots'.map (·.2.1.offset) = roots.map (·.2.1.offset) →
      Q (indexOf roots') c') →
    WP c (indexProperties lower cfg r ps (indexOf roots)) Q := by
  intro ps
  induction ps with
  | nil =>
    intro c own T roots Q _ _ _ _ hm ht hq
    exact WP.pure (hq c own roots hm (ht.congr (by simp)) rfl rfl)
  | cons p ps ih =>
    intro c own T roots Q hv hn hin hnd hm ht hq
    rw [List.nodup_cons] at hn
    unfold Rodb.indexProperties
    refine WP.bind (fun _ => Mono.bind (Mono.addValueToIndex _ _ _ _ _ _) fun _ => Mono.indexProperties _ _ _ _ _) ?_
    refine WP.lift (hv p List.mem_cons_self) ?_
    refine WP.bind (fun _ => Mono.indexProperties _ _ _ _ _) ?_
    rw [Rodb.addValueToIndex]
    refine WP.addString hnd (hin p List.mem_cons_self) hpos hm ht ?_
    intro c1 own1 roots1 hm1 ht1 hk1 ho1
    refine ih (fun q hq => hv q (List.mem_cons_of_mem _ hq)) hn.2 ?_ (by rw [hk1]; exact hnd) hm1 ht1 ?_
    · intro q hq'; rw [hk1]; exact hin q (List.mem_cons_of_mem _ hq')
    · intro c2 own2 roots2 hm2 ht2 hk2 ho2
      refine hq c2 own2 roots2 hm2 (ht2.congr ?_) (hk2.trans hk1) (ho2.trans ho1)
      intro q _
      simp only [upd, List.mem_cons]
      by_cases h : q = p
      · subst h; simp [hn.1]
      · simp [h]

end Rodb
