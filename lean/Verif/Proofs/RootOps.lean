import Verif.Proofs.AddSequence
/-
  `AddAllSequences` and `GetSequence` on a root node, against the functional trie.
-/
namespace Rodb
open Spec Forest

/-- Insert every non-empty suffix. -/
def Trie.insertSuffixes : Trie → Bytes → Int → Trie
  | t, [], _ => t
  | t, b :: bs, p => Trie.insertSuffixes (t.insert (b :: bs) p) bs p

/-- The content holds a root node `r` whose children are the forest `f`. -/
structure RootRep (c : Bytes) (own : Own) (r : TreeNode) (f : Forest) : Prop where
  cell : NodeCell c own r
  first : r.firstChild = f.head 0
  last : r.lastChild = f.last
  rep : Rep c own f 0
  nodup : (Tag.node r.offset :: f.tags).Nodup
  noPos : r.firstPosition = 0

/-- Cells of a root and its descendants. -/
def rootTags (r : TreeNode) (f : Forest) : List Tag := .node r.offset :: f.tags

theorem RootRep.frame {c own c' own' P r f} (h : RootRep c own r f) (e : Ext own c own' c' P)
    (hv : ¬ P .val) (hp : ∀ t ∈ rootTags r f, ¬ P t) : RootRep c' own' r f :=
  ⟨h.cell.frame e (hp _ (by simp [rootTags])), h.first, h.last,
    h.rep.frame e hv (fun t ht => hp t (by simp [rootTags, ht])), h.nodup, h.noPos⟩

theorem RootRep.not_fresh {c own r f} (h : RootRep c own r f) : ∀ t ∈ rootTags r f, ¬ t.Fresh c.length := by
  intro t ht
  rcases List.mem_cons.mp ht with rfl | ht
  · have := h.cell.le; simp only [Tag.Fresh]; omega
  · exact h.rep.not_fresh t ht

theorem isCell_of_mem_rootTags {r f t} (h : t ∈ rootTags r f) : t.IsCell := by
  rcases List.mem_cons.mp h with rfl | h
  · trivial
  · exact isCell_of_mem_tags h

theorem val_not_mem_rootTags (r f) : Tag.val ∉ rootTags r f := fun h => isCell_of_mem_rootTags h

/-- Outcome of changing one root: what the callers need. -/
structure RootStep (c : Bytes) (own : Own) (r : TreeNode) (f : Forest) (c' : Bytes) (own' : Own)
    (r' : TreeNode) (f' : Forest) : Prop where
  rep : RootRep c' own' r' f'
  off : r'.offset = r.offset
  tags : ∀ t ∈ rootTags r' f', t ∈ rootTags r f ∨ t.Fresh c.length
  ext : Ext own c own' c' (fun t => t ∈ rootTags r f)
  wf : OwnWF own'

theorem RootStep.refl {c own r f} (h : RootRep c own r f) (hw : OwnWF own) : RootStep c own r f c own r f :=
  ⟨h, rfl, fun _ ht => Or.inl ht, Ext.refl _ _ _, hw⟩

theorem RootStep.trans {c own r f c1 own1 r1 f1 c2 own2 r2 f2} (hw : OwnWF own)
    (h1 : RootStep c own r f c1 own1 r1 f1)
    (h2 : RootStep c1 own1 r1 f1 c2 own2 r2 f2) : RootStep c own r f c2 own2 r2 f2 := by
  refine ⟨h2.rep, h2.off.trans h1.off, ?_, ?_, h2.wf⟩
  · intro t ht
    rcases h2.tags t ht with h | h
    · exact h1.tags t h
    · exact Or.inr (h.mono h1.ext.len)
  · exact Ext.trans' hw h1.ext h2.ext (fun t ht => h1.tags t ht)

theorem WP.addSequence {c own} {r : TreeNode} {f : Forest} {w : Bytes} {off : Nat} {p : Int}
    {Q : TreeNode → Bytes → Prop} (hp : InI64 p)
    (hr : RootRep c own r f) (hv : ValAt c own off w) (hw : OwnWF own)
    (hq : ∀ c' own' r' f', RootStep c own r f c' own' r' f' → f'.erase = f.erase.insert w p → Q r' c') :
    WP c (r.addSequence w off p) Q := by
  refine WP.addSequenceLoop hp (Nat.lt_succ_self _) hr.cell hr.first hr.last hr.rep hr.nodup hv hw ?_
  intro c' own' f' hE hR he hnd htags e hw'
  refine hq c' own' _ f' ⟨⟨hE, rfl, rfl, hR, hnd, hr.noPos⟩, rfl, ?_, ?_, hw'⟩ he
  · intro t ht
    rcases List.mem_cons.mp ht with rfl | ht
    · exact Or.inl (by simp [rootTags])
    · rcases htags t ht with h | h
      · exact Or.inl (by simp [rootTags, h])
      · exact Or.inr h
  · exact e.mono (fun a _ h => by simpa [rootTags] using h)

theorem WP.addSuffixes {p : Int} (hp : InI64 p) {w : Bytes} : ∀ {c own} {r : TreeNode} {f : Forest} {off : Nat}
    {Q : TreeNode → Bytes → Prop}, RootRep c own r f → ValAt c own off w → OwnWF own →
    (∀ c' own' r' f', RootStep c own r f c' own' r' f' → f'.erase = f.erase.insertSuffixes w p → Q r' c') →
    WP c (addSuffixes r w off p) Q := by
  induction w with
  | nil =>
    intro c own r f off Q hr _ hw hq
    exact WP.pure (hq c own r f (RootStep.refl hr hw) rfl)
  | cons b w ih =>
    intro c own r f off Q hr hv hw hq
    refine WP.bind (fun _ => Mono.addSuffixes _ _ _ _) ?_
    refine WP.addSequence hp hr hv hw ?_
    intro c1 own1 r1 f1 hs he
    have hv1 : ValAt c1 own1 (off + 1) w := by
      have := (hv.drop 1 (by simp)).frame hs.ext (val_not_mem_rootTags _ _)
      simpa using this
    refine ih hs.rep hv1 hs.wf ?_
    intro c2 own2 r2 f2 hs2 he2
    exact hq c2 own2 r2 f2 (hs.trans hw hs2) (by rw [he2, he]; rfl)

theorem WP.addAllSequences {p : Int} (hp : InI64 p) {w : Bytes} {c own} {r : TreeNode} {f : Forest}
    {Q : TreeNode → Bytes → Prop} (hr : RootRep c own r f) (hw : OwnWF own)
    (hq : ∀ c' own' r' f', RootStep c own r f c' own' r' f' → f'.erase = f.erase.insertSuffixes w p → Q r' c') :
    WP c (r.addAllSequences w p) Q := by
  have hlt : flagOffset < c.length := by have := hr.cell.le; have := hr.cell.pos; omega
  refine WP.bind (fun _ => Mono.addSuffixes _ _ _ _) (WP.add (flag_append hlt) ?_)
  have e : Ext own c (own.alloc c.length .val) (c ++ w) (fun _ => False) := Ext.alloc _ _ _ _ _
  have hw1 : OwnWF (own.alloc c.length .val) := hw.alloc _ _ (fun k _ => by simp [Tag.Fresh])
  have hr1 : RootRep (c ++ w) (own.alloc c.length .val) r f := hr.frame e (by simp) (by simp)
  have hv : ValAt (c ++ w) (own.alloc c.length .val) c.length w := by
    refine ⟨by simp, ?_, ?_⟩
    · rw [slice_append_right _ _ _ _ (Nat.le_refl _), Nat.sub_self, slice_zero_length]
    · intro a h1 _; simp [Own.alloc, Nat.not_lt.mpr h1]
  refine WP.addSuffixes hp hr1 hv hw1 ?_
  intro c2 own2 r2 f2 hs he
  have h0 : RootStep c own r f (c ++ w) (own.alloc c.length .val) r f :=
    ⟨hr1, rfl, fun _ ht => Or.inl ht, e.mono (by simp), hw1⟩
  exact hq c2 own2 r2 f2 (h0.trans hw hs) he

theorem Trie.lookup_noCommon {t : Trie} {w : Bytes} (h : t.NoCommon w) : t.lookup w = none := by
  induction t with
  | nil => rfl
  | cons l ps ch nx _ ih => rw [lookup, if_pos h.1]; exact ih h.2

theorem Trie.lookup_app {t t' : Trie} {w : Bytes} (h : t.NoCommon w) : (t.app t').lookup w = t'.lookup w := by
  induction t with
  | nil => rfl
  | cons l ps ch nx _ ih => rw [app, lookup, if_pos h.1]; exact ih h.2

/-- `GetSequence`'s descent agrees with the functional lookup. -/
theorem WP.getSequenceLoop {fuel : Nat} : ∀ {c own} {parent : TreeNode} {f : Forest} {w : Bytes}
    {Q : Option TreeNode → Bytes → Prop}, w.length < fuel → w ≠ [] →
    parent.firstChild = f.head 0 → Rep c own f 0 → f.tags.Nodup →
    (f.erase.lookup w = none → Q none c) →
    (∀ (N : TreeNode) ps, N.firstPosition = headOff ps 0 → PosRep c own ps 0 → ps ≠ [] → (posTags ps).Nodup →
      f.erase.lookup w = some (ps.map (·.2)) → Q (some N) c) →
    WP c (getSequenceLoop fuel parent w) Q := by
  induction fuel with
  | zero => intro c own parent f w Q h; omega
  | succ fuel ih =>
    intro c own parent f w Q hfuel hne hp hr hnd hnone hsome
    unfold Rodb.getSequenceLoop
    have hwl : ¬ w.length = 0 := by simpa using hne
    rw [if_neg hwl]
    refine WP.bind ?_ ?_
    · intro x
      cases x with
      | none => exact Mono.pure _
      | some x => 
        simp only
        split
        · exact Mono.pure _
        · exact Mono.getSequenceLoop _ _ _
    refine WP.findChildByPrefix hp hr hnd ?_ ?_
    · intro hn
      exact WP.pure (hnone (Trie.lookup_noCommon hn))
    · intro pre o v l ps ch nx hf hn hk
      subst hf
      have hrr := (Rep.app_iff.mp hr).2
      have hndd := (List.nodup_append.mp ((Forest.tags_app_perm _ _).nodup_iff.mp hnd)).2.1
      simp only [Forest.tags, List.nodup_cons, List.nodup_append, List.mem_append] at hndd
      have hlk : (pre.app (.cons o v l ps ch nx)).erase.lookup w = (Forest.cons o v l ps ch nx).erase.lookup w := by
        rw [Forest.erase_app, Trie.lookup_app hn]
      have hk0 : ¬ commonPrefixLen l w = 0 := by omega
      rw [hlk] at hnone
      simp only [Forest.erase, Trie.lookup, if_neg hk0] at hnone
      have hsome' : ∀ (N : TreeNode) qs, N.firstPosition = headOff qs 0 → PosRep c own qs 0 → qs ≠ [] → (posTags qs).Nodup →
          (if commonPrefixLen l w < l.length ∧ commonPrefixLen l w < w.length then none
            else if w.length ≤ l.length then some (ps.map (·.2)) else ch.erase.lookup (w.drop l.length)) =
            some (qs.map (·.2)) → Q (some N) c := by
        intro N qs h1 h2 h2' h3 h4
        refine hsome N qs h1 h2 h2' h3 ?_
        rw [hlk]
        simp only [Forest.erase, Trie.lookup, if_neg hk0]
        exact h4
      have hvl : (nodeOf o v l ps ch nx 0).valueLength = l.length := rfl
      simp only [hvl]
      by_cases hc : commonPrefixLen l w < l.length ∧ commonPrefixLen l w < w.length
      · rw [if_pos hc] at hnone ⊢
        exact WP.pure (hnone rfl)
      · rw [if_neg hc] at hnone ⊢
        simp only [if_neg hc] at hsome'
        by_cases hl : w.length ≤ l.length
        · simp only [if_pos hl] at hsome'
          have hd : w.drop l.length = [] := List.drop_eq_nil_of_le hl
          rw [hd]
          cases fuel with
          | zero => omega
          | succ fuel =>
            unfold Rodb.getSequenceLoop
            exact WP.pure (hsome' _ ps rfl hrr.2.2.1 hrr.2.2.2.1.1 hndd.2.1 rfl)
        · rw [if_neg hl] at hnone
          simp only [if_neg hl] at hsome'
          have hl0 : 0 < l.length := by have := commonPrefixLen_le_left l w; omega
          refine ih (f := ch) (by simp only [List.length_drop]; omega) ?_ rfl hrr.2.2.2.2.1 hndd.2.2.1.1 hnone hsome'
          intro h
          have := congrArg List.length h
          simp only [List.length_drop, List.length_nil] at this
          omega

theorem WP.getSequence {c own} {r : TreeNode} {f : Forest} {w : Bytes} {Q : Option PosNode → Bytes → Prop}
    (hr : RootRep c own r f) (hne : w ≠ [])
    (hnone : f.erase.lookup w = none → Q none c)
    (hsome : ∀ ps, PosRep c own ps 0 → ps ≠ [] → (posTags ps).Nodup →
      f.erase.lookup w = some (ps.map (·.2)) → Q (headPos ps) c) :
    WP c (r.getSequence w) Q := by
  refine WP.bind ?_ ?_
  · intro x
    cases x
    · exact Mono.pure _
    · exact Mono.getPos _
  refine WP.getSequenceLoop (Nat.lt_succ_self _) hne hr.first hr.rep (List.nodup_cons.mp hr.nodup).2 ?_ ?_
  · intro h; exact WP.pure (hnone h)
  · intro N ps h1 h2 h3 h4 h5
    simp only [h1]
    exact WP.getPos_head h2 (hsome ps h2 h3 h4 h5)

/-- The empty query answers nothing. -/
theorem WP.getSequence_empty {c own} {r : TreeNode} {f : Forest} {Q : Option PosNode → Bytes → Prop}
    (hr : RootRep c own r f) (hnone : Q none c) : WP c (r.getSequence []) Q := by
  refine WP.bind ?_ ?_
  · intro x
    cases x
    · exact Mono.pure _
    · exact Mono.getPos _
  unfold Rodb.getSequenceLoop
  refine WP.pure ?_
  simp only [hr.noPos]
  exact WP.getPos_zero hnone

end Rodb
