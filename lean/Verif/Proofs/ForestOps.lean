import Verif.Proofs.Forest
/-
  Correctness of the tree mutations: position append, node split, leaf creation, sequence insertion.
-/
namespace Rodb
open Spec Forest

theorem Tag.Fresh.mono {t : Tag} {m n : Nat} (h : t.Fresh n) (hm : m ≤ n) : t.Fresh m := by
  cases t <;> simp_all [Tag.Fresh] <;> omega

theorem not_mem_of_fresh {c own} {f : Forest} {tail} (h : Rep c own f tail) {t : Tag} (ht : t.Fresh c.length) :
    t ∉ f.tags := fun hm => h.not_fresh t hm ht

theorem posTags_not_fresh {c own tail} {l : List (Nat × Int)} (h : PosRep c own l tail) :
    ∀ t ∈ posTags l, ¬ t.Fresh c.length := by
  intro t ht
  obtain ⟨x, hx, rfl⟩ := List.mem_map.mp ht
  have := (h.lt x hx).1
  simp only [Tag.Fresh]; omega

theorem WP.appendPosition {c own} {E : TreeNode} {ps : List (Nat × Int)} {p : Int} {Q : TreeNode → Bytes → Prop}
    (hE : NodeCell c own E) (h1 : E.firstPosition = headOff ps 0) (h2 : E.lastPosition = lastOff ps)
    (hps : PosRep c own ps 0) (hne : ps ≠ []) (hnd : (posTags ps).Nodup) (hw : OwnWF own) (hp : InI64 p)
    (hq : ∀ c' own' ps', NodeCell c' own' { E with firstPosition := headOff ps' 0, lastPosition := lastOff ps' } →
      PosRep c' own' ps' 0 → ps' ≠ [] → ps'.map (·.2) = appendPos (ps.map (·.2)) p →
      (∀ t ∈ posTags ps', t ∈ posTags ps ∨ t.Fresh c.length) → (posTags ps').Nodup →
      Ext own c own' c' (fun t => t = .node E.offset ∨ t ∈ posTags ps) → OwnWF own' →
      Q { E with firstPosition := headOff ps' 0, lastPosition := lastOff ps' } c') :
    WP c (E.appendPositionIfNotExists p) Q := by
  have hc : flagOffset < c.length := by have := hE.le; have := hE.pos; omega
  obtain ⟨ps0, ⟨lo, lp⟩, rfl⟩ : ∃ ps0 x, ps = ps0 ++ [x] :=
    ⟨ps.dropLast, ps.getLast hne, (List.dropLast_concat_getLast hne).symm⟩
  have hsplit := PosRep.append_iff.mp hps
  have hcell : PosCell c own ⟨lo, lp, 0⟩ := hsplit.2.1
  have hfp : E.firstPosition ≠ 0 := by
    rw [h1]
    cases ps0 with
    | nil => have := hcell.pos; simp only [List.nil_append, headOff] at *; omega
    | cons y r => have := (hps.lt y (by simp)).2; simp only [List.cons_append, headOff] at *; omega
  have hlp : E.lastPosition = lo := by rw [h2, lastOff_append]
  have hEeq : ({ E with firstPosition := headOff (ps0 ++ [(lo, lp)]) 0, lastPosition := lastOff (ps0 ++ [(lo, lp)]) } : TreeNode) = E := by
    rw [← h1, ← h2]
  unfold TreeNode.appendPositionIfNotExists
  refine WP.bind ?_ ?_
  · intro a
    refine Mono.ite (Mono.bind (Mono.nodeSave _) fun _ => Mono.pure _) (Mono.bind (Mono.getPos _) fun o => ?_)
    cases o with
    | none => exact Mono.fail _
    | some l =>
      exact Mono.ite (Mono.bind (Mono.posSave _) fun _ => Mono.bind (Mono.nodeSave _) fun _ => Mono.pure _)
        (Mono.pure _)
  refine WP.newPos (own := own) hc hw hp fun c1 own1 hn e1 hw1 hl1 => ?_
  rw [if_neg hfp, hlp]
  have hcell1 := hcell.frame e1 (by simp)
  refine WP.bind ?_ (WP.getPos hcell1 ?_)
  · intro o
    cases o with
    | none => exact Mono.fail _
    | some l =>
      exact Mono.ite (Mono.bind (Mono.posSave _) fun _ => Mono.bind (Mono.nodeSave _) fun _ => Mono.pure _)
        (Mono.pure _)
  by_cases hpp : lp ≠ p
  · simp only [if_pos hpp]
    refine WP.bind (fun _ => Mono.bind (Mono.nodeSave _) fun _ => Mono.pure _) ?_
    refine WP.of_bound (Mono.posSave _) fun hb => ?_
    refine WP.posSave hcell1 rfl (by unfold maxSize at hb; simp only; omega) hcell.rng fun c2 hc2 e2 hl2 => ?_
    refine WP.bind (fun _ => Mono.pure _) ?_
    have hE2 : NodeCell c2 own1 E := (hE.frame e1 (by simp)).frame e2 (by simp)
    have hf : ({ E with lastPosition := c.length } : TreeNode).Fits := by
      have := hE.unserialize_lt
      exact ⟨this.h1, this.h2, this.h3, this.h4, this.h5, this.h6, by unfold maxSize at hb; simp only; omega⟩
    refine WP.nodeSave hE2 rfl hf fun c3 hE3 e3 hl3 => WP.pure ?_
    have hlolt : lo < c.length := by have := hcell.le; simp only at this; omega
    have hnd' := hnd
    simp only [posTags_append, posTags_cons, posTags_nil, List.nodup_append] at hnd'
    have hrep : PosRep c3 own1 (ps0 ++ [(lo, lp), (c.length, p)]) 0 := by
      rw [PosRep.append_iff]
      have hps0 : PosRep c3 own1 ps0 lo := by
        refine ((hsplit.1.frame e1 (by simp)).frame e2 ?_).frame e3 ?_
        · intro t ht h
          exact hnd'.2.2 t ht (.pos lo) (by simp) h
        · intro t ht h
          obtain ⟨x, _, rfl⟩ := List.mem_map.mp ht
          simp at h
      refine ⟨hps0, hc2.frame e3 (by simp), ?_, trivial⟩
      exact (hn.frame e2 (by simp; omega)).frame e3 (by simp)
    have hEE : ({ E with lastPosition := c.length } : TreeNode) =
        { E with firstPosition := headOff (ps0 ++ [(lo, lp), (c.length, p)]) 0,
                 lastPosition := lastOff (ps0 ++ [(lo, lp), (c.length, p)]) } := by
      have e1 : headOff (ps0 ++ [(lo, lp), (c.length, p)]) 0 = headOff (ps0 ++ [(lo, lp)]) 0 := by
        cases ps0 <;> rfl
      have e2 : lastOff (ps0 ++ [(lo, lp), (c.length, p)]) = c.length := by
        have := lastOff_append (ps0 ++ [(lo, lp)]) (c.length, p)
        simpa using this
      rw [e1, e2, ← h1]
    rw [hEE]
    apply hq c3 own1 (ps0 ++ [(lo, lp), (c.length, p)])
    · rw [← hEE]; exact hE3
    · exact hrep
    · simp
    · simp only [List.map_append, List.map_cons, List.map_nil, appendPos]
      rw [if_neg (by simpa using hpp)]
      simp
    · intro t ht
      simp only [posTags_append, posTags_cons, posTags_nil, List.mem_append, List.mem_cons, List.not_mem_nil, or_false] at ht ⊢
      rcases ht with h | h | h
      · exact Or.inl (Or.inl h)
      · exact Or.inl (Or.inr h)
      · subst h; exact Or.inr (Nat.le_refl _)
    · have e : ps0 ++ [(lo, lp), (c.length, p)] = (ps0 ++ [(lo, lp)]) ++ [(c.length, p)] := by simp
      rw [e, posTags_append, List.nodup_append]
      refine ⟨hnd, by simp, ?_⟩
      intro t ht t' ht' heq
      simp only [posTags_cons, posTags_nil, List.mem_singleton] at ht'
      subst heq ht'
      exact posTags_not_fresh hps _ ht (Nat.le_refl _)
    · refine Ext.trans' hw (Ext.trans' hw (e1.mono (by simp)) e2 ?_) e3 ?_
      · intro t ht; subst ht; left; right; simp
      · intro t ht; subst ht; left; left; rfl
    · exact hw1
  · simp only [if_neg hpp]
    have hpp' : lp = p := by simpa using hpp
    refine WP.pure ?_
    rw [← hEeq]
    apply hq c1 own1 (ps0 ++ [(lo, lp)])
    · rw [hEeq]; exact hE.frame e1 (by simp)
    · exact hps.frame e1 (by simp)
    · simp
    · simp [appendPos, hpp']
    · intro t ht; exact Or.inl ht
    · exact hnd
    · exact e1.mono (by simp)
    · exact hw1

theorem WP.splitNode {c own} {E : TreeNode} {l : Bytes} {ps : List (Nat × Int)} {ch : Forest} {k : Nat}
    {Q : TreeNode → Bytes → Prop}
    (hE : NodeCell c own E) (hval : ValAt c own E.valueOffset l) (hlen : E.valueLength = l.length)
    (h1 : E.firstPosition = headOff ps 0)
    (h3 : E.firstChild = ch.head 0) (h4 : E.lastChild = ch.last)
    (hps : PosRep c own ps 0) (hne : ps ≠ []) (hnd : (posTags ps).Nodup)
    (hch : Rep c own ch 0) (hEch : .node E.offset ∉ ch.tags) (hw : OwnWF own)
    (hk : k < l.length)
    (hq : ∀ c' own' no ps',
      NodeCell c' own' { E with firstChild := no, lastChild := no, valueLength := k } →
      Rep c' own' (.cons no (E.valueOffset + k) (l.drop k) ps' ch .nil) 0 →
      ps'.map (·.2) = ps.map (·.2) →
      c.length ≤ no → (∀ t ∈ posTags ps', t.Fresh c.length) → (posTags ps').Nodup →
      Ext own c own' c' (fun t => t = .node E.offset) → OwnWF own' →
      Q { E with firstChild := no, lastChild := no, valueLength := k } c') :
    WP c (splitNode E k) Q := by
  have hc : flagOffset < c.length := by have := hE.le; have := hE.pos; omega
  obtain ⟨⟨o, p⟩, r, rfl⟩ : ∃ x r, ps = x :: r := by
    cases ps with
    | nil => exact absurd rfl hne
    | cons x r => exact ⟨x, r, rfl⟩
  unfold Rodb.splitNode
  refine WP.bind ?_ ?_
  · intro o
    cases o with
    | none => exact Mono.fail _
    | some l =>
      exact Mono.bind (Mono.copy _) fun _ => Mono.bind Mono.newEmptyTreeNode fun _ =>
        Mono.bind (Mono.nodeSave _) fun _ => Mono.bind (Mono.nodeSave _) fun _ => Mono.pure _
  have hget : ∀ Q : Option PosNode → Bytes → Prop, Q (headPos ((o, p) :: r)) c → WP c (Rodb.getPos E.firstPosition) Q := by
    intro Q hQ; rw [h1]; exact WP.getPos_head hps hQ
  refine hget _ ?_
  simp only [headPos]
  refine WP.bind (fun _ => Mono.bind Mono.newEmptyTreeNode fun _ =>
      Mono.bind (Mono.nodeSave _) fun _ => Mono.bind (Mono.nodeSave _) fun _ => Mono.pure _) ?_
  refine WP.copy hps hnd hw fun c1 own1 ps' first last hps1 hne1 hv1 hfo hlo hfresh hnd1 e1 hw1 => ?_
  have hlen1 := e1.len
  refine WP.bind (fun _ => Mono.bind (Mono.nodeSave _) fun _ => Mono.bind (Mono.nodeSave _) fun _ => Mono.pure _) ?_
  refine WP.newEmptyTreeNode (own := own1) (by omega) hw1 fun c2 own2 hN e2 hw2 hl2 => ?_
  refine WP.bind (fun _ => Mono.bind (Mono.nodeSave _) fun _ => Mono.pure _) ?_
  refine WP.of_bound (Mono.nodeSave _) fun hb => ?_
  have hEl := hE.unserialize_lt
  have hvl := hval.le
  have hhead := headOff_lt hps1 (tail := 0) (by omega)
  have hlast := lastOff_lt hps1 (by omega)
  have hchl := Forest.last_lt hch (by omega)
  have hchh := Forest.head_lt hch (by omega)
  refine WP.nodeSave hN rfl ?_ fun c3 hN3 e3 hl3 => ?_
  · refine TreeNode.Fits.of_lt hb ?_ ?_ ?_ ?_ ?_ ?_ ?_ <;> simp only <;> omega
  refine WP.bind (fun _ => Mono.pure _) ?_
  have hElt : E.offset < c.length := by have := hE.le; omega
  have hE3 : NodeCell c3 own2 E := by
    refine ((hE.frame e1 (by simp)).frame e2 (by simp)).frame e3 ?_
    simp only [emptyNode, Tag.node.injEq]; omega
  refine WP.nodeSave hE3 rfl ?_ fun c4 hE4 e4 hl4 => WP.pure ?_
  · refine ⟨hEl.h1, ?_, hEl.h3, ?_, ?_, hEl.h6, hEl.h7⟩ <;> simp only [emptyNode] <;> unfold maxSize at hb <;> omega
  simp only [emptyNode] at hE4 e3 hN3 ⊢
  apply hq c4 own2 c1.length ps' hE4
  · refine ⟨?_, ?_, ?_, ⟨hne1, ?_⟩, ?_, trivial⟩
    · have hN4 := hN3.frame e4 (by simp only [Tag.node.injEq]; omega)
      have e : nodeOf c1.length (E.valueOffset + k) (l.drop k) ps' ch .nil 0 =
          { offset := c1.length, valueOffset := E.valueOffset + k, valueLength := E.valueLength - k, nextSibling := 0,
            firstChild := E.firstChild, lastChild := E.lastChild, firstPosition := first.offset,
            lastPosition := last.offset } := by
        simp [nodeOf, hlen, h3, h4, hfo, hlo, Forest.head]
      rw [e]; exact hN4
    · refine ((((hval.drop k (by omega)).frame e1 (by simp)).frame e2 (by simp)).frame e3 (by simp)).frame e4 (by simp)
    · refine (hps1.frame e2 (by simp)).frame e3 ?_ |>.frame e4 ?_
      · intro t ht h
        obtain ⟨x, _, rfl⟩ := List.mem_map.mp ht
        simp at h
      · intro t ht h
        obtain ⟨x, _, rfl⟩ := List.mem_map.mp ht
        simp at h
    · intro h
      have := congrArg List.length h
      simp at this; omega
    · refine (((hch.frame e1 (by simp) (by simp)).frame e2 (by simp) (by simp)).frame e3 (by simp) ?_).frame e4 (by simp) ?_
      · intro t ht h
        subst h
        exact hch.not_fresh _ ht hlen1
      · intro t ht h
        subst h
        exact hEch ht
  · exact hv1
  · exact hlen1
  · exact hfresh
  · exact hnd1
  · refine Ext.trans' hw (Ext.trans' hw (Ext.trans' hw (e1.mono (by simp)) e2 (by simp)) e3 ?_) e4 ?_
    · intro t ht; subst ht; exact Or.inr hlen1
    · intro t ht; subst ht; exact Or.inl rfl
  · exact hw2

theorem WP.addLeaf {c own} {parent : TreeNode} {f : Forest} {w : Bytes} {off : Nat} {p : Int}
    {Q : TreeNode → Bytes → Prop}
    (hE : NodeCell c own parent) (h3 : parent.firstChild = f.head 0) (h4 : parent.lastChild = f.last)
    (hf : Rep c own f 0) (hnd : (Tag.node parent.offset :: f.tags).Nodup) (hval : ValAt c own off w)
    (hwne : w ≠ []) (hw : OwnWF own) (hp : InI64 p)
    (hq : ∀ c' own' f', NodeCell c' own' { parent with firstChild := f'.head 0, lastChild := f'.last } →
      Rep c' own' f' 0 → f'.erase = f.erase.app (.cons w [p] .nil .nil) →
      (Tag.node parent.offset :: f'.tags).Nodup → (∀ t ∈ f'.tags, t ∈ f.tags ∨ t.Fresh c.length) →
      Ext own c own' c' (fun t => t = .node parent.offset ∨ t ∈ f.tags) → OwnWF own' →
      Q { parent with firstChild := f'.head 0, lastChild := f'.last } c') :
    WP c (addLeaf parent w off p) Q := by
  have hc : flagOffset < c.length := by have := hE.le; have := hE.pos; omega
  unfold Rodb.addLeaf
  refine WP.bind (fun _ => Mono.bind Mono.newEmptyTreeNode fun _ => Mono.bind (Mono.nodeSave _) fun _ => Mono.appendChild _ _) ?_
  refine WP.newPos (own := own) hc hw hp fun c1 own1 hp1 e1 hw1 hl1 => ?_
  refine WP.bind (fun _ => Mono.bind (Mono.nodeSave _) fun _ => Mono.appendChild _ _) ?_
  refine WP.newEmptyTreeNode (own := own1) (by omega) hw1 fun c2 own2 hN e2 hw2 hl2 => ?_
  refine WP.bind (fun _ => Mono.appendChild _ _) ?_
  refine WP.of_bound (Mono.nodeSave _) fun hb => ?_
  have hvl := hval.le
  refine WP.nodeSave hN rfl ?_ fun c3 hN3 e3 hl3 => ?_
  · refine TreeNode.Fits.of_lt hb ?_ ?_ ?_ ?_ ?_ ?_ ?_ <;> simp only <;> omega
  simp only [emptyNode] at hN3 e3 ⊢
  -- the new leaf, as a one-node forest
  have hleaf : Rep c3 own2 (.cons c1.length off w [(c.length, p)] .nil .nil) 0 := by
    refine ⟨?_, ?_, ?_, ⟨by simp, hwne⟩, trivial, trivial⟩
    · exact hN3
    · exact ((hval.frame e1 (by simp)).frame e2 (by simp)).frame e3 (by simp)
    · exact ⟨(hp1.frame e2 (by simp)).frame e3 (by simp), trivial⟩
  have hplt : parent.offset < c.length := by have := hE.le; omega
  have hE3 : NodeCell c3 own2 parent := by
    refine ((hE.frame e1 (by simp)).frame e2 (by simp)).frame e3 ?_
    simp only [Tag.node.injEq]; omega
  have hf3 : Rep c3 own2 f 0 := by
    refine ((hf.frame e1 (by simp) (by simp)).frame e2 (by simp) (by simp)).frame e3 (by simp) ?_
    intro t ht h
    subst h
    exact hf.not_fresh _ ht (show c.length ≤ c1.length by omega)
  have e03 : Ext own c own2 c3 (fun _ => False) := by
    refine Ext.trans' hw (Ext.trans' hw e1 e2 (by simp)) e3 ?_
    intro t ht; subst ht; exact Or.inr (show c.length ≤ c1.length by omega)
  have hfits : ∀ a b, a < maxSize → b < maxSize → ({ parent with firstChild := a, lastChild := b } : TreeNode).Fits := by
    intro a b ha hb
    have := hE.unserialize_lt
    unfold maxSize at ha hb
    exact ⟨this.h1, this.h2, this.h3, by simp only; omega, by simp only; omega, this.h6, this.h7⟩
  have hnd2 := List.nodup_cons.mp hnd
  -- tags of the new forest
  have htags : ∀ t, t ∈ (f.app (.cons c1.length off w [(c.length, p)] .nil .nil)).tags →
      t ∈ f.tags ∨ t.Fresh c.length := by
    intro t ht
    rw [Forest.mem_tags_app] at ht
    rcases ht with ht | ht
    · exact Or.inl ht
    · simp only [Forest.tags, posTags_cons, posTags_nil, List.append_nil, List.mem_cons, List.not_mem_nil, or_false] at ht
      rcases ht with rfl | rfl
      · exact Or.inr (show c.length ≤ c1.length by omega)
      · exact Or.inr (Nat.le_refl _)
  have hnodup : (Tag.node parent.offset :: (f.app (.cons c1.length off w [(c.length, p)] .nil .nil)).tags).Nodup := by
    rw [List.nodup_cons]
    constructor
    · intro hm
      rcases htags _ hm with h | h
      · exact hnd2.1 h
      · simp only [Tag.Fresh] at h; omega
    · rw [(Forest.tags_app_perm _ _).nodup_iff, List.nodup_append]
      refine ⟨hnd2.2, by simp [Forest.tags], ?_⟩
      intro t ht t' ht' heq
      subst heq
      have : t.Fresh c.length := by
        simp only [Forest.tags, posTags_cons, posTags_nil, List.append_nil, List.mem_cons, List.not_mem_nil, or_false] at ht'
        rcases ht' with rfl | rfl
        · exact (show c.length ≤ c1.length by omega)
        · exact Nat.le_refl _
      exact hf.not_fresh _ ht this
  have herase : (f.app (.cons c1.length off w [(c.length, p)] .nil .nil)).erase = f.erase.app (.cons w [p] .nil .nil) := by
    rw [Forest.erase_app]; rfl
  unfold TreeNode.appendChild
  by_cases hnil : f = .nil
  · subst hnil
    rw [if_pos (by rw [h3]; rfl)]
    refine WP.bind (fun _ => Mono.pure _) ?_
    refine WP.nodeSave hE3 rfl (hfits _ _ (by simp only; omega) (by simp only; omega)) fun c4 hE4 e4 hl4 => WP.pure ?_
    apply hq c4 own2 (.cons c1.length off w [(c.length, p)] .nil .nil) hE4
    · refine hleaf.frame e4 (by simp) ?_
      intro t ht h
      subst h
      simp only [Forest.tags, posTags_cons, posTags_nil, List.append_nil, List.mem_cons, List.not_mem_nil, or_false, Tag.node.injEq, reduceCtorEq] at ht
      omega
    · exact herase
    · exact hnodup
    · exact htags
    · refine Ext.trans' hw (e03.mono (by simp)) e4 ?_
      intro t ht; subst ht; exact Or.inl (Or.inl rfl)
    · exact hw2
  · have hhead : parent.firstChild ≠ 0 := by
      rw [h3]
      cases f with
      | nil => exact absurd rfl hnil
      | cons o v l ps ch nx => have := hf.1.pos; simp only [nodeOf, Forest.head] at *; omega
    rw [if_neg hhead]
    obtain ⟨g, o, v, l, ps, ch, rfl⟩ := Forest.exists_last f hnil
    have hsp := Rep.app_iff.mp hf3
    have hL : NodeCell c3 own2 (nodeOf o v l ps ch .nil 0) := hsp.2.1
    have hlast : parent.lastChild = o := by rw [h4, Forest.last_app_cons]; rfl
    have hoff : (nodeOf o v l ps ch .nil 0).offset = o := rfl
    refine WP.bind ?_ ?_
    · intro x
      cases x with
      | none => exact Mono.fail _
      | some l => exact Mono.bind (Mono.nodeSave _) fun _ => Mono.bind (Mono.nodeSave _) fun _ => Mono.pure _
    rw [hlast, ← hoff]
    refine WP.getTreeNode hL ?_
    refine WP.bind (fun _ => Mono.bind (Mono.nodeSave _) fun _ => Mono.pure _) ?_
    have hLf := hL.unserialize_lt
    have hLfits : ({ nodeOf o v l ps ch .nil 0 with nextSibling := c1.length } : TreeNode).Fits :=
      ⟨hLf.h1, hLf.h2, by simp only; unfold maxSize at hb; omega, hLf.h4, hLf.h5, hLf.h6, hLf.h7⟩
    refine WP.nodeSave hL rfl hLfits fun c4 hL4 e4 hl4 => ?_
    simp only [hoff] at e4
    refine WP.bind (fun _ => Mono.pure _) ?_
    have hmem : ∀ t, t ∈ (Forest.cons o v l ps ch .nil).tags → t ∈ (g.app (.cons o v l ps ch .nil)).tags :=
      fun t ht => Forest.mem_tags_app.mpr (Or.inr ht)
    have hone : parent.offset ≠ o := by
      intro h
      apply hnd2.1
      apply hmem
      simp [Forest.tags, h]
    have hE4 : NodeCell c4 own2 parent := hE3.frame e4 (by simpa using hone)
    refine WP.nodeSave hE4 rfl ?_ fun c5 hE5 e5 hl5 => WP.pure ?_
    · have := hE.unserialize_lt
      exact ⟨this.h1, this.h2, this.h3, this.h4, by simp only; unfold maxSize at hb; omega, this.h6, this.h7⟩
    have heq : ({ parent with lastChild := c1.length } : TreeNode) =
        { parent with
          firstChild := ((g.app (.cons o v l ps ch .nil)).app (.cons c1.length off w [(c.length, p)] .nil .nil)).head 0,
          lastChild := ((g.app (.cons o v l ps ch .nil)).app (.cons c1.length off w [(c.length, p)] .nil .nil)).last } := by
      rw [Forest.last_app_cons, Forest.head_app]
      have : (g.app (.cons o v l ps ch .nil)).head ((Forest.cons c1.length off w [(c.length, p)] .nil .nil).head 0) =
          (g.app (.cons o v l ps ch .nil)).head 0 := by
        cases g <;> rfl
      rw [this, ← h3]; rfl
    simp only at hE5 ⊢
    rw [heq] at hE5 ⊢
    -- distinctness inside f
    have hfnd : (g.tags ++ (Forest.cons o v l ps ch .nil).tags).Nodup :=
      ((Forest.tags_app_perm _ _).nodup_iff).mp hnd2.2
    have hfnd2 := List.nodup_append.mp hfnd
    apply hq c5 own2 ((g.app (.cons o v l ps ch .nil)).app (.cons c1.length off w [(c.length, p)] .nil .nil)) hE5
    · rw [Rep.app_iff, Rep.app_iff]
      refine ⟨⟨?_, ?_⟩, ?_⟩
      · refine (hsp.1.frame e4 (by simp) ?_).frame e5 (by simp) ?_
        · intro t ht h
          exact hfnd2.2.2 t ht (.node o) (by simp [Forest.tags]) h
        · intro t ht h
          subst h
          exact hnd2.1 (Forest.mem_tags_app.mpr (Or.inl ht))
      · obtain ⟨_, h2, h3', h4', h5, _⟩ := hsp.2
        have hn3 := List.nodup_cons.mp hfnd2.2.1
        have hn4 : ∀ t ∈ posTags ps ++ (ch.tags ++ Forest.nil.tags), ¬ t = .node o := by
          intro t ht h; subst h; exact hn3.1 ht
        have hn5 : ∀ t ∈ posTags ps ++ (ch.tags ++ Forest.nil.tags), ¬ t = .node parent.offset := by
          intro t ht h; subst h
          exact hnd2.1 (hmem _ (by simp only [Forest.tags, List.mem_cons]; exact Or.inr ht))
        refine ⟨?_, ?_, ?_, h4', ?_, trivial⟩
        · have := hL4.frame e5 (by simpa [nodeOf] using Ne.symm hone)
          exact this
        · exact (h2.frame e4 (by simp)).frame e5 (by simp)
        · refine (h3'.frame e4 ?_).frame e5 ?_
          · intro t ht; exact hn4 t (by simp [ht])
          · intro t ht; exact hn5 t (by simp [ht])
        · refine (h5.frame e4 (by simp) ?_).frame e5 (by simp) ?_
          · intro t ht; exact hn4 t (by simp [ht])
          · intro t ht; exact hn5 t (by simp [ht])
      · refine (hleaf.frame e4 (by simp) ?_).frame e5 (by simp) ?_
        · intro t ht h
          subst h
          have hol := hf.not_fresh (.node o) (hmem _ (by simp [Forest.tags]))
          simp only [Tag.Fresh] at hol
          simp only [Forest.tags, posTags_cons, posTags_nil, List.append_nil, List.mem_cons, List.not_mem_nil, or_false, Tag.node.injEq, reduceCtorEq] at ht
          omega
        · intro t ht h
          subst h
          simp only [Forest.tags, posTags_cons, posTags_nil, List.append_nil, List.mem_cons, List.not_mem_nil, or_false, Tag.node.injEq, reduceCtorEq] at ht
          omega
    · exact herase
    · exact hnodup
    · exact htags
    · refine Ext.trans' hw (Ext.trans' hw (e03.mono (by simp)) e4 ?_) e5 ?_
      · intro t ht; subst ht; exact Or.inl (Or.inr (hmem _ (by simp [Forest.tags])))
      · intro t ht; subst ht; exact Or.inl (Or.inl rfl)
    · exact hw2

end Rodb
