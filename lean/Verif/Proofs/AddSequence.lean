import Verif.Proofs.ForestOps
/-
  Correctness of `addSequence` and `GetSequence` with respect to the functional trie.
-/
namespace Rodb
open Spec Forest

/-- The optional split: afterwards the node's label is exactly the common prefix. -/
theorem WP.splitIfPartial {c own} {o v : Nat} {l : Bytes} {ps : List (Nat × Int)} {ch nx : Forest} {w : Bytes}
    {tail : Nat} {Q : TreeNode → Bytes → Prop}
    (hr : Rep c own (.cons o v l ps ch nx) tail) (hnd : (Forest.cons o v l ps ch nx).tags.Nodup) (hw : OwnWF own)
    (hk : 0 < commonPrefixLen l w)
    (hq : ∀ c' own' l1 ch1, l1.length = commonPrefixLen l w → l1 ≠ [] →
      NodeCell c' own' (nodeOf o v l1 ps ch1 nx tail) → ValAt c' own' v l1 → Rep c' own' ch1 0 →
      (∀ p, (Forest.cons o v l ps ch nx).erase.insert w p =
        .cons l1 (appendPos (ps.map (·.2)) p) (ch1.erase.insert (w.drop (commonPrefixLen l w)) p) nx.erase) →
      (∀ t ∈ ch1.tags, t ∈ ch.tags ∨ t.Fresh c.length) → ch1.tags.Nodup →
      Ext own c own' c' (fun t => t = .node o) → OwnWF own' →
      Q (nodeOf o v l1 ps ch1 nx tail) c') :
    WP c (splitIfPartial (nodeOf o v l ps ch nx tail) (commonPrefixLen l w)) Q := by
  obtain ⟨h1, h2, h3, ⟨h4, h4'⟩, h5, h6⟩ := hr
  simp only [Forest.tags, List.nodup_cons, List.nodup_append, List.mem_append] at hnd
  unfold Rodb.splitIfPartial
  by_cases hlt : commonPrefixLen l w < (nodeOf o v l ps ch nx tail).valueLength
  · rw [if_pos hlt]
    have hlt' : commonPrefixLen l w < l.length := hlt
    refine WP.splitNode (l := l) (ps := ps) (ch := ch) h1 h2 rfl rfl rfl rfl h3 h4 hnd.2.1 h5 ?_ hw hlt' ?_
    · intro hm; exact hnd.1 (Or.inr (Or.inl hm))
    · intro c' own' no ps' hE hR hv hno hfresh hnd' e hw'
      have heq : ({ nodeOf o v l ps ch nx tail with firstChild := no, lastChild := no, valueLength := commonPrefixLen l w } : TreeNode) =
          nodeOf o v (l.take (commonPrefixLen l w)) ps
            (.cons no (v + commonPrefixLen l w) (l.drop (commonPrefixLen l w)) ps' ch .nil) nx tail := by
        simp [nodeOf, Forest.head, Forest.last]; omega
      rw [heq] at hE ⊢
      apply hq c' own' (l.take (commonPrefixLen l w)) (.cons no (v + commonPrefixLen l w) (l.drop (commonPrefixLen l w)) ps' ch .nil)
      · simp; omega
      · intro h
        have := congrArg List.length h
        simp only [List.length_take, List.length_nil] at this
        omega
      · exact hE
      · exact (h2.take _).frame e (by simp)
      · exact hR
      · intro p
        simp only [Forest.erase]
        rw [Trie.insert_split hk hlt', hv]
      · intro t ht
        simp only [Forest.tags, List.append_nil, List.mem_cons, List.mem_append] at ht
        rcases ht with rfl | ht | ht
        · exact Or.inr hno
        · exact Or.inr (hfresh t ht)
        · exact Or.inl ht
      · simp only [Forest.tags, List.append_nil, List.nodup_cons, List.nodup_append, List.mem_append]
        refine ⟨?_, hnd', hnd.2.2.1.1, ?_⟩
        · rintro (h | h)
          · obtain ⟨x, _, hx⟩ := List.mem_map.mp h
            simp at hx
          · exact h5.not_fresh _ h hno
        · intro t ht t' ht' heq
          subst heq
          exact h5.not_fresh _ ht' (hfresh t ht)
      · exact e
      · exact hw'
  · rw [if_neg hlt]
    have hlt' : ¬ commonPrefixLen l w < l.length := hlt
    refine WP.pure (hq c own l ch ?_ h4' h1 h2 h5 ?_ (fun t ht => Or.inl ht) hnd.2.2.1.1 (Ext.refl _ _ _) hw)
    · have := commonPrefixLen_le_left l w; omega
    · intro p
      simp only [Forest.erase]
      rw [Trie.insert_descend hk hlt']

/-- `addSequence` implements the functional insertion. -/
theorem WP.addSequenceLoop {p : Int} (hp : InI64 p) {fuel : Nat} : ∀ {c own} {parent : TreeNode} {f : Forest} {w : Bytes}
    {off : Nat} {Q : TreeNode → Bytes → Prop},
    w.length < fuel →
    NodeCell c own parent → parent.firstChild = f.head 0 → parent.lastChild = f.last →
    Rep c own f 0 → (Tag.node parent.offset :: f.tags).Nodup → ValAt c own off w → OwnWF own →
    (∀ c' own' f', NodeCell c' own' { parent with firstChild := f'.head 0, lastChild := f'.last } →
      Rep c' own' f' 0 → f'.erase = f.erase.insert w p →
      (Tag.node parent.offset :: f'.tags).Nodup → (∀ t ∈ f'.tags, t ∈ f.tags ∨ t.Fresh c.length) →
      Ext own c own' c' (fun t => t = .node parent.offset ∨ t ∈ f.tags) → OwnWF own' →
      Q { parent with firstChild := f'.head 0, lastChild := f'.last } c') →
    WP c (addSequenceLoop fuel parent w off p) Q := by
  induction fuel with
  | zero => intro c own parent f w off Q h; omega
  | succ fuel ih =>
    intro c own parent f w off Q hfuel hE h3 h4 hf hnd hval hw hq
    have hnd2 := List.nodup_cons.mp hnd
    have hself : ({ parent with firstChild := f.head 0, lastChild := f.last } : TreeNode) = parent := by
      rw [← h3, ← h4]
    unfold Rodb.addSequenceLoop
    by_cases hwl : w.length = 0
    · rw [if_pos hwl]
      have hw0 : w = [] := by simpa using hwl
      refine WP.pure ?_
      rw [← hself]
      apply hq c own f
      · rw [hself]; exact hE
      · exact hf
      · rw [hw0, Trie.insert_nil_word]
      · exact hnd
      · exact fun t ht => Or.inl ht
      · exact Ext.refl _ _ _
      · exact hw
    · rw [if_neg hwl]
      have hwne : w ≠ [] := by simpa using hwl
      refine WP.bind ?_ ?_
      · intro x
        cases x with
        | none => exact Mono.addLeaf _ _ _ _
        | some x =>
          exact Mono.bind (Mono.splitIfPartial _ _) fun _ =>
            Mono.bind (Mono.appendPosition _ _) fun _ => Mono.bind (Mono.addSequenceLoop _ _ _ _ _) fun _ => Mono.pure _
      refine WP.findChildByPrefix h3 hf hnd2.2 ?_ ?_
      · intro hnc
        refine WP.addLeaf hE h3 h4 hf hnd hval hwne hw hp ?_
        intro c' own' f' hE' hf' he' hnd' htags e hw'
        exact hq c' own' f' hE' hf' (by rw [he', Trie.insert_noCommon hwne hnc]) hnd' htags e hw'
      · intro pre o v l ps ch nx hfe hnc hk
        subst hfe
        have hkr := commonPrefixLen_le_right l w
        have hperm := Forest.tags_app_perm pre (.cons o v l ps ch nx)
        have hN := List.nodup_append.mp (hperm.nodup_iff.mp hnd2.2)
        have hsp := Rep.app_iff.mp hf
        have hNE := hN.2.1
        simp only [Forest.tags, List.nodup_cons, List.nodup_append, List.mem_append] at hNE
        obtain ⟨hNo, hNps, ⟨hNch, hNnx, hNcn⟩, hNpcn⟩ := hNE
        have hmemE : ∀ t, t ∈ (Forest.cons o v l ps ch nx).tags → t ∈ (pre.app (.cons o v l ps ch nx)).tags :=
          fun t ht => Forest.mem_tags_app.mpr (Or.inr ht)
        have hparent : parent.offset ≠ o := by
          intro h; exact hnd2.1 (hmemE _ (by simp [Forest.tags, h]))
        -- step 1: split
        refine WP.bind (fun _ => Mono.bind (Mono.appendPosition _ _) fun _ =>
          Mono.bind (Mono.addSequenceLoop _ _ _ _ _) fun _ => Mono.pure _) ?_
        refine WP.splitIfPartial hsp.2 hN.2.1 hw hk ?_
        intro c1 own1 l1 ch1 hl1 hl1ne hE1 hv1 hch1 hins htg1 hnd1 e1 hw1
        -- step 2: append the position
        refine WP.bind (fun _ => Mono.bind (Mono.addSequenceLoop _ _ _ _ _) fun _ => Mono.pure _) ?_
        have hps1 : PosRep c1 own1 ps 0 := by
          refine hsp.2.2.2.1.frame e1 ?_
          intro t ht h; subst h; exact hNo (Or.inl ht)
        refine WP.appendPosition hE1 rfl rfl hps1 hsp.2.2.2.2.1.1 hNps hw1 hp ?_
        intro c2 own2 ps2 hE2 hps2 hps2ne hv2 htg2 hnd2' e2 hw2
        have hE2eq : ({ nodeOf o v l1 ps ch1 nx 0 with firstPosition := headOff ps2 0, lastPosition := lastOff ps2 } : TreeNode) =
            nodeOf o v l1 ps2 ch1 nx 0 := rfl
        rw [hE2eq] at hE2 ⊢
        have e2' : Ext own1 c1 own2 c2 (fun t => t = .node o ∨ t ∈ posTags ps) := e2
        -- facts about fresh tags
        have hlen1 := e1.len
        have hlen2 := e2.len
        have hch1o : Tag.node o ∉ ch1.tags := by
          intro hm
          rcases htg1 _ hm with h | h
          · exact hNo (Or.inr (Or.inl h))
          · exact hf.not_fresh _ (hmemE _ (by simp [Forest.tags])) h
        have hch1ps : ∀ t ∈ ch1.tags, t ∉ posTags ps := by
          intro t ht hp
          rcases htg1 _ ht with h | h
          · exact hNpcn t hp t (Or.inl h) rfl
          · exact posTags_not_fresh hsp.2.2.2.1 t hp h
        have hch2 : Rep c2 own2 ch1 0 := by
          refine hch1.frame e2' (by
            rintro (h | h)
            · cases h
            · obtain ⟨x, _, hx⟩ := List.mem_map.mp h
              simp at hx) ?_
          rintro t ht (h | h)
          · subst h; exact hch1o ht
          · exact hch1ps t ht h
        have hval2 : ValAt c2 own2 (off + commonPrefixLen l w) (w.drop (commonPrefixLen l w)) := by
          refine (((hval.drop _ hkr).frame e1 (by simp)).frame e2' ?_)
          rintro (h | h)
          · cases h
          · obtain ⟨x, _, hx⟩ := List.mem_map.mp h
            simp at hx
        -- step 3: recursive insertion below
        refine WP.bind (fun _ => Mono.pure _) ?_
        refine ih (f := ch1) (by simp; omega) hE2 rfl rfl hch2 ?_ hval2 hw2 ?_
        · exact List.nodup_cons.mpr ⟨hch1o, hnd1⟩
        · intro c3 own3 ch3 hE3 hch3 her3 hnd3 htg3 e3 hw3
          refine WP.pure ?_
          have e3' : Ext own2 c2 own3 c3 (fun t => t = .node o ∨ t ∈ ch1.tags) := e3
          have hE3' : NodeCell c3 own3 (nodeOf o v l1 ps2 ch3 nx 0) := hE3
          have hlen3 := e3.len
          -- combined frame
          have e13 : Ext own c own3 c3 (fun t => t = .node o ∨ t ∈ posTags ps ∨ t ∈ ch.tags) := by
            refine Ext.trans' hw (Ext.trans' hw (e1.mono ?_) e2' ?_) e3' ?_
            · intro a _ h; exact Or.inl h
            · rintro t (h | h)
              · exact Or.inl (Or.inl h)
              · exact Or.inl (Or.inr (Or.inl h))
            · rintro t (h | h)
              · exact Or.inl (Or.inl h)
              · rcases htg1 t h with h | h
                · exact Or.inl (Or.inr (Or.inr h))
                · exact Or.inr h
          have hsub : ∀ t, (t = .node o ∨ t ∈ posTags ps ∨ t ∈ ch.tags) → t ∈ (Forest.cons o v l ps ch nx).tags := by
            intro t h
            simp only [Forest.tags, List.mem_cons, List.mem_append]
            rcases h with h | h | h <;> simp [h]
          have hnval : ¬ (Tag.val = .node o ∨ Tag.val ∈ posTags ps ∨ Tag.val ∈ ch.tags) :=
            fun h => val_not_mem_tags _ (hsub _ h)
          -- tags of the new node
          have htgps2 : ∀ t ∈ posTags ps2, t ∈ posTags ps ∨ t.Fresh c.length := by
            intro t ht
            rcases htg2 t ht with h | h
            · exact Or.inl h
            · exact Or.inr (h.mono hlen1)
          have htgch3 : ∀ t ∈ ch3.tags, t ∈ ch.tags ∨ t.Fresh c.length := by
            intro t ht
            rcases htg3 t ht with h | h
            · exact htg1 t h
            · exact Or.inr (h.mono (by omega))
          have hnew : ∀ t ∈ (Forest.cons o v l1 ps2 ch3 nx).tags,
              t ∈ (Forest.cons o v l ps ch nx).tags ∨ t.Fresh c.length := by
            intro t ht
            simp only [Forest.tags, List.mem_cons, List.mem_append] at ht ⊢
            rcases ht with h | h | h | h
            · exact Or.inl (Or.inl h)
            · rcases htgps2 t h with h | h
              · exact Or.inl (Or.inr (Or.inl h))
              · exact Or.inr h
            · rcases htgch3 t h with h | h
              · exact Or.inl (Or.inr (Or.inr (Or.inl h)))
              · exact Or.inr h
            · exact Or.inl (Or.inr (Or.inr (Or.inr h)))
          have hnewall : ∀ t ∈ (pre.app (.cons o v l1 ps2 ch3 nx)).tags,
              t ∈ (pre.app (.cons o v l ps ch nx)).tags ∨ t.Fresh c.length := by
            intro t ht
            rcases Forest.mem_tags_app.mp ht with h | h
            · exact Or.inl (Forest.mem_tags_app.mpr (Or.inl h))
            · rcases hnew t h with h | h
              · exact Or.inl (hmemE t h)
              · exact Or.inr h
          have hlast : (pre.app (.cons o v l1 ps2 ch3 nx)).last = (pre.app (.cons o v l ps ch nx)).last := by
            rw [Forest.last_app_cons, Forest.last_app_cons]; cases nx <;> rfl
          have hhead : (pre.app (.cons o v l1 ps2 ch3 nx)).head 0 = (pre.app (.cons o v l ps ch nx)).head 0 := by
            rw [Forest.head_app, Forest.head_app]; rfl
          have hpeq : ({ parent with firstChild := (pre.app (.cons o v l1 ps2 ch3 nx)).head 0,
                                     lastChild := (pre.app (.cons o v l1 ps2 ch3 nx)).last } : TreeNode) = parent := by
            rw [hlast, hhead, hself]
          have hpfr : Tag.node parent.offset ∉ (pre.app (.cons o v l1 ps2 ch3 nx)).tags := by
            intro hm
            rcases hnewall _ hm with h | h
            · exact hnd2.1 h
            · have := hE.le; simp only [Tag.Fresh] at h; omega
          rw [← hpeq]
          apply hq c3 own3 (pre.app (.cons o v l1 ps2 ch3 nx))
          · rw [hpeq]
            refine hE.frame e13 ?_
            intro h
            exact hnd2.1 (hmemE _ (hsub _ h))
          · rw [Rep.app_iff]
            refine ⟨?_, hE3', ?_, ?_, ⟨hps2ne, hl1ne⟩, hch3, ?_⟩
            · refine hsp.1.frame e13 hnval ?_
              intro t ht h
              exact hN.2.2 t ht t (hsub t h) rfl
            · refine (hv1.frame e2' ?_).frame e3' ?_
              · rintro (h | h)
                · cases h
                · obtain ⟨x, _, hx⟩ := List.mem_map.mp h
                  simp at hx
              · rintro (h | h)
                · cases h
                · exact val_not_mem_tags _ h
            · refine hps2.frame e3' ?_
              rintro t ht (h | h)
              · subst h
                obtain ⟨x, _, hx⟩ := List.mem_map.mp ht
                simp at hx
              · rcases htg2 t ht with h' | h'
                · exact hch1ps t h h'
                · exact hch1.not_fresh t h h'
            · refine hsp.2.2.2.2.2.2.frame e13 hnval ?_
              rintro t ht (h | h | h)
              · subst h; exact hNo (Or.inr (Or.inr ht))
              · exact hNpcn t h t (Or.inr ht) rfl
              · exact hNcn t h t ht rfl
          · rw [Forest.erase_app, Forest.erase_app, Trie.insert_app hwne hnc, hins p]
            simp only [Forest.erase, hv2, her3]
          · rw [List.nodup_cons]
            refine ⟨hpfr, ?_⟩
            rw [(Forest.tags_app_perm _ _).nodup_iff, List.nodup_append]
            refine ⟨hN.1, ?_, ?_⟩
            · simp only [Forest.tags, List.nodup_cons, List.nodup_append, List.mem_append]
              have hnd3' := List.nodup_cons.mp hnd3
              refine ⟨?_, hnd2', ⟨hnd3'.2, hNnx, ?_⟩, ?_⟩
              · rintro (h | h | h)
                · obtain ⟨x, _, hx⟩ := List.mem_map.mp h
                  simp at hx
                · exact hnd3'.1 h
                · exact hNo (Or.inr (Or.inr h))
              · intro a ha b hb hab
                subst hab
                rcases htgch3 a ha with h | h
                · exact hNcn a h a hb rfl
                · exact hsp.2.2.2.2.2.2.not_fresh a hb h
              · intro a ha b hb hab
                subst hab
                rcases hb with hb | hb
                · rcases htg3 a hb with h | h
                  · rcases htg2 a ha with h' | h'
                    · exact hch1ps a h h'
                    · exact hch1.not_fresh a h h'
                  · exact posTags_not_fresh hps2 a ha h
                · rcases htgps2 a ha with h | h
                  · exact hNpcn a h a (Or.inr hb) rfl
                  · exact hsp.2.2.2.2.2.2.not_fresh a hb h
            · intro a ha b hb hab
              subst hab
              rcases hnew a hb with h | h
              · exact hN.2.2 a ha a h rfl
              · exact hsp.1.not_fresh a ha h
          · exact hnewall
          · refine e13.mono ?_
            intro a _ h
            exact Or.inr (hmemE _ (hsub _ h))
          · exact hw3

end Rodb
