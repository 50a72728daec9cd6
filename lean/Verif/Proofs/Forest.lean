import Verif.Proofs.Heap
import Verif.Proofs.Trie
/-
  The on-disk tree as a ghost forest with offsets, and the correctness of the tree operations.
-/
namespace Rodb
open Spec

/-- A list of sibling tree nodes with their offsets. -/
inductive Forest where
  | nil
  | cons (off valOff : Nat) (label : Bytes) (ps : List (Nat × Int)) (children next : Forest)

namespace Forest

def head : Forest → Nat → Nat
  | nil, tail => tail
  | cons o _ _ _ _ _, _ => o

def last : Forest → Nat
  | nil => 0
  | cons o _ _ _ _ nil => o
  | cons _ _ _ _ _ (cons o v l p c n) => last (cons o v l p c n)

def app : Forest → Forest → Forest
  | nil, g => g
  | cons o v l p c n, g => cons o v l p c (n.app g)

def tags : Forest → List Tag
  | nil => []
  | cons o _ _ ps ch nx => .node o :: (posTags ps ++ (ch.tags ++ nx.tags))

/-- Forget the offsets. -/
def erase : Forest → Trie
  | nil => .nil
  | cons _ _ l ps ch nx => .cons l (ps.map (·.2)) ch.erase nx.erase

/-- Number of siblings at the top level. -/
def width : Forest → Nat
  | nil => 0
  | cons _ _ _ _ _ nx => nx.width + 1

end Forest

open Forest

/-- The tree node stored for one forest node. -/
def nodeOf (o v : Nat) (l : Bytes) (ps : List (Nat × Int)) (ch nx : Forest) (tail : Nat) : TreeNode :=
  { offset := o, valueOffset := v, valueLength := l.length, nextSibling := nx.head tail,
    firstChild := ch.head 0, lastChild := ch.last, firstPosition := headOff ps 0, lastPosition := lastOff ps }

/-- The content holds the forest; the last top-level sibling points to `tail`. -/
def Rep (c : Bytes) (own : Own) : Forest → Nat → Prop
  | .nil, _ => True
  | .cons o v l ps ch nx, tail =>
    NodeCell c own (nodeOf o v l ps ch nx tail) ∧ ValAt c own v l ∧ PosRep c own ps 0 ∧
      (ps ≠ [] ∧ l ≠ []) ∧ Rep c own ch 0 ∧ Rep c own nx tail

theorem isCell_of_mem_tags {f : Forest} : ∀ {t}, t ∈ f.tags → t.IsCell := by
  induction f with
  | nil => intro t h; simp [Forest.tags] at h
  | cons o v l ps ch nx ih1 ih2 =>
    intro t h
    simp only [Forest.tags, List.mem_cons, List.mem_append] at h
    rcases h with rfl | h | h | h
    · trivial
    · obtain ⟨x, _, rfl⟩ := List.mem_map.mp h; trivial
    · exact ih1 h
    · exact ih2 h

theorem val_not_mem_tags (f : Forest) : Tag.val ∉ f.tags := fun h => isCell_of_mem_tags h

theorem Rep.frame {c own c' own' P} (e : Ext own c own' c' P) (hv : ¬ P .val) {f : Forest} :
    ∀ {tail}, Rep c own f tail → (∀ t ∈ f.tags, ¬ P t) → Rep c' own' f tail := by
  induction f with
  | nil => intros; trivial
  | cons o v l ps ch nx ih1 ih2 =>
    intro tail h hp
    obtain ⟨h1, h2, h3, h4, h5, h6⟩ := h
    refine ⟨h1.frame e (hp _ (by simp [Forest.tags, nodeOf])), h2.frame e hv, h3.frame e ?_, h4, ih1 h5 ?_, ih2 h6 ?_⟩
    all_goals
      intro t ht
      refine hp t ?_
      simp only [Forest.tags, List.mem_cons, List.mem_append]
      simp [ht]

theorem Rep.not_fresh {c own} {f : Forest} : ∀ {tail}, Rep c own f tail → ∀ t ∈ f.tags, ¬ t.Fresh c.length := by
  induction f with
  | nil => intro tail _ t h; simp [Forest.tags] at h
  | cons o v l ps ch nx ih1 ih2 =>
    intro tail h t ht
    obtain ⟨h1, h2, h3, h4, h5, h6⟩ := h
    simp only [Forest.tags, List.mem_cons, List.mem_append] at ht
    rcases ht with rfl | ht | ht | ht
    · have := h1.le; simp only [Tag.Fresh, nodeOf] at *; omega
    · obtain ⟨x, hx, rfl⟩ := List.mem_map.mp ht
      have := (h3.lt x hx).1
      simp only [Tag.Fresh]; omega
    · exact ih1 h5 t ht
    · exact ih2 h6 t ht

theorem Forest.head_app (f g : Forest) (tail : Nat) : (f.app g).head tail = f.head (g.head tail) := by
  cases f <;> rfl

theorem Rep.app_iff {c own} {f g : Forest} {tail : Nat} :
    Rep c own (f.app g) tail ↔ Rep c own f (g.head tail) ∧ Rep c own g tail := by
  induction f with
  | nil => simp [Rep, Forest.app]
  | cons o v l ps ch nx _ ih =>
    simp only [Forest.app, Rep, ih, nodeOf, Forest.head_app]
    constructor
    · rintro ⟨h1, h2, h3, h4, h5, h6, h7⟩; exact ⟨⟨h1, h2, h3, h4, h5, h6⟩, h7⟩
    · rintro ⟨⟨h1, h2, h3, h4, h5, h6⟩, h7⟩; exact ⟨h1, h2, h3, h4, h5, h6, h7⟩

theorem Forest.mem_tags_app {f g : Forest} {t : Tag} : t ∈ (f.app g).tags ↔ t ∈ f.tags ∨ t ∈ g.tags := by
  induction f with
  | nil => simp [Forest.app, Forest.tags]
  | cons o v l ps ch nx _ ih =>
    simp only [Forest.app, Forest.tags, List.mem_cons, List.mem_append, ih]
    constructor
    · rintro (h | h | h | h | h) <;> simp [h]
    · rintro ((h | h | h | h) | h) <;> simp [h]

theorem Forest.tags_app_perm (f g : Forest) : (f.app g).tags.Perm (f.tags ++ g.tags) := by
  induction f with
  | nil => exact List.Perm.refl _
  | cons o v l ps ch nx _ ih =>
    simp only [Forest.app, Forest.tags, List.cons_append, List.append_assoc]
    exact List.Perm.cons _ (List.Perm.append_left _ (List.Perm.append_left _ ih))

theorem Forest.erase_app (f g : Forest) : (f.app g).erase = f.erase.app g.erase := by
  induction f with
  | nil => rfl
  | cons o v l ps ch nx _ ih => simp [Forest.app, Forest.erase, Trie.app, ih]

theorem Forest.last_app_cons (f : Forest) (o v l ps ch nx) :
    (f.app (.cons o v l ps ch nx)).last = (Forest.cons o v l ps ch nx).last := by
  induction f with
  | nil => rfl
  | cons o v l ps ch nx' _ ih =>
    rw [← ih]
    cases nx' <;> simp [Forest.app, Forest.last]

theorem Forest.app_assoc (f g h : Forest) : (f.app g).app h = f.app (g.app h) := by
  induction f with
  | nil => rfl
  | cons o v l ps ch nx _ ih => simp [Forest.app, ih]

/-- A non-empty forest ends with some node. -/
theorem Forest.exists_last (f : Forest) (h : f ≠ .nil) :
    ∃ (g : Forest) (o v : Nat) (l : Bytes) (ps : List (Nat × Int)) (ch : Forest), f = g.app (.cons o v l ps ch .nil) := by
  induction f with
  | nil => exact absurd rfl h
  | cons o v l ps ch nx _ ih =>
    cases nx with
    | nil => exact ⟨.nil, o, v, l, ps, ch, rfl⟩
    | cons o2 v2 l2 ps2 ch2 nx2 =>
      obtain ⟨g, o', v', l', ps', ch', hg⟩ := ih (by simp)
      exact ⟨.cons o v l ps ch g, o', v', l', ps', ch', by rw [Forest.app, hg]⟩

theorem Forest.width_le {c own} {f : Forest} {tail} (h : Rep c own f tail) (hn : f.tags.Nodup) :
    f.width ≤ c.length := by
  have key : ∀ (f : Forest) (tail), Rep c own f tail → f.tags.Nodup →
      ∃ l : List Nat, l.length = f.width ∧ l.Nodup ∧ ∀ x ∈ l, x < c.length ∧ Tag.node x ∈ f.tags := by
    intro f
    induction f with
    | nil => intro _ _ _; exact ⟨[], rfl, by simp, by simp⟩
    | cons o v l ps ch nx _ ih =>
      intro tail h hn
      simp only [Forest.tags, List.nodup_cons, List.nodup_append, List.mem_append] at hn
      obtain ⟨l', h1, h2, h3⟩ := ih tail h.2.2.2.2.2 hn.2.2.1.2.1
      refine ⟨o :: l', by simp [Forest.width, h1], ?_, ?_⟩
      · rw [List.nodup_cons]
        refine ⟨fun hm => hn.1 ?_, h2⟩
        exact Or.inr (Or.inr (h3 o hm).2)
      · intro x hx
        rcases List.mem_cons.mp hx with rfl | hx
        · have := h.1.le; simp only [nodeOf] at this
          exact ⟨by omega, by simp [Forest.tags]⟩
        · exact ⟨(h3 x hx).1, by simp [Forest.tags, (h3 x hx).2]⟩
  obtain ⟨l, h1, h2, h3⟩ := key f tail h hn
  rw [← h1]
  exact length_le_of_nodup_lt _ _ h2 (fun x hx => (h3 x hx).1)

/-- In-memory form of the first sibling. -/
def headNode : Forest → Nat → Option TreeNode
  | .nil, _ => none
  | .cons o v l ps ch nx, tail => some (nodeOf o v l ps ch nx tail)

theorem WP.getTreeNode_head {c own} {f : Forest} {Q : Option TreeNode → Bytes → Prop}
    (h : Rep c own f 0) (hq : Q (headNode f 0) c) : WP c (Rodb.getTreeNode (f.head 0)) Q := by
  cases f with
  | nil => exact WP.getTreeNode_zero hq
  | cons o v l ps ch nx => exact WP.getTreeNode h.1 hq

theorem WP.findChildLoop {c own} {w : Bytes} {fuel : Nat} : ∀ {f : Forest} {Q : Option (TreeNode × Nat) → Bytes → Prop},
    f.width < fuel → Rep c own f 0 →
    (f.erase.NoCommon w → Q none c) →
    (∀ (pre : Forest) (o v : Nat) (l : Bytes) (ps : List (Nat × Int)) (ch nx : Forest), f = pre.app (.cons o v l ps ch nx) → pre.erase.NoCommon w →
      0 < commonPrefixLen l w → Q (some (nodeOf o v l ps ch nx 0, commonPrefixLen l w)) c) →
    WP c (findChildLoop w fuel (headNode f 0)) Q := by
  induction fuel with
  | zero => intro f Q h; omega
  | succ fuel ih =>
    intro f Q hf hr hnone hsome
    cases f with
    | nil => exact WP.pure (hnone trivial)
    | cons o v l ps ch nx =>
      obtain ⟨h1, h2, h3, h4, h5, h6⟩ := hr
      simp only [headNode, Rodb.findChildLoop]
      refine WP.bind (fun _ => Mono.ite (Mono.pure _) (Mono.bind (Mono.getTreeNode _) fun _ => Mono.findChildLoop _ _ _)) ?_
      refine WP.get h2.le ?_
      have hd : slice c (nodeOf o v l ps ch nx 0).valueOffset (nodeOf o v l ps ch nx 0).valueLength = l := h2.data
      rw [hd]
      by_cases hk : commonPrefixLen l w > 0
      · rw [if_pos hk]
        exact WP.pure (hsome .nil o v l ps ch nx rfl trivial hk)
      · rw [if_neg hk]
        refine WP.bind (fun _ => Mono.findChildLoop _ _ _) (WP.getTreeNode_head h6 ?_)
        refine ih (by simp only [Forest.width] at hf; omega) h6 ?_ ?_
        · intro hn; exact hnone ⟨by omega, hn⟩
        · intro pre o' v' l' ps' ch' nx' he hn hpos
          exact hsome (.cons o v l ps ch pre) o' v' l' ps' ch' nx' (by rw [he]; rfl) ⟨by omega, hn⟩ hpos

theorem WP.findChildByPrefix {c own} {w : Bytes} {parent : TreeNode} {f : Forest}
    {Q : Option (TreeNode × Nat) → Bytes → Prop}
    (hp : parent.firstChild = f.head 0) (hr : Rep c own f 0) (hn : f.tags.Nodup)
    (hnone : f.erase.NoCommon w → Q none c)
    (hsome : ∀ (pre : Forest) (o v : Nat) (l : Bytes) (ps : List (Nat × Int)) (ch nx : Forest), f = pre.app (.cons o v l ps ch nx) → pre.erase.NoCommon w →
      0 < commonPrefixLen l w → Q (some (nodeOf o v l ps ch nx 0, commonPrefixLen l w)) c) :
    WP c (parent.findChildByPrefix w) Q := by
  refine WP.bind (fun _ => Mono.bind Mono.fuel fun _ => Mono.findChildLoop _ _ _) ?_
  rw [hp]
  refine WP.getTreeNode_head hr ?_
  refine WP.bind (fun _ => Mono.findChildLoop _ _ _) (WP.fuel fun hfuel => ?_)
  exact WP.findChildLoop (by have := Forest.width_le hr hn; omega) hr hnone hsome

theorem Forest.last_lt {c own} {f : Forest} : ∀ {tail}, Rep c own f tail → 0 < c.length → f.last < c.length := by
  induction f with
  | nil => intro _ _ h; simpa [Forest.last] using h
  | cons o v l ps ch nx _ ih =>
    intro tail h hc
    cases nx with
    | nil => have := h.1.le; simp only [nodeOf, Forest.last] at *; omega
    | cons o2 v2 l2 ps2 ch2 nx2 => exact ih h.2.2.2.2.2 hc

theorem Forest.head_lt {c own} {f : Forest} {tail} (h : Rep c own f tail) (ht : tail < c.length) :
    f.head tail < c.length := by
  cases f with
  | nil => exact ht
  | cons o v l ps ch nx => have := h.1.le; simp only [nodeOf, Forest.head] at *; omega

theorem lastOff_lt {c own tail} {l : List (Nat × Int)} (h : PosRep c own l tail) (hc : 0 < c.length) :
    lastOff l < c.length := by
  induction l with
  | nil => exact hc
  | cons x r ih =>
    cases r with
    | nil => have := (h.lt x (by simp)).1; exact this
    | cons y r => exact ih h.2

theorem headOff_lt {c own tail} {l : List (Nat × Int)} (h : PosRep c own l tail) (ht : tail < c.length) :
    headOff l tail < c.length := by
  cases l with
  | nil => exact ht
  | cons x r => exact (h.lt x (by simp)).1

/-- Offsets below `maxSize` fit. -/
theorem TreeNode.Fits.of_lt {n : TreeNode} {k : Nat} (hk : k < maxSize) (h1 : n.valueOffset ≤ k) (h2 : n.valueLength ≤ k)
    (h3 : n.nextSibling ≤ k) (h4 : n.firstChild ≤ k) (h5 : n.lastChild ≤ k) (h6 : n.firstPosition ≤ k)
    (h7 : n.lastPosition ≤ k) : n.Fits := by
  unfold maxSize at hk
  exact ⟨by omega, by omega, by omega, by omega, by omega, by omega, by omega⟩

end Rodb
