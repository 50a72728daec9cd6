import Verif.Proofs.WP
/-
  Typed cells in the flat content, with a ghost ownership map saying which cell each byte belongs to.
-/
namespace Rodb
open Spec

/-- What a byte of the file is used for. -/
inductive Tag where
  | other
  | val
  | node (o : Nat)
  | pos (o : Nat)
  deriving DecidableEq

/-- The tag denotes a cell allocated at or after offset `n`. -/
def Tag.Fresh (n : Nat) : Tag → Prop
  | .node o => n ≤ o
  | .pos o => n ≤ o
  | _ => False

/-- The tag denotes a cell (not raw bytes). -/
def Tag.IsCell : Tag → Prop
  | .node _ => True
  | .pos _ => True
  | _ => False

abbrev Own := Nat → Tag

/-- A cell's bytes lie at or after its offset. -/
def OwnWF (own : Own) : Prop := ∀ a n, n > a → ¬ (own a).Fresh n

/-- Going from `(own, c)` to `(own', c')`: nothing is deallocated or retyped, and only bytes of cells
in `P` change. -/
structure Ext (own : Own) (c : Bytes) (own' : Own) (c' : Bytes) (P : Tag → Prop) : Prop where
  len : c.length ≤ c'.length
  own_eq : ∀ a, a < c.length → own' a = own a
  same : ∀ a, a < c.length → ¬ P (own a) → c'[a]? = c[a]?

theorem Ext.refl (own : Own) (c : Bytes) (P : Tag → Prop) : Ext own c own c P :=
  ⟨Nat.le_refl _, fun _ _ => rfl, fun _ _ _ => rfl⟩

theorem Ext.mono {own c own' c' P Q} (h : Ext own c own' c' P)
    (hq : ∀ a, a < c.length → P (own a) → Q (own a)) : Ext own c own' c' Q :=
  ⟨h.len, h.own_eq, fun a ha hn => h.same a ha (fun hp => hn (hq a ha hp))⟩

theorem Ext.trans {own c own1 c1 own2 c2 P} (h1 : Ext own c own1 c1 P) (h2 : Ext own1 c1 own2 c2 P) :
    Ext own c own2 c2 P := by
  refine ⟨Nat.le_trans h1.len h2.len, ?_, ?_⟩
  · intro a ha
    rw [h2.own_eq a (Nat.lt_of_lt_of_le ha h1.len), h1.own_eq a ha]
  · intro a ha hp
    rw [h2.same a (Nat.lt_of_lt_of_le ha h1.len) (by rw [h1.own_eq a ha]; exact hp), h1.same a ha hp]

/-- A tag owned by an allocated byte is not fresh. -/
theorem not_fresh_of_own {own : Own} (h : OwnWF own) {a n : Nat} (ha : a < n) : ¬ (own a).Fresh n :=
  h a n ha

/-- Composition; the second step may also touch cells allocated by the first. -/
theorem Ext.trans' {own c own1 c1 own2 c2 P P2} (hw : OwnWF own) (h1 : Ext own c own1 c1 P)
    (h2 : Ext own1 c1 own2 c2 P2) (hs : ∀ t, P2 t → P t ∨ t.Fresh c.length) : Ext own c own2 c2 P := by
  refine ⟨Nat.le_trans h1.len h2.len, ?_, ?_⟩
  · intro a ha
    rw [h2.own_eq a (Nat.lt_of_lt_of_le ha h1.len), h1.own_eq a ha]
  · intro a ha hp
    rw [h2.same a (Nat.lt_of_lt_of_le ha h1.len) ?_, h1.same a ha hp]
    rw [h1.own_eq a ha]
    intro h
    rcases hs _ h with h | h
    · exact hp h
    · exact hw a _ ha h

theorem Ext.slice {own c own' c' P} (h : Ext own c own' c' P) {o n : Nat} (hle : o + n ≤ c.length)
    (hp : ∀ a, o ≤ a → a < o + n → ¬ P (own a)) : slice c' o n = slice c o n := by
  apply List.ext_getElem?
  intro i
  rw [getElem?_slice, getElem?_slice]
  split
  · exact h.same (o + i) (by omega) (hp _ (by omega) (by omega))
  · rfl

/-- Ownership after allocating `tag` at the end of a content of length `n`. -/
def Own.alloc (own : Own) (n : Nat) (t : Tag) : Own := fun a => if a < n then own a else t

theorem Ext.alloc (own : Own) (c bs : Bytes) (t : Tag) (P : Tag → Prop) :
    Ext own c (own.alloc c.length t) (c ++ bs) P := by
  refine ⟨by simp, ?_, ?_⟩
  · intro a ha; simp [Own.alloc, ha]
  · intro a ha _; rw [List.getElem?_append_left ha]

theorem OwnWF.alloc {own : Own} (h : OwnWF own) (n : Nat) (t : Tag) (ht : ∀ k, k > n → ¬ t.Fresh k) :
    OwnWF (own.alloc n t) := by
  intro a k hk
  unfold Own.alloc
  split
  · exact h a k hk
  · exact ht k (by omega)

theorem Ext.overwrite (own : Own) (c : Bytes) (o : Nat) (bs : Bytes) (t : Tag)
    (ho : o + bs.length ≤ c.length) (ht : ∀ a, o ≤ a → a < o + bs.length → own a = t) :
    Ext own c own (Spec.overwrite c o bs) (· = t) := by
  refine ⟨by rw [length_overwrite _ _ _ (by omega)]; omega, fun _ _ => rfl, ?_⟩
  intro a ha hp
  rw [getElem?_overwrite _ _ _ _ (by omega)]
  split
  · rfl
  · split
    · exact absurd (ht a (by omega) (by omega)) hp
    · rfl

/-! ### Tree node cells -/

/-- All words of the node fit in 64 bits. -/
structure TreeNode.Fits (n : TreeNode) : Prop where
  h1 : n.valueOffset < 2^64
  h2 : n.valueLength < 2^64
  h3 : n.nextSibling < 2^64
  h4 : n.firstChild < 2^64
  h5 : n.lastChild < 2^64
  h6 : n.firstPosition < 2^64
  h7 : n.lastPosition < 2^64

theorem TreeNode.length_serialize (n : TreeNode) : n.serialize.length = 56 := by
  simp [serialize, length_toBE]

theorem slice_word {l r : Bytes} {w : Bytes} (k : Nat) (h : l.length = k) (hw : w.length = 8) :
    slice (l ++ (w ++ r)) k 8 = w := by
  rw [slice_append_right _ _ _ _ (by omega), slice_append_left _ _ _ _ (by omega)]
  have : k - l.length = 0 := by omega
  rw [this, ← hw, slice_zero_length]

theorem TreeNode.unserialize_serialize (n : TreeNode) (h : n.Fits) :
    TreeNode.unserialize n.offset n.serialize = n := by
  have e (w : Nat) (hw : w < 2^64) : ofBE (toBE 8 w) = w := ofBE_toBE 8 w (by omega)
  cases n with
  | mk o a b c d e1 f g =>
  have l (w : Nat) : (toBE 8 w).length = 8 := length_toBE 8 w
  unfold unserialize serialize
  simp only [TreeNode.mk.injEq, true_and]
  refine ⟨?_, ?_, ?_, ?_, ?_, ?_, ?_⟩
  · rw [← e a h.h1]; congr 1
    simpa [List.append_assoc, l, e a h.h1] using slice_word (l := []) (w := toBE 8 a)
      (r := toBE 8 b ++ toBE 8 c ++ toBE 8 d ++ toBE 8 e1 ++ toBE 8 f ++ toBE 8 g) 0 rfl (l a)
  · rw [← e b h.h2]; congr 1
    simpa [List.append_assoc, l, e b h.h2] using slice_word (l := toBE 8 a) (w := toBE 8 b)
      (r := toBE 8 c ++ toBE 8 d ++ toBE 8 e1 ++ toBE 8 f ++ toBE 8 g) 8 (by simp [l]) (l b)
  · rw [← e c h.h3]; congr 1
    simpa [List.append_assoc, l, e c h.h3] using slice_word (l := toBE 8 a ++ toBE 8 b) (w := toBE 8 c)
      (r := toBE 8 d ++ toBE 8 e1 ++ toBE 8 f ++ toBE 8 g) 16 (by simp [l]) (l c)
  · rw [← e d h.h4]; congr 1
    simpa [List.append_assoc, l, e d h.h4] using slice_word (l := toBE 8 a ++ toBE 8 b ++ toBE 8 c) (w := toBE 8 d)
      (r := toBE 8 e1 ++ toBE 8 f ++ toBE 8 g) 24 (by simp [l]) (l d)
  · rw [← e e1 h.h5]; congr 1
    simpa [List.append_assoc, l, e e1 h.h5] using slice_word (l := toBE 8 a ++ toBE 8 b ++ toBE 8 c ++ toBE 8 d) (w := toBE 8 e1)
      (r := toBE 8 f ++ toBE 8 g) 32 (by simp [l]) (l e1)
  · rw [← e f h.h6]; congr 1
    simpa [List.append_assoc, l, e f h.h6] using slice_word (l := toBE 8 a ++ toBE 8 b ++ toBE 8 c ++ toBE 8 d ++ toBE 8 e1) (w := toBE 8 f)
      (r := toBE 8 g) 40 (by simp [l]) (l f)
  · rw [← e g h.h7]; congr 1
    simpa [List.append_assoc, l, e g h.h7] using slice_word (l := toBE 8 a ++ toBE 8 b ++ toBE 8 c ++ toBE 8 d ++ toBE 8 e1 ++ toBE 8 f) (w := toBE 8 g)
      (r := []) 48 (by simp [l]) (l g)

/-- The content holds the tree node `n` at its offset, and those bytes belong to it. -/
structure NodeCell (c : Bytes) (own : Own) (n : TreeNode) : Prop where
  pos : flagOffset < n.offset
  le : n.offset + 56 ≤ c.length
  data : TreeNode.unserialize n.offset (slice c n.offset 56) = n
  owned : ∀ a, n.offset ≤ a → a < n.offset + 56 → own a = .node n.offset

theorem NodeCell.frame {c own c' own' P n} (h : NodeCell c own n) (e : Ext own c own' c' P)
    (hp : ¬ P (.node n.offset)) : NodeCell c' own' n := by
  refine ⟨h.pos, Nat.le_trans h.le e.len, ?_, ?_⟩
  · rw [e.slice h.le (fun a h1 h2 => by rw [h.owned a h1 h2]; exact hp)]; exact h.data
  · intro a h1 h2
    rw [e.own_eq a (by have := h.le; omega), h.owned a h1 h2]

theorem NodeCell.unserialize_lt {c own n} (h : NodeCell c own n) : n.Fits := by
  have w (o : Nat) : ofBE (slice (slice c n.offset 56) o 8) < 2^64 := by
    have aux : ∀ (l : Bytes) (acc : Nat), l.foldl (fun acc b => acc * 256 + b.toNat) acc < (acc + 1) * 256 ^ l.length := by
      intro l
      induction l with
      | nil => intro acc; simp
      | cons b l ih =>
        intro acc
        refine Nat.lt_of_lt_of_le (ih _) ?_
        rw [List.length_cons, Nat.pow_succ, Nat.mul_comm (256 ^ l.length) 256, ← Nat.mul_assoc]
        apply Nat.mul_le_mul_right
        have := b.toNat_lt
        show acc * 256 + b.toNat + 1 ≤ (acc + 1) * 256
        omega
    have h1 := aux (slice (slice c n.offset 56) o 8) 0
    have h2 : (slice (slice c n.offset 56) o 8).length ≤ 8 := by simp [slice]; omega
    have h3 : 256 ^ (slice (slice c n.offset 56) o 8).length ≤ 256 ^ 8 := Nat.pow_le_pow_right (by omega) h2
    unfold ofBE
    omega
  have h1 := h.data
  refine ⟨?_, ?_, ?_, ?_, ?_, ?_, ?_⟩ <;> rw [← h1] <;> exact w _

theorem NodeCell.write {c own n0} (h : NodeCell c own n0) {n : TreeNode} (ho : n.offset = n0.offset)
    (hf : n.Fits) :
    NodeCell (overwrite c n.offset n.serialize) own n ∧
      Ext own c own (overwrite c n.offset n.serialize) (· = .node n.offset) ∧
      (overwrite c n.offset n.serialize).length = c.length := by
  have hle := h.le
  have hl : (overwrite c n.offset n.serialize).length = c.length := by
    rw [length_overwrite _ _ _ (by omega), n.length_serialize]; omega
  refine ⟨⟨by have := h.pos; omega, by omega, ?_, ?_⟩, ?_, hl⟩
  · have := slice_overwrite_same c n.offset n.serialize (by omega)
    rw [n.length_serialize] at this
    rw [this, n.unserialize_serialize hf]
  · intro a h1 h2; rw [h.owned a (by omega) (by omega), ho]
  · apply Ext.overwrite
    · rw [n.length_serialize]; omega
    · intro a h1 h2
      rw [n.length_serialize] at h2
      rw [h.owned a (by omega) (by omega), ho]

theorem WP.getTreeNode {c own n} {Q : Option TreeNode → Bytes → Prop} (h : NodeCell c own n) (hq : Q (some n) c) :
    WP c (getTreeNode n.offset) Q := by
  unfold Rodb.getTreeNode
  rw [if_neg (by have := h.pos; omega)]
  refine WP.bind (fun _ => Mono.pure _) (WP.get h.le (WP.pure ?_))
  rw [treeNodeSize, h.data]; exact hq

theorem WP.getTreeNode_zero {c} {Q : Option TreeNode → Bytes → Prop} (hq : Q none c) :
    WP c (Rodb.getTreeNode 0) Q := by
  unfold Rodb.getTreeNode
  rw [if_pos rfl]; exact WP.pure hq

theorem WP.nodeSave {c own n0} {n : TreeNode} {Q : Unit → Bytes → Prop} (h : NodeCell c own n0)
    (ho : n.offset = n0.offset) (hf : n.Fits)
    (hq : ∀ c', NodeCell c' own n → Ext own c own c' (· = .node n.offset) → c'.length = c.length → Q () c') :
    WP c n.save Q := by
  have := h.write ho hf
  exact WP.replace (by have := h.le; omega) (flag_overwrite (by have := h.pos; omega) (by have := h.le; omega)) (hq _ this.1 this.2.1 this.2.2)

theorem ofBE_replicate (k : Nat) : ofBE (List.replicate k 0) = 0 := by
  unfold ofBE
  induction k with
  | zero => rfl
  | succ k ih => simpa [List.replicate_succ] using ih

theorem slice_replicate (m o n : Nat) (x : UInt8) (h : o + n ≤ m) : slice (List.replicate m x) o n = List.replicate n x := by
  simp [slice]; omega

/-- The empty node at a given offset. -/
def emptyNode (o : Nat) : TreeNode :=
  { offset := o, valueOffset := 0, valueLength := 0, nextSibling := 0, firstChild := 0,
    lastChild := 0, firstPosition := 0, lastPosition := 0 }

theorem WP.newEmptyTreeNode {c own} {Q : TreeNode → Bytes → Prop} (hc : flagOffset < c.length) (hw : OwnWF own)
    (hq : ∀ c' own', NodeCell c' own' (emptyNode c.length) → Ext own c own' c' (fun _ => False) → OwnWF own' →
      c'.length = c.length + 56 → Q (emptyNode c.length) c') :
    WP c newEmptyTreeNode Q := by
  unfold Rodb.newEmptyTreeNode
  refine WP.bind (fun _ => Mono.pure _) (WP.add (flag_append hc) (WP.pure ?_))
  apply hq (c ++ List.replicate treeNodeSize 0) (own.alloc c.length (.node c.length))
  · refine ⟨hc, by simp [emptyNode, treeNodeSize], ?_, ?_⟩
    · simp only [emptyNode]
      rw [slice_append_right _ _ _ _ (Nat.le_refl _), Nat.sub_self]
      have : slice (List.replicate treeNodeSize (0 : UInt8)) 0 56 = List.replicate 56 0 :=
        slice_replicate _ _ _ _ (by simp [treeNodeSize])
      rw [this]
      simp only [TreeNode.unserialize, TreeNode.mk.injEq, true_and]
      refine ⟨?_, ?_, ?_, ?_, ?_, ?_, ?_⟩ <;> rw [slice_replicate _ _ _ _ (by omega), ofBE_replicate]
    · intro a h1 h2
      simp only [emptyNode] at h1 h2 ⊢
      simp [Own.alloc, Nat.not_lt.mpr h1]
  · exact Ext.alloc _ _ _ _ _
  · exact hw.alloc _ _ (fun k hk => by simp [Tag.Fresh]; omega)
  · simp [treeNodeSize]

/-! ### Position cells -/

theorem PosNode.length_serialize (n : PosNode) : n.serialize.length = 16 := by
  simp [serialize, length_toBE]

/-- The Go `int64` range. -/
def InI64 (p : Int) : Prop := -2^63 ≤ p ∧ p < 2^63

theorem PosNode.unserialize_serialize (n : PosNode) (h : n.next < 2^64) (hp : InI64 n.position) :
    PosNode.unserialize n.offset n.serialize = n := by
  have e (w : Nat) (hw : w < 2^64) : ofBE (toBE 8 w) = w := ofBE_toBE 8 w (by omega)
  have l (w : Nat) : (toBE 8 w).length = 8 := length_toBE 8 w
  cases n with
  | mk o p nx =>
  unfold unserialize serialize
  simp only [PosNode.mk.injEq, true_and]
  constructor
  · have := slice_word (l := []) (w := toBE 8 (toU64 p)) (r := toBE 8 nx) 0 rfl (l _)
    rw [List.nil_append] at this
    rw [this, e _ (toU64_lt p), toI64_toU64 p hp.1 hp.2]
  · have := slice_word (l := toBE 8 (toU64 p)) (w := toBE 8 nx) (r := []) 8 (l _) (l _)
    rw [List.append_nil] at this
    rw [this, e _ h]

/-- The content holds the position cell `n` at its offset, and those bytes belong to it. -/
structure PosCell (c : Bytes) (own : Own) (n : PosNode) : Prop where
  pos : flagOffset < n.offset
  le : n.offset + 16 ≤ c.length
  data : PosNode.unserialize n.offset (slice c n.offset 16) = n
  owned : ∀ a, n.offset ≤ a → a < n.offset + 16 → own a = .pos n.offset
  rng : InI64 n.position

theorem PosCell.frame {c own c' own' P n} (h : PosCell c own n) (e : Ext own c own' c' P)
    (hp : ¬ P (.pos n.offset)) : PosCell c' own' n := by
  refine ⟨h.pos, Nat.le_trans h.le e.len, ?_, ?_, h.rng⟩
  · rw [e.slice h.le (fun a h1 h2 => by rw [h.owned a h1 h2]; exact hp)]; exact h.data
  · intro a h1 h2
    rw [e.own_eq a (by have := h.le; omega), h.owned a h1 h2]

theorem WP.getPos {c own n} {Q : Option PosNode → Bytes → Prop} (h : PosCell c own n) (hq : Q (some n) c) :
    WP c (Rodb.getPos n.offset) Q := by
  unfold Rodb.getPos
  rw [if_neg (by have := h.pos; omega)]
  refine WP.bind (fun _ => Mono.pure _) (WP.get h.le (WP.pure ?_))
  rw [posNodeSize, h.data]; exact hq

theorem WP.getPos_zero {c} {Q : Option PosNode → Bytes → Prop} (hq : Q none c) : WP c (Rodb.getPos 0) Q := by
  unfold Rodb.getPos
  rw [if_pos rfl]; exact WP.pure hq

theorem WP.posSave {c own n0} {n : PosNode} {Q : PosNode → Bytes → Prop} (h : PosCell c own n0)
    (ho : n.offset = n0.offset) (hf : n.next < 2^64) (hp : InI64 n.position)
    (hq : ∀ c', PosCell c' own n → Ext own c own c' (· = .pos n.offset) → c'.length = c.length → Q n c') :
    WP c n.save Q := by
  have hle := h.le
  have hpos := h.pos
  unfold PosNode.save
  rw [if_neg (by omega)]
  refine WP.bind (fun _ => Mono.pure _) (WP.replace (by omega) (flag_overwrite (by omega) (by omega)) (WP.pure ?_))
  have hl : (overwrite c n.offset n.serialize).length = c.length := by
    rw [length_overwrite _ _ _ (by omega), n.length_serialize]; omega
  apply hq
  · refine ⟨by omega, by omega, ?_, ?_, hp⟩
    · have := slice_overwrite_same c n.offset n.serialize (by omega)
      rw [n.length_serialize] at this
      rw [this, n.unserialize_serialize hf hp]
    · intro a h1 h2; rw [h.owned a (by omega) (by omega), ho]
  · apply Ext.overwrite
    · rw [n.length_serialize]; omega
    · intro a h1 h2
      rw [n.length_serialize] at h2
      rw [h.owned a (by omega) (by omega), ho]
  · exact hl

theorem WP.newPos {c own p} {Q : PosNode → Bytes → Prop} (hc : flagOffset < c.length) (hw : OwnWF own) (hp : InI64 p)
    (hq : ∀ c' own', PosCell c' own' ⟨c.length, p, 0⟩ → Ext own c own' c' (fun _ => False) → OwnWF own' →
      c'.length = c.length + 16 → Q ⟨c.length, p, 0⟩ c') :
    WP c (newPos p) Q := by
  unfold Rodb.newPos PosNode.save
  rw [if_pos rfl]
  refine WP.bind (fun _ => Mono.pure _) (WP.add (flag_append hc) (WP.pure ?_))
  have hl := PosNode.length_serialize { offset := 0, position := p, next := 0 }
  have hser : PosNode.serialize { offset := 0, position := p, next := 0 } =
    PosNode.serialize { offset := c.length, position := p, next := 0 } := rfl
  apply hq (c ++ PosNode.serialize { offset := 0, position := p, next := 0 }) (own.alloc c.length (.pos c.length))
  · refine ⟨hc, by simp [hl], ?_, ?_, hp⟩
    · simp only
      rw [slice_append_right _ _ _ _ (Nat.le_refl _), Nat.sub_self, hser]
      have := slice_zero_length (PosNode.serialize { offset := c.length, position := p, next := 0 })
      rw [PosNode.length_serialize] at this
      rw [this]
      exact PosNode.unserialize_serialize ⟨c.length, p, 0⟩ (by simp) hp
    · intro a h1 h2
      simp only at h1 h2 ⊢
      simp [Own.alloc, Nat.not_lt.mpr h1]
  · exact Ext.alloc _ _ _ _ _
  · exact hw.alloc _ _ (fun k hk => by simp [Tag.Fresh]; omega)
  · simp [hl]

/-! ### Raw values -/

/-- The content holds the raw bytes `v` at `o`, in a value area. -/
structure ValAt (c : Bytes) (own : Own) (o : Nat) (v : Bytes) : Prop where
  le : o + v.length ≤ c.length
  data : slice c o v.length = v
  owned : ∀ a, o ≤ a → a < o + v.length → own a = .val

theorem ValAt.frame {c own c' own' P o v} (h : ValAt c own o v) (e : Ext own c own' c' P)
    (hp : ¬ P .val) : ValAt c' own' o v := by
  refine ⟨Nat.le_trans h.le e.len, ?_, ?_⟩
  · rw [e.slice h.le (fun a h1 h2 => by rw [h.owned a h1 h2]; exact hp)]; exact h.data
  · intro a h1 h2
    rw [e.own_eq a (by have := h.le; omega), h.owned a h1 h2]

theorem ValAt.take {c own o v} (h : ValAt c own o v) (k : Nat) : ValAt c own o (v.take k) := by
  have hl : (v.take k).length = min k v.length := by simp
  have := h.le
  refine ⟨by omega, ?_, fun a h1 h2 => h.owned a h1 (by omega)⟩
  have hd : v.take k = (slice c o v.length).take k := by rw [h.data]
  rw [hl, hd]
  simp only [slice, List.take_take]

theorem ValAt.drop {c own o v} (h : ValAt c own o v) (k : Nat) (hk : k ≤ v.length) :
    ValAt c own (o + k) (v.drop k) := by
  have hl : (v.drop k).length = v.length - k := by simp
  have := h.le
  refine ⟨by omega, ?_, fun a h1 h2 => h.owned a (by omega) (by omega)⟩
  have hd : v.drop k = (slice c o v.length).drop k := by rw [h.data]
  rw [hl, hd]
  apply List.ext_getElem?
  intro i
  rw [getElem?_slice, List.getElem?_drop, getElem?_slice]
  by_cases hi : i < v.length - k
  · rw [if_pos hi, if_pos (by omega)]; congr 1; omega
  · rw [if_neg hi, if_neg (by omega)]

/-! ### Position lists -/

/-- Offset of the first cell of a list, or `tail` if there is none. -/
def headOff : List (Nat × Int) → Nat → Nat
  | [], tail => tail
  | (o, _) :: _, _ => o

/-- Offset of the last cell of a list (0 for none). -/
def lastOff : List (Nat × Int) → Nat
  | [] => 0
  | [(o, _)] => o
  | _ :: y :: r => lastOff (y :: r)

/-- The content holds the linked list of positions `l`, whose last cell points to `tail`. -/
def PosRep (c : Bytes) (own : Own) : List (Nat × Int) → Nat → Prop
  | [], _ => True
  | (o, p) :: r, tail => PosCell c own ⟨o, p, headOff r tail⟩ ∧ PosRep c own r tail

/-- Tags of the cells of a position list. -/
def posTags (l : List (Nat × Int)) : List Tag := l.map (fun x => .pos x.1)

@[simp] theorem posTags_append (l r : List (Nat × Int)) : posTags (l ++ r) = posTags l ++ posTags r := by
  simp [posTags]
@[simp] theorem posTags_cons (x : Nat × Int) (r : List (Nat × Int)) : posTags (x :: r) = .pos x.1 :: posTags r := rfl
@[simp] theorem posTags_nil : posTags [] = [] := rfl

theorem PosRep.frame {c own c' own' P tail} {l : List (Nat × Int)} (h : PosRep c own l tail)
    (e : Ext own c own' c' P) (hp : ∀ t ∈ posTags l, ¬ P t) : PosRep c' own' l tail := by
  induction l with
  | nil => trivial
  | cons x r ih =>
    obtain ⟨o, p⟩ := x
    refine ⟨h.1.frame e (hp _ (by simp)), ih h.2 (fun t ht => hp t ?_)⟩
    simp only [posTags_cons, List.mem_cons]
    exact Or.inr ht

theorem PosRep.lt {c own tail} {l : List (Nat × Int)} (h : PosRep c own l tail) :
    ∀ x ∈ l, x.1 < c.length ∧ flagOffset < x.1 := by
  induction l with
  | nil => simp
  | cons x r ih =>
    obtain ⟨o, p⟩ := x
    intro y hy
    rcases List.mem_cons.mp hy with rfl | hy
    · have := h.1.le; have := h.1.pos; simp only at *; omega
    · exact ih h.2 y hy

theorem PosRep.append_iff {c own tail} {l r : List (Nat × Int)} :
    PosRep c own (l ++ r) tail ↔ PosRep c own l (headOff r tail) ∧ PosRep c own r tail := by
  induction l with
  | nil => simp [PosRep]
  | cons x l ih =>
    obtain ⟨o, p⟩ := x
    have : headOff (l ++ r) tail = headOff l (headOff r tail) := by
      cases l <;> rfl
    simp only [List.cons_append, PosRep, ih, this]
    constructor
    · rintro ⟨a, b, c⟩; exact ⟨⟨a, b⟩, c⟩
    · rintro ⟨⟨a, b⟩, c⟩; exact ⟨a, b, c⟩

theorem length_le_of_nodup_lt : ∀ (n : Nat) (l : List Nat), l.Nodup → (∀ x ∈ l, x < n) → l.length ≤ n := by
  intro n
  induction n with
  | zero =>
    intro l _ h
    cases l with
    | nil => simp
    | cons x l => exact absurd (h x (by simp)) (by omega)
  | succ n ih =>
    intro l hn h
    have h1 : (l.erase n).length ≤ n := by
      apply ih
      · exact hn.erase n
      · intro x hx
        have := (List.Nodup.mem_erase_iff hn).mp hx
        have := h x this.2
        omega
    have := List.le_length_erase (l := l) (a := n)
    omega

theorem nodup_fst_of_posTags {l : List (Nat × Int)} (h : (posTags l).Nodup) : (l.map (·.1)).Nodup := by
  have : posTags l = (l.map (·.1)).map Tag.pos := by simp [posTags]
  rw [this] at h
  exact (List.pairwise_map.mp h).imp (fun hab e => hab (by rw [e]))

theorem PosRep.length_le {c own tail} {l : List (Nat × Int)} (h : PosRep c own l tail)
    (hn : (posTags l).Nodup) : l.length ≤ c.length := by
  have := length_le_of_nodup_lt c.length (l.map (·.1)) (nodup_fst_of_posTags hn) (by
    intro x hx
    obtain ⟨y, hy, rfl⟩ := List.mem_map.mp hx
    exact (h.lt y hy).1)
  simpa using this

theorem lastOff_cons (x : Nat × Int) (r : List (Nat × Int)) (h : r ≠ []) : lastOff (x :: r) = lastOff r := by
  cases r with
  | nil => exact absurd rfl h
  | cons y r => rfl

theorem lastOff_append (l : List (Nat × Int)) (x : Nat × Int) : lastOff (l ++ [x]) = x.1 := by
  induction l with
  | nil => rfl
  | cons y l ih => rw [List.cons_append, lastOff_cons _ _ (by simp), ih]

theorem headOff_append (l r : List (Nat × Int)) (t t' : Nat) (h : l ≠ []) : headOff (l ++ r) t = headOff l t' := by
  cases l with
  | nil => exact absurd rfl h
  | cons y l => rfl

/-- The in-memory form of the head of a list. -/
def headPos : List (Nat × Int) → Option PosNode
  | [] => none
  | (o, p) :: r => some ⟨o, p, headOff r 0⟩

theorem WP.getPos_head {c own} {l : List (Nat × Int)} {Q : Option PosNode → Bytes → Prop}
    (h : PosRep c own l 0) (hq : Q (headPos l) c) : WP c (Rodb.getPos (headOff l 0)) Q := by
  cases l with
  | nil => exact WP.getPos_zero hq
  | cons x r => obtain ⟨o, p⟩ := x; exact WP.getPos h.1 hq

/-- Everything the copy of a list allocates is fresh. -/
theorem WP.copyLoop {fuel : Nat} : ∀ {c : Bytes} {own : Own} {src : List (Nat × Int)} {lo : Nat} {lp : Int}
    {Q : PosNode → Bytes → Prop},
    src.length < fuel → PosRep c own src 0 → PosCell c own ⟨lo, lp, 0⟩ → Tag.pos lo ∉ posTags src →
    (posTags src).Nodup → OwnWF own →
    (∀ c' own' l (last : PosNode), PosRep c' own' ((lo, lp) :: l) 0 → l.map (·.2) = src.map (·.2) →
      last.offset = lastOff ((lo, lp) :: l) → (∀ t ∈ posTags l, t.Fresh c.length) → (posTags l).Nodup →
      Ext own c own' c' (· = .pos lo) → OwnWF own' → Q last c') →
    WP c (copyLoop fuel (headPos src) ⟨lo, lp, 0⟩) Q := by
  induction fuel with
  | zero => intro c own src lo lp Q hf; omega
  | succ fuel ih =>
    intro c own src lo lp Q hf hs hl hni hnd hw hq
    cases src with
    | nil =>
      exact WP.pure (hq c own [] ⟨lo, lp, 0⟩ ⟨hl, trivial⟩ rfl rfl (by simp) (by simp) (Ext.refl _ _ _) hw)
    | cons x r =>
      obtain ⟨o, p⟩ := x
      refine WP.bind (fun _ => Mono.bind (Mono.posSave _) fun _ => Mono.bind (Mono.getPos _) fun _ => Mono.copyLoop _ _ _) ?_
      have hpos : flagOffset < c.length := by have := hl.le; have := hl.pos; simp only at *; omega
      refine WP.newPos (own := own) hpos hw hs.1.rng fun c1 own1 hn e1 hw1 hl1 => ?_
      refine WP.bind (fun _ => Mono.bind (Mono.getPos _) fun _ => Mono.copyLoop _ _ _) ?_
      refine WP.of_bound (Mono.posSave _) fun hb => ?_
      have hl' := hl.frame e1 (by simp)
      refine WP.posSave hl' rfl (by unfold maxSize at hb; simp only; omega) hl.rng fun c2 hl2 e2 hlen2 => ?_
      refine WP.bind (fun _ => Mono.copyLoop _ _ _) ?_
      have hlolt : lo < c.length := by have := hl.le; simp only at this; omega
      have hs2 : PosRep c2 own1 r 0 := by
        refine (hs.2.frame e1 (by simp)).frame e2 ?_
        intro t ht h
        rw [h] at ht
        exact hni (by simp only [posTags_cons, List.mem_cons]; exact Or.inr ht)
      refine WP.getPos_head hs2 ?_
      have hn2 : PosCell c2 own1 ⟨c.length, p, 0⟩ := hn.frame e2 (by simp; omega)
      refine ih (src := r) (by simpa using hf) hs2 hn2 ?_ ?_ hw1 ?_
      · intro hm
        obtain ⟨y, hy, he⟩ := List.mem_map.mp hm
        have := (hs.2.lt y hy).1
        simp only [Tag.pos.injEq] at he
        omega
      · simp only [posTags_cons, List.nodup_cons] at hnd; exact hnd.2
      · intro c3 own3 l last hr hv hlast hfresh hnodup e3 hw3
        have hlen : c.length ≤ c2.length := by omega
        have hloq : PosCell c3 own3 ⟨lo, lp, c.length⟩ := hl2.frame e3 (by simp; omega)
        apply hq c3 own3 ((c.length, p) :: l) last
        · exact ⟨hloq, hr⟩
        · simp [hv]
        · rw [hlast, lastOff_cons (lo, lp) _ (by simp)]
        · intro t ht
          simp only [posTags_cons, List.mem_cons] at ht
          rcases ht with rfl | ht
          · simp [Tag.Fresh]
          · have := hfresh t ht
            cases t <;> simp_all [Tag.Fresh] <;> omega
        · simp only [posTags_cons, List.nodup_cons]
          refine ⟨?_, hnodup⟩
          intro hm
          have := hfresh _ hm
          simp only [Tag.Fresh] at this
          omega
        · refine Ext.trans' hw (Ext.trans' hw (e1.mono (by simp)) e2 (fun t h => Or.inl h)) e3 ?_
          intro t h
          subst h
          exact Or.inr (Nat.le_refl _)
        · exact hw3

/-- `Copy` of a non-empty position list. -/
theorem WP.copy {c : Bytes} {own : Own} {o : Nat} {p : Int} {r : List (Nat × Int)}
    {Q : PosNode × PosNode → Bytes → Prop}
    (h : PosRep c own ((o, p) :: r) 0) (hnd : (posTags ((o, p) :: r)).Nodup) (hw : OwnWF own)
    (hq : ∀ c' own' l (first last : PosNode), PosRep c' own' l 0 → l ≠ [] →
      l.map (·.2) = ((o, p) :: r).map (·.2) → first.offset = headOff l 0 → last.offset = lastOff l →
      (∀ t ∈ posTags l, t.Fresh c.length) → (posTags l).Nodup →
      Ext own c own' c' (fun _ => False) → OwnWF own' → Q (first, last) c') :
    WP c (PosNode.copy ⟨o, p, headOff r 0⟩) Q := by
  have hpos : flagOffset < c.length := by have := h.1.le; have := h.1.pos; simp only at *; omega
  refine WP.bind (fun _ => Mono.bind (Mono.getPos _) fun _ => Mono.bind Mono.fuel fun _ =>
    Mono.bind (Mono.copyLoop _ _ _) fun _ => Mono.pure _) ?_
  refine WP.newPos (own := own) hpos hw h.1.rng fun c1 own1 hn e1 hw1 hl1 => ?_
  refine WP.bind (fun _ => Mono.bind Mono.fuel fun _ => Mono.bind (Mono.copyLoop _ _ _) fun _ => Mono.pure _) ?_
  have hr1 : PosRep c1 own1 r 0 := h.2.frame e1 (by simp)
  refine WP.getPos_head hr1 ?_
  refine WP.bind (fun _ => Mono.bind (Mono.copyLoop _ _ _) fun _ => Mono.pure _) (WP.fuel fun hfuel => ?_)
  refine WP.bind (fun _ => Mono.pure _) ?_
  have hnr : (posTags r).Nodup := by
    simp only [posTags_cons, List.nodup_cons] at hnd; exact hnd.2
  refine WP.copyLoop (own := own1) (src := r) (by have := hr1.length_le hnr; omega) hr1 hn ?_ hnr hw1 ?_
  · intro hm
    obtain ⟨y, hy, he⟩ := List.mem_map.mp hm
    have := (h.2.lt y hy).1
    simp only [Tag.pos.injEq] at he
    omega
  · intro c2 own2 l last hr hv hlast hfresh hnodup e2 hw2
    refine WP.pure (hq c2 own2 ((c.length, p) :: l) ⟨c.length, p, 0⟩ last hr (by simp) (by simp [hv]) rfl hlast ?_ ?_ ?_ hw2)
    · intro t ht
      simp only [posTags_cons, List.mem_cons] at ht
      rcases ht with rfl | ht
      · simp [Tag.Fresh]
      · have := hfresh t ht
        cases t <;> simp_all [Tag.Fresh] <;> omega
    · simp only [posTags_cons, List.nodup_cons]
      refine ⟨?_, hnodup⟩
      intro hm
      have := hfresh _ hm
      simp only [Tag.Fresh] at this
      omega
    · refine Ext.trans' hw e1 e2 ?_
      intro t h
      subst h
      exact Or.inr (Nat.le_refl _)

end Rodb
