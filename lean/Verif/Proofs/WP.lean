import Verif.Model.WildcardNode
import Verif.Proofs.StreamLog
/-
  A small program logic for stream code, on the logical (flat) content.
-/
namespace Rodb
open Spec

/-- Largest stream size considered: offsets are Go `int64`. -/
def maxSize : Nat := 2^63

/-- The stream never shrinks. -/
def Mono {α : Type} (m : M α) : Prop := ∀ s, s.streamSize ≤ (m s).2.streamSize

theorem M.bind_def {α β : Type} (m : M α) (f : α → M β) (s : Stream) :
    (m >>= f) s = match m s with
      | (.ok a, s') => f a s'
      | (.error e, s') => (.error e, s') := rfl

theorem M.pure_def {α : Type} (a : α) (s : Stream) : (pure a : M α) s = (.ok a, s) := rfl

theorem Mono.pure {α : Type} (a : α) : Mono (Pure.pure a : M α) := fun _ => Nat.le_refl _
theorem Mono.fail {α : Type} (e : Fail) : Mono (M.fail e : M α) := fun _ => Nat.le_refl _
theorem Mono.bind {α β : Type} {m : M α} {f : α → M β} (hm : Mono m) (hf : ∀ a, Mono (f a)) :
    Mono (m >>= f) := by
  intro s
  rw [M.bind_def]
  have := hm s
  split
  · rename_i a s' h
    rw [h] at this
    exact Nat.le_trans this (hf a s')
  · rename_i e s' h
    rw [h] at this
    exact this

theorem Mono.ite {α : Type} {p : Prop} [Decidable p] {m m' : M α} (h : Mono m) (h' : Mono m') :
    Mono (if p then m else m') := by split <;> assumption

theorem Stream.flush_size (s : Stream) : s.flush.streamSize = s.streamSize := by
  unfold Stream.flush; split <;> rfl

theorem Stream.replaceEnd_size (s : Stream) (o n : Nat) : s.streamSize ≤ (s.replaceEnd o n).streamSize := by
  unfold Stream.replaceEnd
  simp only
  split <;> split <;> simp [Stream.flush_size] <;> omega

theorem Stream.replaceInBuffer_size {s s' : Stream} {o : Nat} {bs : Bytes}
    (h : s.replaceInBuffer o bs = .ok s') : s'.streamSize = s.streamSize := by
  unfold Stream.replaceInBuffer at h
  simp only at h
  split at h
  · split at h
    · cases h
    · cases h; rfl
  · cases h; rfl

theorem Stream.replace_size (s : Stream) (o : Nat) (bs : Bytes) :
    s.streamSize ≤ (s.replace o bs).2.streamSize := by
  unfold Stream.replace
  simp only
  generalize (if o + bs.length > s.bufferOffset then s.bufferOffset - o else bs.length) = w
  split
  · split
    · split
      · exact Nat.le_refl _
      · rename_i s' h
        have := Stream.replaceInBuffer_size h
        have h2 := Stream.replaceEnd_size s' o bs.length
        simp only at this ⊢
        omega
    · refine Nat.le_trans ?_ (Stream.replaceEnd_size _ o bs.length)
      exact Nat.le_refl _
  · split
    · exact Nat.le_refl _
    · rename_i s' h
      have := Stream.replaceInBuffer_size h
      have h2 := Stream.replaceEnd_size s' o bs.length
      simp only at this ⊢
      omega

theorem Mono.add (bs : Bytes) : Mono (mAdd bs) := by
  intro s
  have := Stream.replace_size s s.streamSize bs
  simp only [mAdd, Stream.add]
  split <;> (rename_i h; rw [h] at this; exact this)
theorem Mono.replace (o : Nat) (bs : Bytes) : Mono (mReplace o bs) := fun s => Stream.replace_size s o bs
theorem Mono.get (o n : Nat) : Mono (mGet o n) := fun _ => Nat.le_refl _
theorem Mono.flush : Mono mFlush := fun s => by simp [mFlush, Stream.flush_size]
theorem Mono.fuel : Mono mFuel := fun _ => Nat.le_refl _

/-- From logical content `c`, and provided the stream stays below `maxSize`, `m` succeeds with a
result and a content satisfying `Q`, without touching the completion flag. -/
def WP {α : Type} (c : Bytes) (m : M α) (Q : α → Bytes → Prop) : Prop :=
  ∀ s : Stream, s.Inv → s.content = c → (m s).2.streamSize < maxSize →
    ∃ a s', m s = (.ok a, s') ∧ s'.Inv ∧ Quiet s s' ∧ Q a s'.content

theorem WP.pure {α : Type} {c : Bytes} {a : α} {Q : α → Bytes → Prop} (h : Q a c) :
    WP c (Pure.pure a : M α) Q := fun s hi hc _ => ⟨a, s, rfl, hi, Quiet.refl _, hc ▸ h⟩

theorem WP.bind {α β : Type} {c : Bytes} {m : M α} {f : α → M β} {Q : β → Bytes → Prop}
    (hf : ∀ a, Mono (f a)) (h : WP c m (fun a c' => WP c' (f a) Q)) : WP c (m >>= f) Q := by
  intro s hi hc hb
  rw [M.bind_def] at hb ⊢
  have h1 := h s hi hc
  cases hm : m s with
  | mk r s' =>
    rw [hm] at hb h1
    cases r with
    | error e =>
      obtain ⟨a, s'', h2, _⟩ := h1 hb
      cases h2
    | ok a =>
      simp only at hb h1 ⊢
      obtain ⟨a', s'', h2, h3, h4, h5⟩ := h1 (Nat.lt_of_le_of_lt (hf a s') hb)
      cases h2
      obtain ⟨b, s3, h6, h7, h8, h9⟩ := h5 s' h3 rfl hb
      exact ⟨b, s3, h6, h7, h4.trans h8, h9⟩

theorem WP.conseq {α : Type} {c : Bytes} {m : M α} {Q Q' : α → Bytes → Prop}
    (h : WP c m Q) (hq : ∀ a c', Q a c' → Q' a c') : WP c m Q' := by
  intro s hi hc hb
  obtain ⟨a, s', h1, h2, h3, h4⟩ := h s hi hc hb
  exact ⟨a, s', h1, h2, h3, hq _ _ h4⟩

/-- The content at the start is itself below the limit. -/
theorem WP.of_bound {α : Type} {c : Bytes} {m : M α} {Q : α → Bytes → Prop} (hm : Mono m)
    (h : c.length < maxSize → WP c m Q) : WP c m Q := by
  intro s hi hc hb
  have := hm s
  have hl := hi.len
  exact h (by rw [← hc, hl]; exact Nat.lt_of_le_of_lt this hb) s hi hc hb

theorem WP.add {c : Bytes} {bs : Bytes} {Q : Nat → Bytes → Prop} (hk : flag (c ++ bs) = flag c)
    (h : Q c.length (c ++ bs)) : WP c (mAdd bs) Q := by
  intro s hi hc _
  obtain ⟨s', h1, h2, h3, h4⟩ := Stream.add_spec hi bs
  subst hc
  refine ⟨_, s', h1, h2, ?_, by rw [h3]; exact h⟩
  have hw := Stream.replace_writes hi s.content.length bs (Nat.le_refl _)
  have he : (s.replace s.content.length bs).2 = s' := by
    have h5 := congrArg Prod.snd h1
    simp only [Stream.add, ← hi.len] at h5
    revert h5
    split <;> (rename_i h6; rw [h6]; exact id)
  rw [he] at hw
  exact hw.quiet (by rw [h3]; exact hk)

theorem WP.replace {c : Bytes} {o : Nat} {bs : Bytes} {Q : Unit → Bytes → Prop} (ho : o ≤ c.length)
    (hk : flag (overwrite c o bs) = flag c)
    (h : Q () (overwrite c o bs)) : WP c (mReplace o bs) Q := by
  intro s hi hc _
  obtain ⟨s', h1, h2, h3, h4⟩ := Stream.replace_spec hi o bs (hc ▸ ho)
  refine ⟨_, s', h1, h2, ?_, by rw [h3, hc]; exact h⟩
  have hw := Stream.replace_writes hi o bs (hc ▸ ho)
  rw [h1] at hw
  exact hw.quiet (by rw [h3, hc]; exact hk)

theorem WP.get {c : Bytes} {o n : Nat} {Q : Bytes → Bytes → Prop} (ho : o + n ≤ c.length)
    (h : Q (slice c o n) c) : WP c (mGet o n) Q := by
  intro s hi hc _
  have h1 := Stream.get_spec hi o n (hc ▸ ho)
  exact ⟨_, s, by simp only [mGet, h1]; rfl, hi, Quiet.refl _, by rw [hc]; exact h⟩

theorem WP.fuel {c : Bytes} {Q : Nat → Bytes → Prop} (h : c.length < maxFuel → Q maxFuel c) : WP c mFuel Q := by
  intro s hi hc hb
  refine ⟨_, s, rfl, hi, Quiet.refl _, ?_⟩
  rw [hc]
  exact h (by rw [← hc, hi.len]; exact hb)

theorem WP.flush {c : Bytes} {Q : Unit → Bytes → Prop} (h : Q () c) : WP c mFlush Q := by
  intro s hi hc _
  have := Stream.flush_spec hi
  refine ⟨(), _, rfl, this.1, ?_, by rw [this.2.1, hc]; exact h⟩
  have hw := Stream.flush_writes hi.file_len
  exact Writes.quiet (by rw [this.2.1]; exact hw) (by rw [this.2.1])

/-! ### Every modelled function only lets the stream grow -/

/-- Closes `Mono` goals structurally. -/
macro "mono" : tactic => `(tactic| repeat' first
  | assumption
  | exact Mono.pure _ | exact Mono.fail _ | exact Mono.add _ | exact Mono.replace _ _
  | exact Mono.get _ _ | exact Mono.flush | exact Mono.fuel
  | apply Mono.bind | apply Mono.ite | intro _
  | split)

theorem Mono.getPos (o : Nat) : Mono (getPos o) := by unfold Rodb.getPos; mono
theorem Mono.posSave (l : PosNode) : Mono l.save := by unfold PosNode.save; mono
theorem Mono.newPos (p : Int) : Mono (newPos p) := Mono.posSave _
theorem Mono.copyLoop (fuel : Nat) (cur : Option PosNode) (last : PosNode) : Mono (copyLoop fuel cur last) := by
  induction fuel generalizing cur last with
  | zero => exact Mono.fail _
  | succ fuel ih =>
    cases cur with
    | none => exact Mono.pure _
    | some cur =>
      exact Mono.bind (Mono.newPos _) fun _ => Mono.bind (Mono.posSave _) fun _ =>
        Mono.bind (Mono.getPos _) fun _ => ih _ _
theorem Mono.copy (l : PosNode) : Mono l.copy :=
  Mono.bind (Mono.newPos _) fun _ => Mono.bind (Mono.getPos _) fun _ =>
    Mono.bind Mono.fuel fun _ => Mono.bind (Mono.copyLoop _ _ _) fun _ => Mono.pure _
theorem Mono.iterateStep (c : Option PosNode) : Mono (iterateStep c) := by
  unfold Rodb.iterateStep
  cases c with
  | none => exact Mono.pure _
  | some c => exact Mono.bind (Mono.getPos _) fun _ => Mono.pure _
theorem Mono.newEmptyTreeNode : Mono newEmptyTreeNode := by unfold Rodb.newEmptyTreeNode; mono
theorem Mono.getTreeNode (o : Nat) : Mono (getTreeNode o) := by unfold Rodb.getTreeNode; mono
theorem Mono.value (n : TreeNode) : Mono n.value := Mono.get _ _
theorem Mono.nodeSave (n : TreeNode) : Mono n.save := Mono.replace _ _
theorem Mono.appendChild (n ch : TreeNode) : Mono (n.appendChild ch) := by
  unfold TreeNode.appendChild
  refine Mono.ite (Mono.bind (Mono.nodeSave _) fun _ => Mono.pure _) (Mono.bind (Mono.getTreeNode _) fun o => ?_)
  cases o with
  | none => exact Mono.fail _
  | some l => exact Mono.bind (Mono.nodeSave _) fun _ => Mono.bind (Mono.nodeSave _) fun _ => Mono.pure _
theorem Mono.findChildLoop (v : Bytes) (fuel : Nat) (o : Option TreeNode) : Mono (findChildLoop v fuel o) := by
  induction fuel generalizing o with
  | zero => exact Mono.fail _
  | succ fuel ih =>
    cases o with
    | none => exact Mono.pure _
    | some ch =>
      refine Mono.bind (Mono.value _) fun _ => ?_
      exact Mono.ite (Mono.pure _) (Mono.bind (Mono.getTreeNode _) fun _ => ih _)
theorem Mono.findChildByPrefix (n : TreeNode) (v : Bytes) : Mono (n.findChildByPrefix v) :=
  Mono.bind (Mono.getTreeNode _) fun _ => Mono.bind Mono.fuel fun _ => Mono.findChildLoop _ _ _
theorem Mono.appendPosition (n : TreeNode) (p : Int) : Mono (n.appendPositionIfNotExists p) := by
  refine Mono.bind (Mono.newPos _) fun _ => Mono.ite (Mono.bind (Mono.nodeSave _) fun _ => Mono.pure _)
    (Mono.bind (Mono.getPos _) fun o => ?_)
  cases o with
  | none => exact Mono.fail _
  | some l =>
    exact Mono.ite (Mono.bind (Mono.posSave _) fun _ => Mono.bind (Mono.nodeSave _) fun _ => Mono.pure _)
      (Mono.pure _)
theorem Mono.addLeaf (n : TreeNode) (r : Bytes) (o : Nat) (p : Int) : Mono (addLeaf n r o p) :=
  Mono.bind (Mono.newPos _) fun _ => Mono.bind Mono.newEmptyTreeNode fun _ =>
    Mono.bind (Mono.nodeSave _) fun _ => Mono.appendChild _ _
theorem Mono.splitNode (n : TreeNode) (k : Nat) : Mono (splitNode n k) := by
  refine Mono.bind (Mono.getPos _) fun o => ?_
  cases o with
  | none => exact Mono.fail _
  | some l =>
    exact Mono.bind (Mono.copy _) fun _ => Mono.bind Mono.newEmptyTreeNode fun _ =>
      Mono.bind (Mono.nodeSave _) fun _ => Mono.bind (Mono.nodeSave _) fun _ => Mono.pure _
theorem Mono.splitIfPartial (n : TreeNode) (k : Nat) : Mono (splitIfPartial n k) :=
  Mono.ite (Mono.splitNode _ _) (Mono.pure _)
theorem Mono.addSequenceLoop (fuel : Nat) (n : TreeNode) (r : Bytes) (o : Nat) (p : Int) :
    Mono (addSequenceLoop fuel n r o p) := by
  induction fuel generalizing n r o with
  | zero => exact Mono.fail _
  | succ fuel ih =>
    refine Mono.ite (Mono.pure _) (Mono.bind (Mono.findChildByPrefix _ _) fun x => ?_)
    cases x with
    | none => exact Mono.addLeaf _ _ _ _
    | some x =>
      exact Mono.bind (Mono.splitIfPartial _ _) fun _ =>
        Mono.bind (Mono.appendPosition _ _) fun _ => Mono.bind (ih _ _ _) fun _ => Mono.pure _
theorem Mono.addSequence (n : TreeNode) (r : Bytes) (o : Nat) (p : Int) : Mono (n.addSequence r o p) :=
  Mono.addSequenceLoop _ _ _ _ _
theorem Mono.addSuffixes (n : TreeNode) (r : Bytes) (o : Nat) (p : Int) : Mono (addSuffixes n r o p) := by
  induction r generalizing n o with
  | nil => exact Mono.pure _
  | cons b r ih => exact Mono.bind (Mono.addSequence _ _ _ _) fun _ => ih _ _
theorem Mono.addAllSequences (n : TreeNode) (r : Bytes) (p : Int) : Mono (n.addAllSequences r p) :=
  Mono.bind (Mono.add _) fun _ => Mono.addSuffixes _ _ _ _
theorem Mono.getSequenceLoop (fuel : Nat) (n : TreeNode) (r : Bytes) : Mono (getSequenceLoop fuel n r) := by
  induction fuel generalizing n r with
  | zero => exact Mono.fail _
  | succ fuel ih =>
    refine Mono.ite (Mono.pure _) (Mono.bind (Mono.findChildByPrefix _ _) fun x => ?_)
    cases x with
    | none => exact Mono.pure _
    | some x =>
      simp only
      split
      · exact Mono.pure _
      · exact ih _ _
theorem Mono.getSequence (n : TreeNode) (r : Bytes) : Mono (n.getSequence r) := by
  refine Mono.bind (Mono.getSequenceLoop _ _ _) fun o => ?_
  cases o with
  | none => exact Mono.pure _
  | some n => exact Mono.getPos _

end Rodb
