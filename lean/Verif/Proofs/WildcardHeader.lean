import Verif.Proofs.WildcardAccept
/-
  What the header of a wildcard index holds after a build that succeeds, whatever the records are.
-/
namespace Rodb
open Spec Forest

/-- The code keeps the file and the buffer in line, and its results satisfy `Q`. -/
def Sound {α : Type} (m : M α) (Q : α → Prop) : Prop := ∀ s : Stream, s.Inv → (m s).2.Inv ∧ ∀ a, (m s).1 = .ok a → Q a

/-- Any result. -/
abbrev Kept {α : Type} (m : M α) : Prop := Sound m (fun _ => True)

section
variable {α β : Type}

theorem Sound.bind {m : M α} {f : α → M β} {Q : α → Prop} {R : β → Prop} (hm : Sound m Q) (hf : ∀ a, Q a → Sound (f a) R) : Sound (m >>= f) R := by
  intro s hs
  obtain ⟨h1, h2⟩ := hm s hs
  rw [M.bind_def]
  split
  · rename_i a s' h
    rw [h] at h1 h2
    exact hf a (h2 a rfl) s' h1
  · rename_i e s' h
    rw [h] at h1
    exact ⟨h1, fun a ha => by cases ha⟩

theorem Sound.pure {a : α} {Q : α → Prop} (h : Q a) : Sound (Pure.pure a : M α) Q := fun s hs => ⟨hs, fun b hb => by cases hb; exact h⟩
theorem Sound.fail {e : Fail} {Q : α → Prop} : Sound (M.fail e : M α) Q := fun s hs => ⟨hs, fun b hb => by cases hb⟩
theorem Sound.lift {r : Res α} {Q : α → Prop} (h : ∀ a, r = .ok a → Q a) : Sound (M.lift r) Q := fun s hs => ⟨hs, fun b hb => h b hb⟩
theorem Sound.readOnly {m : M α} (h : ReadOnly m) : Kept m := fun s hs => ⟨by rw [h s]; exact hs, fun _ _ => trivial⟩
theorem Sound.weaken {m : M α} {Q : α → Prop} (h : Sound m Q) : Kept m := fun s hs => ⟨(h s hs).1, fun _ _ => trivial⟩
theorem Kept.ite {p : Prop} [Decidable p] {m m' : M α} (h : Kept m) (h' : Kept m') : Kept (if p then m else m') := by split <;> assumption
end

theorem Kept.replace (o : Nat) (bs : Bytes) : Kept (mReplace o bs) := by
  intro s hs
  refine ⟨?_, fun _ _ => trivial⟩
  by_cases ho : o ≤ s.content.length
  · obtain ⟨s', h1, h2, _⟩ := Stream.replace_spec hs o bs ho
    show (s.replace o bs).2.Inv
    rw [h1]
    exact h2
  · have hl := hs.len
    have h1 := hs.size_eq
    obtain ⟨m, hm⟩ := Stream.replaceInBuffer_panic s o bs (by omega)
    show (s.replace o bs).2.Inv
    unfold Stream.replace
    rw [if_neg (by omega), hm]
    exact hs

theorem Kept.add (bs : Bytes) : Kept (mAdd bs) := by
  intro s hs
  refine ⟨?_, fun _ _ => trivial⟩
  have h := (Kept.replace s.streamSize bs s hs).1
  show (s.add bs).2.Inv
  unfold Stream.add
  have e : mReplace s.streamSize bs s = s.replace s.streamSize bs := rfl
  rw [e] at h
  split
  · rename_i h'
    rw [h'] at h
    exact h
  · rename_i h'
    rw [h'] at h
    exact h

theorem Kept.flush : Kept mFlush := fun s hs => ⟨(Stream.flush_spec hs).1, fun _ _ => trivial⟩

theorem Kept.posSave (l : PosNode) : Kept l.save := by
  unfold PosNode.save
  exact Kept.ite (Sound.bind (Kept.add _) fun _ _ => Sound.pure trivial) (Sound.bind (Kept.replace _ _) fun _ _ => Sound.pure trivial)

theorem Kept.newPos (p : Int) : Kept (newPos p) := Kept.posSave _

theorem Kept.getPos (o : Nat) : Kept (getPos o) := Sound.readOnly (ReadOnly.getPos o)
theorem Kept.getTreeNode (o : Nat) : Kept (getTreeNode o) := Sound.readOnly (ReadOnly.getTreeNode o)

theorem Kept.copyLoop : ∀ (fuel : Nat) (current : Option PosNode) (last : PosNode), Kept (copyLoop fuel current last)
  | 0, _, _ => Sound.fail
  | _ + 1, none, _ => Sound.pure trivial
  | fuel + 1, some current, last => by
    refine Sound.bind (Kept.newPos _) fun a _ => ?_
    refine Sound.bind (Kept.posSave _) fun _ _ => ?_
    exact Sound.bind (Kept.getPos _) fun b _ => Kept.copyLoop fuel b a

theorem Kept.copy (l : PosNode) : Kept l.copy := by
  refine Sound.bind (Kept.newPos _) fun a _ => ?_
  refine Sound.bind (Kept.getPos _) fun b _ => ?_
  refine Sound.bind (Sound.readOnly ReadOnly.fuel) fun fuel _ => ?_
  exact Sound.bind (Kept.copyLoop _ _ _) fun _ _ => Sound.pure trivial

theorem Kept.newEmpty : Kept newEmptyTreeNode := Sound.bind (Kept.add _) fun _ _ => Sound.pure trivial
theorem Kept.treeSave (n : TreeNode) : Kept n.save := Kept.replace _ _

theorem Kept.appendChild (n child : TreeNode) : Kept (n.appendChild child) := by
  unfold TreeNode.appendChild
  refine Kept.ite (Sound.bind (Kept.treeSave _) fun _ _ => Sound.pure trivial) (Sound.bind (Kept.getTreeNode _) fun o _ => ?_)
  cases o with
  | none => exact Sound.fail
  | some l => exact Sound.bind (Kept.treeSave _) fun _ _ => Sound.bind (Kept.treeSave _) fun _ _ => Sound.pure trivial

theorem Kept.findChild (n : TreeNode) (v : Bytes) : Kept (n.findChildByPrefix v) :=
  Sound.readOnly (ReadOnly.bind (ReadOnly.getTreeNode _) fun _ => ReadOnly.bind ReadOnly.fuel fun _ => ReadOnly.findChildLoop _ _ _)

theorem Kept.appendPosition (n : TreeNode) (p : Int) : Kept (n.appendPositionIfNotExists p) := by
  refine Sound.bind (Kept.newPos _) fun a _ => ?_
  refine Kept.ite (Sound.bind (Kept.treeSave _) fun _ _ => Sound.pure trivial) (Sound.bind (Kept.getPos _) fun o _ => ?_)
  cases o with
  | none => exact Sound.fail
  | some l =>
    exact Kept.ite (Sound.bind (Kept.posSave _) fun _ _ => Sound.bind (Kept.treeSave _) fun _ _ => Sound.pure trivial) (Sound.pure trivial)

theorem Kept.addLeaf (parent : TreeNode) (r : Bytes) (o : Nat) (p : Int) : Kept (addLeaf parent r o p) := by
  refine Sound.bind (Kept.newPos _) fun a _ => ?_
  refine Sound.bind Kept.newEmpty fun b _ => ?_
  exact Sound.bind (Kept.treeSave _) fun _ _ => Kept.appendChild _ _

theorem Kept.splitNode (e : TreeNode) (n : Nat) : Kept (splitNode e n) := by
  refine Sound.bind (Kept.getPos _) fun o _ => ?_
  cases o with
  | none => exact Sound.fail
  | some l =>
    refine Sound.bind (Kept.copy _) fun a _ => ?_
    refine Sound.bind Kept.newEmpty fun b _ => ?_
    exact Sound.bind (Kept.treeSave _) fun _ _ => Sound.bind (Kept.treeSave _) fun _ _ => Sound.pure trivial

theorem Kept.addSequenceLoop : ∀ (fuel : Nat) (parent : TreeNode) (r : Bytes) (o : Nat) (p : Int), Kept (addSequenceLoop fuel parent r o p)
  | 0, _, _, _, _ => Sound.fail
  | fuel + 1, parent, r, o, p => by
    unfold Rodb.addSequenceLoop
    refine Kept.ite (Sound.pure trivial) (Sound.bind (Kept.findChild _ _) fun found _ => ?_)
    cases found with
    | none => exact Kept.addLeaf _ _ _ _
    | some x =>
      refine Sound.bind (Q := fun _ => True) ?_ fun a _ => ?_
      · unfold splitIfPartial
        exact Kept.ite (Kept.splitNode _ _) (Sound.pure trivial)
      · exact Sound.bind (Kept.appendPosition _ _) fun b _ => Sound.bind (Kept.addSequenceLoop fuel _ _ _ _) fun _ _ => Sound.pure trivial

theorem Kept.addSuffixes : ∀ (l : Bytes) (n : TreeNode) (o : Nat) (p : Int), Kept (addSuffixes n l o p)
  | [], _, _, _ => Sound.pure trivial
  | _ :: rest, _, _, _ => Sound.bind (Kept.addSequenceLoop _ _ _ _ _) fun _ _ => Kept.addSuffixes rest _ _ _

theorem Kept.addString (lower : Bytes → Bytes) (cfg : WildcardConfig) (index : WIndex) (property : String) (s : Bytes) (p : Int) : Kept (addString lower cfg index property s p) := by
  unfold Rodb.addString
  split
  · refine Sound.bind (Q := fun _ => True) ?_ fun _ _ => Sound.pure trivial
    exact Sound.bind (Kept.add _) fun _ _ => Kept.addSuffixes _ _ _ _
  · exact Sound.fail

mutual
theorem Kept.addValue (lower : Bytes → Bytes) (cfg : WildcardConfig) (property : String) (p : Int) : ∀ (v : Value) (index : WIndex), Kept (addValueToIndex lower cfg index property v p)
  | .str s, index => by rw [addValueToIndex]; exact Kept.addString _ _ _ _ _ _
  | .arr l, index => by rw [addValueToIndex]; exact Sound.bind (Kept.addValues lower cfg property p l index) fun _ _ => Sound.fail
  | .null, index => by simp only [addValueToIndex]; exact Sound.fail
  | .bool _, index => by simp only [addValueToIndex]; exact Sound.fail
  | .int _, index => by simp only [addValueToIndex]; exact Sound.fail
  | .float _, index => by simp only [addValueToIndex]; exact Sound.fail
  | .obj _, index => by simp only [addValueToIndex]; exact Sound.fail
theorem Kept.addValues (lower : Bytes → Bytes) (cfg : WildcardConfig) (property : String) (p : Int) : ∀ (l : List Value) (index : WIndex), Kept (addValuesToIndex lower cfg index property l p)
  | [], index => by rw [addValuesToIndex]; exact Sound.pure trivial
  | v :: rest, index => by
    rw [addValuesToIndex]
    exact Sound.bind (Kept.addValue lower cfg property p v index) fun _ _ => Kept.addValues lower cfg property p rest _
end

theorem Kept.indexProperties (lower : Bytes → Bytes) (cfg : WildcardConfig) (r : Rec) : ∀ (l : List String) (index : WIndex), Kept (indexProperties lower cfg r l index)
  | [], _ => Sound.pure trivial
  | _ :: rest, _ => Sound.bind (Sound.lift fun _ _ => trivial) fun _ _ => Sound.bind (Kept.addValue _ _ _ _ _ _) fun _ _ => Kept.indexProperties lower cfg r rest _

theorem Kept.indexRecords (lower : Bytes → Bytes) (cfg : WildcardConfig) : ∀ (l : List (Res Rec)) (index : WIndex), Kept (indexRecords lower cfg l index)
  | [], _ => Sound.pure trivial
  | _ :: rest, _ => Sound.bind (Sound.lift fun _ _ => trivial) fun _ _ => Sound.bind (Kept.indexProperties _ _ _ _ _) fun _ _ => Kept.indexRecords lower cfg rest _

/-- The metadata is about this input. -/
def About (input : Input) (m : Metadata) : Prop :=
  m.magic.length = 19 ∧ input.size = .ok m.size ∧ ∃ t, input.modTimeNs = .ok t ∧ m.modTime = unixSeconds t

theorem Sound.createRoots {input : Input} : ∀ (l : List String) (i : Nat) (m : Metadata) (index : WIndex), About input m → Sound (createRoots l i m index) (fun r => About input r.1)
  | [], _, _, _, h => Sound.pure h
  | _ :: rest, i, m, index, h => by
    refine Sound.bind Kept.newEmpty fun root _ => ?_
    refine Sound.bind (Kept.treeSave _) fun _ _ => ?_
    exact Sound.createRoots rest _ _ _ h

theorem Sound.createAndFill (lower : Bytes → Bytes) (cfg : WildcardConfig) (input : Input) : Sound (createAndFill lower cfg input) (fun r => About input r.1) := by
  refine Sound.bind (Q := fun r => About input r.1) ?_ fun r hr => ?_
  · refine Sound.bind (Q := About input) ?_ fun m hm => ?_
    · refine Sound.bind (Q := fun size => input.size = .ok size) (Sound.lift fun _ h => h) fun size hs => ?_
      refine Sound.bind (Q := fun t => input.modTimeNs = .ok t) (Sound.lift fun _ h => h) fun t ht => ?_
      exact Sound.bind (Kept.replace _ _) fun _ _ => Sound.pure ⟨rfl, hs, t, ht, rfl⟩
    · refine Sound.bind (Sound.createRoots _ _ _ _ hm) fun r hr => ?_
      exact Sound.bind (Kept.replace _ _) fun _ _ => Sound.pure hr
  · refine Sound.bind (Q := fun _ => True) (Sound.lift fun _ _ => trivial) fun records _ => ?_
    exact Sound.bind (Kept.indexRecords _ _ _ _) fun _ _ => Sound.pure hr

/-- The size and the second in the header of a file, if it can be read. -/
def HeaderOf (size second : Int) (file : Bytes) : Prop := ∀ m, Metadata.unserialize file = .ok m → m.size = size ∧ m.modTime = second

theorem unserialize_header {m : Metadata} {rest : Bytes} (hmagic : m.magic.length = 19) (h1 : Int64Range m.size) (h2 : Int64Range m.modTime) :
    HeaderOf m.size m.modTime (m.serialize ++ rest) := by
  intro m' hm'
  have hlen : 47 ≤ (m.serialize ++ rest).length := by
    simp only [Metadata.serialize, List.length_append, hmagic, length_toBE, List.length_cons, List.length_nil]
    omega
  rw [unserialize_long hlen] at hm'
  split at hm'
  · cases hm'
  · generalize readOffsets (rootCount (m.serialize ++ rest)).toNat (List.drop 47 (m.serialize ++ rest)) = e at hm'
    cases e with
    | error e => cases hm'
    | ok roots =>
      cases hm'
      simp only [headerOf]
      have e1 : slice (m.serialize ++ rest) 29 8 = toBE 8 (toU64 m.size) := by
        simp only [Metadata.serialize, slice, List.append_assoc]
        rw [List.drop_append, List.drop_append, List.drop_append]
        simp [hmagic, length_toBE, List.drop_eq_nil_of_le]
      have e2 : slice (m.serialize ++ rest) 21 8 = toBE 8 (toU64 m.modTime) := by
        simp only [Metadata.serialize, slice, List.append_assoc]
        rw [List.drop_append, List.drop_append]
        simp [hmagic, length_toBE, List.drop_eq_nil_of_le]
      rw [e1, e2, ofBE_toBE _ _ (by have := toU64_lt m.size; omega), ofBE_toBE _ _ (by have := toU64_lt m.modTime; omega), toI64_toU64 _ h1.1 h1.2, toI64_toU64 _ h2.1 h2.2]
      exact ⟨rfl, rfl⟩

/-- A build that succeeds leaves the size and the modification time of its input in the header. -/
theorem createIndex_header {lower : Bytes → Bytes} {cfg : WildcardConfig} {input : Input} {size t : Int} (hs : input.size = .ok size) (ht : input.modTimeNs = .ok t) (h1 : Int64Range size)
    (h2 : Int64Range (unixSeconds t)) {index : WIndex} (h : (createIndex lower cfg input (Stream.new [] 0 cfg.bufferSize)).1 = .ok index) :
    HeaderOf size (unixSeconds t) (createIndex lower cfg input (Stream.new [] 0 cfg.bufferSize)).2.file := by
  have hinv := Stream.new_inv [] cfg.bufferSize
  obtain ⟨k1, k2⟩ := Sound.createAndFill lower cfg input _ hinv
  have hdef : createIndex lower cfg input = (createAndFill lower cfg input >>= fun r => (do
      Metadata.save { r.1 with completed := true }
      mFlush
      pure r.2)) := rfl
  rw [List.length_nil] at k1 k2
  rw [hdef, M.bind_def] at h ⊢
  cases hc : createAndFill lower cfg input (Stream.new [] 0 cfg.bufferSize) with
  | mk r s =>
    rw [hc] at h k1 k2
    cases r with
    | error e => cases h
    | ok r =>
      obtain ⟨a1, a2, t', a3, a4⟩ := k2 r rfl
      rw [hs] at a2
      rw [ht] at a3
      cases a2
      cases a3
      obtain ⟨s', b1, b2, b3, _⟩ := Stream.replace_spec k1 0 ({ r.1 with completed := true } : Metadata).serialize (Nat.zero_le _)
      have hsave : Metadata.save { r.1 with completed := true } s = (.ok (), s') := b1
      simp only [M.bind_def, hsave]
      have e : (mFlush s') = (.ok (), s'.flush) := rfl
      simp only [e]
      show HeaderOf _ _ s'.flush.file
      rw [(Stream.flush_spec b2).2.2.1, b3]
      have := unserialize_header (m := { r.1 with completed := true }) (rest := s.content.drop ({ r.1 with completed := true } : Metadata).serialize.length) a1 h1 (by rw [a4]; exact h2)
      rw [show ({ r.1 with completed := true } : Metadata).modTime = unixSeconds t from a4] at this
      have ov : overwrite s.content 0 ({ r.1 with completed := true } : Metadata).serialize =
          ({ r.1 with completed := true } : Metadata).serialize ++ s.content.drop ({ r.1 with completed := true } : Metadata).serialize.length := by
        simp [overwrite]
      rw [ov]
      exact this

end Rodb
