import Verif.Proofs.DamagedIndex
import Verif.Props.WildcardProps
/-
  C107: searches in a damaged wildcard index.
-/
namespace Rodb
open Spec

/-- **C107** A search in the file of a wildcard index ends with an answer or an ordinary error, however its content is damaged, if the lengths of the texts in the nodes that can be reached are
neither negative nor larger than the file, and if no sequence of siblings comes back to where it was. `memory` is what the program can reserve.
Missing for the full C107: other lengths and sequences, for which it is false (`C107_false`, `C107_hangs`). -/
theorem C107_search_ends_partial (file : Bytes) (memory : Nat) (hmemory : file.length ≤ memory) (hfile : file.length < 2^62) (root : Int) (hroot : NodeAt file root)
    (hlength : ∀ a, Reachable file root a → 0 ≤ valueLengthAt file a ∧ valueLengthAt file a ≤ file.length) (hloop : ∀ a, Reachable file root a → ¬ SiblingsLead file a a) (text : Bytes) :
    ∃ r, (∀ fuel, file.length < fuel → text.length < fuel → searchFile file memory fuel root text = r) ∧ ((∃ found, r = .ok found) ∨ ∃ m, r = .error (.err m)) := by
  have h56 : 56 ≤ file.length := by have := hroot.1; have := hroot.2; omega
  obtain ⟨r, h1, h2, h3⟩ := signedSequence_ends hmemory hfile h56 hlength hloop text.length text root (Nat.le_refl _) (.inl rfl)
  have hnode : signedNode file memory root = .ok (some (storedNode file root)) := by
    rcases signedNode_cases (a := root) hmemory hfile h56 (by have := hroot.2; omega) with ⟨h, _⟩ | ⟨_, h⟩ | ⟨_, h, _⟩
    · have := hroot.1; omega
    · exact h
    · exact absurd hroot h
  have unfolded : ∀ fuel, file.length < fuel → text.length < fuel → searchFile file memory fuel root text = match (generalizing := false) r with
      | .error e => .error e
      | .ok none => .ok none
      | .ok (some node) => signedPos file memory node.firstPosition := by
    intro fuel hf ht
    rw [searchFile_root hnode, h1 fuel fuel hf ht]
    rfl
  rcases h2 with ⟨v, rfl⟩ | ⟨m, rfl⟩
  · cases v with
    | none => exact ⟨.ok none, fun fuel hf ht => by rw [unfolded fuel hf ht], .inl ⟨_, rfl⟩⟩
    | some n =>
      obtain ⟨b, rfl⟩ := h3 n rfl
      refine ⟨signedPos file memory (storedNode file b).firstPosition, fun fuel hf ht => by rw [unfolded fuel hf ht], ?_⟩
      rcases signedPos_cases (a := wordAt file (b + 40)) hmemory hfile h56 (wordAt_range file _).2 with ⟨c, h, _⟩ | h
      · exact .inl ⟨c, h⟩
      · exact .inr h
  · exact ⟨.error (.err m), fun fuel hf ht => by rw [unfolded fuel hf ht], .inr ⟨_, rfl⟩⟩

/-- **C107** Asking for the next position of what was found ends with a position, the end or an ordinary error, whatever the content of the file. -/
theorem C107_positions (file : Bytes) (memory : Nat) (hmemory : file.length ≤ memory) (hfile : 56 ≤ file.length ∧ file.length < 2^62) (current : Option (Int × Int))
    (hcurrent : ∀ c, current = some c → c.2 < 2^63) :
    (∃ p next, signedStep file memory current = .ok (p, next) ∧ ∀ c, next = some c → c.2 < 2^63) ∨ ∃ m, signedStep file memory current = .error (.err m) := by
  cases current with
  | none => exact .inl ⟨none, none, rfl, by simp⟩
  | some c =>
    unfold signedStep
    dsimp only
    rcases signedPos_cases (a := c.2) hmemory hfile.2 hfile.1 (hcurrent c rfl) with ⟨next, h, hn⟩ | ⟨m, h⟩
    · rw [h]
      refine .inl ⟨some c.1, next, rfl, fun d hd => ?_⟩
      rw [hn d hd]
      exact (wordAt_range file _).2
    · rw [h]
      exact .inr ⟨m, rfl⟩

/-- **C107** When the other theorems about wildcard indexes say what a search gives, it gives this here too: both models are of the same code, and differ only for files they cannot be about. -/
theorem C107_same_answer (file : Bytes) (memory : Nat) (hmemory : file.length ≤ memory) (hfile : file.length < 2^62) (bufferSize : Nat) (root : Nat) (hroot : root < 2^64) (node : TreeNode)
    (hnode : (getTreeNode root (Stream.new file file.length bufferSize)).1 = .ok (some node)) (text : Bytes) (found : Option PosNode)
    (hfound : (node.getSequence text (Stream.new file file.length bufferSize)).1 = .ok found) (fuel : Nat) (hfuel : maxFuel ≤ fuel ∧ text.length < fuel) :
    searchFile file memory fuel (toI64 root) text = .ok (found.map (fun p => (p.position, toI64 p.next))) := by
  obtain ⟨h1, h2⟩ := signedNode_of_get (memory := memory) hmemory hfile hroot hnode
  unfold TreeNode.getSequence at hfound
  obtain ⟨last, s, h3, h4⟩ := M_bind_ok hfound
  obtain ⟨g1, g2⟩ := signedSequence_of (memory := memory) hmemory hfile (text.length + 1) node text last (h2 node rfl) (congrArg Prod.fst h3)
  have hs : s = Stream.new file file.length bufferSize := getSequenceLoop_stream _ _ _ _ _ _ h3
  subst hs
  rw [searchFile_root h1, g1 fuel fuel hfuel.1 (by omega)]
  cases last with
  | none => cases h4; rfl
  | some last => exact signedPos_of (memory := memory) hmemory hfile (g2 last rfl).2.2 h4

/-- **C107** The same for the positions. -/
theorem C107_same_positions (file : Bytes) (memory : Nat) (hmemory : file.length ≤ memory) (hfile : file.length < 2^62) (bufferSize : Nat) (current : Option PosNode)
    (hcurrent : ∀ c, current = some c → c.next < 2^64) (p : Option Int) (next : Option PosNode)
    (h : (iterateStep current (Stream.new file file.length bufferSize)).1 = .ok (p, next)) :
    signedStep file memory (current.map (fun c => (c.position, toI64 c.next))) = .ok (p, next.map (fun c => (c.position, toI64 c.next))) := by
  cases current with
  | none => cases h; rfl
  | some c =>
    obtain ⟨n, s, h1, h2⟩ := M_bind_ok h
    cases h2
    unfold signedStep
    dsimp only [Option.map]
    rw [signedPos_of (memory := memory) (bufferSize := bufferSize) hmemory hfile (hcurrent c rfl) (congrArg Prod.fst h1)]
    rfl

/-- **C107** A search never ends if the siblings of the first child always go on and no text of them begins like what is searched. -/
theorem C107_hangs (file : Bytes) (memory : Nat) (hmemory : file.length ≤ memory) (hfile : file.length < 2^62) (root : Int) (hroot : NodeAt file root) (b : UInt8) (text : Bytes)
    (hsiblings : ∀ a, a = firstChildAt file root ∨ SiblingsLead file (firstChildAt file root) a → NodeAt file a ∧ OtherValue file a b) (fuel : Nat) :
    searchFile file memory fuel root (b :: text) = .error .diverge := by
  have h56 : 56 ≤ file.length := by have := hroot.1; have := hroot.2; omega
  have hread : ∀ a, NodeAt file a → signedNode file memory a = .ok (some (storedNode file a)) := by
    intro a ha
    rcases signedNode_cases (a := a) hmemory hfile h56 (by have := ha.2; omega) with ⟨h, _⟩ | ⟨_, h⟩ | ⟨_, h, _⟩
    · have := ha.1; omega
    · exact h
    · exact absurd ha h
  rw [searchFile_root (hread root hroot)]
  have hhang : signedSequence file memory fuel fuel (storedNode file root) (b :: text) = .error .diverge := by
    cases fuel with
    | zero => rfl
    | succ fuel =>
      rw [signedSequence_first (c := storedNode file (firstChildAt file root)) (hread _ (hsiblings _ (.inl rfl)).1),
        siblings_hang hmemory hfile h56 (fun a => a = firstChildAt file root ∨ SiblingsLead file (firstChildAt file root) a) (fun a ha => by
          refine ⟨(hsiblings a ha).1, (hsiblings a ha).2, .inr ?_⟩
          rcases ha with rfl | ha
          · exact .one
          · exact .more ha (hsiblings a (.inr ha)).1) (fuel + 1) _ (.inl rfl)]
  rw [hhang]

namespace DamagedExample

/-- The words of a node. -/
def node (words : List Nat) : Bytes := words.flatMap (toBE 8)

/-- The file of an index on one property, with a root at 55, its only child at 111, and one position at 167: the text of the child is `R` (the first byte of the file), with the given length, the
next sibling and next position as given. -/
def file (length sibling next : Nat) : Bytes :=
  magicBytes ++ toBE 2 1 ++ toBE 8 1700000000 ++ toBE 8 30 ++ [1] ++ [1] ++ toBE 8 1 ++ toBE 8 55 ++
    node [0, 0, 0, 111, 111, 0, 0] ++ node [0, length, sibling, 0, 0, 167, 167] ++ toBE 8 7 ++ toBE 8 next

/-- The program starts with the file. -/
def accepted (file : Bytes) : Bool :=
  match (newWildcard WildcardExample.lower WildcardExample.cfg WildcardExample.input (some file)).1 with
  | .ok w => decide (mapGet w.index "name" = some (some (TreeNode.unserialize 55 (slice file 55 56))))
  | .error _ => false

theorem length_file (a b c : Nat) : (file a b c).length = 183 := by
  simp [file, node, length_toBE, magicBytes]

end DamagedExample

/-- **C107** is false: there are files with which the program starts, and then a search never ends, because a sibling is its own next sibling; or it panics, because of a negative length; or the
positions that are found never end. -/
theorem C107_false :
    (DamagedExample.accepted (DamagedExample.file 1 111 0) = true ∧ ∀ fuel, searchFile (DamagedExample.file 1 111 0) (2^40) fuel 55 [97] = .error .diverge) ∧
    (DamagedExample.accepted (DamagedExample.file (2^64 - 1) 0 0) = true ∧
      ∀ fuel, searchFile (DamagedExample.file (2^64 - 1) 0 0) (2^40) (fuel + 1) 55 [97] = .error (.panic "makeslice: cap out of range")) ∧
    (DamagedExample.accepted (DamagedExample.file 1 0 167) = true ∧ ∀ fuel, searchFile (DamagedExample.file 1 0 167) (2^40) (fuel + 2) 55 [82] = .ok (some (7, 167)) ∧
      signedStep (DamagedExample.file 1 0 167) (2^40) (some (7, 167)) = .ok (some 7, some (7, 167))) := by
  refine ⟨⟨by decide +kernel, fun fuel => ?_⟩, ⟨by decide +kernel, fun fuel => ?_⟩, by decide +kernel, fun fuel => ⟨?_, by decide +kernel⟩⟩
  · have hlen := DamagedExample.length_file 1 111 0
    have hchild : firstChildAt (DamagedExample.file 1 111 0) 55 = 111 := by decide +kernel
    have hnext : nextSiblingAt (DamagedExample.file 1 111 0) 111 = 111 := by decide +kernel
    refine C107_hangs _ _ (by rw [hlen]; decide) (by rw [hlen]; decide) 55 (by unfold NodeAt; omega) 97 [] ?_ fuel
    rw [hchild]
    have all : ∀ a, SiblingsLead (DamagedExample.file 1 111 0) 111 a → a = 111 := by
      intro a h
      induction h with
      | one => exact hnext
      | more _ _ ih => rw [ih, hnext]
    intro a ha
    have : a = 111 := ha.elim id (all a)
    subst this
    refine ⟨by unfold NodeAt; omega, ?_⟩
    have h1 : valueOffsetAt (DamagedExample.file 1 111 0) 111 = 0 := by decide +kernel
    have h2 : valueLengthAt (DamagedExample.file 1 111 0) 111 = 1 := by decide +kernel
    unfold OtherValue
    rw [h1, h2, hlen]
    exact ⟨by decide, by decide, by decide, by decide +kernel⟩
  · have h1 : signedNode (DamagedExample.file (2^64 - 1) 0 0) (2^40) 55 = .ok (some (SignedNode.mk 0 0 0 111 0)) := by decide +kernel
    have h2 : signedNode (DamagedExample.file (2^64 - 1) 0 0) (2^40) 111 = .ok (some (SignedNode.mk 0 (-1) 0 0 167)) := by decide +kernel
    have h3 : signedGet (DamagedExample.file (2^64 - 1) 0 0) (2^40) 0 (-1) = .error (.panic "makeslice: cap out of range") := by decide +kernel
    rw [searchFile_root h1, signedSequence_first (n := SignedNode.mk 0 0 0 111 0) h2, signedSiblings_first, h3]
  · have h1 : signedNode (DamagedExample.file 1 0 167) (2^40) 55 = .ok (some (SignedNode.mk 0 0 0 111 0)) := by decide +kernel
    have h2 : signedNode (DamagedExample.file 1 0 167) (2^40) 111 = .ok (some (SignedNode.mk 0 1 0 0 167)) := by decide +kernel
    have h3 : signedGet (DamagedExample.file 1 0 167) (2^40) 0 1 = .ok [82] := by decide +kernel
    have h4 : signedPos (DamagedExample.file 1 0 167) (2^40) 167 = .ok (some (7, 167)) := by decide +kernel
    rw [searchFile_root h1, signedSequence_first (n := SignedNode.mk 0 0 0 111 0) h2, signedSiblings_first, h3]
    exact h4

/-- `C107_search_ends_partial` for a damaged file: the next sibling of the child is a place outside of the file. The search is refused. -/
example : ∃ m, ∀ fuel, 183 < fuel → searchFile (DamagedExample.file 1 1000 0) (2^40) fuel 55 [97] = .error (.err m) := by
  have hlen := DamagedExample.length_file 1 1000 0
  have hchild : firstChildAt (DamagedExample.file 1 1000 0) 55 = 111 := by decide +kernel
  have hnext : nextSiblingAt (DamagedExample.file 1 1000 0) 111 = 1000 := by decide +kernel
  have hbelow : firstChildAt (DamagedExample.file 1 1000 0) 111 = 0 := by decide +kernel
  have hreach : ∀ a, Reachable (DamagedExample.file 1 1000 0) 55 a → a = 111 := by
    intro a h
    induction h with
    | first _ => exact hchild
    | child _ h ih => rw [ih, hbelow] at h; exact absurd h.1 (by decide)
    | sibling _ h ih => rw [ih, hnext] at h; exact absurd h.2 (by rw [hlen]; decide)
  obtain ⟨r, h1, h2⟩ := C107_search_ends_partial (DamagedExample.file 1 1000 0) (2^40) (by rw [hlen]; decide) (by rw [hlen]; decide) 55 (by unfold NodeAt; omega)
    (by
      intro a ha
      rw [hreach a ha, show valueLengthAt (DamagedExample.file 1 1000 0) 111 = 1 by decide +kernel, hlen]
      decide)
    (by
      intro a ha h
      rw [hreach a ha] at h
      have : ∀ b, SiblingsLead (DamagedExample.file 1 1000 0) 111 b → b = 1000 := by
        intro b h
        induction h with
        | one => exact hnext
        | more _ h ih => rw [ih] at h; exact absurd h.2 (by rw [hlen]; decide)
      exact absurd (this _ h) (by decide)) [97]
  have h3 : searchFile (DamagedExample.file 1 1000 0) (2^40) 200 55 [97] = .error (.err "Expected to read bytes from buffer") := by decide +kernel
  rw [h1 200 (by omega) (by simp)] at h3
  exact ⟨_, fun fuel hf => by rw [h1 fuel (by omega) (by simp; omega), h3]⟩

/-- `C107_same_answer` for a file that is not damaged: `R` has the position 7. -/
example (fuel : Nat) (hfuel : maxFuel ≤ fuel ∧ 1 < fuel) : searchFile (DamagedExample.file 1 0 0) (2^40) fuel 55 [82] = .ok (some (7, 0)) := by
  have hlen := DamagedExample.length_file 1 0 0
  exact C107_same_answer (DamagedExample.file 1 0 0) (2^40) (by rw [hlen]; decide) (by rw [hlen]; decide) 1000 55 (by decide) (TreeNode.unserialize 55 (slice (DamagedExample.file 1 0 0) 55 56))
    (by decide +kernel) [82] (some { offset := 167, position := 7, next := 0 }) (by decide +kernel) fuel hfuel

/-- `C107_positions` where the next position is outside of the file. -/
example : signedStep (DamagedExample.file 1 0 1000) (2^40) (some (7, 1000)) = .error (.err "Expected to read bytes from buffer") := by decide +kernel

/-- `C107_same_positions` for the only position of the file. -/
example : signedStep (DamagedExample.file 1 0 0) (2^40) (some (7, 0)) = .ok (some 7, none) :=
  C107_same_positions (DamagedExample.file 1 0 0) (2^40) (by rw [DamagedExample.length_file]; decide) (by rw [DamagedExample.length_file]; decide) 1000
    (some { offset := 167, position := 7, next := 0 }) (by intro c h; cases h; decide) (some 7) none (by decide +kernel)

end Rodb
