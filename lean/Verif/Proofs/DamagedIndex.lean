import Verif.Model.DamagedIndex
import Verif.Spec.DamagedIndex
import Verif.Proofs.Heap
/-
  Lemmas about searches in damaged index files.
-/
namespace Rodb
open Spec

theorem wrap64_id {i : Int} (h1 : -2^63 ≤ i) (h2 : i < 2^63) : wrap64 i = i := by
  unfold wrap64 toI64 toU64
  by_cases h : 0 ≤ i
  · rw [Int.emod_eq_of_lt h (by omega), if_pos (by omega)]
    omega
  · have : i % 2^64 = i + 2^64 := by
      rw [← Int.add_emod_right, Int.emod_eq_of_lt (by omega) (by omega)]
    rw [this, if_neg (by omega)]
    omega

theorem toI64_range (n : Nat) (h : n < 2^64) : -2^63 ≤ toI64 n ∧ toI64 n < 2^63 := by
  unfold toI64
  split <;> omega

theorem ofBE_lt8 {bs : Bytes} (h : bs.length ≤ 8) : ofBE bs < 2^64 := by
  have gen : ∀ (bs : Bytes) (acc : Nat), bs.foldl (fun acc b => acc * 256 + b.toNat) acc < (acc + 1) * 256 ^ bs.length := by
    intro bs
    induction bs with
    | nil => intro acc; simp
    | cons b bs ih =>
      intro acc
      have h1 := ih (acc * 256 + b.toNat)
      have h2 := b.toNat_lt
      simp only [List.foldl_cons, List.length_cons]
      refine Nat.lt_of_lt_of_le h1 ?_
      rw [Nat.pow_succ, Nat.mul_comm (256 ^ bs.length) 256, ← Nat.mul_assoc]
      exact Nat.mul_le_mul_right _ (by omega)
  have h1 := gen bs 0
  have h2 : 256 ^ bs.length ≤ 256 ^ 8 := Nat.pow_le_pow_right (by omega) h
  unfold ofBE
  omega

theorem wordAt_range (file : Bytes) (a : Int) : -2^63 ≤ wordAt file a ∧ wordAt file a < 2^63 :=
  toI64_range _ (ofBE_lt8 (by simp only [slice, List.length_take]; omega))

/-- What is read is in the file; nothing else can be read, and a length that fits the file does not crash the program. -/
theorem signedGet_fits {file : Bytes} {memory : Nat} {offset count : Int} (hm : file.length ≤ memory) (hl : file.length < 2^62) (hc0 : 0 ≤ count) (hc : count ≤ file.length)
    (ho : offset < 2^63) :
    (0 ≤ offset ∧ offset + count ≤ file.length ∧ signedGet file memory offset count = .ok (slice file offset.toNat count.toNat)) ∨
    ((offset < 0 ∨ file.length < offset + count) ∧ ∃ m, signedGet file memory offset count = .error (.err m)) := by
  unfold signedGet
  rw [if_neg (by omega)]
  by_cases h : offset < file.length
  · rw [if_pos h]
    by_cases h0 : offset < 0
    · simp only [h0, if_true]
      exact .inr ⟨.inl trivial, _, rfl⟩
    · rw [wrap64_id (by omega) (by omega)]
      by_cases h1 : offset + count > file.length
      · simp only [h1, if_true, h0, if_false]
        refine .inr ⟨.inr trivial, ?_⟩
        unfold fileReadAt
        rw [if_pos (by omega)]
        dsimp only
        rw [if_pos (by omega)]
        exact ⟨_, rfl⟩
      · simp only [h1, if_false, h0]
        refine .inl ⟨by omega, by omega, ?_⟩
        unfold fileReadAt
        rw [if_pos (by omega)]
        dsimp only
        rw [if_neg (by omega)]
  · rw [if_neg h, wrap64_id (by omega) (by omega)]
    dsimp only
    by_cases h1 : offset - file.length + count > 0
    · rw [if_pos h1]
      exact .inr ⟨.inr (by omega), _, rfl⟩
    · rw [if_neg h1, if_neg (by omega)]
      refine .inl ⟨by omega, by omega, ?_⟩
      have : count = 0 := by omega
      subst this
      simp [slice]

/-- The node at an offset. -/
def storedNode (file : Bytes) (a : Int) : SignedNode :=
  { valueOffset := valueOffsetAt file a, valueLength := valueLengthAt file a, nextSibling := nextSiblingAt file a, firstChild := firstChildAt file a, firstPosition := wordAt file (a + 40) }

theorem sliceAgain {file : Bytes} {a k n m : Nat} (h : k + m ≤ n) : slice (slice file a n) k m = slice file (a + k) m := by
  unfold slice
  rw [List.drop_take, List.drop_drop, List.take_take, Nat.min_eq_left (by omega)]

theorem unserialize_slice {file : Bytes} {a : Int} (ha : 0 ≤ a) : SignedNode.unserialize (slice file a.toNat 56) = storedNode file a := by
  unfold SignedNode.unserialize storedNode valueOffsetAt valueLengthAt nextSiblingAt firstChildAt wordAt
  rw [sliceAgain (by omega), sliceAgain (by omega), sliceAgain (by omega), sliceAgain (by omega), sliceAgain (by omega)]
  simp only [Nat.add_zero]
  rw [show (a + 8).toNat = a.toNat + 8 by omega, show (a + 16).toNat = a.toNat + 16 by omega, show (a + 24).toNat = a.toNat + 24 by omega, show (a + 40).toNat = a.toNat + 40 by omega]

theorem signedNode_cases {file : Bytes} {memory : Nat} {a : Int} (hm : file.length ≤ memory) (hl : file.length < 2^62) (h56 : 56 ≤ file.length) (ha : a < 2^63) :
    (a = 0 ∧ signedNode file memory a = .ok none) ∨ (NodeAt file a ∧ signedNode file memory a = .ok (some (storedNode file a))) ∨
    (a ≠ 0 ∧ ¬ NodeAt file a ∧ ∃ m, signedNode file memory a = .error (.err m)) := by
  unfold signedNode
  by_cases h0 : a = 0
  · exact .inl ⟨h0, if_pos h0⟩
  · rw [if_neg h0]
    refine .inr ?_
    rcases signedGet_fits (offset := a) (count := (treeNodeSize : Nat)) hm hl (by decide) (by unfold treeNodeSize; omega) ha with ⟨h1, h2, h3⟩ | ⟨h1, m, h3⟩
    · refine .inl ⟨⟨by omega, by unfold treeNodeSize at h2; omega⟩, ?_⟩
      rw [h3]
      show Except.ok _ = _
      rw [show ((treeNodeSize : Nat) : Int).toNat = 56 from rfl, unserialize_slice h1]
    · refine .inr ⟨h0, ?_, m, by rw [h3]; rfl⟩
      unfold NodeAt
      unfold treeNodeSize at h1
      omega

theorem signedPos_cases {file : Bytes} {memory : Nat} {a : Int} (hm : file.length ≤ memory) (hl : file.length < 2^62) (h56 : 56 ≤ file.length) (ha : a < 2^63) :
    (∃ c, signedPos file memory a = .ok c ∧ ∀ d, c = some d → d = (wordAt file a, wordAt file (a + 8))) ∨ ∃ m, signedPos file memory a = .error (.err m) := by
  unfold signedPos
  by_cases h0 : a = 0
  · exact .inl ⟨none, if_pos h0, by simp⟩
  · rw [if_neg h0]
    rcases signedGet_fits (offset := a) (count := (posNodeSize : Nat)) hm hl (by decide) (by unfold posNodeSize; omega) ha with ⟨h1, h2, h3⟩ | ⟨h1, m, h3⟩
    · rw [h3]
      refine .inl ⟨_, rfl, ?_⟩
      intro d hd
      cases hd
      rw [show ((posNodeSize : Nat) : Int).toNat = 16 from rfl, sliceAgain (by omega), sliceAgain (by omega)]
      simp only [wordAt, Nat.add_zero, show (a + 8).toNat = a.toNat + 8 by omega]
    · exact .inr ⟨m, by rw [h3]; rfl⟩

theorem commonPrefixLen_le : ∀ (a b : Bytes), commonPrefixLen a b ≤ a.length ∧ commonPrefixLen a b ≤ b.length
  | [], _ => by simp [commonPrefixLen]
  | _ :: _, [] => by simp [commonPrefixLen]
  | a :: as, b :: bs => by
    unfold commonPrefixLen
    split
    · have := commonPrefixLen_le as bs
      simp only [List.length_cons]
      omega
    · simp

/-- An answer or an ordinary error. -/
def Orderly {α : Type} (r : Res α) : Prop := (∃ v, r = .ok v) ∨ ∃ m, r = .error (.err m)

variable {file : Bytes} {memory : Nat} {root : Int}

/-- The loop over the siblings, from a node that was not met yet. -/
theorem siblings_end (hm : file.length ≤ memory) (hl : file.length < 2^62) (h56 : 56 ≤ file.length)
    (hlength : ∀ a, Reachable file root a → 0 ≤ valueLengthAt file a ∧ valueLengthAt file a ≤ file.length) (hloop : ∀ a, Reachable file root a → ¬ SiblingsLead file a a) (value : Bytes) :
    ∀ (fuel : Nat) (a : Int) (seen : List Nat), Reachable file root a → NodeAt file a → seen.Nodup → (∀ x ∈ seen, x < file.length ∧ SiblingsLead file x a) → file.length < fuel + seen.length →
      ∃ r, (∀ fuel', fuel ≤ fuel' → signedSiblings file memory value fuel' (some (storedNode file a)) = r) ∧ Orderly r ∧
        ∀ n c, r = .ok (some (n, c)) → 0 < n.valueLength ∧ ∃ b, Reachable file root b ∧ NodeAt file b ∧ n = storedNode file b
  | 0, a, seen, _, _, hn, hs, hf => by
    have := length_le_of_nodup_lt file.length seen hn (fun x hx => (hs x hx).1)
    omega
  | fuel+1, a, seen, hr, ha, hn, hs, hf => by
    obtain ⟨hl0, hl1⟩ := hlength a hr
    have unfolded : ∀ fuel', fuel + 1 ≤ fuel' → signedSiblings file memory value fuel' (some (storedNode file a)) = (do
        let childValue ← signedGet file memory (valueOffsetAt file a) (valueLengthAt file a)
        if commonPrefixLen childValue value > 0 then .ok (some (storedNode file a, commonPrefixLen childValue value))
        else do
          let next ← signedNode file memory (nextSiblingAt file a)
          signedSiblings file memory value (fuel' - 1) next) := by
      intro fuel' h
      obtain ⟨k, rfl⟩ : ∃ k, fuel' = k + 1 := ⟨fuel' - 1, by omega⟩
      rfl
    rcases signedGet_fits (offset := valueOffsetAt file a) hm hl hl0 hl1 (wordAt_range file a).2 with ⟨_, _, h3⟩ | ⟨_, m, h3⟩
    · rw [h3] at unfolded
      by_cases hc : commonPrefixLen (slice file (valueOffsetAt file a).toNat (valueLengthAt file a).toNat) value > 0
      · refine ⟨.ok (some (storedNode file a, commonPrefixLen (slice file (valueOffsetAt file a).toNat (valueLengthAt file a).toNat) value)), fun fuel' h => ?_, .inl ⟨_, rfl⟩, fun n c h => ?_⟩
        · rw [unfolded fuel' h]
          show (if commonPrefixLen _ value > 0 then _ else _) = _
          rw [if_pos hc]
        · cases h
          refine ⟨?_, a, hr, ha, rfl⟩
          have h1 := (commonPrefixLen_le (slice file (valueOffsetAt file a).toNat (valueLengthAt file a).toNat) value).1
          have h2 : (slice file (valueOffsetAt file a).toNat (valueLengthAt file a).toNat).length ≤ (valueLengthAt file a).toNat := by
            simp only [slice, List.length_take]
            omega
          show 0 < valueLengthAt file a
          omega
      · have unfolded' : ∀ fuel', fuel + 1 ≤ fuel' → signedSiblings file memory value fuel' (some (storedNode file a)) = (do
            let next ← signedNode file memory (nextSiblingAt file a)
            signedSiblings file memory value (fuel' - 1) next) := by
          intro fuel' h
          rw [unfolded fuel' h]
          show (if commonPrefixLen _ value > 0 then _ else _) = _
          rw [if_neg hc]
        rcases signedNode_cases (a := nextSiblingAt file a) hm hl h56 (wordAt_range file (a + 16)).2 with ⟨_, h5⟩ | ⟨hb, h5⟩ | ⟨_, _, m, h5⟩
        · refine ⟨.ok none, fun fuel' h => ?_, .inl ⟨_, rfl⟩, fun n c h => by cases h⟩
          rw [unfolded' fuel' h, h5]
          show signedSiblings file memory value (fuel' - 1) none = .ok none
          cases hf' : fuel' - 1 with
          | zero =>
            exfalso
            have h1 := length_le_of_nodup_lt file.length seen hn (fun x hx => (hs x hx).1)
            have h2 : seen.length < file.length := by
              rcases Nat.lt_or_ge seen.length file.length with h | h
              · exact h
              · exfalso
                have hnot : a.toNat ∉ seen := by
                  intro hin
                  have := (hs _ hin).2
                  rw [show ((a.toNat : Nat) : Int) = a by have := ha.1; omega] at this
                  exact hloop a hr this
                have := length_le_of_nodup_lt file.length (a.toNat :: seen) (List.nodup_cons.2 ⟨hnot, hn⟩) (fun x hx => by
                  rcases List.mem_cons.1 hx with rfl | hx
                  · have := ha.2; have := ha.1; omega
                  · exact (hs x hx).1)
                simp only [List.length_cons] at this
                omega
            omega
          | succ k => rfl
        · have hnot : a.toNat ∉ seen := by
            intro hin
            have := (hs _ hin).2
            rw [show ((a.toNat : Nat) : Int) = a by have := ha.1; omega] at this
            exact hloop a hr this
          obtain ⟨r, g1, g2, g3⟩ := siblings_end hm hl h56 hlength hloop value fuel (nextSiblingAt file a) (a.toNat :: seen) (.sibling hr hb) hb (List.nodup_cons.2 ⟨hnot, hn⟩) (by
            intro x hx
            rcases List.mem_cons.1 hx with rfl | hx
            · refine ⟨by have := ha.2; have := ha.1; omega, ?_⟩
              rw [show ((a.toNat : Nat) : Int) = a by have := ha.1; omega]
              exact .one
            · exact ⟨(hs x hx).1, .more (hs x hx).2 ha⟩) (by simp only [List.length_cons]; omega)
          refine ⟨r, fun fuel' h => ?_, g2, g3⟩
          rw [unfolded' fuel' h, h5]
          exact g1 (fuel' - 1) (by omega)
        · refine ⟨.error (.err m), fun fuel' h => ?_, .inr ⟨_, rfl⟩, fun n c h => by cases h⟩
          rw [unfolded' fuel' h, h5]
          rfl
    · refine ⟨.error (.err m), fun fuel' h => ?_, .inr ⟨_, rfl⟩, fun n c h => by cases h⟩
      rw [unfolded fuel' h, h3]
      rfl

/-- Looking for a child of a node. -/
theorem findChild_ends (hm : file.length ≤ memory) (hl : file.length < 2^62) (h56 : 56 ≤ file.length)
    (hlength : ∀ a, Reachable file root a → 0 ≤ valueLengthAt file a ∧ valueLengthAt file a ≤ file.length) (hloop : ∀ a, Reachable file root a → ¬ SiblingsLead file a a) (value : Bytes)
    (a : Int) (ha : a = root ∨ Reachable file root a) :
    ∃ r, (∀ fuel, file.length < fuel → (storedNode file a).findChild file memory fuel value = r) ∧ Orderly r ∧
      ∀ n c, r = .ok (some (n, c)) → 0 < n.valueLength ∧ ∃ b, Reachable file root b ∧ NodeAt file b ∧ n = storedNode file b := by
  have unfolded : ∀ fuel, (storedNode file a).findChild file memory fuel value = (do
      let child ← signedNode file memory (firstChildAt file a)
      signedSiblings file memory value fuel child) := fun fuel => rfl
  rcases signedNode_cases (a := firstChildAt file a) hm hl h56 (wordAt_range file (a + 24)).2 with ⟨_, h5⟩ | ⟨hb, h5⟩ | ⟨_, _, m, h5⟩
  · refine ⟨.ok none, fun fuel h => ?_, .inl ⟨_, rfl⟩, fun n c h => by cases h⟩
    rw [unfolded, h5]
    obtain ⟨k, rfl⟩ : ∃ k, fuel = k + 1 := ⟨fuel - 1, by omega⟩
    rfl
  · have hr : Reachable file root (firstChildAt file a) := by
      rcases ha with rfl | ha
      · exact .first hb
      · exact .child ha hb
    obtain ⟨r, g1, g2, g3⟩ := siblings_end hm hl h56 hlength hloop value (file.length + 1) _ [] hr hb List.nodup_nil (by simp) (by simp)
    refine ⟨r, fun fuel h => ?_, g2, g3⟩
    rw [unfolded, h5]
    exact g1 fuel (by omega)
  · refine ⟨.error (.err m), fun fuel h => ?_, .inr ⟨_, rfl⟩, fun n c h => by cases h⟩
    rw [unfolded, h5]
    rfl

/-- The loop of a search. -/
theorem signedSequence_ends (hm : file.length ≤ memory) (hl : file.length < 2^62) (h56 : 56 ≤ file.length)
    (hlength : ∀ a, Reachable file root a → 0 ≤ valueLengthAt file a ∧ valueLengthAt file a ≤ file.length) (hloop : ∀ a, Reachable file root a → ¬ SiblingsLead file a a) :
    ∀ (k : Nat) (bytes : Bytes) (a : Int), bytes.length ≤ k → (a = root ∨ Reachable file root a) →
      ∃ r, (∀ fuel rounds, file.length < fuel → bytes.length < rounds → signedSequence file memory fuel rounds (storedNode file a) bytes = r) ∧ Orderly r ∧
        ∀ n, r = .ok (some n) → ∃ b, n = storedNode file b
  | k, [], a, _, ha => by
    refine ⟨.ok (some (storedNode file a)), fun fuel rounds _ h => ?_, .inl ⟨_, rfl⟩, fun n h => ⟨a, by cases h; rfl⟩⟩
    obtain ⟨j, rfl⟩ : ∃ j, rounds = j + 1 := ⟨rounds - 1, by omega⟩
    rfl
  | 0, b :: bytes, a, h, _ => by simp at h
  | k+1, b :: bytes, a, h, ha => by
    obtain ⟨r, g1, g2, g3⟩ := findChild_ends hm hl h56 hlength hloop (b :: bytes) a ha
    have unfolded : ∀ fuel rounds, file.length < fuel → (b :: bytes).length < rounds → signedSequence file memory fuel rounds (storedNode file a) (b :: bytes) = (do
        let found ← r
        match found with
        | none => .ok none
        | some (current, commonBytes) =>
          if commonBytes < current.valueLength ∧ commonBytes < (b :: bytes).length then .ok none
          else signedSequence file memory fuel (rounds - 1) current ((b :: bytes).drop current.valueLength.toNat)) := by
      intro fuel rounds h1 h2
      obtain ⟨j, rfl⟩ : ∃ j, rounds = j + 1 := ⟨rounds - 1, by omega⟩
      rw [signedSequence, if_neg (by simp), g1 fuel h1]
      rfl
    rcases g2 with ⟨v, rfl⟩ | ⟨m, rfl⟩
    · cases v with
      | none => exact ⟨.ok none, fun fuel rounds h1 h2 => by rw [unfolded fuel rounds h1 h2]; rfl, .inl ⟨_, rfl⟩, fun n h => by cases h⟩
      | some v =>
        obtain ⟨n, c⟩ := v
        obtain ⟨hpos, b', hb1, hb2, rfl⟩ := g3 n c rfl
        by_cases hc : c < (storedNode file b').valueLength ∧ c < (b :: bytes).length
        · refine ⟨.ok none, fun fuel rounds h1 h2 => ?_, .inl ⟨_, rfl⟩, fun n h => by cases h⟩
          rw [unfolded fuel rounds h1 h2]
          show (if _ then _ else _) = _
          rw [if_pos hc]
        · have hlen : ((b :: bytes).drop (storedNode file b').valueLength.toNat).length ≤ k := by
            rw [List.length_drop]
            omega
          obtain ⟨r', k1, k2, k3⟩ := signedSequence_ends hm hl h56 hlength hloop k _ b' hlen (.inr hb1)
          refine ⟨r', fun fuel rounds h1 h2 => ?_, k2, k3⟩
          rw [unfolded fuel rounds h1 h2]
          show (if _ then _ else _) = _
          rw [if_neg hc]
          exact k1 fuel (rounds - 1) h1 (by rw [List.length_drop]; simp only [List.length_cons] at h2 ⊢; omega)
    · exact ⟨.error (.err m), fun fuel rounds h1 h2 => by rw [unfolded fuel rounds h1 h2]; rfl, .inr ⟨_, rfl⟩, fun n h => by cases h⟩

/-! ### The model of the other theorems -/

theorem toI64_small {n : Nat} (h : n < 2^63) : toI64 n = n := if_pos h

/-- What `Stream.get` reads, `signedGet` reads too. -/
theorem signedGet_of_get {bufferSize off n : Nat} {bs : Bytes} (hm : file.length ≤ memory) (hl : file.length < 2^62) (h : (Stream.new file file.length bufferSize).get off n = .ok bs) :
    off + n ≤ file.length ∧ signedGet file memory (toI64 off) (toI64 n) = .ok bs := by
  have hfits : off + n ≤ file.length ∧ bs = slice file off n := by
    unfold Stream.get Stream.new at h
    dsimp only at h
    by_cases h1 : off < file.length
    · rw [if_pos h1] at h
      by_cases h2 : off + n > file.length
      · rw [if_pos h2] at h
        unfold fileReadAt at h
        rw [if_pos (by omega)] at h
        dsimp only at h
        rw [if_pos (by omega)] at h
        unfold Stream.getFromBuffer at h
        dsimp only at h
        rw [if_pos (by simp only [List.length_nil]; omega)] at h
        cases h
      · rw [if_neg h2] at h
        unfold fileReadAt at h
        rw [if_pos (by omega)] at h
        dsimp only at h
        rw [if_neg (by omega)] at h
        cases h
        exact ⟨by omega, rfl⟩
    · rw [if_neg h1] at h
      unfold Stream.getFromBuffer at h
      dsimp only at h
      by_cases h2 : off - file.length + n > ([] : Bytes).length
      · rw [if_pos h2] at h
        cases h
      · rw [if_neg h2, if_neg (by simp)] at h
        simp only [List.length_nil] at h2
        cases h
        have : n = 0 := by omega
        subst this
        exact ⟨by omega, by simp [slice]⟩
  refine ⟨hfits.1, ?_⟩
  rw [toI64_small (by omega), toI64_small (by omega)]
  rcases signedGet_fits (offset := (off : Int)) (count := (n : Int)) hm hl (by omega) (by omega) (by omega) with ⟨_, _, h3⟩ | ⟨h1, _⟩
  · rw [h3, hfits.2]
    rfl
  · omega

/-- The signed form of a node. -/
def TreeNode.signed (n : TreeNode) : SignedNode :=
  { valueOffset := toI64 n.valueOffset, valueLength := toI64 n.valueLength, nextSibling := toI64 n.nextSibling, firstChild := toI64 n.firstChild, firstPosition := toI64 n.firstPosition }

theorem toI64_zero {n : Nat} (h : n < 2^64) : toI64 n = 0 ↔ n = 0 := by
  unfold toI64
  split <;> omega

/-- The words of the node are words. -/
def TreeNode.Words (n : TreeNode) : Prop := n.nextSibling < 2^64 ∧ n.firstChild < 2^64 ∧ n.firstPosition < 2^64

variable {bufferSize : Nat}

theorem M_bind_eq {α β : Type} (m : M α) (f : α → M β) (s : Stream) : (m >>= f) s = match m s with | (.ok a, s') => f a s' | (.error e, s') => (.error e, s') := rfl

theorem M_bind_ok {α β : Type} {m : M α} {f : α → M β} {s : Stream} {b : β} (h : ((m >>= f) s).1 = .ok b) : ∃ a s', m s = (.ok a, s') ∧ (f a s').1 = .ok b := by
  rw [M_bind_eq] at h
  cases hm : m s with
  | mk r s' =>
    rw [hm] at h
    cases r with
    | ok a => exact ⟨a, s', rfl, h⟩
    | error e => cases h

theorem signedNode_of_get (hm : file.length ≤ memory) (hl : file.length < 2^62) {off : Nat} (hoff : off < 2^64) {r : Option TreeNode}
    (h : (getTreeNode off (Stream.new file file.length bufferSize)).1 = .ok r) :
    signedNode file memory (toI64 off) = .ok (r.map TreeNode.signed) ∧ ∀ n, r = some n → n.Words := by
  unfold getTreeNode at h
  unfold signedNode
  by_cases h0 : off = 0
  · rw [if_pos h0] at h
    cases h
    rw [if_pos ((toI64_zero hoff).2 h0)]
    exact ⟨rfl, by simp⟩
  · rw [if_neg h0] at h
    rw [if_neg (fun e => h0 ((toI64_zero hoff).1 e))]
    obtain ⟨bs, s1, h1, h2⟩ := M_bind_ok h
    cases h2
    have h3 := (signedGet_of_get (memory := memory) (bufferSize := bufferSize) hm hl (congrArg Prod.fst h1)).2
    rw [show toI64 treeNodeSize = (treeNodeSize : Nat) from rfl] at h3
    rw [h3]
    have hw : ∀ k, ofBE (slice bs k 8) < 2^64 := fun k => ofBE_lt8 (by simp only [slice, List.length_take]; omega)
    exact ⟨rfl, fun n hn => by cases hn; exact ⟨hw _, hw _, hw _⟩⟩

/-- Reading does not change the stream. -/
theorem mGet_stream {off n : Nat} {s s' : Stream} {r : Res Bytes} (h : mGet off n s = (r, s')) : s' = s := by
  unfold mGet at h
  cases h
  rfl

theorem getTreeNode_stream {off : Nat} {s s' : Stream} {r : Res (Option TreeNode)} (h : getTreeNode off s = (r, s')) : s' = s := by
  unfold getTreeNode at h
  split at h
  · cases h; rfl
  · rw [M_bind_eq] at h
    cases hm : mGet off treeNodeSize s with
    | mk r s1 =>
      rw [hm] at h
      have := mGet_stream hm
      cases r <;> (cases h; exact this)

theorem signedSiblings_of (hm : file.length ≤ memory) (hl : file.length < 2^62) (value : Bytes) :
    ∀ (fuel : Nat) (c : Option TreeNode) (r : Option (TreeNode × Nat)), (∀ n, c = some n → n.Words) →
      (findChildLoop value fuel c (Stream.new file file.length bufferSize)).1 = .ok r →
      (∀ fuel', fuel ≤ fuel' → signedSiblings file memory value fuel' (c.map TreeNode.signed) = .ok (r.map (fun x => (x.1.signed, x.2)))) ∧
        ∀ n k, r = some (n, k) → n.Words ∧ n.valueLength ≤ file.length
  | 0, c, r, _, h => by cases h
  | fuel+1, none, r, _, h => by
    cases h
    refine ⟨fun fuel' hf => ?_, by simp⟩
    obtain ⟨j, rfl⟩ : ∃ j, fuel' = j + 1 := ⟨fuel' - 1, by omega⟩
    rfl
  | fuel+1, some child, r, hc, h => by
    rw [findChildLoop] at h
    obtain ⟨childValue, s1, h1, h2⟩ := M_bind_ok h
    have := mGet_stream h1
    subst this
    have hg : (Stream.new file file.length bufferSize).get child.valueOffset child.valueLength = .ok childValue := congrArg Prod.fst h1
    obtain ⟨hfit, hg'⟩ := signedGet_of_get (memory := memory) hm hl hg
    dsimp only at h2
    have unfolded : ∀ fuel', fuel + 1 ≤ fuel' → signedSiblings file memory value fuel' ((some child).map TreeNode.signed) =
        if commonPrefixLen childValue value > 0 then .ok (some (child.signed, commonPrefixLen childValue value))
        else (do
          let next ← signedNode file memory (toI64 child.nextSibling)
          signedSiblings file memory value (fuel' - 1) next) := by
      intro fuel' hf
      obtain ⟨j, rfl⟩ : ∃ j, fuel' = j + 1 := ⟨fuel' - 1, by omega⟩
      rw [Option.map_some, signedSiblings]
      show (do let childValue ← signedGet file memory (toI64 child.valueOffset) (toI64 child.valueLength); _ : Res _) = _
      rw [hg']
      rfl
    by_cases hcommon : commonPrefixLen childValue value > 0
    · rw [if_pos hcommon] at h2
      cases h2
      refine ⟨fun fuel' hf => ?_, fun n k e => ?_⟩
      · rw [unfolded fuel' hf, if_pos hcommon]
        rfl
      · cases e
        exact ⟨hc _ rfl, by omega⟩
    · rw [if_neg hcommon] at h2
      obtain ⟨next, s2, h3, h4⟩ := M_bind_ok h2
      have := getTreeNode_stream h3
      subst this
      obtain ⟨k1, k2⟩ := signedNode_of_get (memory := memory) hm hl (hc _ rfl).1 (congrArg Prod.fst h3)
      obtain ⟨g1, g2⟩ := signedSiblings_of hm hl value fuel next r k2 h4
      refine ⟨fun fuel' hf => ?_, g2⟩
      rw [unfolded fuel' hf, if_neg hcommon, k1]
      exact g1 (fuel' - 1) (by omega)

theorem findChildLoop_stream (value : Bytes) : ∀ (fuel : Nat) (c : Option TreeNode) (s s' : Stream) (r : Res (Option (TreeNode × Nat))), findChildLoop value fuel c s = (r, s') → s' = s
  | 0, _, _, _, _, h => by cases h; rfl
  | _+1, none, _, _, _, h => by cases h; rfl
  | fuel+1, some child, s, s', r, h => by
    rw [findChildLoop] at h
    rw [M_bind_eq] at h
    cases hv : child.value s with
    | mk v s1 =>
      have := mGet_stream hv
      subst this
      rw [hv] at h
      cases v with
      | error e => cases h; rfl
      | ok v =>
        dsimp only at h
        split at h
        · cases h; rfl
        · rw [M_bind_eq] at h
          cases hn : getTreeNode child.nextSibling s1 with
          | mk n s2 =>
            have := getTreeNode_stream hn
            subst this
            rw [hn] at h
            cases n with
            | error e => cases h; rfl
            | ok n => exact findChildLoop_stream value fuel n _ _ _ h

theorem signedSequence_of (hm : file.length ≤ memory) (hl : file.length < 2^62) :
    ∀ (rounds : Nat) (n : TreeNode) (bytes : Bytes) (r : Option TreeNode), n.Words → (getSequenceLoop rounds n bytes (Stream.new file file.length bufferSize)).1 = .ok r →
      (∀ fuel rounds', maxFuel ≤ fuel → rounds ≤ rounds' → signedSequence file memory fuel rounds' n.signed bytes = .ok (r.map TreeNode.signed)) ∧ ∀ k, r = some k → k.Words
  | 0, _, _, _, _, h => by cases h
  | rounds+1, n, bytes, r, hn, h => by
    rw [getSequenceLoop] at h
    have unfolded : ∀ fuel rounds', rounds + 1 ≤ rounds' → signedSequence file memory fuel rounds' n.signed bytes =
        if bytes.length = 0 then .ok (some n.signed)
        else (do
          let found ← n.signed.findChild file memory fuel bytes
          match found with
          | none => .ok none
          | some (current, commonBytes) =>
            if commonBytes < current.valueLength ∧ commonBytes < bytes.length then .ok none
            else signedSequence file memory fuel (rounds' - 1) current (bytes.drop current.valueLength.toNat)) := by
      intro fuel rounds' hr
      obtain ⟨j, rfl⟩ : ∃ j, rounds' = j + 1 := ⟨rounds' - 1, by omega⟩
      rfl
    by_cases h0 : bytes.length = 0
    · rw [if_pos h0] at h
      cases h
      refine ⟨fun fuel rounds' _ hr => ?_, fun k hk => by cases hk; exact hn⟩
      rw [unfolded fuel rounds' hr, if_pos h0]
      rfl
    · rw [if_neg h0] at h
      obtain ⟨found, s1, h1, h2⟩ := M_bind_ok h
      have hfind : s1 = Stream.new file file.length bufferSize ∧
          (∀ fuel, maxFuel ≤ fuel → n.signed.findChild file memory fuel bytes = .ok (found.map (fun x => (x.1.signed, x.2)))) ∧
          ∀ m k, found = some (m, k) → m.Words ∧ m.valueLength ≤ file.length := by
        unfold TreeNode.findChildByPrefix at h1
        have h1' := congrArg Prod.fst h1
        dsimp only at h1'
        obtain ⟨child, s2, h3, h4⟩ := M_bind_ok h1'
        have hs2 := getTreeNode_stream h3
        subst hs2
        obtain ⟨k1, k2⟩ := signedNode_of_get (memory := memory) hm hl hn.2.1 (congrArg Prod.fst h3)
        have h4' : (findChildLoop bytes maxFuel child (Stream.new file file.length bufferSize)).1 = .ok found := h4
        obtain ⟨g1, g2⟩ := signedSiblings_of (memory := memory) hm hl bytes maxFuel child found k2 h4'
        refine ⟨?_, fun fuel hf => ?_, g2⟩
        · have e : (do let child ← getTreeNode n.firstChild; let fuel ← mFuel; findChildLoop bytes fuel child : M _) (Stream.new file file.length bufferSize) =
              findChildLoop bytes maxFuel child (Stream.new file file.length bufferSize) := by
            rw [M_bind_eq, h3]
            rfl
          rw [e] at h1
          exact findChildLoop_stream _ _ _ _ _ _ h1
        · unfold SignedNode.findChild
          show (do let child ← signedNode file memory (toI64 n.firstChild); _ : Res _) = _
          rw [k1]
          exact g1 fuel hf
      obtain ⟨rfl, hf1, hf2⟩ := hfind
      cases found with
      | none =>
        cases h2
        refine ⟨fun fuel rounds' hf hr => ?_, by simp⟩
        rw [unfolded fuel rounds' hr, if_neg h0, hf1 fuel hf]
        rfl
      | some x =>
        obtain ⟨current, common⟩ := x
        obtain ⟨w1, w2⟩ := hf2 _ _ rfl
        have hlen : current.signed.valueLength = current.valueLength := toI64_small (by omega)
        dsimp only at h2
        by_cases hc : common < current.valueLength ∧ common < bytes.length
        · rw [if_pos hc] at h2
          cases h2
          refine ⟨fun fuel rounds' hf hr => ?_, by simp⟩
          rw [unfolded fuel rounds' hr, if_neg h0, hf1 fuel hf]
          show (if _ then _ else _) = _
          rw [if_pos (by rw [hlen]; omega)]
          rfl
        · rw [if_neg hc] at h2
          obtain ⟨g1, g2⟩ := signedSequence_of hm hl rounds current _ r w1 h2
          refine ⟨fun fuel rounds' hf hr => ?_, g2⟩
          rw [unfolded fuel rounds' hr, if_neg h0, hf1 fuel hf]
          show (if _ then _ else _) = _
          rw [if_neg (by rw [hlen]; omega), hlen]
          exact g1 fuel (rounds' - 1) hf (by omega)

theorem findChildByPrefix_stream {n : TreeNode} {value : Bytes} {s s' : Stream} {r : Res (Option (TreeNode × Nat))} (h : n.findChildByPrefix value s = (r, s')) : s' = s := by
  unfold TreeNode.findChildByPrefix at h
  rw [M_bind_eq] at h
  cases hc : getTreeNode n.firstChild s with
  | mk c s1 =>
    have := getTreeNode_stream hc
    subst this
    rw [hc] at h
    cases c with
    | error e => cases h; rfl
    | ok c => exact findChildLoop_stream _ _ _ _ _ _ h

theorem getSequenceLoop_stream : ∀ (rounds : Nat) (n : TreeNode) (bytes : Bytes) (s s' : Stream) (r : Res (Option TreeNode)), getSequenceLoop rounds n bytes s = (r, s') → s' = s
  | 0, _, _, _, _, _, h => by cases h; rfl
  | rounds+1, n, bytes, s, s', r, h => by
    rw [getSequenceLoop] at h
    split at h
    · cases h; rfl
    · rw [M_bind_eq] at h
      cases hf : n.findChildByPrefix bytes s with
      | mk f s1 =>
        have := findChildByPrefix_stream hf
        subst this
        rw [hf] at h
        cases f with
        | error e => cases h; rfl
        | ok f =>
          cases f with
          | none => cases h; rfl
          | some x =>
            dsimp only at h
            split at h
            · cases h; rfl
            · exact getSequenceLoop_stream rounds _ _ _ _ _ h

theorem signedPos_of (hm : file.length ≤ memory) (hl : file.length < 2^62) {off : Nat} (hoff : off < 2^64) {r : Option PosNode}
    (h : (getPos off (Stream.new file file.length bufferSize)).1 = .ok r) : signedPos file memory (toI64 off) = .ok (r.map (fun p => (p.position, toI64 p.next))) := by
  unfold getPos at h
  unfold signedPos
  by_cases h0 : off = 0
  · rw [if_pos h0] at h
    cases h
    rw [if_pos ((toI64_zero hoff).2 h0)]
    rfl
  · rw [if_neg h0] at h
    rw [if_neg (fun e => h0 ((toI64_zero hoff).1 e))]
    obtain ⟨bs, s1, h1, h2⟩ := M_bind_ok h
    cases h2
    have h3 := (signedGet_of_get (memory := memory) (bufferSize := bufferSize) hm hl (congrArg Prod.fst h1)).2
    rw [show toI64 posNodeSize = (posNodeSize : Nat) from rfl] at h3
    rw [h3]
    rfl

/-! ### Searches that do not end -/

/-- A loop of siblings none of which is what is searched. -/
theorem siblings_hang (hm : file.length ≤ memory) (hl : file.length < 2^62) (h56 : 56 ≤ file.length) {b : UInt8} {bytes : Bytes} (P : Int → Prop)
    (hP : ∀ a, P a → NodeAt file a ∧ OtherValue file a b ∧ P (nextSiblingAt file a)) : ∀ (fuel : Nat) (a : Int), P a → signedSiblings file memory (b :: bytes) fuel (some (storedNode file a)) = .error .diverge
  | 0, _, _ => rfl
  | fuel+1, a, ha => by
    obtain ⟨h1, ⟨v1, v2, v3, v4⟩, h3⟩ := hP a ha
    rw [signedSiblings]
    have hget : signedGet file memory (storedNode file a).valueOffset (storedNode file a).valueLength = .ok (slice file (valueOffsetAt file a).toNat (valueLengthAt file a).toNat) := by
      rcases signedGet_fits (offset := valueOffsetAt file a) (count := valueLengthAt file a) hm hl v2 (by omega) (wordAt_range file a).2 with ⟨_, _, h⟩ | ⟨h, _⟩
      · exact h
      · omega
    rw [hget]
    have hcommon : ¬ commonPrefixLen (slice file (valueOffsetAt file a).toNat (valueLengthAt file a).toNat) (b :: bytes) > 0 := by
      cases hs : slice file (valueOffsetAt file a).toNat (valueLengthAt file a).toNat with
      | nil => simp [commonPrefixLen]
      | cons x xs =>
        rw [hs] at v4
        rw [commonPrefixLen, if_neg (fun e => v4 (by rw [e]; rfl))]
        omega
    show (if commonPrefixLen _ (b :: bytes) > 0 then _ else _) = _
    rw [if_neg hcommon]
    have hnode : signedNode file memory (storedNode file a).nextSibling = .ok (some (storedNode file (nextSiblingAt file a))) := by
      rcases signedNode_cases (a := nextSiblingAt file a) hm hl h56 (wordAt_range file (a + 16)).2 with ⟨h, _⟩ | ⟨_, h⟩ | ⟨_, h, _⟩
      · have := (hP _ h3).1.1
        omega
      · exact h
      · exact absurd (hP _ h3).1 h
    rw [hnode]
    exact siblings_hang hm hl h56 P hP fuel _ h3

/-- What a search does with its root. -/
theorem searchFile_root {fuel : Nat} {root : Int} {n : SignedNode} {text : Bytes} (h : signedNode file memory root = .ok (some n)) :
    searchFile file memory fuel root text = match signedSequence file memory fuel fuel n text with
      | .error e => .error e
      | .ok none => .ok none
      | .ok (some node) => signedPos file memory node.firstPosition := by
  unfold searchFile
  rw [h]
  show (signedSequence file memory fuel fuel n text >>= _) = _
  cases signedSequence file memory fuel fuel n text with
  | error e => rfl
  | ok r => cases r <;> rfl

/-- The first round of a search. -/
theorem signedSequence_first {fuel rounds : Nat} {n c : SignedNode} {b : UInt8} {text : Bytes} (h : signedNode file memory n.firstChild = .ok (some c)) :
    signedSequence file memory fuel (rounds + 1) n (b :: text) = match signedSiblings file memory (b :: text) fuel (some c) with
      | .error e => .error e
      | .ok none => .ok none
      | .ok (some (current, commonBytes)) =>
        if commonBytes < current.valueLength ∧ commonBytes < (b :: text).length then .ok none else signedSequence file memory fuel rounds current ((b :: text).drop current.valueLength.toNat) := by
  rw [signedSequence, if_neg (by simp)]
  unfold SignedNode.findChild
  rw [h]
  show (signedSiblings file memory (b :: text) fuel (some c) >>= _) = _
  cases signedSiblings file memory (b :: text) fuel (some c) with
  | error e => rfl
  | ok r => cases r <;> rfl

/-- The first sibling. -/
theorem signedSiblings_first {fuel : Nat} {c : SignedNode} {value : Bytes} : signedSiblings file memory value (fuel + 1) (some c) = match signedGet file memory c.valueOffset c.valueLength with
      | .error e => .error e
      | .ok v => if commonPrefixLen v value > 0 then .ok (some (c, commonPrefixLen v value)) else
          signedNode file memory c.nextSibling >>= signedSiblings file memory value fuel := by
  rw [signedSiblings]
  cases signedGet file memory c.valueOffset c.valueLength <;> rfl

end Rodb
