import Verif.Model.Wildcard
import Verif.Proofs.Heap
/-
  The metadata block round-trips.
-/
namespace Rodb

theorem readBytes_append (w data : Bytes) (n : Nat) (h : w.length = n) : readBytes n (w ++ data) = .ok (w, data) := by
  subst h
  simp [readBytes]

/-- The fields are within their on-disk widths. -/
structure Metadata.Fits (m : Metadata) : Prop where
  magic : m.magic.length = magicBytes.length
  version : m.version < 2^16
  modTime : InI64 m.modTime
  size : InI64 m.size
  count : (m.roots.length : Int) ≤ maxSliceLen
  roots : ∀ o ∈ m.roots, o < 2^64

theorem readOffsets_flatMap (roots : List Nat) (h : ∀ o ∈ roots, o < 2^64) (rest : Bytes) :
    readOffsets roots.length (roots.flatMap (toBE 8) ++ rest) = .ok roots := by
  induction roots with
  | nil => rfl
  | cons o roots ih =>
    have h1 : o < 256 ^ 8 := by have := h o List.mem_cons_self; simpa using this
    simp only [List.length_cons, readOffsets, List.flatMap_cons, List.append_assoc]
    rw [readBytes_append _ _ 8 (length_toBE _ _)]
    simp only [bind, Except.bind]
    rw [ih (fun o ho => h o (List.mem_cons_of_mem _ ho)), ofBE_toBE _ _ h1]

theorem boolByte_decide (b : Bool) : decide ([boolByte b] ≠ [0]) = b := by cases b <;> decide

theorem Metadata.unserialize_serialize (m : Metadata) (h : m.Fits) (rest : Bytes) :
    Metadata.unserialize (m.serialize ++ rest) = .ok m := by
  have hc : m.roots.length < 256 ^ 8 := by
    have := h.count
    simp only [maxSliceLen] at this
    omega
  have hcnt : toI64 (ofBE (toBE 8 m.roots.length)) = m.roots.length := by
    rw [ofBE_toBE _ _ hc]
    unfold toI64
    have := h.count
    simp only [maxSliceLen] at this
    rw [if_pos (by omega)]
  have hv : ofBE (toBE 2 m.version) = m.version := ofBE_toBE _ _ (by have := h.version; omega)
  have hw : ∀ i, InI64 i → toI64 (ofBE (toBE 8 (toU64 i))) = i := by
    intro i hi
    rw [ofBE_toBE _ _ (by have := toU64_lt i; omega), toI64_toU64 _ hi.1 hi.2]
  simp only [Metadata.serialize, Metadata.unserialize, List.append_assoc]
  rw [readBytes_append _ _ _ h.magic]
  simp only [bind, Except.bind]
  rw [readBytes_append _ _ 2 (length_toBE _ _)]
  simp only []
  rw [readBytes_append _ _ 8 (length_toBE _ _)]
  simp only []
  rw [readBytes_append _ _ 8 (length_toBE _ _)]
  simp only []
  rw [readBytes_append _ _ 1 rfl]
  simp only []
  rw [readBytes_append _ _ 1 rfl]
  simp only []
  rw [readBytes_append _ _ 8 (length_toBE _ _)]
  simp only [hcnt]
  rw [if_neg]
  · simp only [Int.toNat_natCast]
    rw [readOffsets_flatMap _ h.roots]
    simp only [hv, hw _ h.modTime, hw _ h.size, boolByte_decide]
  · have := h.count
    omega

theorem length_flatMap_toBE (roots : List Nat) : (roots.flatMap (toBE 8)).length = 8 * roots.length := by
  induction roots with
  | nil => rfl
  | cons o roots ih => simp only [List.flatMap_cons, List.length_append, length_toBE, ih, List.length_cons]; omega

theorem Metadata.length_serialize (m : Metadata) (h : m.magic.length = magicBytes.length) :
    m.serialize.length = 47 + 8 * m.roots.length := by
  simp only [serialize, List.length_append, length_toBE, length_flatMap_toBE, h, List.length_cons, List.length_nil]
  have : magicBytes.length = 19 := rfl
  omega

theorem Metadata.flag_serialize (m : Metadata) (h : m.magic.length = magicBytes.length) (rest : Bytes) :
    flag (m.serialize ++ rest) = boolByte m.completed := by
  have h1 : m.serialize ++ rest = (m.magic ++ toBE 2 m.version ++ toBE 8 (toU64 m.modTime) ++ toBE 8 (toU64 m.size) ++
      [boolByte m.ignoreCase]) ++ boolByte m.completed :: (toBE 8 m.roots.length ++ m.roots.flatMap (toBE 8) ++ rest) := by
    simp [serialize]
  rw [h1, flag, List.getElem?_append_right]
  · simp only [List.length_append, length_toBE, h, List.length_cons, List.length_nil, flagOffset]
    have : magicBytes.length = 19 := rfl
    rw [this]
    rfl
  · simp only [List.length_append, length_toBE, h, List.length_cons, List.length_nil, flagOffset]
    have : magicBytes.length = 19 := rfl
    omega

end Rodb
