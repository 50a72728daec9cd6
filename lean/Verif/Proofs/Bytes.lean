import Verif.Model.Go
import Verif.Spec.FlatArray
namespace Rodb
open Spec

theorem length_toBE (k n : Nat) : (toBE k n).length = k := by
  induction k with
  | zero => rfl
  | succ k ih => simp [toBE, ih]

private theorem foldl_toBE (k n acc : Nat) :
    (toBE k n).foldl (fun acc b => acc * 256 + b.toNat) acc = acc * 256 ^ k + n % 256 ^ k := by
  induction k generalizing acc with
  | zero => simp [toBE, Nat.mod_one]
  | succ k ih =>
    simp only [toBE, List.foldl_cons, ih]
    have h1 : (UInt8.ofNat (n / 256 ^ k % 256)).toNat = n / 256 ^ k % 256 := by
      simp [UInt8.toNat_ofNat']
    rw [h1, Nat.pow_succ, Nat.mod_mul, Nat.add_mul, Nat.mul_assoc, Nat.mul_comm 256 (256 ^ k)]
    rw [Nat.mul_comm (n / 256 ^ k % 256) (256 ^ k)]
    omega

theorem ofBE_toBE (k n : Nat) (h : n < 256 ^ k) : ofBE (toBE k n) = n := by
  simp [ofBE, foldl_toBE, Nat.mod_eq_of_lt h]

theorem ofBE_toBE_mod (k n : Nat) : ofBE (toBE k n) = n % 256 ^ k := by
  simp [ofBE, foldl_toBE]

theorem toI64_toU64 (i : Int) (h1 : -2^63 ≤ i) (h2 : i < 2^63) : toI64 (toU64 i) = i := by
  unfold toI64 toU64
  split <;> omega

theorem toU64_lt (i : Int) : toU64 i < 2^64 := by
  unfold toU64; omega

theorem length_slice {α} (l : List α) (o n : Nat) (h : o + n ≤ l.length) : (slice l o n).length = n := by
  simp [slice]; omega

theorem getElem?_slice {α} (l : List α) (o n i : Nat) :
    (slice l o n)[i]? = if i < n then l[o + i]? else none := by
  simp only [slice, List.getElem?_take, List.getElem?_drop]

theorem slice_append_left {α} (l r : List α) (o n : Nat) (h : o + n ≤ l.length) :
    slice (l ++ r) o n = slice l o n := by
  apply List.ext_getElem?
  intro i
  simp only [getElem?_slice]
  split
  · rw [List.getElem?_append_left (by omega)]
  · rfl

theorem slice_append_right {α} (l r : List α) (o n : Nat) (h : l.length ≤ o) :
    slice (l ++ r) o n = slice r (o - l.length) n := by
  apply List.ext_getElem?
  intro i
  simp only [getElem?_slice]
  split
  · rw [List.getElem?_append_right (by omega)]; congr 1; omega
  · rfl

theorem slice_zero_length {α} (l : List α) : slice l 0 l.length = l := by
  simp [slice]

theorem slice_slice {α} (l : List α) (o n o' n' : Nat) (h : o' + n' ≤ n) :
    slice (slice l o n) o' n' = slice l (o + o') n' := by
  apply List.ext_getElem?
  intro i
  simp only [getElem?_slice]
  by_cases h1 : i < n'
  · rw [if_pos h1, if_pos h1, if_pos (by omega)]; congr 1; omega
  · rw [if_neg h1, if_neg h1]

theorem length_overwrite (a : Bytes) (o : Nat) (bs : Bytes) (h : o ≤ a.length) :
    (overwrite a o bs).length = max a.length (o + bs.length) := by
  simp [overwrite]; omega

theorem getElem?_overwrite (a : Bytes) (o : Nat) (bs : Bytes) (i : Nat) (h : o ≤ a.length) :
    (overwrite a o bs)[i]? = if i < o then a[i]? else if i < o + bs.length then bs[i - o]? else a[i]? := by
  have hl : (List.take o a).length = o := by simp; omega
  unfold overwrite
  by_cases h1 : i < o
  · rw [if_pos h1, List.append_assoc, List.getElem?_append_left (by omega), List.getElem?_take, if_pos h1]
  · rw [if_neg h1]
    by_cases h2 : i < o + bs.length
    · rw [if_pos h2, List.getElem?_append_left (by simp; omega), List.getElem?_append_right (by omega), hl]
    · rw [if_neg h2, List.getElem?_append_right (by simp; omega), List.getElem?_drop]
      congr 1; simp; omega

theorem overwrite_end (a bs : Bytes) : overwrite a a.length bs = a ++ bs := by
  unfold overwrite
  rw [List.take_length, List.drop_eq_nil_of_le (by omega), List.append_nil]

theorem slice_overwrite_same (a : Bytes) (o : Nat) (bs : Bytes) (h : o ≤ a.length) :
    slice (overwrite a o bs) o bs.length = bs := by
  apply List.ext_getElem?
  intro i
  rw [getElem?_slice]
  split
  · rw [getElem?_overwrite _ _ _ _ h, if_neg (by omega), if_pos (by omega)]; congr 1; omega
  · rw [List.getElem?_eq_none (by omega)]

end Rodb
