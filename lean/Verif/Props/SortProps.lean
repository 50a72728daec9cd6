import Verif.Proofs.Sort
/-
  C23 C24 C25 C26: comparison and sorting.
-/
namespace Rodb
open Spec

/-- **C23** For two values of the same primitive type, comparing never fails, and tells "equal", "less" or
"greater" exactly when they are equal, or the first is before, or after, the second in the natural order. -/
theorem C23_compare_decides (a b : Value) (h : SamePrimitive a b) :
    (compare a b = .ok none ↔ a = b) ∧ (compare a b = .ok (some true) ↔ valueBefore a b) ∧
    (compare a b = .ok (some false) ↔ valueBefore b a) ∧
    (compare a b = .ok none ∨ compare a b = .ok (some true) ∨ compare a b = .ok (some false)) := by
  have hirr := valueBefore_irrefl
  have hasymm : ∀ {a b}, valueBefore a b → ¬ valueBefore b a := fun h1 h2 => valueBefore_irrefl _ (valueBefore_trans h1 h2)
  rcases compare_spec h with ⟨h1, h2⟩ | ⟨h1, h2⟩ | ⟨h1, h2⟩
  · subst h2
    simp [h1, hirr]
  · have hne : a ≠ b := by rintro rfl; exact hirr _ h2
    simp [h1, h2, hne, hasymm h2]
  · have hne : a ≠ b := by rintro rfl; exact hirr _ h2
    simp [h1, h2, hne, hasymm h2]

example : SamePrimitive (.str [97, 98]) (.str [97]) ∧ compare (.str [97, 98]) (.str [97]) = .ok (some false) ∧
    SamePrimitive (.float (.fin 3)) (.float .pinf) ∧ compare (.float (.fin 3)) (.float .pinf) = .ok (some true) := by
  refine ⟨trivial, by decide, by simp [SamePrimitive], by decide⟩

/-- **C23** It is a total order: reflexive, antisymmetric in the sense that swapping swaps "less" and "greater",
and transitive. -/
theorem C23_compare_total_order (a b c : Value) (hab : SamePrimitive a b) (hbc : SamePrimitive b c) :
    compare a a = .ok none ∧
    (compare a b = .ok none ↔ compare b a = .ok none) ∧
    (compare a b = .ok (some true) ↔ compare b a = .ok (some false)) ∧
    (compare a b = .ok (some true) → compare b c = .ok (some true) → compare a c = .ok (some true)) ∧
    (compare a b = .ok none → compare b c = .ok none → compare a c = .ok none) := by
  have h1 := C23_compare_decides a b hab
  have h2 := C23_compare_decides b a (SamePrimitive.symm hab)
  have h3 := C23_compare_decides b c hbc
  have hac : SamePrimitive a c := by
    cases a <;> cases b <;> simp only [SamePrimitive] at hab <;> cases c <;> simp only [SamePrimitive] at hbc ⊢
    exact ⟨hab.1, hbc.2⟩
  have h4 := C23_compare_decides a c hac
  have h5 := C23_compare_decides a a (SamePrimitive.refl_left hab)
  refine ⟨h5.1.mpr rfl, ?_, ?_, ?_, ?_⟩
  · rw [h1.1, h2.1]; exact eq_comm
  · rw [h1.2.1, h2.2.2.1]
  · rw [h1.2.1, h3.2.1, h4.2.1]; exact valueBefore_trans
  · rw [h1.1, h3.1, h4.1]; exact fun e1 e2 => e1.trans e2

example : SamePrimitive (.bool false) (.bool true) ∧ compare (.bool false) (.bool true) = .ok (some true) := ⟨trivial, rfl⟩

/-- **C23** Values of different types are not comparable: an error, never an order. -/
theorem C23_different_types_fail (a b : Value) (h : ¬ SamePrimitive a b) (hnan : ∀ x y, ¬ (a = .float x ∧ b = .float y)) :
    ∃ msg, compare a b = .error (.err msg) := by
  cases a <;> cases b <;> simp only [SamePrimitive, not_true] at h <;> first
    | exact ⟨_, rfl⟩
    | exact absurd ⟨rfl, rfl⟩ (hnan _ _)

example : ∃ msg, compare (.int 1) (.float (.fin 1)) = .error (.err msg) := ⟨_, rfl⟩

namespace SortExample
def num (k : Int) (v : Value) (s : Bytes) : Rec :=
  { position := k, all := .ok [], get := fun p => if p = "n" then .ok v else .ok (.str s) }
def recs : List Rec := [num 0 (.int 5) [97], num 1 (.int 3) [98], num 2 (.int 5) [99]]
def cfg : List SortConfig := [{ property := "n", ascending := none }, { property := "s", ascending := some false }]
theorem oneType : ∀ c ∈ cfg, OneType recs c.property := by
  intro c hc r hr s hs
  simp only [cfg, recs, List.mem_cons, List.not_mem_nil, or_false] at hc hr hs
  rcases hc with rfl | rfl <;> rcases hr with rfl | rfl | rfl <;> rcases hs with rfl | rfl | rfl <;>
    exact ⟨_, _, rfl, rfl, trivial⟩
end SortExample

/-- **C24** With any correct comparison sort, sorting records whose sort properties have one primitive type each
returns a rearrangement of them, in which no record comes after one that it must precede. -/
theorem C24_sorted (sort : (Rec → Rec → Bool) → List Rec → List Rec) (hsort : SortContract sort)
    (config : List SortConfig) (records : List Rec) (h : ∀ c ∈ config, OneType records c.property) :
    (sortRecords sort config records).Perm records ∧
    (sortRecords sort config records).Pairwise
      (fun r s => ¬ mustPrecede (config.map (fun c => (c.property, c.ascending != some false))) s r) := by
  refine ⟨hsort.perm _ _, ?_⟩
  have hperm := hsort.perm (recordLess config) records
  have hs := hsort.sorted _ _ (recordLess_valid h)
  have hcr : config.map (fun c => (c.property, c.ascending != some false)) = criteria config := by
    apply List.map_congr_left
    intro c _
    cases hc : c.ascending with
    | none => simp [SortConfig.isAscending, hc]
    | some b => cases b <;> simp [SortConfig.isAscending, hc]
  rw [hcr]
  unfold sortRecords
  refine (List.Pairwise.and_mem.mp hs).imp ?_
  rintro r s ⟨hr, hs', h1⟩ h2
  have := (recordLess_iff h s (hperm.mem_iff.mp hs') r (hperm.mem_iff.mp hr)).mpr h2
  rw [h1] at this
  cases this

example : SortContract (α := Rec) goInsertionSort ∧ (∀ c ∈ SortExample.cfg, OneType SortExample.recs c.property) ∧
    (sortRecords goInsertionSort SortExample.cfg SortExample.recs).map Rec.position = [1, 2, 0] :=
  ⟨goInsertionSort_contract, SortExample.oneType, by decide⟩

/-- **C25** (partial) Whatever the values (missing, of several types, NaN), sorting loses, adds and duplicates no
record; and a criterion is ignored between two records when one of them has no value for it, or one that cannot be read.
Missing: the records that have a value being ordered by it, which is false (`C25_false`). -/
theorem C25_missing_values_partial (sort : (Rec → Rec → Bool) → List Rec → List Rec) (hsort : SortContract sort)
    (config : List SortConfig) (records : List Rec) :
    (sortRecords sort config records).Perm records ∧
    ∀ (c : SortConfig) (r s : Rec), (r.get c.property = .ok .null ∨ ∃ e, r.get c.property = .error e) ∨ (s.get c.property = .ok .null ∨ ∃ e, s.get c.property = .error e) →
      recordLess (c :: config) r s = recordLess config r s := by
  refine ⟨hsort.perm _ _, ?_⟩
  intro c r s h
  have left : sortValue r c.property = .null → recordLess (c :: config) r s = recordLess config r s := by
    intro h; simp [recordLess, h, compare]
  have right : sortValue s c.property = .null → recordLess (c :: config) r s = recordLess config r s := by
    intro h
    simp only [recordLess, h]
    cases sortValue r c.property <;> rfl
  rcases h with (h | ⟨e, h⟩) | h | ⟨e, h⟩
  · exact left (by simp [sortValue, h])
  · exact left (by simp [sortValue, h])
  · exact right (by simp [sortValue, h])
  · exact right (by simp [sortValue, h])

example : (sortRecords goInsertionSort [{ property := "n", ascending := none }, { property := "s", ascending := none }]
    [SortExample.num 0 .null [99], SortExample.num 1 .null [97]]).map Rec.position = [1, 0] := by decide

/-- **C25** is false: among the values 5, (missing), 3 sorted ascending, 5 stays before 3. -/
theorem C25_false : ∃ (config : List SortConfig) (r s t : Rec),
    r.get "n" = .ok (.int 5) ∧ s.get "n" = .ok .null ∧ t.get "n" = .ok (.int 3) ∧
    config = [{ property := "n", ascending := some true }] ∧
    sortRecords goInsertionSort config [r, s, t] = [r, s, t] :=
  ⟨_, SortExample.num 0 (.int 5) [], SortExample.num 1 .null [], SortExample.num 2 (.int 3) [], rfl, rfl, rfl, rfl, rfl⟩

/-- **C26** (partial) For values of one primitive type (floats not being NaN), a descending criterion orders two
records exactly opposite to the ascending one; records with equal values are left to the next criteria by both.
Missing: NaN, for which it is false (`C26_false`). -/
theorem C26_descending_reverse_partial (p : String) (r s : Rec) (v w : Value) (hr : r.get p = .ok v) (hs : s.get p = .ok w)
    (h : SamePrimitive v w) (rest : List SortConfig) :
    (v ≠ w → recordLess ({ property := p, ascending := some false } :: rest) r s =
        recordLess ({ property := p, ascending := some true } :: rest) s r) ∧
    (v = w → recordLess ({ property := p, ascending := some false } :: rest) r s = recordLess rest r s ∧
        recordLess ({ property := p, ascending := some true } :: rest) r s = recordLess rest r s) := by
  have h1 := C23_compare_decides v w h
  have h2 := C23_compare_decides w v (SamePrimitive.symm h)
  constructor
  · intro hne
    simp only [recordLess, sortValue, hr, hs]
    rcases h1.2.2.2 with h3 | h3 | h3
    · exact absurd (h1.1.mp h3) hne
    · rw [h3, h2.2.2.1.mpr (h1.2.1.mp h3)]
      simp [SortConfig.isAscending]
    · rw [h3, h2.2.1.mpr (h1.2.2.1.mp h3)]
      simp [SortConfig.isAscending]
  · intro heq
    simp only [recordLess, sortValue, hr, hs, h1.1.mpr heq]
    exact ⟨trivial, trivial⟩

example : recordLess [{ property := "n", ascending := some false }] (SortExample.num 0 (.int 5) []) (SortExample.num 1 (.int 3) []) = true := by
  decide

/-- **C26** is false for NaN: descending, NaN is before 1 and 1 is before NaN; ascending, neither is. -/
theorem C26_false : ∃ (r s : Rec), r.get "n" = .ok (.float .nan) ∧ s.get "n" = .ok (.float (.fin 1)) ∧
    recordLess [{ property := "n", ascending := some false }] r s = true ∧
    recordLess [{ property := "n", ascending := some false }] s r = true ∧
    recordLess [{ property := "n", ascending := some true }] r s = false ∧
    recordLess [{ property := "n", ascending := some true }] s r = false :=
  ⟨SortExample.num 0 (.float .nan) [], SortExample.num 1 (.float (.fin 1)) [], rfl, rfl, rfl, rfl, rfl, rfl⟩

end Rodb
