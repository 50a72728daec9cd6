import Verif.Spec.Records
import Verif.Proofs.Join
import Verif.Model.MapIndex
/-
  Conjunctions of conditions on records, and Go values as map keys.
-/
namespace Rodb
open Spec

theorem positionsOf_increasing {records : List Rec} (h : (records.map Rec.position).Pairwise (· < ·)) (cond : Rec → Bool) :
    Increasing (positionsOf records cond) := by
  unfold Increasing positionsOf
  exact h.sublist (List.Sublist.map _ List.filter_sublist)

theorem rec_pos_inj {records : List Rec} (h : (records.map Rec.position).Pairwise (· < ·)) {r r' : Rec}
    (hr : r ∈ records) (hr' : r' ∈ records) (he : r.position = r'.position) : r = r' := by
  induction records with
  | nil => simp at hr
  | cons x records ih =>
    rw [List.map_cons, List.pairwise_cons] at h
    rcases List.mem_cons.mp hr with rfl | h1 <;> rcases List.mem_cons.mp hr' with rfl | h2
    · rfl
    · have := h.1 r'.position (List.mem_map_of_mem h2); omega
    · have := h.1 r.position (List.mem_map_of_mem h1); omega
    · exact ih h.2 h1 h2

theorem mem_positionsOf {records : List Rec} {cond : Rec → Bool} {x : Int} :
    x ∈ positionsOf records cond ↔ ∃ r ∈ records, cond r = true ∧ r.position = x := by
  unfold positionsOf
  simp only [List.mem_map, List.mem_filter]
  constructor
  · rintro ⟨r, ⟨h1, h2⟩, h3⟩; exact ⟨r, h1, h2, h3⟩
  · rintro ⟨r, h1, h2, h3⟩; exact ⟨r, ⟨h1, h2⟩, h3⟩

theorem positionsOf_all {records : List Rec} (h : (records.map Rec.position).Pairwise (· < ·))
    {conds : List (Rec → Bool)} (hne : conds ≠ []) (x : Int) :
    InAll (conds.map (positionsOf records)) x ↔ x ∈ positionsOf records (fun r => conds.all (fun c => c r)) := by
  rw [mem_positionsOf]
  unfold InAll
  constructor
  · intro hx
    cases conds with
    | nil => exact absurd rfl hne
    | cons c conds =>
      obtain ⟨r, h1, h2, h3⟩ := mem_positionsOf.mp (hx _ List.mem_cons_self)
      refine ⟨r, h1, ?_, h3⟩
      rw [List.all_eq_true]
      intro c' hc'
      obtain ⟨r', h1', h2', h3'⟩ := mem_positionsOf.mp (hx _ (List.mem_map_of_mem hc'))
      rw [rec_pos_inj h h1 h1' (h3.trans h3'.symm)]
      exact h2'
  · rintro ⟨r, h1, h2, h3⟩ l hl
    obtain ⟨c, hc, rfl⟩ := List.mem_map.mp hl
    exact mem_positionsOf.mpr ⟨r, h1, List.all_eq_true.mp h2 c hc, h3⟩

/-- Joining the results of several conditions gives the records that satisfy them all. -/
theorem join_conj {records : List Rec} (h : (records.map Rec.position).Pairwise (· < ·))
    {conds : List (Rec → Bool)} (hne : conds ≠ []) :
    joinIters (conds.map (fun c => iterateList (positionsOf records c))) =
      iterateList (positionsOf records (fun r => conds.all (fun c => c r))) := by
  have hs : ∀ l ∈ conds.map (positionsOf records), Increasing l := by
    intro l hl
    obtain ⟨c, _, rfl⟩ := List.mem_map.mp hl
    exact positionsOf_increasing h c
  obtain ⟨out, h3, h4, h5⟩ := joinIters_sorted (conds.map (positionsOf records)) (by simpa using hne) hs
  rw [List.map_map] at h3
  have h3' : joinIters (conds.map (fun c => iterateList (positionsOf records c))) = out.map .ok := h3
  rw [h3']
  have : out = positionsOf records (fun r => conds.all (fun c => c r)) := by
    apply increasing_ext h4 (positionsOf_increasing h _)
    intro x
    rw [h5, positionsOf_all h hne]
  rw [this]
  rfl

theorem mapGet_mapSet {α : Type} (m : GoMap α) (k : String) (v : α) (k' : String) :
    mapGet (mapSet m k v) k' = if k = k' then some v else mapGet m k' := by
  induction m with
  | nil => simp [mapSet, mapGet]
  | cons x m ih =>
    obtain ⟨a, b⟩ := x
    by_cases h : a = k
    · subst h
      simp only [mapSet, mapGet, if_true]
      split <;> rfl
    · simp only [mapSet, if_neg h, mapGet, ih]
      by_cases h' : a = k'
      · subst h'
        rw [if_pos rfl, if_neg (fun e => h e.symm), if_pos rfl]
      · rw [if_neg h', if_neg h']

/-! ### Values as keys -/

theorem goEq_true_iff (a b : Value) : goEq a b = .ok true ↔ sameValue a b = true := by
  cases a <;> cases b <;> simp [goEq, sameValue]
  rename_i x y
  cases x <;> cases y <;> simp [GoFloat.eq]

theorem goEq_scalar {a b : Value} (h : Scalar a ∨ Scalar b) : goEq a b = .ok (sameValue a b) := by
  have key : ∀ r : Bool, goEq a b = .ok r → r = sameValue a b := by
    intro r hr
    cases r with
    | true => exact ((goEq_true_iff a b).mp hr).symm
    | false =>
      cases hs : sameValue a b with
      | false => rfl
      | true => rw [(goEq_true_iff a b).mpr hs] at hr; cases hr
  cases hg : goEq a b with
  | ok r => rw [key r hg]
  | error e => cases a <;> cases b <;> simp_all [goEq, Scalar]

theorem sameValue_symm {a b : Value} (h : sameValue a b = true) : sameValue b a = true := by
  cases a <;> cases b <;> simp_all [sameValue]
  rename_i x y
  cases x <;> cases y <;> simp_all

theorem sameValue_trans {a b c : Value} (h : sameValue a b = true) (h' : sameValue b c = true) : sameValue a c = true := by
  cases a <;> cases b <;> cases c <;> simp_all [sameValue]
  rename_i x y z
  cases x <;> cases y <;> cases z <;> simp_all

theorem hashable_iff (v : Value) : v.hashable = true ↔ Scalar v := by cases v <;> simp [Value.hashable, Scalar]

theorem vmapFind_put (m : MapPropertyIndex) (v x : Value) (ps : List Int) :
    vmapFind (vmapPut m v ps) x = if sameValue v x then some ps else vmapFind m x := by
  induction m with
  | nil => simp [vmapPut, vmapFind, goEq_true_iff]
  | cons e m ih =>
    obtain ⟨k, qs⟩ := e
    simp only [vmapPut, goEq_true_iff]
    by_cases h : sameValue k v = true
    · rw [if_pos h]
      simp only [vmapFind, goEq_true_iff]
      by_cases h' : sameValue v x = true
      · rw [if_pos h', if_pos (sameValue_trans h h')]
      · rw [if_neg h']
        have : ¬ sameValue k x = true := fun h'' => h' (sameValue_trans (sameValue_symm h) h'')
        rw [if_neg this, if_neg this]
    · rw [if_neg h]
      simp only [vmapFind, goEq_true_iff, ih]
      by_cases h' : sameValue k x = true
      · rw [if_pos h', if_pos h']
        have : ¬ sameValue v x = true := fun h'' => h (sameValue_trans h' (sameValue_symm h''))
        rw [if_neg this]
      · rw [if_neg h', if_neg h']

theorem vmapFind_same (m : MapPropertyIndex) {v x : Value} (h : sameValue v x = true) : vmapFind m v = vmapFind m x := by
  induction m with
  | nil => rfl
  | cons e m ih =>
    obtain ⟨k, qs⟩ := e
    simp only [vmapFind, goEq_true_iff, ih]
    by_cases h' : sameValue k v = true
    · rw [if_pos h', if_pos (sameValue_trans h' h)]
    · rw [if_neg h', if_neg (fun h'' => h' (sameValue_trans h'' (sameValue_symm h)))]

end Rodb
