import Verif.Proofs.CsvText
/-
  The rows of the start of a CSV file.
-/
namespace Rodb
open Spec

/-- An item ends at some byte, whatever follows, or the bytes end first. -/
theorem readItem_cut {α : Type} (m : ItemReader α) : ∀ (bytes : Bytes) (s : m.σ), (∀ more, readItem m s (bytes ++ more) = readItem m s bytes) ∨ (readItem m s bytes).2 = bytes.length
  | [], _ => .inr rfl
  | b :: bytes, s => by
    cases hs : m.step s b with
    | inr a => exact .inl fun more => by simp only [List.cons_append, readItem, hs]
    | inl s' =>
      rcases readItem_cut m bytes s' with h | h
      · exact .inl fun more => by simp only [List.cons_append, readItem, hs, h more]
      · exact .inr (by simp only [readItem, hs, h, List.length_cons])

theorem csvRows_total {m : ItemReader CsvRead} (hend : m.eof m.init = .eof) (content : Bytes) : ∀ (k p : Nat), content.length - p ≤ k → ∃ rows complete, CsvRows m content p rows complete := by
  have key : ∀ p, (∀ n cells, readItem m m.init (content.drop p) = (.row cells, n) → ∃ rows complete, CsvRows m content (p + n) rows complete) → ∃ rows complete, CsvRows m content p rows complete := by
    intro p h
    cases hr : readItem m m.init (content.drop p) with
    | mk a n =>
      cases a with
      | eof => exact ⟨_, _, .eof (by unfold firstItem; rw [hr])⟩
      | bad => exact ⟨_, _, .bad (by unfold firstItem; rw [hr])⟩
      | row cells =>
        obtain ⟨rows, complete, h⟩ := h n cells hr
        exact ⟨_, _, .row hr h⟩
  intro k
  induction k with
  | zero =>
    intro p hk
    refine key p fun n cells hr => ?_
    rw [List.drop_eq_nil_of_le (by omega)] at hr
    simp only [readItem, hend, Prod.mk.injEq, reduceCtorEq, false_and] at hr
  | succ k ih =>
    intro p hk
    refine key p fun n cells hr => ih _ ?_
    have hne : content.drop p ≠ [] := by
      intro he
      rw [he] at hr
      simp only [readItem, hend, Prod.mk.injEq, reduceCtorEq, false_and] at hr
    have := readItem_pos m m.init _ hne
    rw [hr] at this
    simp only at this
    omega

/-- The rows of the start of a file, from some position on, and those of the whole file are the same, but for the last one. -/
theorem csvRows_cut {m : ItemReader CsvRead} (hend : m.eof m.init = .eof) {part : Bytes} (more : Bytes) {p : Nat} {rows : List (Nat × List Bytes)} {complete : Bool}
    (h : CsvRows m part p rows complete) : p ≤ part.length → ∀ {rows' complete'}, CsvRows m (part ++ more) p rows' complete' →
    ∃ common tail tail', rows = common ++ tail ∧ rows' = common ++ tail' ∧ tail.length + (if complete then 0 else 1) ≤ 1 ∧ ∀ x ∈ tail.head?, ∀ y ∈ tail'.head?, x.1 = y.1 := by
  induction h with
  | eof _ => intro _ rows' _ _; exact ⟨[], [], rows', rfl, rfl, by simp, by simp⟩
  | bad _ => intro _ rows' _ _; exact ⟨[], [], rows', rfl, rfl, by simp, by simp⟩
  | @row p n cells rest complete h1 h2 ih =>
    intro hp rows' complete' h'
    have hn : p + n ≤ part.length := by
      have := readItem_le m (part.drop p) m.init
      rw [h1, List.length_drop] at this
      simp only at this
      omega
    rcases readItem_cut m (part.drop p) m.init with hc | hc
    · have hc := hc more
      rw [h1, ← List.drop_append_of_le_length hp] at hc
      cases h' with
      | eof h => unfold firstItem at h; rw [hc] at h; cases h
      | bad h => unfold firstItem at h; rw [hc] at h; cases h
      | row h3 h4 =>
        rw [hc] at h3
        cases h3
        obtain ⟨common, tail, tail', rfl, rfl, g1, g2⟩ := ih hn h4
        exact ⟨(p, cells) :: common, tail, tail', rfl, rfl, g1, g2⟩
    · rw [h1, List.length_drop] at hc
      simp only at hc
      have hnil : part.drop (p + n) = [] := List.drop_eq_nil_of_le (by omega)
      have h5 : CsvRows m part (p + n) [] true := .eof (by rw [hnil]; exact hend)
      obtain ⟨rfl, rfl⟩ := CsvRows.unique h2 h5
      refine ⟨[], [(p, cells)], rows', rfl, rfl, by simp, ?_⟩
      intro x hx y hy
      simp only [List.head?_cons, Option.mem_def, Option.some.injEq] at hx
      subst hx
      cases h' with
      | eof h => simp at hy
      | bad h => simp at hy
      | row h3 h4 =>
        simp only [List.head?_cons, Option.mem_def, Option.some.injEq] at hy
        subst hy
        rfl

end Rodb
