import Verif.Proofs.Closing
/-
  C120 : closing at the end of the program.
-/
namespace Rodb
open Spec

theorem mem_takeWhile_iff {α : Type} {p : α → Bool} {l : List α} (hl : l.Nodup) {a : α} :
    (a ∈ l ∧ a ∉ l.takeWhile p) ↔ ∃ before g after, l = before ++ g :: after ∧ p g = false ∧ a ∈ g :: after := by
  induction l with
  | nil => simp
  | cons x rest ih =>
    rw [List.nodup_cons] at hl
    cases hp : p x with
    | false =>
      simp only [List.takeWhile_cons, hp]
      exact ⟨fun h => ⟨[], x, rest, rfl, hp, h.1⟩, fun ⟨b, g, a', h, _, hm⟩ => ⟨by rw [h]; exact List.mem_append_right _ hm, by simp⟩⟩
    | true =>
      simp only [List.takeWhile_cons, hp, ite_true]
      constructor
      · rintro ⟨hm, hn⟩
        rcases List.mem_cons.1 hm with rfl | hm
        · exact absurd (List.mem_cons_self ..) hn
        · obtain ⟨b, g, a', h, hg, hm⟩ := (ih hl.2).1 ⟨hm, fun h => hn (List.mem_cons_of_mem _ h)⟩
          exact ⟨x :: b, g, a', by rw [h]; rfl, hg, hm⟩
      · rintro ⟨b, g, a', h, hg, hm⟩
        cases b with
        | nil => cases h; rw [hp] at hg; cases hg
        | cons y b =>
          cases h
          have := (ih hl.2).2 ⟨b, g, a', rfl, hg, hm⟩
          refine ⟨List.mem_cons_of_mem _ this.1, fun h => ?_⟩
          rcases List.mem_cons.1 h with rfl | h
          · exact hl.1 this.1
          · exact this.2 h

theorem Spec.SameComponents.isOpen {c d : Config} (h : SameComponents c d) {x : Handle} : IsOpen d x ↔ IsOpen c x := by
  cases x <;> simp only [IsOpen, h.inputs.mem_iff, h.indexes.mem_iff]

theorem Spec.SameComponents.distinct {c d : Config} (h : SameComponents c d) (hn : DistinctNames c) : DistinctNames d :=
  ⟨(h.inputs.map _).nodup_iff.2 hn.inputs, (h.indexes.map _).nodup_iff.2 hn.indexes⟩

/-- **C120** (partial), for any failures and any orders of the maps: what is still open when the program ends are the files of the wildcard indexes, and of the databases, and of what
belongs to the inputs, that whose closing failed or that came after it in its list. Everything else is closed, once and in the right order; each of the two lists logs at most one error.
Missing for the full C120: the first three, see `C120_false` and `C120_failing_false`. -/
theorem C120_exactly_partial {c d : Config} (hn : DistinctNames c) (hsame : SameComponents c d) (fails : Handle → Bool) :
    let r := d.closeAll fails { opened := c.opens }
    (∀ h, h ∈ r.opened ↔ IsOpen c h ∧ (IsIndexFile h ∨
      ∃ order, (order = databases d ∨ order = ofInputs d) ∧ ∃ before failing after, order = before ++ failing :: after ∧ fails failing = true ∧ h ∈ failing :: after)) ∧
    (∀ h, h ∈ r.closed ↔ IsOpen c h ∧ h ∉ r.opened) ∧ r.closed.Nodup ∧ r.closed.Pairwise (fun a b => ¬ ClosedFirst b a) ∧
    r.errors = (if (databases d).any fails then 1 else 0) + (if (ofInputs d).any fails then 1 else 0) := by
  have hd := hsame.distinct hn
  have hdb := databases_nodup hd
  have hin : (ofInputs d).Nodup := inputHandles_nodup hd.inputs
  have hdisj : ∀ a ∈ databases d, a ∉ ofInputs d := fun a ha hb => by
    obtain ⟨n, rfl⟩ := (mem_databases.1 ha).2
    obtain ⟨m, h | h | h⟩ := (mem_ofInputs.1 hb).2 <;> cases h
  have hdb' : ∀ {h}, h ∈ (databases d).takeWhile (fun h => !fails h) → h ∈ databases d := fun h => List.takeWhile_sublist _ |>.subset h
  have hin' : ∀ {h}, h ∈ (ofInputs d).takeWhile (fun h => !fails h) → h ∈ ofInputs d := fun h => List.takeWhile_sublist _ |>.subset h
  simp only [closeAll_eq, List.nil_append, Nat.zero_add]
  refine ⟨fun h => ?_, fun h => ?_, ?_, ?_, trivial⟩
  · rw [mem_foldl_erase _ (opens_nodup hn), mem_opens, List.mem_append]
    refine and_congr_right fun ho => ?_
    rw [← hsame.isOpen] at ho
    constructor
    · intro hno
      cases h with
      | indexFile name => exact .inl ⟨name, rfl⟩
      | database name =>
        obtain ⟨b, g, a, h1, h2, h3⟩ := (mem_takeWhile_iff hdb).1 ⟨mem_databases.2 ⟨ho, name, rfl⟩, fun h => hno (.inl h)⟩
        exact .inr ⟨_, .inl rfl, b, g, a, h1, by simpa using h2, h3⟩
      | watcher name =>
        obtain ⟨b, g, a, h1, h2, h3⟩ := (mem_takeWhile_iff hin).1 ⟨mem_ofInputs.2 ⟨ho, name, .inl rfl⟩, fun h => hno (.inr h)⟩
        exact .inr ⟨_, .inr rfl, b, g, a, h1, by simpa using h2, h3⟩
      | watch name =>
        obtain ⟨b, g, a, h1, h2, h3⟩ := (mem_takeWhile_iff hin).1 ⟨mem_ofInputs.2 ⟨ho, name, .inr (.inl rfl)⟩, fun h => hno (.inr h)⟩
        exact .inr ⟨_, .inr rfl, b, g, a, h1, by simpa using h2, h3⟩
      | file name =>
        obtain ⟨b, g, a, h1, h2, h3⟩ := (mem_takeWhile_iff hin).1 ⟨mem_ofInputs.2 ⟨ho, name, .inr (.inr rfl)⟩, fun h => hno (.inr h)⟩
        exact .inr ⟨_, .inr rfl, b, g, a, h1, by simpa using h2, h3⟩
    · rintro (⟨name, rfl⟩ | ⟨order, rfl | rfl, b, g, a, h1, h2, h3⟩) hm
      · rcases hm with hm | hm
        · obtain ⟨m, h⟩ := (mem_databases.1 (hdb' hm)).2; cases h
        · obtain ⟨m, h | h | h⟩ := (mem_ofInputs.1 (hin' hm)).2 <;> cases h
      · have := (mem_takeWhile_iff (p := fun h => !fails h) hdb).2 ⟨b, g, a, h1, by simpa using h2, h3⟩
        rcases hm with hm | hm
        · exact this.2 hm
        · exact hdisj _ this.1 (hin' hm)
      · have := (mem_takeWhile_iff (p := fun h => !fails h) hin).2 ⟨b, g, a, h1, by simpa using h2, h3⟩
        rcases hm with hm | hm
        · exact hdisj _ (hdb' hm) this.1
        · exact this.2 hm
  · rw [mem_foldl_erase _ (opens_nodup hn), mem_opens]
    constructor
    · intro hm
      refine ⟨?_, fun h => h.2 hm⟩
      rw [← hsame.isOpen]
      rcases List.mem_append.1 hm with hm | hm
      · exact (mem_databases.1 (hdb' hm)).1
      · exact (mem_ofInputs.1 (hin' hm)).1
    · rintro ⟨ho, hno⟩
      exact Classical.byContradiction fun h => hno ⟨ho, h⟩
  · exact List.nodup_append.2 ⟨hdb.sublist (List.takeWhile_sublist _), hin.sublist (List.takeWhile_sublist _), fun a ha b hb h => hdisj a (hdb' ha) (h ▸ hin' hb)⟩
  · exact (closedFirst_pairwise hd).sublist ((List.takeWhile_sublist _).append (List.takeWhile_sublist _))

/-- **C120** (partial) If no call fails, the program closes all that it opened but the files of wildcard indexes, whatever the orders of the maps: everything once, the databases before
what belongs to the inputs, the watches before the watchers and those before the files; it logs no error. Missing for the full C120: the files of wildcard indexes (`C120_false`) and calls
that fail (`C120_failing_false`, `C120_exactly_partial`). -/
theorem C120_closed_partial {c d : Config} (hn : DistinctNames c) (hsame : SameComponents c d) (fails : Handle → Bool) (hf : ∀ h, IsOpen c h → fails h = false) :
    let r := d.closeAll fails { opened := c.opens }
    (∀ h, h ∈ r.opened ↔ IsOpen c h ∧ IsIndexFile h) ∧ (∀ h, h ∈ r.closed ↔ IsOpen c h ∧ ¬ IsIndexFile h) ∧
      r.closed.Nodup ∧ r.closed.Pairwise (fun a b => ¬ ClosedFirst b a) ∧ r.errors = 0 := by
  obtain ⟨h1, h2, h3, h4, h5⟩ := C120_exactly_partial hn hsame fails
  have hdb : ∀ h ∈ databases d, fails h = false := fun h hm => hf h (hsame.isOpen.1 (mem_databases.1 hm).1)
  have hin : ∀ h ∈ ofInputs d, fails h = false := fun h hm => hf h (hsame.isOpen.1 (mem_ofInputs.1 hm).1)
  have hopen : ∀ h, h ∈ (d.closeAll fails { opened := c.opens }).opened ↔ IsOpen c h ∧ IsIndexFile h := fun h => by
    rw [h1]
    refine and_congr_right fun _ => ⟨?_, .inl⟩
    rintro (h | ⟨order, rfl | rfl, b, g, a, h, hg, _⟩)
    · exact h
    · rw [hdb g (by rw [h]; simp)] at hg; cases hg
    · rw [hin g (by rw [h]; simp)] at hg; cases hg
  refine ⟨hopen, fun h => ?_, h3, h4, ?_⟩
  · rw [h2, hopen]
    exact ⟨fun ⟨a, b⟩ => ⟨a, fun h => b ⟨a, h⟩⟩, fun ⟨a, b⟩ => ⟨a, fun h => b h.2⟩⟩
  · rw [h5]
    rw [if_neg (by simpa using hdb), if_neg (by simpa using hin)]

/-- **C120** (partial) A failure among the databases does not touch the inputs, and the other way round: if the calls for one of the two lists do not fail, all of it is closed. -/
theorem C120_kinds_partial {c d : Config} (hn : DistinctNames c) (hsame : SameComponents c d) (fails : Handle → Bool) :
    let r := d.closeAll fails { opened := c.opens }
    ((∀ h, IsOpen c h → OfInput h → fails h = false) → ∀ h, IsOpen c h → OfInput h → h ∈ r.closed) ∧
    ((∀ name, IsOpen c (.database name) → fails (.database name) = false) → ∀ name, IsOpen c (.database name) → .database name ∈ r.closed) := by
  obtain ⟨h1, h2, -⟩ := C120_exactly_partial hn hsame fails
  refine ⟨fun hf h ho hi => (h2 h).2 ⟨ho, fun hm => ?_⟩, fun hf name ho => (h2 _).2 ⟨ho, fun hm => ?_⟩⟩
  · obtain ⟨n, hi'⟩ := hi
    rcases ((h1 h).1 hm).2 with ⟨m, rfl⟩ | ⟨order, rfl | rfl, b, g, a, h, hg, hga⟩
    · rcases hi' with h | h | h <;> cases h
    · obtain ⟨m, rfl⟩ := (mem_databases.1 (h ▸ List.mem_append_right _ hga)).2
      rcases hi' with h | h | h <;> cases h
    · have := mem_ofInputs.1 (show g ∈ ofInputs d by rw [h]; simp)
      rw [hf g (hsame.isOpen.1 this.1) this.2] at hg; cases hg
  · rcases ((h1 _).1 hm).2 with ⟨m, h⟩ | ⟨order, rfl | rfl, b, g, a, h, hg, hga⟩
    · cases h
    · have := mem_databases.1 (show g ∈ databases d by rw [h]; simp)
      obtain ⟨m, rfl⟩ := this.2
      rw [hf m (hsame.isOpen.1 this.1)] at hg; cases hg
    · obtain ⟨m, h | h | h⟩ := (mem_ofInputs.1 (h ▸ List.mem_append_right _ hga)).2 <;> cases h

namespace ClosingExample

/-- Two CSV files, a SQLite index, a wildcard index and a map index. -/
def config : Config :=
  { parsers := [], services := [], outputs := []
    inputs := [("a", .csv ⟨"a", "a.csv", none, false, false, ",", []⟩), ("b", .json ⟨"b", "b.json", none⟩)]
    indexes := [("sql", .sqlite ⟨"sql", "i.db", "a", []⟩), ("text", .wildcard ⟨"text", "i.wild", "a", [], none⟩), ("map", .map ⟨"map", "b", []⟩)] }

theorem distinct : DistinctNames config := ⟨by decide, by decide⟩

theorem same : SameComponents config { config with inputs := config.inputs.reverse } := ⟨List.reverse_perm _, .refl _, .refl _⟩

end ClosingExample

/-- **C120** is false: the file of a wildcard index is never closed, although no call fails. -/
theorem C120_false : ∃ c d : Config, DistinctNames c ∧ SameComponents c d ∧ ∃ h, IsOpen c h ∧ h ∈ (d.closeAll (fun _ => false) { opened := c.opens }).opened :=
  ⟨_, _, ClosingExample.distinct, ClosingExample.same, .indexFile "text", ⟨_, by simp [ClosingExample.config]; rfl⟩, by decide⟩

/-- **C120** is false: if the watch of one input cannot be removed, the file of another one stays open, although closing it would not fail; the exit status does not tell. -/
theorem C120_failing_false : ∃ (c d : Config) (fails : Handle → Bool), DistinctNames c ∧ SameComponents c d ∧
    ∃ name, IsOpen c (.file name) ∧ (∀ h, fails h = true → h = .watch "b") ∧ name ≠ "b" ∧ .file name ∈ (d.closeAll fails { opened := c.opens }).opened :=
  ⟨_, _, fun h => h = .watch "b", ClosingExample.distinct, ClosingExample.same, "a", ⟨_, by simp [ClosingExample.config]; rfl⟩, by simp, by decide, by decide⟩

/-- The hypotheses of `C120_exactly_partial` and `C120_closed_partial` are met; the databases and what belongs to the inputs is closed. -/
example : ((ClosingExample.config).closeAll (fun _ => false) { opened := ClosingExample.config.opens }).closed =
    [.database "sql", .watch "a", .watcher "a", .file "a", .watch "b", .watcher "b", .file "b"] := by decide

example := C120_closed_partial ClosingExample.distinct ClosingExample.same (fun _ => false) (fun _ _ => rfl)

example := C120_kinds_partial ClosingExample.distinct ClosingExample.same (fun h => h = .database "sql")

end Rodb
