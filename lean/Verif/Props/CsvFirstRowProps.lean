import Verif.Props.InputProps
/-
  C39, exactly: which files can be scanned if the first row is ignored.
-/
namespace Rodb
open Spec

/-- **C39**, exactly: with `ignoreFirstRow` a scan starts if and only if the file begins with a row of as many cells as there are columns. It then gives a record for every row that follows,
of any width, up to the first malformed one. Missing for the full C39: files that begin otherwise, see `C39_false`. -/
theorem C39_first_row_partial (c : CsvInput) (hend : c.reader.eof c.reader.init = .eof) (hfirst : c.ignoreFirstRow = true) (content : Bytes) (sched : Nat → List Nat) :
    ((∃ l, csvScan c content sched = .ok l) ↔ ∃ header n, readItem c.reader c.reader.init content = (.row header, n) ∧ header.length = c.columns.length) ∧
    (∀ header n rows complete, readItem c.reader c.reader.init content = (.row header, n) → header.length = c.columns.length → CsvRows c.reader content n rows complete →
      csvScan c content sched = .ok (rows.map (fun x => .ok (csvRecord c.columns x.2 x.1)) ++ (if complete then [] else [.error (.err "Cannot read csv data")]))) := by
  obtain ⟨h1, _, _⟩ := c.reader.read_spec (sched 0) (csvOpen_at content)
  have h1 : (c.reader.read (sched 0) (csvOpen content)).1 = (readItem c.reader c.reader.init content).1 := h1
  have hstart : (∃ r, csvStart c content (sched 0) = .ok r) ↔ ∃ header n, readItem c.reader c.reader.init content = (.row header, n) ∧ header.length = c.columns.length := by
    unfold csvStart
    rw [hfirst]
    simp only [if_true]
    cases hr : c.reader.read (sched 0) (csvOpen content) with
    | mk a r =>
      rw [hr] at h1
      cases hi : readItem c.reader c.reader.init content with
      | mk b n =>
        rw [hi] at h1
        simp only at h1
        subst h1
        cases a with
        | eof => simp
        | bad => simp
        | row cells =>
          by_cases hw : cells.length = c.columns.length <;> simp [hw]
  have hscan : ∀ r, csvStart c content (sched 0) = .ok r → csvScan c content sched = .ok (csvRecords c (content.length + 1) (fun i => sched (i + 1)) r) := by
    intro r hr
    simp [csvScan, hr]
  refine ⟨?_, ?_⟩
  · rw [← hstart]
    constructor
    · rintro ⟨l, hl⟩
      cases hs : csvStart c content (sched 0) with
      | ok r => exact ⟨r, rfl⟩
      | error e => rw [csvScan, hs] at hl; cases hl
    · rintro ⟨r, hr⟩
      exact ⟨_, hscan r hr⟩
  · intro header n rows complete hi hw hrows
    obtain ⟨r, hr⟩ := hstart.2 ⟨header, n, hi, hw⟩
    obtain ⟨rows', complete', h2, h3⟩ := csvScan_spec hend (hscan r hr)
    unfold csvFirst at h2
    rw [hfirst] at h2
    simp only [if_true, hi] at h2
    obtain ⟨rfl, rfl⟩ := CsvRows.unique hrows h2
    rw [hscan r hr, h3]

/-- The hypotheses of `C39_first_row_partial` are met. -/
example : sampleCsv.eof sampleCsv.init = .eof ∧ (sampleInput true).ignoreFirstRow = true := ⟨rfl, rfl⟩

example : ∃ l, csvScan (sampleInput true) [97, 44, 98, 10, 99, 10] (fun _ => []) = .ok l :=
  (C39_first_row_partial (sampleInput true) rfl rfl _ _).1.2 ⟨[[97], [98]], 4, rfl, rfl⟩

end Rodb
