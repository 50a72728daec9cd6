import Verif.Proofs.CsvCut
import Verif.Props.CsvTextProps
/-
  C105: the rows of a CSV file that ends too early, or to which rows are added.
-/
namespace Rodb
open Spec

/-- **C105** Any file, well written or not, and a part of it from its beginning. The scans of both give the same records, at the same positions, until the part has at most one more record or error: the row in
which the file was cut. -/
theorem C105_csv_cut (comma : UInt8) (hg : GoodDelimiter comma) (columns : List CsvColumn) (ignoreFirstRow : Bool) (part more : Bytes) (sched sched' : Nat → List Nat) (l l' : List (Res Rec))
    (hpart : csvScan ⟨columns, ignoreFirstRow, csvReader comma⟩ part sched = .ok l) (hwhole : csvScan ⟨columns, ignoreFirstRow, csvReader comma⟩ (part ++ more) sched' = .ok l') :
    ∃ same last others, l = same ++ last ∧ l' = same ++ others ∧ last.length ≤ 1 ∧ ∀ r ∈ same, ∃ record, r = .ok record := by
  rw [csvReader_good hg] at hpart hwhole
  have hend := csvRecordReader_end comma
  obtain ⟨rows, complete, h1, rfl⟩ := csvScan_spec (c := ⟨columns, ignoreFirstRow, csvRecordReader comma⟩) hend hpart
  obtain ⟨rows', complete', h2, rfl⟩ := csvScan_spec (c := ⟨columns, ignoreFirstRow, csvRecordReader comma⟩) hend hwhole
  have hle : csvFirst ⟨columns, ignoreFirstRow, csvRecordReader comma⟩ part ≤ part.length := by
    unfold csvFirst
    split
    · exact readItem_le _ _ _
    · exact Nat.zero_le _
  by_cases hf : csvFirst ⟨columns, ignoreFirstRow, csvRecordReader comma⟩ (part ++ more) = csvFirst ⟨columns, ignoreFirstRow, csvRecordReader comma⟩ part
  · rw [hf] at h2
    obtain ⟨common, tail, tail', rfl, rfl, g1, _⟩ := csvRows_cut hend more h1 hle h2
    refine ⟨common.map (fun x => .ok (csvRecord columns x.2 x.1)), tail.map (fun x => .ok (csvRecord columns x.2 x.1)) ++ (if complete then [] else [.error (.err "Cannot read csv data")]),
      tail'.map (fun x => .ok (csvRecord columns x.2 x.1)) ++ (if complete' then [] else [.error (.err "Cannot read csv data")]), by simp, by simp, ?_, ?_⟩
    · cases complete <;> simp_all
    · intro r hr
      obtain ⟨x, _, rfl⟩ := List.mem_map.1 hr
      exact ⟨_, rfl⟩
  · have hlen : csvFirst ⟨columns, ignoreFirstRow, csvRecordReader comma⟩ part = part.length := by
      unfold csvFirst at hf ⊢
      cases ignoreFirstRow with
      | false => simp at hf
      | true =>
        simp only [if_true] at hf ⊢
        rcases readItem_cut (csvRecordReader comma) part (csvRecordReader comma).init with h | h
        · exact absurd (congrArg Prod.snd (h more)) hf
        · exact h
    rw [hlen] at h1
    have h5 : CsvRows (csvRecordReader comma) part part.length [] true := .eof (by rw [List.drop_length]; exact hend)
    obtain ⟨rfl, rfl⟩ := CsvRows.unique h1 h5
    exact ⟨[], [], _, rfl, rfl, by simp, by simp⟩

/-- **C105** The complete rows of a well written file are read in the same way, at the same positions, whatever comes after them: a row that was cut, other rows, or anything else. -/
theorem C105_csv_complete_rows (comma : UInt8) (hg : GoodDelimiter comma) (columns : List CsvColumn) (table : List (List Bytes)) (good : Bytes) (htext : CsvText comma table good)
    (hgood : good = [] ∨ good.getLast? = some 10) :
    ∃ positions : List Nat, positions.length = table.length ∧ positions.Pairwise (· < ·) ∧ ∀ more sched, ∃ others,
      csvScan ⟨columns, false, csvReader comma⟩ (good ++ more) sched = .ok ((rowRecords columns positions (table.map (fun cells => cells.map unixLines))).map .ok ++ others) := by
  rw [csvReader_good hg]
  have hend := csvRecordReader_end comma
  obtain ⟨rows, h1, h2⟩ := htext.rows hg (content := good) 0 (by simp)
  refine ⟨rows.map (·.1), by rw [← List.length_map (as := table), ← h2]; simp, (CsvRows.spec hend h1).1, ?_⟩
  intro more sched
  obtain ⟨rest, complete, h3⟩ := csvRows_total hend (good ++ more) (good ++ more).length (0 + good.length) (by omega)
  obtain ⟨rows', h4, h5⟩ := htext.rows_then hg (content := good ++ more) hgood 0 more (by simp) rest complete h3
  obtain ⟨common, tail, tail', rfl, rfl, g1, g2⟩ := csvRows_cut hend more h1 (Nat.zero_le _) h4
  have hscan := C37_csv_scan_is_rows ⟨columns, false, csvRecordReader comma⟩ hend rfl _ _ complete h4 sched
  obtain ⟨tail'', ht⟩ : ∃ tail'', tail' = tail ++ tail'' := by
    rw [← h2] at h5
    simp only [List.map_append, List.append_assoc, List.append_cancel_left_eq] at h5
    match tail, tail', g1, g2, h5 with
    | [], tail', _, _, _ => exact ⟨tail', rfl⟩
    | [x], [], _, _, h5 => simp at h5
    | [x], y :: tail', _, g2, h5 =>
      have := g2 x (by simp) y (by simp)
      simp only [List.map_cons, List.map_nil, List.cons_append, List.nil_append, List.cons.injEq] at h5
      exact ⟨tail', by rw [show x = y from Prod.ext this h5.1.symm]; rfl⟩
    | _ :: _ :: _, _, g1, _, _ => simp at g1
  refine ⟨tail''.map (fun x => .ok (csvRecord columns x.2 x.1)) ++ (if complete then [] else [.error (.err "Cannot read csv data")]), ?_⟩
  rw [hscan, ht, ← zip_positions columns _ (common ++ tail) h2]
  simp [Function.comp_def]

/-- **C105** says no more for good reason: a file that was cut can be read without an error, with a value that the whole file does not have. The file is `1,20` and it is cut before its last byte. -/
theorem C105_cut_not_noticed (a b : CsvColumn) (sched : Nat → List Nat) :
    csvScan ⟨[a, b], false, csvReader 44⟩ [49, 44, 50, 48, 10] sched = .ok [.ok (csvRecord [a, b] [[49], [50, 48]] 0)] ∧
    csvScan ⟨[a, b], false, csvReader 44⟩ [49, 44, 50] sched = .ok [.ok (csvRecord [a, b] [[49], [50]] 0)] := by
  have hg : GoodDelimiter 44 := by unfold GoodDelimiter; decide
  rw [csvReader_good hg]
  have h1 : CsvRows (csvRecordReader 44) [49, 44, 50, 48, 10] 0 [(0, [[49], [50, 48]])] true := .row (n := 5) rfl (.eof rfl)
  have h2 : CsvRows (csvRecordReader 44) [49, 44, 50] 0 [(0, [[49], [50]])] true := .row (n := 3) rfl (.eof rfl)
  exact ⟨C37_csv_scan_is_rows ⟨[a, b], false, csvRecordReader 44⟩ (csvRecordReader_end 44) rfl _ _ _ h1 sched,
    C37_csv_scan_is_rows ⟨[a, b], false, csvRecordReader 44⟩ (csvRecordReader_end 44) rfl _ _ _ h2 sched⟩

/-- The example of C82, cut at each place: the first row is there as soon as its end of line is. -/
example : ∃ l l', csvScan ⟨CsvTextExample.columns, false, csvReader 44⟩ (CsvTextExample.file.take 12) (fun _ => [1]) = .ok l ∧
    csvScan ⟨CsvTextExample.columns, false, csvReader 44⟩ (CsvTextExample.file.take 12 ++ CsvTextExample.file.drop 12) (fun _ => []) = .ok l' ∧ l.length = 2 ∧ l'.length = 3 :=
  ⟨_, _, rfl, rfl, rfl, rfl⟩
example : CsvText 44 [[[97], [98]]] [97, 44, 98, 10] ∧ [97, 44, 98, 10].getLast? = some (10 : UInt8) :=
  ⟨.row (text := [97, 44, 98]) (e := [10]) (.cons (text := [97]) (.plain (by decide)) (.one (.plain (by decide)))) (by decide) (.inl rfl) .done, rfl⟩

end Rodb
