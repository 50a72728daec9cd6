import Verif.Proofs.CsvText
import Verif.Props.InputProps
/-
  C82: CSV files as they are written, and the records read from them.
-/
namespace Rodb
open Spec

/-- The records of rows of cells at the given positions. -/
def rowRecords (columns : List CsvColumn) (positions : List Nat) (rows : List (List Bytes)) : List Rec :=
  List.zipWith (fun (position : Nat) cells => csvRecord columns cells position) positions rows

theorem zip_positions (columns : List CsvColumn) (table : List (List Bytes)) : ∀ (rows : List (Nat × List Bytes)), rows.map (·.2) = table →
    rows.map (fun x => csvRecord columns x.2 x.1) = rowRecords columns (rows.map (·.1)) table := by
  rintro rows rfl
  unfold rowRecords
  induction rows with
  | nil => rfl
  | cons x rows ih =>
    simp only [List.map_cons, List.zipWith_cons_cons]
    rw [ih]

theorem csvStart_header {c : CsvInput} {content : Bytes} {header : List Bytes} {n : Nat} (hfirst : c.ignoreFirstRow = true)
    (hread : readItem c.reader c.reader.init content = (.row header, n)) (hwidth : header.length = c.columns.length) (sched : List Nat) :
    ∃ r, csvStart c content sched = .ok r := by
  obtain ⟨h1, _, _⟩ := c.reader.read_spec sched (csvOpen_at content)
  unfold csvStart
  rw [if_pos hfirst]
  cases hr : c.reader.read sched (csvOpen content) with
  | mk a r =>
    rw [hr] at h1
    simp only [show (csvOpen content).content = content from rfl, List.drop_zero] at h1
    unfold firstItem at h1
    rw [hread] at h1
    simp only at h1
    subst h1
    simp only
    rw [if_neg (by omega)]
    exact ⟨r, rfl⟩

/-- **C82** A CSV file that was written from a table in the usual way (RFC 4180: cells with delimiters, quotes or line ends between quotes, quotes doubled,
any line ends, empty lines anywhere, with or without an end of the last line) is scanned as the rows of the table, in order and cell for cell, with the line ends inside cells
made `\n`; each record is found again at its position. Nothing of it depends on what is read ahead. -/
theorem C82_csv_table (comma : UInt8) (hg : GoodDelimiter comma) (columns : List CsvColumn) (table : List (List Bytes)) (content : Bytes) (htext : CsvText comma table content) :
    ∃ positions : List Nat, positions.length = table.length ∧ positions.Pairwise (· < ·) ∧
      (∀ sched, csvScan ⟨columns, false, csvReader comma⟩ content sched = .ok ((rowRecords columns positions (table.map (fun cells => cells.map unixLines))).map .ok)) ∧
      ∀ record ∈ rowRecords columns positions (table.map (fun cells => cells.map unixLines)), ∀ (r : BufReader) (sched : List Nat), r.content = content →
        (csvFetch ⟨columns, false, csvReader comma⟩ sched r record.position).1 = .ok record := by
  rw [csvReader_good hg]
  obtain ⟨rows, h1, h2⟩ := htext.rows hg (content := content) 0 (by simp)
  have hscan := C37_csv_scan_is_rows ⟨columns, false, csvRecordReader comma⟩ (csvRecordReader_end comma) rfl content rows true h1
  have hrec := zip_positions columns _ rows h2
  have hscan' : ∀ sched, csvScan ⟨columns, false, csvRecordReader comma⟩ content sched =
      .ok ((rowRecords columns (rows.map (·.1)) (table.map (fun cells => cells.map unixLines))).map .ok) := by
    intro sched
    rw [hscan sched, ← hrec]
    simp
  refine ⟨rows.map (·.1), ?_, (CsvRows.spec (csvRecordReader_end comma) h1).1, hscan', ?_⟩
  · rw [List.length_map, ← List.length_map (as := rows) (f := fun x : Nat × List Bytes => x.2), h2, List.length_map]
  · intro record hr r sched hc
    exact (C37_csv_fetch_returns_scanned _ (csvRecordReader_end comma) content (fun _ => []) _ (hscan' _)).1 record (List.mem_map_of_mem hr) r sched hc

/-- **C82** With `ignoreFirstRow` the first row is left out, provided that it has one cell for each column. -/
theorem C82_header (comma : UInt8) (hg : GoodDelimiter comma) (columns : List CsvColumn) (header : List Bytes) (table : List (List Bytes)) (content : Bytes)
    (htext : CsvText comma (header :: table) content) (hwidth : header.length = columns.length) :
    ∃ positions : List Nat, positions.length = table.length ∧ positions.Pairwise (· < ·) ∧
      (∀ sched, csvScan ⟨columns, true, csvReader comma⟩ content sched = .ok ((rowRecords columns positions (table.map (fun cells => cells.map unixLines))).map .ok)) ∧
      ∀ record ∈ rowRecords columns positions (table.map (fun cells => cells.map unixLines)), ∀ (r : BufReader) (sched : List Nat), r.content = content →
        (csvFetch ⟨columns, true, csvReader comma⟩ sched r record.position).1 = .ok record := by
  rw [csvReader_good hg]
  obtain ⟨rows, h1, h2⟩ := htext.rows hg (content := content) 0 (by simp)
  cases h1 with
  | eof _ => simp at h2
  | @row _ n cells rest _ h3 h4 =>
    simp only [List.map_cons, List.cons.injEq] at h2
    obtain ⟨rfl, h2⟩ := h2
    rw [List.drop_zero] at h3
    have hrec := zip_positions columns _ rest h2
    have hscan : ∀ sched, csvScan ⟨columns, true, csvRecordReader comma⟩ content sched =
        .ok ((rowRecords columns (rest.map (·.1)) (table.map (fun cells => cells.map unixLines))).map .ok) := by
      intro sched
      obtain ⟨r, hr⟩ := csvStart_header (c := ⟨columns, true, csvRecordReader comma⟩) rfl h3 (by simpa using hwidth) (sched 0)
      have hs : csvScan ⟨columns, true, csvRecordReader comma⟩ content sched = .ok (csvRecords ⟨columns, true, csvRecordReader comma⟩ (content.length + 1) (fun i => sched (i + 1)) r) := by
        simp [csvScan, hr]
      obtain ⟨rows', complete', h1', h2'⟩ := csvScan_spec (csvRecordReader_end comma) hs
      have hf : csvFirst ⟨columns, true, csvRecordReader comma⟩ content = 0 + n := by
        unfold csvFirst
        rw [if_pos rfl, Nat.zero_add]
        exact congrArg Prod.snd h3
      rw [hf] at h1'
      obtain ⟨rfl, rfl⟩ := CsvRows.unique h4 h1'
      rw [hs, h2', ← hrec]
      simp
    refine ⟨rest.map (·.1), ?_, (CsvRows.spec (csvRecordReader_end comma) h4).1, hscan, ?_⟩
    · rw [List.length_map, ← List.length_map (as := rest) (f := fun x : Nat × List Bytes => x.2), h2, List.length_map]
    · intro record hr r sched hc
      exact (C37_csv_fetch_returns_scanned _ (csvRecordReader_end comma) content (fun _ => []) _ (hscan (fun _ => []))).1 record (List.mem_map_of_mem hr) r sched hc

/-- **C82** Cells without `\r\n` are read as they were written. -/
theorem C82_verbatim : ∀ (cell : Bytes), ¬ [13, 10] <:+: cell → unixLines cell = cell
  | [], _ => rfl
  | [_], _ => rfl
  | a :: b :: rest, h => by
    simp only [unixLines]
    rw [if_neg (by rintro ⟨rfl, rfl⟩; exact h ⟨[], rest, rfl⟩), C82_verbatim (b :: rest)]
    exact fun ⟨x, y, e⟩ => h ⟨a :: x, y, by rw [← e]; rfl⟩

/-- **C82** After the rows of a well written part, a line with a misplaced quote ends the scan with an error: its rows are not read as anything else. -/
theorem C82_misquoted (comma : UInt8) (hg : GoodDelimiter comma) (columns : List CsvColumn) (table : List (List Bytes)) (good line rest : Bytes)
    (htext : CsvText comma table good) (hgood : good = [] ∨ good.getLast? = some 10) (hbad : Misquoted comma line) (hlf : ∀ b ∈ line, b ≠ 10) (hcr : line.getLast? ≠ some 13)
    (hrest : rest = [] ∨ ∃ e r, LineEnd e ∧ rest = e ++ r) (sched : Nat → List Nat) :
    ∃ positions : List Nat, positions.length = table.length ∧ csvScan ⟨columns, false, csvReader comma⟩ (good ++ line ++ rest) sched =
      .ok ((rowRecords columns positions (table.map (fun cells => cells.map unixLines))).map .ok ++ [.error (.err "Cannot read csv data")]) := by
  rw [csvReader_good hg]
  have hb := readItem_bad hlf hcr (hbad.fold hg hlf) rest hrest
  obtain ⟨rows, h1, h2⟩ := htext.rows_then hg (content := good ++ line ++ rest) hgood 0 (line ++ rest) (by simp) [] false (.bad (by
    rw [Nat.zero_add, List.append_assoc, List.drop_left]; exact hb))
  rw [List.map_nil, List.append_nil] at h2
  have hscan := C37_csv_scan_is_rows ⟨columns, false, csvRecordReader comma⟩ (csvRecordReader_end comma) rfl _ rows false h1 sched
  refine ⟨rows.map (·.1), ?_, ?_⟩
  · rw [List.length_map, ← List.length_map (as := rows) (f := fun x : Nat × List Bytes => x.2), h2, List.length_map]
  · rw [hscan, ← zip_positions columns _ rows h2]
    simp

/-- **C82** The same for a cell between quotes that is not closed: the scan ends with an error, whatever follows. -/
theorem C82_unclosed (comma : UInt8) (hg : GoodDelimiter comma) (columns : List CsvColumn) (table : List (List Bytes)) (good before cell : Bytes)
    (htext : CsvText comma table good) (hgood : good = [] ∨ good.getLast? = some 10) (hbefore : CellsBefore comma before) (sched : Nat → List Nat) :
    ∃ positions : List Nat, positions.length = table.length ∧ csvScan ⟨columns, false, csvReader comma⟩ (good ++ (before ++ 34 :: doubleQuotes cell)) sched =
      .ok ((rowRecords columns positions (table.map (fun cells => cells.map unixLines))).map .ok ++ [.error (.err "Cannot read csv data")]) := by
  rw [csvReader_good hg]
  have hb := readItem_unclosed hg hbefore cell
  obtain ⟨rows, h1, h2⟩ := htext.rows_then hg (content := good ++ (before ++ 34 :: doubleQuotes cell)) hgood 0 (before ++ 34 :: doubleQuotes cell) (by simp) [] false (.bad (by
    rw [Nat.zero_add, List.drop_left]; exact hb))
  rw [List.map_nil, List.append_nil] at h2
  have hscan := C37_csv_scan_is_rows ⟨columns, false, csvRecordReader comma⟩ (csvRecordReader_end comma) rfl _ rows false h1 sched
  refine ⟨rows.map (·.1), ?_, ?_⟩
  · rw [List.length_map, ← List.length_map (as := rows) (f := fun x : Nat × List Bytes => x.2), h2, List.length_map]
  · rw [hscan, ← zip_positions columns _ rows h2]
    simp

/-- **C82** A delimiter that cannot be one makes every scan end with an error and every fetch fail, although the configuration with it is accepted. -/
theorem C82_bad_delimiter (comma : UInt8) (hg : ¬ GoodDelimiter comma) (columns : List CsvColumn) (content : Bytes) (sched : Nat → List Nat) (r : BufReader) (p : Int) :
    csvScan ⟨columns, false, csvReader comma⟩ content sched = .ok [.error (.err "Cannot read csv data")] ∧
    csvScan ⟨columns, true, csvReader comma⟩ content sched = .error (.err "parse error") ∧
    ∀ record, (csvFetch ⟨columns, false, csvReader comma⟩ (sched 0) r p).1 ≠ .ok record := by
  have hr : csvReader comma = { σ := Unit, init := (), step := fun _ _ => .inr .bad, eof := fun _ => .bad } := by
    unfold csvReader
    rw [if_pos]
    unfold GoodDelimiter at hg
    apply Classical.byContradiction
    intro h
    apply hg
    simp only [not_or] at h
    exact h
  rw [hr]
  have hread : ∀ (r : BufReader) s, (ItemReader.read ({ σ := Unit, init := (), step := fun _ _ => .inr .bad, eof := fun _ => .bad } : ItemReader CsvRead) s r).1 = .bad := by
    intro r s
    unfold ItemReader.read
    simp only [ItemReader.run]
    rcases r.next (s.headD 0) with ⟨_ | b, r'⟩ <;> rfl
  refine ⟨?_, ?_, ?_⟩
  · have h := hread (csvOpen content) (sched 1)
    simp only [csvScan, csvStart, Bool.false_eq_true, if_false, csvRecords, csvNext]
    cases hx : ItemReader.read ({ σ := Unit, init := (), step := fun _ _ => .inr .bad, eof := fun _ => .bad } : ItemReader CsvRead) (sched 1) (csvOpen content) with
    | mk a r' =>
      rw [hx] at h
      simp only at h
      subst h
      rfl
  · have h := hread (csvOpen content) (sched 0)
    simp only [csvScan, csvStart, if_true]
    cases hx : ItemReader.read ({ σ := Unit, init := (), step := fun _ _ => .inr .bad, eof := fun _ => .bad } : ItemReader CsvRead) (sched 0) (csvOpen content) with
    | mk a r' =>
      rw [hx] at h
      simp only at h
      subst h
      rfl
  · intro record he
    unfold csvFetch setBufferedReaderOffset at he
    by_cases hp : p < 0
    · rw [if_pos hp] at he
      cases he
    · rw [if_neg hp] at he
      simp only at he
      have h := hread { r with offset := p.toNat, buffer := [] } (sched 0)
      cases hx : ItemReader.read ({ σ := Unit, init := (), step := fun _ _ => .inr .bad, eof := fun _ => .bad } : ItemReader CsvRead) (sched 0) { r with offset := p.toNat, buffer := [] } with
      | mk a r' =>
        rw [hx] at h he
        simp only at h
        subst h
        cases he

namespace CsvTextExample
/-- The file `a,b` / (an empty line) / `"x, ""y""` (a line end `\r\n`) `z",` / `c` (without an end). -/
def file : Bytes := [97, 44, 98, 13, 10] ++ ([10] ++ ([34, 120, 44, 32, 34, 34, 121, 34, 34, 13, 10, 122, 34, 44] ++ [10] ++ [99]))
def table : List (List Bytes) := [[[97], [98]], [[120, 44, 32, 34, 121, 34, 13, 10, 122], []], [[99]]]
theorem text : CsvText 44 table file :=
  .row (text := [97, 44, 98]) (e := [13, 10]) (.cons (text := [97]) (.plain (by decide)) (.one (.plain (by decide)))) (by decide) (.inr rfl)
    (.blank (.inl rfl) (.row (.cons (text := 34 :: doubleQuotes [120, 44, 32, 34, 121, 34, 13, 10, 122] ++ [34]) .quoted (.one (.plain (by decide)))) (by decide) (.inl rfl)
      (.last (.one (.plain (by decide))) (by decide))))
def columns : List CsvColumn := [⟨"x", fun b => .ok (.str b)⟩, ⟨"y", fun b => .ok (.str b)⟩]
end CsvTextExample

example : GoodDelimiter 44 ∧ CsvText 44 CsvTextExample.table CsvTextExample.file := ⟨by unfold GoodDelimiter; decide, CsvTextExample.text⟩
example : shown (csvScan ⟨CsvTextExample.columns, false, csvReader 44⟩ CsvTextExample.file (fun _ => [5, 0, 2])) = some
    [some (0, some [("x", .str [97]), ("y", .str [98])]),
     some (5, some [("x", .str [120, 44, 32, 34, 121, 34, 10, 122]), ("y", .str [])]), some (21, some [("x", .str [99]), ("y", .null)])] := by rfl
example : shown (csvScan ⟨CsvTextExample.columns, true, csvReader 44⟩ CsvTextExample.file (fun _ => [])) = some
    [some (5, some [("x", .str [120, 44, 32, 34, 121, 34, 10, 122]), ("y", .str [])]), some (21, some [("x", .str [99]), ("y", .null)])] := by rfl
/-- `a"b,c` and `"a"b`. -/
example : Misquoted 44 [97, 34, 98, 44, 99] ∧ Misquoted 44 [34, 97, 34, 98] :=
  ⟨.bare (text := []) (x := [97]) .none (by decide) (by decide), .after (text := []) (cell := [97]) .none (by decide) (by decide)⟩
example : shown (csvScan ⟨CsvTextExample.columns, false, csvReader 44⟩ [97, 10, 34, 97, 34, 98, 10, 99] (fun _ => [])) =
    some [some (0, some [("x", .str [97]), ("y", .null)]), none] := by rfl
example : ¬ GoodDelimiter 34 := by unfold GoodDelimiter; decide

end Rodb
