import Verif.Spec.Files
import Verif.Props.CsvTextProps
import Verif.Props.PathProps
import Verif.Proofs.Output
import Verif.Proofs.Records
/-
  From the files to the records of the inputs.
-/
namespace Rodb
open Spec

/-! ### Text -/

theorem decodeUtf8_utf8 (s : String) : decodeUtf8 (utf8 s.toList) = some s := by
  have h : (utf8 s.toList).toByteArray = s.toList.utf8Encode := rfl
  unfold decodeUtf8
  rw [h, List.utf8Decode?_utf8Encode]
  simp

theorem rowNames_utf8 : ∀ names : List String, rowNames (names.map (fun n => utf8 n.toList)) = .ok names
  | [] => rfl
  | n :: names => by
    simp only [List.map_cons, rowNames, decodeUtf8_utf8, rowNames_utf8 names]
    rfl

theorem utf8EncodeChar_one {c : Char} {b : UInt8} (h : String.utf8EncodeChar c = [b]) : UInt8.ofNat c.toNat = b := by
  unfold String.utf8EncodeChar at h
  simp only at h
  split at h
  · simpa using h
  · split at h
    · simp at h
    · split at h <;> simp at h

theorem comma_of {text : String} {comma : UInt8} (h : utf8 text.toList = [comma]) : ∃ c, text.toList = [c] ∧ UInt8.ofNat c.toNat = comma := by
  cases ht : text.toList with
  | nil => rw [ht] at h; simp [utf8] at h
  | cons c rest =>
    rw [ht] at h
    simp only [utf8, List.flatMap_cons] at h
    have hne : ∀ c : Char, String.utf8EncodeChar c ≠ [] := by
      intro c hc
      have := String.length_utf8EncodeChar c
      rw [hc] at this
      have := Char.utf8Size_pos c
      simp at *
    cases he : String.utf8EncodeChar c with
    | nil => exact absurd he (hne c)
    | cons b bs =>
      rw [he] at h
      simp only [List.cons_append, List.cons.injEq, List.append_eq_nil_iff] at h
      obtain ⟨rfl, rfl, h⟩ := h
      cases rest with
      | nil => exact ⟨c, rfl, utf8EncodeChar_one he⟩
      | cons d rest =>
        simp only [List.flatMap_cons, List.append_eq_nil_iff] at h
        exact absurd h.1 (hne d)

/-! ### The object of a row -/

/-- A declared column with its parser. -/
def foundColumn (functions : GoMap (Bytes → Res Value)) (column : ColumnDecl) : CsvColumn :=
  { name := column.name
    parse := match mapGet functions column.parser with
      | some f => f
      | none => fun _ => .error (.err "Parser does not exist") }

theorem csvColumns_eq (c : CsvDecl) (functions : GoMap (Bytes → Res Value)) : c.csvColumns functions = c.columns.map (foundColumn functions) := rfl

theorem Spec.RowReads.keys {functions : GoMap (Bytes → Res Value)} : ∀ {columns : List ColumnDecl} {cells : List Bytes} {object : GoMap Value},
    RowReads functions columns cells object → object.map (·.1) = columns.map (·.name)
  | [], _, _, h => by simp only [RowReads] at h; rw [h]; rfl
  | c :: columns, [], _, h => by
    simp only [RowReads] at h
    obtain ⟨rest, h, rfl⟩ := h
    simp [Spec.RowReads.keys h]
  | c :: columns, cell :: cells, _, h => by
    simp only [RowReads] at h
    obtain ⟨_, _, rest, _, _, h, rfl⟩ := h
    simp [Spec.RowReads.keys h]

theorem csvAll_reads {functions : GoMap (Bytes → Res Value)} {columns : List CsvColumn} (hnd : (columns.map (·.name)).Nodup) (data : List Bytes) :
    ∀ (todo : List ColumnDecl) (done : List CsvColumn) (result object : GoMap Value), columns = done ++ todo.map (foundColumn functions) →
      (∀ k ∈ result.map (·.1), k ∈ done.map (·.name)) → RowReads functions todo (data.drop done.length) object →
      csvAll columns data (todo.map (foundColumn functions)) result = .ok (result ++ object)
  | [], done, result, object, _, _, h => by
    simp only [RowReads] at h
    simp [h, csvAll]
  | c :: todo, done, result, object, hcols, hres, h => by
    have hc : columns[done.length]? = some (foundColumn functions c) := by
      rw [hcols, List.getElem?_append_right (Nat.le_refl _)]; simp
    have hget := (csvGetColumn_spec hnd data).1 _ _ hc
    have hnew : c.name ∉ result.map (·.1) := by
      intro hk
      have := hres _ hk
      rw [hcols, List.map_append, List.nodup_append] at hnd
      exact hnd.2.2 _ this c.name (by simp [foundColumn]) rfl
    have hstep : ∀ v rest, object = (c.name, v) :: rest → csvGetColumn columns data c.name = .ok v → RowReads functions todo (data.drop (done.length + 1)) rest →
        csvAll columns data ((c :: todo).map (foundColumn functions)) result = .ok (result ++ object) := by
      rintro v rest rfl hv hrest
      simp only [List.map_cons, csvAll]
      rw [show (foundColumn functions c).name = c.name from rfl, hv]
      simp only
      rw [mapSet_absent v hnew, csvAll_reads hnd data todo (done ++ [foundColumn functions c]) _ rest (by rw [hcols]; simp) ?_ (by simpa using hrest)]
      · simp
      · intro k hk
        simp only [List.map_append, List.mem_append, List.map_cons, List.map_nil, List.mem_singleton] at hk ⊢
        rcases hk with hk | rfl
        · exact .inl (hres k hk)
        · exact .inr rfl
    rw [show (foundColumn functions c).name = c.name from rfl] at hget
    cases hd : data.drop done.length with
    | nil =>
      rw [hd] at h
      simp only [RowReads] at h
      obtain ⟨rest, h, ho⟩ := h
      have hlen : data.length ≤ done.length := List.drop_eq_nil_iff.1 hd
      rw [List.getElem?_eq_none hlen] at hget
      exact hstep _ rest ho hget (by rw [List.drop_eq_nil_of_le (by omega)]; exact h)
    | cons cell cells =>
      rw [hd] at h
      simp only [RowReads] at h
      obtain ⟨parse, v, rest, hp, hv, h, ho⟩ := h
      have hcell : data[done.length]? = some cell := by
        have := List.getElem?_drop (xs := data) (i := done.length) (j := 0)
        rw [hd] at this
        simpa using this.symm
      have hcells : data.drop (done.length + 1) = cells := by
        rw [← List.drop_drop, hd]; rfl
      rw [hcell] at hget
      simp only [foundColumn, hp, hv] at hget
      exact hstep _ rest ho hget (by rw [hcells]; exact h)

/-- What is shown of a record. -/
def shownOf (r : Rec) : GoMap Value :=
  match r.all with
  | .ok m => m
  | .error _ => []

theorem Spec.RowReads.record {functions : GoMap (Bytes → Res Value)} {columns : List ColumnDecl} (hnames : GoodNames (columns.map (·.name))) {cells : List Bytes}
    {object : GoMap Value} (h : RowReads functions columns cells object) (position : Int) :
    (csvRecord (columns.map (foundColumn functions)) cells position).all = .ok object ∧
    ∀ q, InColumn columns q → ∀ v, (csvRecord (columns.map (foundColumn functions)) cells position).get q = .ok v ↔ ValueAt object q v := by
  have hn : (columns.map (foundColumn functions)).map (·.name) = columns.map (·.name) := by
    simp [Function.comp_def, foundColumn]
  have hall : csvAll (columns.map (foundColumn functions)) cells (columns.map (foundColumn functions)) [] = .ok object := by
    have := csvAll_reads (functions := functions) (columns := columns.map (foundColumn functions)) (by rw [hn]; exact hnames.1) cells columns [] [] object (by simp) (by simp) (by simpa using h)
    simpa using this
  refine ⟨hall, ?_⟩
  rintro q ⟨column, rest, hs, hq⟩ v
  rw [(C64_csv_get_agrees _ cells position ?_ (by rw [hn]; exact hnames.1) object hall q).1 v]
  · exact ⟨fun h => h.2, fun h => ⟨⟨column, rest, hs, by rw [hn]; exact hq⟩, h⟩⟩
  · intro c hc e
    apply hnames.2
    rw [← hn, ← e]
    exact List.mem_map_of_mem hc

theorem Spec.RowsRead.records {functions : GoMap (Bytes → Res Value)} {columns : List ColumnDecl} (hnames : GoodNames (columns.map (·.name))) :
    ∀ {rows : List (List Bytes)} {objects : List (GoMap Value)} {positions : List Nat}, positions.length = rows.length → RowsRead functions columns rows objects →
      ∀ records, records = rowRecords (columns.map (foundColumn functions)) positions rows →
      records.map shownOf = objects ∧ (records.map Rec.position) = positions.map Int.ofNat ∧
      ∀ r ∈ records, r.all = .ok (shownOf r) ∧ ∀ q, InColumn columns q → ∀ v, r.get q = .ok v ↔ ValueAt (shownOf r) q v
  | [], objects, positions, hlen, h, records, hr => by
    simp only [RowsRead] at h
    have : positions = [] := by simpa using hlen
    subst h this hr
    simp [rowRecords]
  | cells :: rows, objects, [], hlen, h, records, hr => by simp at hlen
  | cells :: rows, objects, position :: positions, hlen, h, records, hr => by
    simp only [RowsRead] at h
    obtain ⟨object, rest, h1, h2, rfl⟩ := h
    obtain ⟨g1, g2, g3⟩ := Spec.RowsRead.records hnames (positions := positions) (by simpa using hlen) h2 _ rfl
    obtain ⟨k1, k2⟩ := h1.record hnames (position : Int)
    have hshown : shownOf (csvRecord (columns.map (foundColumn functions)) cells position) = object := by
      unfold shownOf; rw [k1]
    subst hr
    have hcons : rowRecords (columns.map (foundColumn functions)) (position :: positions) (cells :: rows) =
      csvRecord (columns.map (foundColumn functions)) cells position :: rowRecords (columns.map (foundColumn functions)) positions rows := rfl
    rw [hcons]
    refine ⟨by rw [List.map_cons, hshown, g1], by rw [List.map_cons, List.map_cons, g2]; rfl, ?_⟩
    intro r hr
    rcases List.mem_cons.1 hr with rfl | hr
    · rw [hshown]; exact ⟨k1, k2⟩
    · exact g3 r hr

/-! ### Opening the file -/

/-- The first row of a well written file, as it is read. -/
theorem csvReader_first {comma : UInt8} (hg : GoodDelimiter comma) {header : List Bytes} {written : List (List Bytes)} {content : Bytes}
    (htext : CsvText comma (header :: written) content) (sched : List Nat) :
    ((csvReader comma).read sched (csvOpen content)).1 = .row (header.map unixLines) := by
  rw [csvReader_good hg]
  obtain ⟨rows, h1, h2⟩ := htext.rows hg (content := content) 0 (by simp)
  cases h1 with
  | eof _ => simp at h2
  | @row _ n cells rest _ h3 h4 =>
    simp only [List.map_cons, List.cons.injEq] at h2
    obtain ⟨rfl, h2⟩ := h2
    rw [List.drop_zero] at h3
    obtain ⟨h1, _, _⟩ := (csvRecordReader comma).read_spec sched (csvOpen_at content)
    rw [h1, show (csvOpen content).content = content from rfl, List.drop_zero]
    unfold firstItem
    rw [h3]

theorem firstCsvRow_names {files : Files} {d : CsvDecl} {content : Bytes} {comma : UInt8} (hcontent : files.content d.path = some content) (hcomma : utf8 d.delimiter.toList = [comma])
    (hg : GoodDelimiter comma) {written : List (List Bytes)} (htext : CsvText comma written content) {names : List String} {rest : List (List Bytes)}
    (htable : written.map (fun cells => cells.map unixLines) = names.map (fun n => utf8 n.toList) :: rest) : firstCsvRow files d = .ok names := by
  obtain ⟨c, h1, h2⟩ := comma_of hcomma
  cases written with
  | nil => simp at htable
  | cons header written =>
    simp only [List.map_cons, List.cons.injEq] at htable
    unfold firstCsvRow CsvDecl.comma
    rw [hcontent]
    simp only [h1, h2, bind, Except.bind, csvReader_first hg htext, htable.1, rowNames_utf8]

/-- What is fetched is inside of the file. -/
theorem csvFetch_within {columns : List CsvColumn} {first : Bool} {comma : UInt8} {sched : List Nat} {content : Bytes} {position : Int} {record : Rec}
    (h : (csvFetch ⟨columns, first, csvRecordReader comma⟩ sched (csvOpen content) position).1 = .ok record) : 0 ≤ position ∧ position < content.length := by
  unfold csvFetch setBufferedReaderOffset at h
  by_cases hneg : position < 0
  · rw [if_pos hneg] at h; cases h
  · rw [if_neg hneg] at h
    refine ⟨by omega, ?_⟩
    apply Classical.byContradiction
    intro hge
    have hspec := ((csvRecordReader comma).read_spec sched (r := { csvOpen content with offset := position.toNat, buffer := [] }) seek_at).1
    have hnil : content.drop position.toNat = [] := List.drop_eq_nil_of_le (by omega)
    have hitem : firstItem (csvRecordReader comma) [] = .eof := rfl
    rw [show ({ csvOpen content with offset := position.toNat, buffer := [] } : BufReader).content = content from rfl, hnil, hitem] at hspec
    simp only at h
    split at h <;> simp_all

/-- The input that is opened for a well written CSV file, wherever its content is found. -/
theorem Spec.CsvFile.opened_anywhere {files : Files} {d : CsvDecl} {columns : List ColumnDecl} {rows : List (List Bytes)} (hfile : CsvFile files d columns rows) (lib : StartLib)
    (hdecl : GoodNames (d.columns.map (·.name))) (functions : GoMap (Bytes → Res Value)) {types : String → Option ParserType} {objects : List (GoMap Value)} (hread : RowsRead functions columns rows objects)
    {e₀ : InputDecl} (he₀ : WithColumns (lib.onFiles files) (completedInput (.csv d)) e₀) :
    ∃ records : List Rec, records.map shownOf = objects ∧
      (∀ r ∈ records, r.all = .ok (shownOf r) ∧ ∀ q, InColumn columns q → ∀ v, r.get q = .ok v ↔ ValueAt (shownOf r) q v) ∧
      ∀ files' : Files, files'.content d.path = files.content d.path → ∀ e input, WithColumns (lib.onFiles files') (completedInput (.csv d)) e → openInput files' e types functions = .ok input →
        input.name = d.name ∧ RecordTable input records ∧ (∀ r ∈ records, input.fetch r.position = .ok r) ∧
        ∃ content, files.content d.path = some content ∧ input.size = .ok content.length ∧ input.modTimeNs = .ok (files'.modTimeNs d.path) ∧
          ∀ r ∈ records, 0 ≤ r.position ∧ r.position < content.length := by
  obtain ⟨content, comma, written, table, hcontent, hcomma, hg, htext, rfl, hcols, hrows⟩ := hfile
  -- the declaration with its columns
  have hdet : ∀ files' : Files, files'.content d.path = some content → ∀ e, WithColumns (lib.onFiles files') (completedInput (.csv d)) e → GoodNames (columns.map (·.name)) ∧
      ∃ c : CsvDecl, e = .csv c ∧ c.columns = columns ∧ c.path = d.path ∧ c.name = d.name ∧ c.ignoreFirstRow = d.ignoreFirstRow ∧ c.delimiter = orText d.delimiter "," := by
    intro files' hcontent e he
    simp only [completedInput, WithColumns] at he
    unfold FileColumns at hcols
    by_cases hauto : d.autodetectColumns = true
    · rw [if_pos hauto] at he hcols
      obtain ⟨row, hrow, hgood, rfl⟩ := he
      obtain ⟨names, rest, htable, rfl⟩ := hcols
      have hrow : firstCsvRow files' _ = .ok row := hrow
      have hfirst := firstCsvRow_names (files := files') (d := { d with delimiter := orText d.delimiter "," }) hcontent hcomma hg htext htable
      have hrow : .ok names = Except.ok row := hfirst.symm.trans hrow
      cases hrow
      refine ⟨by simpa [Function.comp_def] using hgood, _, rfl, rfl, rfl, rfl, rfl, rfl⟩
    · rw [if_neg hauto] at he hcols
      subst he hcols
      refine ⟨by simpa [Function.comp_def] using hdecl, _, rfl, rfl, rfl, rfl, rfl, rfl⟩
  have hnames := (hdet files hcontent e₀ he₀).1
  obtain ⟨ch, hch, hcomma'⟩ := comma_of hcomma
  -- the positions
  have hpos : ∃ positions : List Nat, positions.length = rows.length ∧ positions.Pairwise (· < ·) ∧
      (∀ sched, csvScan ⟨columns.map (foundColumn functions), d.ignoreFirstRow, csvReader comma⟩ content sched =
        .ok ((rowRecords (columns.map (foundColumn functions)) positions rows).map .ok)) ∧
      ∀ record ∈ rowRecords (columns.map (foundColumn functions)) positions rows, ∀ (r : BufReader) (sched : List Nat), r.content = content →
        (csvFetch ⟨columns.map (foundColumn functions), d.ignoreFirstRow, csvReader comma⟩ sched r record.position).1 = .ok record := by
    by_cases hfirst : d.ignoreFirstRow = true
    · rw [if_pos hfirst] at hrows
      obtain ⟨header, htable, hwidth⟩ := hrows
      cases written with
      | nil => simp at htable
      | cons first written =>
        simp only [List.map_cons, List.cons.injEq] at htable
        obtain ⟨rfl, rfl⟩ := htable
        obtain ⟨positions, h1, h2, h3, h4⟩ := C82_header comma hg (columns.map (foundColumn functions)) first written content htext (by simpa using hwidth)
        rw [hfirst]
        exact ⟨positions, by simpa using h1, h2, h3, h4⟩
    · rw [if_neg hfirst] at hrows
      subst hrows
      obtain ⟨positions, h1, h2, h3, h4⟩ := C82_csv_table comma hg (columns.map (foundColumn functions)) written content htext
      rw [show d.ignoreFirstRow = false by simpa using hfirst]
      exact ⟨positions, by simpa using h1, h2, h3, h4⟩
  obtain ⟨positions, h1, h2, h3, h4⟩ := hpos
  obtain ⟨g1, g2, g3⟩ := hread.records hnames h1 _ rfl
  refine ⟨_, g1, g3, ?_⟩
  intro files' hsame e input he hopen
  rw [hcontent] at hsame
  obtain ⟨_, c, rfl, hc1, hc2, hc3, hc4, hc5⟩ := hdet files' hsame e he
  simp only [openInput, openCsvInput, hc2, hsame, CsvDecl.comma, hc5, hch, hcomma', bind, Except.bind, Except.ok.injEq, csvColumns_eq, hc1, hc4, hc3] at hopen
  subst hopen
  refine ⟨rfl, ⟨h3 _, ?_⟩, fun r hr => h4 r hr _ _ rfl, content, hcontent, rfl, rfl, fun r hr => ?_⟩
  · rw [g2, List.pairwise_map]
    exact h2.imp (fun h => by simpa using h)
  · have hfetch := h4 r hr (csvOpen content) [] rfl
    rw [csvReader_good hg] at hfetch
    exact csvFetch_within hfetch

/-- The input that is opened for a well written CSV file. -/
theorem Spec.CsvFile.opened {files : Files} {d : CsvDecl} {columns : List ColumnDecl} {rows : List (List Bytes)} (hfile : CsvFile files d columns rows) (lib : StartLib)
    (hdecl : GoodNames (d.columns.map (·.name))) (functions : GoMap (Bytes → Res Value)) {types : String → Option ParserType} {objects : List (GoMap Value)} (hread : RowsRead functions columns rows objects)
    {e₀ : InputDecl} (he₀ : WithColumns (lib.onFiles files) (completedInput (.csv d)) e₀) :
    ∃ records : List Rec, records.map shownOf = objects ∧
      (∀ r ∈ records, r.all = .ok (shownOf r) ∧ ∀ q, InColumn columns q → ∀ v, r.get q = .ok v ↔ ValueAt (shownOf r) q v) ∧
      ∀ e input, WithColumns (lib.onFiles files) (completedInput (.csv d)) e → openInput files e types functions = .ok input →
        input.name = d.name ∧ RecordTable input records ∧ (∀ r ∈ records, input.fetch r.position = .ok r) ∧
        ∃ content, files.content d.path = some content ∧ input.size = .ok content.length ∧ input.modTimeNs = .ok (files.modTimeNs d.path) ∧
          ∀ r ∈ records, 0 ≤ r.position ∧ r.position < content.length := by
  obtain ⟨records, h1, h2, h3⟩ := hfile.opened_anywhere (types := types) lib hdecl functions hread he₀
  exact ⟨records, h1, h2, h3 files rfl⟩

/-! ### Values at paths -/

open Classical in
theorem propEquals_at {r : Rec} {q : String} {o : GoMap Value} (h : ∀ v, r.get q = .ok v ↔ ValueAt o q v) (v : Value) : propEquals r q v = hasValueAt o q v := by
  unfold propEquals hasValueAt
  rw [Bool.eq_iff_iff, decide_eq_true_eq]
  cases hg : r.get q with
  | ok x =>
    constructor
    · exact fun hs => ⟨x, (h x).1 hg, hs⟩
    · rintro ⟨y, hy, hs⟩
      have hy := (h y).2 hy
      rw [hg] at hy
      cases hy
      exact hs
  | error e =>
    constructor
    · intro h; cases h
    · rintro ⟨y, hy, _⟩
      have hy := (h y).2 hy
      rw [hg] at hy
      cases hy

theorem valueAt_name {o : GoMap Value} {name : String} (hdot : '.' ∉ name.toList) {x : Value} : ValueAt o name x ↔ x = (o.lookup name).getD .null := by
  have hs : splitPath name = [name] := splitPath_nodot (fun c hc e => hdot (e ▸ hc))
  unfold ValueAt
  rw [hs]
  constructor
  · rintro (h | ⟨rfl, u, k, ⟨followed, rest, hp, ha⟩, h⟩)
    · cases h with
      | key hl h => cases h; rw [hl]; rfl
    · cases followed with
      | cons _ f => simp at hp
      | nil =>
        simp only [List.nil_append, List.cons.injEq] at hp
        obtain ⟨rfl, _⟩ := hp
        cases ha
        rcases h with ⟨m, hm, hl⟩ | ⟨l, i, hm, _⟩
        · cases hm; rw [hl]; rfl
        · cases hm
  · rintro rfl
    cases hl : o.lookup name with
    | some x => exact .inl (.key hl (.here x))
    | none => exact .inr ⟨rfl, .obj o, name, ⟨[], [], rfl, .here _⟩, .inl ⟨o, rfl, hl⟩⟩

open Classical in
/-- For names without dots: the value of the member of that name, null if there is none. -/
theorem hasValueAt_name {o : GoMap Value} {name : String} (hdot : '.' ∉ name.toList) (v : Value) : hasValueAt o name v = sameValue ((o.lookup name).getD .null) v := by
  unfold hasValueAt
  rw [Bool.eq_iff_iff, decide_eq_true_eq]
  constructor
  · rintro ⟨x, hx, h⟩
    rw [← (valueAt_name hdot).1 hx]; exact h
  · exact fun h => ⟨_, (valueAt_name hdot).2 rfl, h⟩

end Rodb
