import Verif.Proofs.Reader
import Verif.Proofs.Parser
import Verif.Spec.Records
import Verif.Model.Inputs
/-
  Inputs: reading positions, CSV scans and fetches, JSON scans and fetches, column autodetection.
-/
namespace Rodb
open Spec

theorem mapGet_of_mem {α : Type} {m : GoMap α} {k : String} {v : α} (h : (k, v) ∈ m) : ∃ v, mapGet m k = some v := by
  induction m with
  | nil => cases h
  | cons x m ih =>
    simp only [mapGet]
    split
    · exact ⟨_, rfl⟩
    · rename_i hne
      rcases List.mem_cons.mp h with rfl | h
      · exact absurd rfl hne
      · exact ih h

theorem splitDots_nodot : ∀ (l : List Char), (∀ c ∈ l, c ≠ '.') → splitDots l = [l] := by
  intro l
  induction l with
  | nil => intro _; rfl
  | cons c l ih =>
    intro h
    simp only [splitDots, ih (fun c hc => h c (List.mem_cons_of_mem _ hc)), if_neg (h c List.mem_cons_self)]

theorem splitPath_nodot {name : String} (h : ∀ c ∈ name.toList, c ≠ '.') : splitPath name = [name] := by
  unfold splitPath
  rw [splitDots_nodot _ h]
  simp

theorem takeBytes_spec : ∀ (aheads : List Nat) {r : BufReader} {p : Nat}, r.At p →
    (takeBytes aheads r).1 = (r.content.drop p).take aheads.length ∧ (takeBytes aheads r).2.content = r.content ∧
    (takeBytes aheads r).2.At (p + min aheads.length (r.content.length - p)) := by
  intro aheads
  induction aheads with
  | nil => intro r p h; simpa [takeBytes] using h
  | cons a rest ih =>
    intro r p h
    obtain ⟨h1, h2, h3⟩ := BufReader.next_spec h a
    simp only [takeBytes]
    cases hn : r.next a with
    | mk o r' =>
      rw [hn] at h1 h2 h3
      simp only at h1 h2 h3
      obtain ⟨i1, i2, i3⟩ := ih h3
      rw [h2] at i1 i2 i3
      cases hd : r.content.drop p with
      | nil =>
        have hlen : r.content.length - p = 0 := by
          have := congrArg List.length hd
          simpa using this
        rw [hd] at h1
        subst h1
        rw [hlen] at i1 i3 ⊢
        simp only [Nat.min_zero, Nat.add_zero, hlen] at i1 i3 ⊢
        rw [hd] at i1
        simp only [List.take_nil] at i1 ⊢
        exact ⟨i1, i2, i3⟩
      | cons b bs =>
        rw [hd] at h1
        subst h1
        have hlen : 1 ≤ r.content.length - p := by
          have := congrArg List.length hd
          simp at this; omega
        rw [Nat.min_eq_left hlen] at i1 i3
        simp only [List.head?_cons, List.length_cons, List.take_succ_cons]
        refine ⟨?_, i2, ?_⟩
        · rw [i1, ← List.drop_drop, hd]; rfl
        · have : p + 1 + min rest.length (r.content.length - (p + 1)) = p + min (rest.length + 1) (r.content.length - p) := by omega
          rw [this] at i3
          exact i3

theorem doOp_spec (op : ReaderOp) {r : BufReader} {p : Nat} (h : r.At p) :
    (doOp r op).1 = bytesOf r.content p op ∧ (doOp r op).2.content = r.content ∧
    (doOp r op).2.At (positionAfter r.content.length p op) := by
  cases op with
  | readAhead n => exact ⟨rfl, rfl, BufReader.fill_at h n⟩
  | consume aheads => exact takeBytes_spec aheads h
  | seek q =>
    simp only [doOp, setBufferedReaderOffset]
    rw [if_neg (by omega)]
    exact ⟨rfl, rfl, seek_at⟩

theorem doOps_spec : ∀ (ops : List ReaderOp) {r : BufReader} {p : Nat}, r.At p →
    (doOps r ops).1 = bytesOfAll r.content p ops ∧ (doOps r ops).2.content = r.content ∧
    (doOps r ops).2.At (ops.foldl (positionAfter r.content.length) p) := by
  intro ops
  induction ops with
  | nil => intro r p h; exact ⟨rfl, rfl, h⟩
  | cons op rest ih =>
    intro r p h
    obtain ⟨h1, h2, h3⟩ := doOp_spec op h
    obtain ⟨i1, i2, i3⟩ := ih h3
    rw [h2] at i1 i2 i3
    refine ⟨?_, i2, i3⟩
    simp only [doOps, bytesOfAll, h1, i1]

theorem csvOpen_at (content : Bytes) : (csvOpen content).At 0 := by simp [csvOpen, BufReader.At]

/-- **C36** After any operations on a reader (reading any amounts ahead, consuming bytes, going to positions), the
reported position is the number of bytes consumed since the last position gone to, plus that position, and the bytes
handed out are those of the file at the successive positions: what was read ahead plays no role. -/
theorem C36_position_is_bytes_consumed (content : Bytes) (ops : List ReaderOp) :
    getBufferedReaderOffset (doOps (csvOpen content) ops).2 = (ops.foldl (positionAfter content.length) 0 : Nat) ∧
    (doOps (csvOpen content) ops).1 = bytesOfAll content 0 ops := by
  obtain ⟨h1, _, h3⟩ := doOps_spec ops (csvOpen_at content)
  exact ⟨h3.offset, h1⟩

example : getBufferedReaderOffset (doOps (csvOpen [1, 2, 3, 4, 5]) [.readAhead 4, .consume [0, 7], .seek 1, .consume [2, 0, 0]]).2 = 4 ∧
    (doOps (csvOpen [1, 2, 3, 4, 5]) [.readAhead 4, .consume [0, 7], .seek 1, .consume [2, 0, 0]]).1 = [1, 2, 2, 3, 4] := by
  decide +kernel

/-- **C36** An item read after any such operations is the one found in the file at the position, and the position
afterwards is after its bytes, whatever is read ahead meanwhile. -/
theorem C36_item_independent_of_buffering {α : Type} (m : ItemReader α) (content : Bytes) (ops : List ReaderOp) (sched : List Nat) :
    (m.read sched (doOps (csvOpen content) ops).2).1 = firstItem m (content.drop (ops.foldl (positionAfter content.length) 0)) ∧
    getBufferedReaderOffset (m.read sched (doOps (csvOpen content) ops).2).2 =
      ((ops.foldl (positionAfter content.length) 0) +
        (readItem m m.init (content.drop (ops.foldl (positionAfter content.length) 0))).2 : Nat) := by
  obtain ⟨_, h2, h3⟩ := doOps_spec ops (csvOpen_at content)
  obtain ⟨i1, _, i3⟩ := m.read_spec sched h3
  rw [h2] at i1 i3
  exact ⟨i1, i3.offset⟩

/-- The file used in the examples: `a,b` / `"c,",d` / (an empty line) / `e`. -/
def sampleFile : Bytes := [97, 44, 98, 10, 34, 99, 44, 34, 44, 100, 10, 10, 101, 10]

example : getBufferedReaderOffset (sampleCsv.read [100] (doOps (csvOpen sampleFile) [.consume [3, 0, 0, 0]]).2).2 = 11 := by
  decide +kernel

/-! ### CSV -/

/-- **C37** Every record handed out by a scan of a CSV file is found again, identical, by fetching its position, from any
state of the shared reader and whatever is read ahead; the positions of the records are strictly increasing
and inside the file. (`hend`: reading at the end of the file gives the end of the file.) -/
theorem C37_csv_fetch_returns_scanned (c : CsvInput) (hend : c.reader.eof c.reader.init = .eof) (content : Bytes)
    (sched : Nat → List Nat) (l : List (Res Rec)) (hscan : csvScan c content sched = .ok l) :
    (∀ record : Rec, .ok record ∈ l → ∀ (r : BufReader) (sched' : List Nat), r.content = content →
      (csvFetch c sched' r record.position).1 = .ok record) ∧
    (∀ record : Rec, .ok record ∈ l → 0 ≤ record.position ∧ record.position < content.length) ∧
    (∀ (i j : Nat) (ri rj : Rec), i < j → l[i]? = some (.ok ri) → l[j]? = some (.ok rj) → ri.position < rj.position) := by
  obtain ⟨rows, complete, hrows, rfl⟩ := csvScan_spec hend hscan
  obtain ⟨h1, h2, h3, h4⟩ := CsvRows.spec hend hrows
  have hmem : ∀ record, Except.ok record ∈ rows.map (fun x => (.ok (csvRecord c.columns x.2 x.1) : Res Rec)) ++
      (if complete then [] else [.error (.err "Cannot read csv data")]) → ∃ x ∈ rows, record = csvRecord c.columns x.2 x.1 := by
    intro record hr
    rcases List.mem_append.mp hr with hr | hr
    · obtain ⟨x, hx, he⟩ := List.mem_map.mp hr
      cases he
      exact ⟨x, hx, rfl⟩
    · cases complete <;> simp at hr
  have hidx : ∀ (i : Nat) (record : Rec), (rows.map (fun x => (.ok (csvRecord c.columns x.2 x.1) : Res Rec)) ++
      (if complete then [] else [.error (.err "Cannot read csv data")]))[i]? = some (.ok record) →
      ∃ x, rows[i]? = some x ∧ record = csvRecord c.columns x.2 x.1 := by
    intro i record hr
    rw [List.getElem?_append] at hr
    split at hr
    · rw [List.getElem?_map] at hr
      cases hx : rows[i]? with
      | none => rw [hx] at hr; cases hr
      | some x => rw [hx] at hr; cases hr; exact ⟨x, rfl, rfl⟩
    · have := List.mem_of_getElem? hr
      cases complete <;> simp at this
  refine ⟨?_, ?_, ?_⟩
  · intro record hr r sched' hc
    obtain ⟨x, hx, rfl⟩ := hmem record hr
    have := csvFetch_spec c sched' r x.1
    rw [hc, h3 x hx] at this
    exact this
  · intro record hr
    obtain ⟨x, hx, rfl⟩ := hmem record hr
    have := h4 x hx
    exact ⟨Int.natCast_nonneg _, by simpa [csvRecord] using this⟩
  · intro i j ri rj hij hi hj
    obtain ⟨x, hx, rfl⟩ := hidx i ri hi
    obtain ⟨y, hy, rfl⟩ := hidx j rj hj
    have h1' : rows.Pairwise (fun a b => a.1 < b.1) := List.pairwise_map.mp h1
    rw [List.pairwise_iff_getElem] at h1'
    obtain ⟨hi1, rfl⟩ := List.getElem?_eq_some_iff.mp hx
    obtain ⟨hj1, rfl⟩ := List.getElem?_eq_some_iff.mp hy
    have := h1' i j hi1 hj1 hij
    simpa [csvRecord] using this

/-- **C37** The records of a scan are the rows of the file, in order, one record for each row with the position where the
row starts; a malformed row ends the scan with an error. Nothing of it depends on what is read ahead. -/
theorem C37_csv_scan_is_rows (c : CsvInput) (hend : c.reader.eof c.reader.init = .eof) (hfirst : c.ignoreFirstRow = false) (content : Bytes)
    (rows : List (Nat × List Bytes)) (complete : Bool) (hrows : CsvRows c.reader content 0 rows complete) (sched : Nat → List Nat) :
    csvScan c content sched = .ok (rows.map (fun x => .ok (csvRecord c.columns x.2 x.1)) ++
      (if complete then [] else [.error (.err "Cannot read csv data")])) := by
  have hs : csvScan c content sched = .ok (csvRecords c (content.length + 1) (fun i => sched (i + 1)) (csvOpen content)) := by
    simp [csvScan, csvStart, hfirst]
  obtain ⟨rows', complete', h1, h2⟩ := csvScan_spec hend hs
  unfold csvFirst at h1
  rw [hfirst] at h1
  obtain ⟨rfl, rfl⟩ := CsvRows.unique hrows h1
  rw [hs, h2]

/-- **C37** The same scan, whatever is read ahead, with or without an ignored first row. -/
theorem C37_csv_scan_independent_of_buffering (c : CsvInput) (hend : c.reader.eof c.reader.init = .eof) (content : Bytes)
    (sched sched' : Nat → List Nat) : csvScan c content sched = csvScan c content sched' := by
  cases hs : csvScan c content sched with
  | error e =>
    unfold csvScan at hs ⊢
    cases h0 : csvStart c content (sched 0) with
    | error e' =>
      rw [h0] at hs
      rw [(csvStart_spec c content (sched 0)).2.2 e' h0 (sched' 0)]
      exact hs.symm
    | ok r => rw [h0] at hs; cases hs
  | ok l =>
    obtain ⟨rows, complete, h1, rfl⟩ := csvScan_spec hend hs
    have hex : ∃ r, csvStart c content (sched 0) = .ok r := by
      unfold csvScan at hs
      cases h0 : csvStart c content (sched 0) with
      | error e' => rw [h0] at hs; cases hs
      | ok r => exact ⟨r, rfl⟩
    obtain ⟨r', hr'⟩ := ((csvStart_spec c content (sched 0)).2.1 (sched' 0)).mp hex
    have hs' : csvScan c content sched' = .ok (csvRecords c (content.length + 1) (fun i => sched' (i + 1)) r') := by
      simp [csvScan, hr']
    obtain ⟨rows', complete', h1', h2'⟩ := csvScan_spec hend hs'
    obtain ⟨rfl, rfl⟩ := CsvRows.unique h1 h1'
    rw [hs', h2']

/-- The input of the examples: two columns of strings. -/
def sampleInput (ignoreFirstRow : Bool) : CsvInput :=
  { columns := [⟨"x", fun b => .ok (.str b)⟩, ⟨"y", fun b => .ok (.str b)⟩], ignoreFirstRow := ignoreFirstRow, reader := sampleCsv }

/-- The positions and whole contents of scanned records. -/
def shown (l : Res (List (Res Rec))) : Option (List (Option (Int × Option (GoMap Value)))) :=
  match l with
  | .error _ => none
  | .ok l => some (l.map (fun x => match x with
    | .error _ => none
    | .ok r => some (r.position, match r.all with
      | .error _ => none
      | .ok m => some m)))

example : shown (csvScan (sampleInput false) sampleFile (fun _ => [5, 0, 2])) = some
    [some (0, some [("x", .str [97]), ("y", .str [98])]), some (4, some [("x", .str [99, 44]), ("y", .str [100])]),
     some (11, some [("x", .str [101]), ("y", .null)])] := by rfl
example : (sampleInput false).reader.eof (sampleInput false).reader.init = .eof := by rfl
example : CsvRows sampleCsv [97, 10, 98] 0 [(0, [[97]]), (2, [[98]])] true :=
  .row (n := 2) rfl (.row (n := 1) rfl (.eof rfl))

/-- **C37** A CSV file without malformed rows, scanned without an ignored first row, is a table of records in the sense
assumed by the index theorems, and each of its records is fetched back. -/
theorem C37_csv_is_record_table (c : CsvInput) (hend : c.reader.eof c.reader.init = .eof) (hfirst : c.ignoreFirstRow = false)
    (content : Bytes) (rows : List (Nat × List Bytes)) (hrows : CsvRows c.reader content 0 rows true) (name : String) (modTimeNs : Int)
    (sched : Nat → List Nat) (fetchFrom : Int → BufReader × List Nat) (hfile : ∀ p, (fetchFrom p).1.content = content) :
    RecordTable (csvAsInput c name content modTimeNs sched fetchFrom) (rows.map (fun x => csvRecord c.columns x.2 x.1)) ∧
    ∀ record ∈ rows.map (fun x => csvRecord c.columns x.2 x.1),
      (csvAsInput c name content modTimeNs sched fetchFrom).fetch record.position = .ok record := by
  have hs := C37_csv_scan_is_rows c hend hfirst content rows true hrows sched
  simp only [if_true, List.append_nil] at hs
  refine ⟨⟨?_, ?_⟩, ?_⟩
  · show csvScan c content sched = _
    rw [hs, List.map_map]; rfl
  · have := (CsvRows.spec hend hrows).1
    rw [List.map_map, List.pairwise_map]
    rw [List.pairwise_map] at this
    exact this.imp (fun h => by simpa [csvRecord] using h)
  · intro record hr
    obtain ⟨x, hx, rfl⟩ := List.mem_map.mp hr
    refine (C37_csv_fetch_returns_scanned c hend content sched _ hs).1 _ ?_ _ _ (hfile _)
    exact List.mem_map.mpr ⟨x, hx, rfl⟩

/-- **C38** Any number of requests fetch records concurrently, in any interleaving of their steps and with anything read
ahead; the shared reader may be in any state at first. A request that got its answer got the row at
the position it asked for, the same as if it had been alone. -/
theorem C38_concurrent_fetches (m : ItemReader CsvRead) (r : BufReader) (positions : List Nat) (sched : List (Nat × Nat)) (i : Nat)
    (f : Fetch m) (a : CsvRead)
    (hf : (({ locked := false, reader := r, fetches := positions.map (fun p => ⟨p, .waiting⟩) } : FetchSystem m).run sched).fetches[i]? = some f)
    (hdone : f.state = .done a) :
    ∃ p, positions[i]? = some p ∧ a = firstItem m (r.content.drop p) := by
  have hinv : FetchInv r.content ({ locked := false, reader := r, fetches := positions.map (fun p => ⟨p, .waiting⟩) } : FetchSystem m) := by
    have hw : ∀ (i : Nat) (f : Fetch m), (positions.map (fun p => (⟨p, .waiting⟩ : Fetch m)))[i]? = some f → f.state = .waiting := by
      intro i f h
      rw [List.getElem?_map] at h
      cases hp : positions[i]? with
      | none => rw [hp] at h; cases h
      | some p => rw [hp] at h; cases h; rfl
    refine ⟨rfl, ?_, ?_, ?_⟩
    · intro i f h; rw [hw i f h]; trivial
    · intro _ i f h; rw [hw i f h]; rfl
    · intro i j f g h1 h2 h3; rw [hw i f h1] at h3; cases h3
  have hg := (hinv.run sched).good i f hf
  rw [hdone] at hg
  have hp := FetchSystem.run_positions sched ({ locked := false, reader := r, fetches := positions.map (fun p => ⟨p, .waiting⟩) } : FetchSystem m)
  simp only [List.map_map] at hp
  have hpi := congrArg (fun l => l[i]?) hp
  simp only [List.getElem?_map, hf, Option.map_some] at hpi
  refine ⟨f.position, ?_, hg⟩
  cases hp' : positions[i]? with
  | none => rw [hp'] at hpi; cases hpi
  | some p => rw [hp'] at hpi; simp at hpi; rw [hpi]

/-- The answers so far. -/
def answers (s : FetchSystem sampleCsv) : List (Option (List Bytes)) :=
  s.fetches.map (fun f => match f.state with
    | .done (.row cells) => some cells
    | _ => none)

example : answers (({ locked := false, reader := csvOpen sampleFile, fetches := [0, 4].map (fun p => ⟨p, .waiting⟩) } : FetchSystem sampleCsv).run
    ((List.range 30).flatMap (fun i => [(0, i), (1, 3)]))) = [some [[97], [98]], some [[99, 44], [100]]] := by decide +kernel

/-- **C38** Without the lock the rows would mix: two requests, both past the lock, of which the second seeks between
the seek and the reset of the first. The first, which asked for position 0, gets the row at position 4. -/
theorem C38_lock_is_needed :
    answers (({ locked := true, reader := csvOpen sampleFile, fetches := [⟨0, .locked⟩, ⟨4, .locked⟩] } : FetchSystem sampleCsv).run
      ([(0, 0), (1, 0)] ++ List.replicate 15 (0, 0))) = [some [[99, 44], [100]], none] := by decide +kernel

/-- **C39** A record has exactly the configured columns, in order: the `j`-th is what its parser makes of the `j`-th cell,
and null if there is none; surplus cells change nothing. -/
theorem C39_record_columns (columns : List CsvColumn) (hnd : (columns.map (·.name)).Nodup) (cells : List Bytes) (position : Int) :
    (∀ m, (csvRecord columns cells position).all = .ok m →
      (∀ k, (∃ v, (k, v) ∈ m) ↔ k ∈ columns.map (·.name)) ∧
      (∀ (j : Nat) (c : CsvColumn), columns[j]? = some c →
        match cells[j]? with
        | none => mapGet m c.name = some .null
        | some cell => ∃ v, c.parse cell = .ok v ∧ mapGet m c.name = some v)) ∧
    ((csvRecord columns cells position).all = (csvRecord columns (cells.take columns.length) position).all ∧
     (csvRecord columns cells position).get = (csvRecord columns (cells.take columns.length) position).get) ∧
    ((∀ c ∈ columns, ∀ cell ∈ cells, ∃ v, c.parse cell = .ok v) → ∃ m, (csvRecord columns cells position).all = .ok m) := by
  have hcol := csvGetColumn_spec hnd cells
  refine ⟨?_, ?_, ?_⟩
  · intro m hall
    have hall' : csvAll columns cells columns [] = .ok m := hall
    obtain ⟨h1, h2⟩ := csvAll_spec hnd hall'
    have hkey : ∀ k : String, (∃ v, (k, v) ∈ m) ↔ ∃ v, mapGet m k = some v := fun k => ⟨fun ⟨v, hv⟩ => mapGet_of_mem hv, fun ⟨v, hv⟩ => ⟨v, mapGet_mem hv⟩⟩
    refine ⟨?_, ?_⟩
    · intro k
      rw [hkey]
      constructor
      · rintro ⟨v, hv⟩
        apply Classical.byContradiction
        intro hk
        rw [h1 k hk] at hv
        cases hv
      · intro hk
        obtain ⟨c, hc, rfl⟩ := List.mem_map.mp hk
        obtain ⟨v, _, hv⟩ := h2 c hc
        exact ⟨v, hv⟩
    · intro j c hj
      obtain ⟨v, hv, hm⟩ := h2 c (List.mem_of_getElem? hj)
      rw [hcol.1 j c hj] at hv
      cases hd : cells[j]? with
      | none => rw [hd] at hv; cases hv; exact hm
      | some cell => rw [hd] at hv; exact ⟨v, hv, hm⟩
  · have hcell : ∀ name, csvGetColumn columns cells name = csvGetColumn columns (cells.take columns.length) name := by
      intro name
      have hcol' := csvGetColumn_spec hnd (cells.take columns.length)
      by_cases hn : name ∈ columns.map (·.name)
      · obtain ⟨c, hc, rfl⟩ := List.mem_map.mp hn
        obtain ⟨j, hlt, hj⟩ := List.mem_iff_getElem.mp hc
        have hj' : columns[j]? = some c := by rw [List.getElem?_eq_some_iff]; exact ⟨hlt, hj⟩
        rw [hcol.1 j c hj', hcol'.1 j c hj', List.getElem?_take, if_pos hlt]
      · unfold csvGetColumn
        rw [(columnIndexes_get columns 0 [] hnd).1 hn]
        rfl
    constructor
    · show csvAll columns cells columns [] = csvAll columns (cells.take columns.length) columns []
      have : ∀ (todo : List CsvColumn) (result : GoMap Value), csvAll columns cells todo result = csvAll columns (cells.take columns.length) todo result := by
        intro todo
        induction todo with
        | nil => intro result; rfl
        | cons c todo ih =>
          intro result
          simp only [csvAll, hcell c.name]
          cases csvGetColumn columns (cells.take columns.length) c.name with
          | error e => rfl
          | ok v => exact ih _
      exact this _ _
    · funext path
      simp only [csvRecord]
      split
      · rfl
      · cases splitPath path with
        | nil => rfl
        | cons k rest => simp only [hcell k]
  · intro hp
    show ∃ m, csvAll columns cells columns [] = .ok m
    have : ∀ (todo : List CsvColumn), (∀ c ∈ todo, c ∈ columns) → ∀ result : GoMap Value, ∃ m, csvAll columns cells todo result = .ok m := by
      intro todo
      induction todo with
      | nil => intro _ result; exact ⟨result, rfl⟩
      | cons c todo ih =>
        intro hsub result
        have hc := hsub c List.mem_cons_self
        obtain ⟨j, hlt, hj⟩ := List.mem_iff_getElem.mp hc
        have hj' : columns[j]? = some c := by rw [List.getElem?_eq_some_iff]; exact ⟨hlt, hj⟩
        have hv : ∃ v, csvGetColumn columns cells c.name = .ok v := by
          rw [hcol.1 j c hj']
          cases hd : cells[j]? with
          | none => exact ⟨_, rfl⟩
          | some cell => exact hp c hc cell (List.mem_of_getElem? hd)
        obtain ⟨v, hv⟩ := hv
        simp only [csvAll, hv]
        exact ih (fun c hc => hsub c (List.mem_cons_of_mem _ hc)) _
    exact this columns (fun c hc => hc) []

example : shown (csvScan (sampleInput false) [97, 10, 98, 44, 99, 44, 100] (fun _ => [])) = some
    [some (0, some [("x", .str [97]), ("y", .null)]), some (2, some [("x", .str [98]), ("y", .str [99])])] := by rfl

/-- **C39** A scan of a file without malformed rows never fails because of the width of a row, provided that no first row
is ignored: there is a record for every row, whatever its width.

Partial: with `ignoreFirstRow` the property is false, see `C39_false`. -/
theorem C39_width_never_fails_partial (c : CsvInput) (hend : c.reader.eof c.reader.init = .eof) (hfirst : c.ignoreFirstRow = false)
    (content : Bytes) (rows : List (Nat × List Bytes)) (hrows : CsvRows c.reader content 0 rows true) (sched : Nat → List Nat) :
    csvScan c content sched = .ok (rows.map (fun x => .ok (csvRecord c.columns x.2 x.1))) := by
  have := C37_csv_scan_is_rows c hend hfirst content rows true hrows sched
  simpa using this

example : CsvRows sampleCsv [97, 10, 98, 44, 44, 98] 0 [(0, [[97]]), (2, [[98], [], [98]])] true :=
  .row (n := 2) rfl (.row (n := 4) rfl (.eof rfl))

/-- **C39** With an ignored first row of the right width, the scan gives a record for every following row. -/
theorem C39_after_header (c : CsvInput) (hend : c.reader.eof c.reader.init = .eof) (hfirst : c.ignoreFirstRow = true)
    (content : Bytes) (header : List Bytes) (n : Nat) (hheader : readItem c.reader c.reader.init content = (.row header, n))
    (hwidth : header.length = c.columns.length) (rows : List (Nat × List Bytes)) (hrows : CsvRows c.reader content n rows true)
    (sched : Nat → List Nat) :
    csvScan c content sched = .ok (rows.map (fun x => .ok (csvRecord c.columns x.2 x.1))) := by
  have hst : ∃ r, csvStart c content (sched 0) = .ok r := by
    unfold csvStart
    rw [hfirst]
    simp only [if_true]
    obtain ⟨h1, _, _⟩ := c.reader.read_spec (sched 0) (csvOpen_at content)
    have h1' : (c.reader.read (sched 0) (csvOpen content)).1 = .row header := by
      rw [h1]; show firstItem c.reader content = _; unfold firstItem; rw [hheader]
    cases hr : c.reader.read (sched 0) (csvOpen content) with
    | mk a r =>
      rw [hr] at h1'
      simp only at h1'
      subst h1'
      simp [hwidth]
  obtain ⟨r, hr⟩ := hst
  have hs : csvScan c content sched = .ok (csvRecords c (content.length + 1) (fun i => sched (i + 1)) r) := by
    simp [csvScan, hr]
  obtain ⟨rows', complete', h1, h2⟩ := csvScan_spec hend hs
  unfold csvFirst at h1
  rw [hfirst] at h1
  simp only [if_true, hheader] at h1
  obtain ⟨rfl, rfl⟩ := CsvRows.unique hrows h1
  rw [hs, h2]
  simp

example : shown (csvScan (sampleInput true) sampleFile (fun _ => [5, 0, 2])) = some
    [some (4, some [("x", .str [99, 44]), ("y", .str [100])]), some (11, some [("x", .str [101]), ("y", .null)])] := by rfl

/-- **C39** is false of the code: with `ignoreFirstRow`, a first row of another width than the configured columns makes the
whole scan fail, although the row would be ignored; so does an empty file. (csv.go:184-189 returns every error of the
first `Read`, `ErrFieldCount` and `io.EOF` included.) -/
theorem C39_false :
    (∃ rows, CsvRows sampleCsv [97, 44, 98, 44, 99, 10, 100, 44, 101, 10] 0 rows true) ∧
    csvScan (sampleInput true) [97, 44, 98, 44, 99, 10, 100, 44, 101, 10] (fun _ => []) = .error (.err "wrong number of fields") ∧
    csvScan (sampleInput true) [] (fun _ => []) = .error (.err "EOF") :=
  ⟨⟨_, .row (n := 6) rfl (.row (n := 4) rfl (.eof rfl))⟩, rfl, rfl⟩

/-! ### JSON -/

/-- **C40** A JSON file made of documents separated by spaces (any amounts, also at the end): the scan hands out every document,
in order, with its position; fetching this position gives the same document; positions are increasing. -/
theorem C40_json_scan_all_documents (decode : JsonDecoder) (content : Bytes) (docs : List (Nat × GoMap Value)) (tail : Bytes)
    (hfile : JsonDocs decode 0 content docs tail) (hblank : Blank tail) :
    jsonScan decode content = .ok (docs.map (fun x => .ok (jsonRecord x.2 x.1))) ∧
    (∀ x ∈ docs, jsonFetch decode content x.1 = .ok (jsonRecord x.2 x.1)) ∧
    (docs.map (·.1)).Pairwise (· < ·) := by
  obtain ⟨h1, _, h3⟩ := JsonDocs.spec hfile content rfl
  refine ⟨?_, h3, h1⟩
  obtain ⟨q, fuel, e1, e2, e3⟩ := jsonRecords_docs hfile rfl (content.length + 1) (by omega)
  unfold jsonScan
  rw [e3, (jsonRecords_end e1 e2).1 hblank, List.append_nil]

/-- **C40** Malformed content after the documents is reported as an error, after the documents. -/
theorem C40_json_malformed_reported (decode : JsonDecoder) (content : Bytes) (docs : List (Nat × GoMap Value)) (tail : Bytes)
    (hfile : JsonDocs decode 0 content docs tail) (hbad : Malformed decode tail) :
    jsonScan decode content = .ok (docs.map (fun x => .ok (jsonRecord x.2 x.1)) ++ [.error (.err "Cannot read json data")]) := by
  obtain ⟨q, fuel, e1, e2, e3⟩ := jsonRecords_docs hfile rfl (content.length + 1) (by omega)
  unfold jsonScan
  rw [e3, (jsonRecords_end e1 e2).2.2 hbad]

/-- **C40** For every file: every record handed out by the scan is fetched back by its position, and if no error is
reported, then the whole file is the documents handed out and spaces, or the scan stopped before a closing bracket or
brace. (`hdec`: a document has at least one byte and ends inside the file.)

Partial: a stray closing bracket or brace is malformed content, too, but ends the scan without an error, see `C40_false`. -/
theorem C40_json_nothing_lost_partial (decode : JsonDecoder) (hdec : ∀ bytes data n, decode bytes = (.doc data, n) → 1 ≤ n ∧ n ≤ bytes.length)
    (content : Bytes) : ∃ docs tail l, JsonDocs decode 0 content docs tail ∧ jsonScan decode content = .ok l ∧
      (∀ record : Rec, .ok record ∈ l → jsonFetch decode content record.position = .ok record) ∧
      ((∀ e, .error e ∉ l) → l = docs.map (fun x => .ok (jsonRecord x.2 x.1)) ∧ (Blank tail ∨ StartsClosing tail)) := by
  obtain ⟨docs, tail, h1, h2⟩ := jsonDocs_total hdec content.length content (Nat.le_refl _) 0
  obtain ⟨q, fuel, e1, e2, e3⟩ := jsonRecords_docs h1 rfl (content.length + 1) (by omega)
  obtain ⟨_, _, g3⟩ := JsonDocs.spec h1 content rfl
  refine ⟨docs, tail, _, h1, rfl, ?_, ?_⟩
  · intro record hr
    rw [e3] at hr
    rcases List.mem_append.mp hr with hr | hr
    · obtain ⟨x, hx, he⟩ := List.mem_map.mp hr
      cases he
      exact g3 x hx
    · rcases h2 with h2 | h2 | h2
      · rw [(jsonRecords_end e1 e2).1 h2] at hr; cases hr
      · rw [(jsonRecords_end e1 e2).2.1 h2] at hr; cases hr
      · rw [(jsonRecords_end e1 e2).2.2 h2] at hr; simp at hr
  · intro hno
    rcases h2 with h2 | h2 | h2
    · exact ⟨by rw [e3, (jsonRecords_end e1 e2).1 h2, List.append_nil], .inl h2⟩
    · exact ⟨by rw [e3, (jsonRecords_end e1 e2).2.1 h2, List.append_nil], .inr h2⟩
    · exfalso
      rw [e3, (jsonRecords_end e1 e2).2.2 h2] at hno
      exact hno _ (List.mem_append_right _ List.mem_cons_self)

/-- A decoder for the examples: `{}`, and `{"k":d}` where `d` is a digit. -/
def sampleDecoder : JsonDecoder
  | 123 :: 125 :: _ => (.doc [], 2)
  | 123 :: 34 :: 107 :: 34 :: 58 :: d :: 125 :: _ => (.doc [("k", .int (d.toNat - 48))], 7)
  | _ => (.bad, 0)

example : ∀ bytes data n, sampleDecoder bytes = (.doc data, n) → 1 ≤ n ∧ n ≤ bytes.length := by
  intro bytes data n h
  unfold sampleDecoder at h
  split at h
  · cases h; simp
  · cases h; simp
  · cases h

/-- `{"k":1}`, a line feed, two spaces, `{}`, a line feed. -/
example : JsonDocs sampleDecoder 0 [123, 34, 107, 34, 58, 49, 125, 10, 32, 32, 123, 125, 10] [(0, [("k", .int 1)]), (10, [])] [10] := by
  refine .doc (spaces := []) (text := [123, 34, 107, 34, 58, 49, 125]) (rest := [10, 32, 32, 123, 125, 10]) ?_ ⟨_, _, rfl, rfl, by decide, by decide⟩ rfl ?_
  · intro b hb; cases hb
  · exact .doc (p := 7) (spaces := [10, 32, 32]) (text := [123, 125]) (rest := [10]) (by decide) ⟨_, _, rfl, rfl, by decide, by decide⟩ rfl .done

example : Malformed sampleDecoder [32, 120] := ⟨[32], 120, [], rfl, by unfold Blank; decide, rfl, by decide, by decide, rfl⟩

/-- **C40** is false of the code: a file with a closing brace too many, `{}}{"k":1}`, is not reported as malformed, and the
document after it is silently lost (pkg/input/json.go:130 takes `More() = false` for the end of the file). -/
theorem C40_false : shown (jsonScan sampleDecoder [123, 125, 125, 123, 34, 107, 34, 58, 49, 125]) = some [some (0, some [])] ∧
    sampleDecoder [123, 34, 107, 34, 58, 49, 125] = (.doc [("k", .int 1)], 7) := ⟨by rfl, rfl⟩

/-! ### Autodetection -/

/-- **C41** Autodetection succeeds exactly when the cells of the first row are non-empty and pairwise different, and then the
columns are named by the cells, in order, with the parser of strings. -/
theorem C41_autodetect (string : Bytes → Res Value) (cells : List String) (columns : List CsvColumn) :
    autodetectColumns string cells = .ok columns ↔
      (∀ c ∈ cells, c ≠ "") ∧ cells.Nodup ∧ columns = cells.map (fun c => { name := c, parse := string }) := by
  unfold autodetectColumns
  rw [autodetectLoop_spec]
  simp

/-- **C41** and then the `i`-th cell of a row is found under the name in the `i`-th cell of the first row. -/
theorem C41_autodetected_lookup (string : Bytes → Res Value) (cells : List String) (columns : List CsvColumn)
    (h : autodetectColumns string cells = .ok columns) (i : Nat) (name : String) (hi : cells[i]? = some name) (row : List Bytes)
    (cell : Bytes) (hcell : row[i]? = some cell) (hdot : ∀ c ∈ name.toList, c ≠ '.') (position : Int) :
    (csvRecord columns row position).get name = string cell := by
  obtain ⟨h1, h2, rfl⟩ := (C41_autodetect string cells columns).mp h
  have hnames : ((cells.map (fun c => ({ name := c, parse := string } : CsvColumn))).map (·.name)) = cells := by
    rw [List.map_map]; simp [Function.comp_def]
  have hcol := (csvGetColumn_spec (columns := cells.map (fun c => ({ name := c, parse := string } : CsvColumn))) (by rw [hnames]; exact h2) row).1
    i ⟨name, string⟩ (by rw [List.getElem?_map, hi]; rfl)
  rw [hcell] at hcol
  simp only at hcol
  have hne : name ≠ "" := h1 name (List.mem_of_getElem? hi)
  simp only [csvRecord, if_neg hne, splitPath_nodot hdot, hcol]
  cases string cell with
  | error e => rfl
  | ok v => simp [getSubValue]

example : (match autodetectColumns (fun b => .ok (.str b)) ["id", "name"] with
    | .ok cs => cs.map (·.name)
    | .error _ => []) = ["id", "name"] := by rfl

end Rodb
