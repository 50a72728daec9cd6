import Verif.Spec.RetoldFiles
import Verif.Proofs.RetoldStart
import Verif.Props.XmlFilesProps
import Verif.Props.UnindexedProps
/-
  C127 : how the data files are written, if they hold the same data.
-/
namespace Rodb
open Spec

/-- **C127** Two inputs with the same name tell the same if the same records are read in both, in the same order, if in both the positions increase, and if each record is found at its position. -/
theorem C127_same_records (i i' : Input) (hname : i'.name = i.name) (records records' : List Rec) (hscan : i.scan = .ok (records.map .ok)) (hscan' : i'.scan = .ok (records'.map .ok))
    (hsame : All2 (fun r r' : Rec => r'.get = r.get ∧ r'.all = r.all) records records') (ho : (records.map Rec.position).Pairwise (· < ·)) (ho' : (records'.map Rec.position).Pairwise (· < ·))
    (hfetch : ∀ r ∈ records, i.fetch r.position = .ok r) (hfetch' : ∀ r ∈ records', i'.fetch r.position = .ok r) : TellsTheSame i i' := by
  have pair : ∀ {l l' : List Rec}, All2 (fun r r' : Rec => r'.get = r.get ∧ r'.all = r.all) l l' → ∀ (k : Nat) (r r' : Rec), l[k]? = some r → l'[k]? = some r' → r'.get = r.get ∧ r'.all = r.all := by
    intro l l' h
    induction h with
    | nil => intro k r r' h; simp at h
    | cons h _ ih =>
      intro k r r' h1 h2
      cases k with
      | zero => simp only [List.getElem?_cons_zero, Option.some.injEq] at h1 h2; subst h1 h2; exact h
      | succ k => exact ih k r r' (by simpa using h1) (by simpa using h2)
  have less : ∀ {l : List Rec}, (l.map Rec.position).Pairwise (· < ·) → ∀ (k m : Nat) (r s : Rec), l[k]? = some r → l[m]? = some s → (r.position < s.position ↔ k < m) := by
    intro l h k m r s hr hs
    obtain ⟨hk, rfl⟩ := List.getElem?_eq_some_iff.1 hr
    obtain ⟨hm, rfl⟩ := List.getElem?_eq_some_iff.1 hs
    have key := fun a b ha hb hab => List.pairwise_iff_getElem.1 h a b (by simpa using ha) (by simpa using hb) hab
    simp only [List.getElem_map] at key
    constructor
    · intro hlt
      rcases Nat.lt_trichotomy k m with h | rfl | h
      · exact h
      · omega
      · have := key m k hm hk h; omega
    · exact fun h => key k m hk hm h
  refine ⟨fun p p' => ∃ (k : Nat) (r r' : Rec), records[k]? = some r ∧ records'[k]? = some r' ∧ p = r.position ∧ p' = r'.position, ?_, hname, ?_, ?_⟩
  · rintro p p' q q' ⟨k, r, r', h1, h2, rfl, rfl⟩ ⟨m, s, s', h3, h4, rfl, rfl⟩
    rw [less ho k m r s h1 h3, less ho' k m r' s' h2 h4]
  · rw [hscan, hscan']
    refine .ok ?_
    have lift : ∀ {l l' : List Rec} {C : Int → Int → Prop}, All2 (fun r r' : Rec => r'.get = r.get ∧ r'.all = r.all) l l' → (∀ (k : Nat) r r', l[k]? = some r → l'[k]? = some r' → C r.position r'.position) →
        All2 (SameResult (SameRecord C)) (l.map .ok) (l'.map .ok) := by
      intro l l' C h
      induction h with
      | nil => exact fun _ => .nil
      | cons h _ ih =>
        intro hC
        exact .cons (.ok ⟨h.1, h.2, hC 0 _ _ rfl rfl⟩) (ih (fun k r r' h1 h2 => hC (k + 1) r r' (by simpa using h1) (by simpa using h2)))
    exact lift hsame (fun k r r' h1 h2 => ⟨k, r, r', h1, h2, rfl, rfl⟩)
  · rintro p p' ⟨k, r, r', h1, h2, rfl, rfl⟩
    rw [hfetch r (List.mem_of_getElem? h1), hfetch' r' (List.mem_of_getElem? h2)]
    obtain ⟨h3, h4⟩ := pair hsame k r r' h1 h2
    exact .ok ⟨h3, h4, k, r, r', h1, h2, rfl, rfl⟩

/-! ### CSV -/

theorem detectColumns_length : ∀ {names seen : List String} {columns : List ColumnDecl}, detectColumns seen names = .ok columns → columns.length = names.length
  | [], _, _, h => by cases h; rfl
  | name :: rest, seen, columns, h => by
    simp only [detectColumns, bind_ok, ok_inj] at h
    obtain ⟨_, _, _, _, columns, h, rfl⟩ := h
    simp only [List.length_cons, detectColumns_length h]

theorem rowRecords_retold (columns : List CsvColumn) : ∀ {rows : List (List Bytes)} {positions positions' : List Nat}, positions.length = rows.length → positions'.length = rows.length →
    All2 (fun r r' : Rec => r'.get = r.get ∧ r'.all = r.all) (rowRecords columns positions rows) (rowRecords columns positions' rows)
  | [], positions, positions', _, _ => by simp only [rowRecords, List.zipWith_nil_right]; exact .nil
  | row :: rows, [], _, h, _ => by simp at h
  | row :: rows, _ :: _, [], _, h => by simp at h
  | row :: rows, p :: ps, p' :: ps', h, h' => .cons ⟨rfl, rfl⟩ (rowRecords_retold columns (by simpa using h) (by simpa using h'))

theorem rowRecords_positions (columns : List CsvColumn) : ∀ {rows : List (List Bytes)} {positions : List Nat}, positions.length = rows.length →
    (rowRecords columns positions rows).map Rec.position = positions.map (fun n : Nat => (n : Int))
  | [], [], _ => rfl
  | row :: rows, [], h => by simp at h
  | [], _ :: _, h => by simp at h
  | row :: rows, p :: ps, h => by
    have ih := rowRecords_positions columns (rows := rows) (positions := ps) (by simpa using h)
    simp only [rowRecords] at ih
    simp only [rowRecords, List.zipWith_cons_cons, List.map_cons, ih]
    rfl

theorem Spec.CsvFile.positions {files : Files} {d : CsvDecl} {columns : List ColumnDecl} {rows : List (List Bytes)} (h : CsvFile files d columns rows) (cols : List CsvColumn)
    (hc : cols.length = columns.length) : ∃ content comma, files.content d.path = some content ∧ utf8 (orText d.delimiter ",").toList = [comma] ∧
      ∃ positions : List Nat, positions.length = rows.length ∧ positions.Pairwise (· < ·) ∧
        (∀ sched, csvScan ⟨cols, d.ignoreFirstRow, csvReader comma⟩ content sched = .ok ((rowRecords cols positions rows).map .ok)) ∧
        ∀ record ∈ rowRecords cols positions rows, ∀ (r : BufReader) (sched : List Nat), r.content = content →
          (csvFetch ⟨cols, d.ignoreFirstRow, csvReader comma⟩ sched r record.position).1 = .ok record := by
  obtain ⟨content, comma, written, table, hcontent, hcomma, hg, htext, rfl, hcols, hrows⟩ := h
  refine ⟨content, comma, hcontent, hcomma, ?_⟩
  by_cases hfirst : d.ignoreFirstRow = true
  · rw [if_pos hfirst] at hrows
    obtain ⟨header, htable, hwidth⟩ := hrows
    cases written with
    | nil => simp at htable
    | cons first written =>
      simp only [List.map_cons, List.cons.injEq] at htable
      obtain ⟨rfl, rfl⟩ := htable
      obtain ⟨positions, h1, h2, h3, h4⟩ := C82_header comma hg cols first written content htext (by rw [hc]; simpa using hwidth)
      rw [hfirst]
      exact ⟨positions, by simpa using h1, h2, h3, h4⟩
  · rw [if_neg hfirst] at hrows
    subst hrows
    obtain ⟨positions, h1, h2, h3, h4⟩ := C82_csv_table comma hg cols written content htext
    rw [show d.ignoreFirstRow = false by simpa using hfirst]
    exact ⟨positions, by simpa using h1, h2, h3, h4⟩

/-- The columns that are found, the same in both files. -/
theorem Spec.CsvFile.columns {files : Files} {d : CsvDecl} {columns : List ColumnDecl} {rows : List (List Bytes)} (h : CsvFile files d columns rows) (rest : StartLib) {c : CsvDecl}
    (hc : completedInput (.csv d) = .csv c) : ∃ r : Res (List ColumnDecl), (∀ cols, r = .ok cols → cols.length = columns.length) ∧ c.findColumns (rest.onFiles files) = r ∧
      r = (if d.autodetectColumns = true then detectColumns [] (columns.map (·.name)) else .ok columns) := by
  obtain ⟨content, comma, written, table, hcontent, hcomma, hg, htext, rfl, hcols, hrows⟩ := h
  simp only [completedInput, InputDecl.csv.injEq] at hc
  subst hc
  unfold FileColumns at hcols
  by_cases hauto : d.autodetectColumns = true
  · rw [if_pos hauto] at hcols
    obtain ⟨names, others, htable, rfl⟩ := hcols
    have hfirst := firstCsvRow_names (files := files) (d := { d with delimiter := orText d.delimiter "," }) hcontent hcomma hg htext htable
    refine ⟨detectColumns [] names, fun cols h => by rw [detectColumns_length h]; simp, ?_, by rw [if_pos hauto]; simp [Function.comp_def]⟩
    refine (if_pos hauto).trans ?_
    show (firstCsvRow files _ >>= fun row => detectColumns [] row) = _
    have e : firstCsvRow files { d with dieOnInputChange := some (d.dieOnInputChange.getD true), delimiter := orText d.delimiter ",", columns := d.columns.map (fun c => { c with parser := orText c.parser "string" }) } = .ok names := hfirst
    rw [e]
    rfl
  · rw [if_neg hauto] at hcols
    subst hcols
    refine ⟨.ok _, fun cols h => by cases h; rfl, ?_, by rw [if_neg hauto]⟩
    exact if_neg hauto

/-- **C127** A CSV file that is written in another way, with the same columns and rows, is the same for the program: the start fails with the same error, or the input tells the same. -/
theorem C127_csv (rest : StartLib) (files files' : Files) (texts : GoMap TextParser) (d : CsvDecl) (columns : List ColumnDecl) (rows : List (List Bytes)) (h : CsvFile files d columns rows)
    (h' : CsvFile files' d columns rows) :
    SameResult TellsTheSame (InputDecl.instantiate (rest.onFiles files) texts (completedInput (.csv d))) (InputDecl.instantiate (rest.onFiles files') texts (completedInput (.csv d))) := by
  obtain ⟨r, hl, hf, hr⟩ := h.columns rest rfl
  obtain ⟨r', _, hf', hr'⟩ := h'.columns rest rfl
  rw [← hr'.trans hr.symm] at hf hl
  obtain ⟨content, hcontent⟩ : ∃ content, files.content d.path = some content := by
    obtain ⟨content, _, _, _, hcontent, _⟩ := h
    exact ⟨content, hcontent⟩
  obtain ⟨content', hcontent'⟩ : ∃ content, files'.content d.path = some content := by
    obtain ⟨content, _, _, _, hcontent, _⟩ := h'
    exact ⟨content, hcontent⟩
  have ho : (rest.onFiles files).openCsv = openCsvFile files := rfl
  have ho' : (rest.onFiles files').openCsv = openCsvFile files' := rfl
  simp only [completedInput, InputDecl.instantiate, CsvDecl.instantiate, hf, hf', ho, ho', openCsvFile, hcontent, hcontent']
  cases hfound : r' with
  | error e => exact .error e
  | ok cols =>
    have hlen := hl cols hfound
    by_cases hp : cols.all (fun column => (mapGet texts column.parser).isSome) = true
    · have q : require (cols.all (fun column => (mapGet texts column.parser).isSome)) "Parser does not exist" = .ok () := by rw [hp]; rfl
      simp only [q, bind, Except.bind]
      obtain ⟨c1, comma, k1, k2, positions, k3, k4, k5, k6⟩ := h.positions (cols.map (foundColumn (parseFunctions (rest.onFiles files) texts))) (by rw [List.length_map, hlen])
      obtain ⟨c2, comma', k1', k2', positions', k3', k4', k5', k6'⟩ := h'.positions (cols.map (foundColumn (parseFunctions (rest.onFiles files') texts))) (by rw [List.length_map, hlen])
      rw [k2] at k2'
      cases k2'
      obtain ⟨ch, hch, hcomma⟩ := comma_of k2
      show SameResult TellsTheSame (openCsvInput files _ _) (openCsvInput files' _ _)
      simp only [openCsvInput, k1, k1', CsvDecl.comma, hch, hcomma, bind, Except.bind, csvColumns_eq]
      refine .ok (C127_same_records _ _ rfl _ _ (k5 _) (k5' _) (rowRecords_retold _ k3 k3') ?_ ?_ (fun r hr => k6 r hr _ _ rfl) (fun r hr => k6' r hr _ _ rfl))
      · rw [rowRecords_positions _ k3, List.pairwise_map]
        exact k4.imp (fun h => Int.ofNat_lt.2 h)
      · rw [rowRecords_positions _ k3', List.pairwise_map]
        exact k4'.imp (fun h => Int.ofNat_lt.2 h)
    · have q : ∃ e, require (cols.all (fun column => (mapGet texts column.parser).isSome)) "Parser does not exist" = .error e := by
        simp only [Bool.not_eq_true] at hp
        rw [hp]
        exact ⟨_, rfl⟩
      obtain ⟨e, q⟩ := q
      simp only [q, bind, Except.bind]
      exact .error e

/-! ### JSON and XML -/

theorem jsonRecords_retold : ∀ {objects : List (GoMap Value)} {records records' : List Rec}, records.length = objects.length → records'.length = objects.length →
    (∀ (i : Nat) m r, objects[i]? = some m → records[i]? = some r → r = jsonRecord m r.position) → (∀ (i : Nat) m r, objects[i]? = some m → records'[i]? = some r → r = jsonRecord m r.position) →
    All2 (fun r r' : Rec => r'.get = r.get ∧ r'.all = r.all) records records'
  | [], [], [], _, _, _, _ => .nil
  | [], _ :: _, _, h, _, _, _ => by simp at h
  | [], [], _ :: _, _, h, _, _ => by simp at h
  | _ :: _, [], _, h, _, _, _ => by simp at h
  | _ :: _, _ :: _, [], _, h, _, _ => by simp at h
  | m :: objects, r :: records, r' :: records', h, h', e, e' => by
    have e1 := e 0 m r rfl rfl
    have e2 := e' 0 m r' rfl rfl
    refine .cons ?_ (jsonRecords_retold (by simpa using h) (by simpa using h') (fun i m r h1 h2 => e (i + 1) m r (by simpa using h1) (by simpa using h2))
      (fun i m r h1 h2 => e' (i + 1) m r (by simpa using h1) (by simpa using h2)))
    rw [e1, e2]
    exact ⟨rfl, rfl⟩

/-- **C127** A JSON file that is written in another way, with the same objects, tells the same. -/
theorem C127_json (rest : StartLib) (files files' : Files) (parseFloat : Bytes → Res GoFloat) (texts : GoMap TextParser) (d : JsonDecl) (objects : List (GoMap Value))
    (h : JsonHolds files parseFloat d objects) (h' : JsonHolds files' parseFloat d objects) :
    SameResult TellsTheSame (InputDecl.instantiate (rest.onFiles files) texts (completedInput (.json d))) (InputDecl.instantiate (rest.onFiles files') texts (completedInput (.json d))) := by
  obtain ⟨h1, h2, content, h3, h4⟩ := h
  obtain ⟨h1', _, content', h3', h4'⟩ := h'
  obtain ⟨records, k1, k2, k3, k4, k5⟩ := C85_json_file parseFloat objects content h4 (fun m hm => (h2 m hm).2)
  obtain ⟨records', k1', k2', k3', k4', k5'⟩ := C85_json_file parseFloat objects content' h4' (fun m hm => (h2 m hm).2)
  have e : ∀ (i : Nat) m r, objects[i]? = some m → records[i]? = some r → r = jsonRecord m r.position := by
    intro i m r hm hr
    obtain ⟨data, e1, _, e2⟩ := k5 i m r hm hr
    rw [← e2 (h2 m (List.mem_of_getElem? hm)).1]
    exact e1
  have e' : ∀ (i : Nat) m r, objects[i]? = some m → records'[i]? = some r → r = jsonRecord m r.position := by
    intro i m r hm hr
    obtain ⟨data, e1, _, e2⟩ := k5' i m r hm hr
    rw [← e2 (h2 m (List.mem_of_getElem? hm)).1]
    exact e1
  simp only [completedInput, InputDecl.instantiate]
  show SameResult TellsTheSame (openJsonInput files _) (openJsonInput files' _)
  simp only [openJsonInput, h3, h3', h1, h1']
  exact .ok (C127_same_records _ _ rfl records records' k1 k1' (jsonRecords_retold k4 k4' e e') k2 k2' k3 k3')

theorem placed_retold (make : XmlNode → Int → Rec) (hmake : ∀ node p q, (make node q).get = (make node p).get ∧ (make node q).all = (make node p).all) : ∀ {nodes : List XmlNode} {positions positions' : List Nat},
    positions.length = nodes.length → positions'.length = nodes.length →
    All2 (fun r r' : Rec => r'.get = r.get ∧ r'.all = r.all) ((nodes.zip positions).map (fun x => make x.1 x.2)) ((nodes.zip positions').map (fun x => make x.1 x.2))
  | [], _, _, _, _ => .nil
  | _ :: _, [], _, h, _ => by simp at h
  | _ :: _, _ :: _, [], _, h => by simp at h
  | node :: nodes, p :: ps, p' :: ps', h, h' => .cons (hmake _ _ _) (placed_retold make hmake (by simpa using h) (by simpa using h'))

theorem placed_positions (make : XmlNode → Int → Rec) (hmake : ∀ node q, (make node q).position = q) : ∀ {nodes : List XmlNode} {positions : List Nat}, positions.length = nodes.length →
    ((nodes.zip positions).map (fun x => make x.1 x.2)).map Rec.position = positions.map (fun n : Nat => (n : Int))
  | [], [], _ => rfl
  | [], _ :: _, h => by simp at h
  | _ :: _, [], h => by simp at h
  | node :: nodes, p :: ps, h => by
    have ih := placed_positions make hmake (nodes := nodes) (positions := ps) (by simpa using h)
    simp only [List.zip_cons_cons, List.map_cons, hmake, ih]

/-- **C127** An XML file that is written in another way, with the same records, tells the same. -/
theorem C127_xml (rest : StartLib) (files files' : Files) (hxpath : files'.xpath = files.xpath) (texts : GoMap TextParser) (d : XmlDecl) (elements : List XmlNode)
    (h : XmlHolds files d elements) (h' : XmlHolds files' d elements) :
    SameResult TellsTheSame (InputDecl.instantiate (rest.onFiles files) texts (completedInput (.xml d))) (InputDecl.instantiate (rest.onFiles files') texts (completedInput (.xml d))) := by
  have opened : ∀ {files : Files}, XmlHolds files d elements → ∀ types functions, ∃ input, openInput files (completedInput (.xml d)) types functions = .ok input ∧ input.name = d.name ∧
      ∃ positions : List Nat, positions.length = elements.length ∧ positions.Pairwise (· < ·) ∧
        ∀ records : List Rec, records = (elements.zip positions).map (fun x => XmlDecl.record files.xpath { d with properties := completedProperties d.properties } types functions x.1 x.2) →
          input.scan = .ok (records.map .ok) ∧ ∀ r ∈ records, input.fetch r.position = .ok r := by
    rintro files ⟨hl, content, nodes, P, hcontent, hlooks, hdoc, hstraight, rfl, hbefore⟩ types functions
    generalize hmake : XmlDecl.record files.xpath { d with properties := completedProperties d.properties } types functions = make
    have hpos : ∀ node q, (make node q).position = q := by intro node q; rw [← hmake]; rfl
    have hopen : openInput files (completedInput (.xml d)) types functions =
        .ok (xmlAsInput files.lexXml (files.xpath.matching d.recordXPath) make d.name content (files.modTimeNs d.path) (files.fetchedXml d.name)) := by
      simp only [completedInput, openInput, openXmlInput, hcontent, ← hmake]
      rfl
    obtain ⟨positions, h1, h2, h3, h4⟩ := C98_xml_scan files.lexXml hl _ P hlooks make content nodes hdoc
    refine ⟨_, hopen, rfl, positions, h1, h2, ?_⟩
    intro records hrecords
    have hscan : xmlScan files.lexXml (files.xpath.matching d.recordXPath) make content = .ok (records.map .ok) := by
      rw [h4, hrecords]
      simp [Placed]
    refine ⟨hscan, fun r hr => C99_xml_fetch_partial files.lexXml hl _ P hlooks make hpos content nodes hdoc hstraight records hscan _ ?_ r hr⟩
    intro q hq
    obtain ⟨rs, x, k1, k2, k3⟩ := hbefore types functions _ hopen _ q hq
    have k1' : xmlScan files.lexXml (files.xpath.matching d.recordXPath) make content = .ok rs := k1
    rw [hscan, Except.ok.injEq] at k1'
    rw [← k1'] at k2
    obtain ⟨y, hy, e⟩ := List.mem_map.1 k2
    cases e
    exact ⟨_, hy, k3⟩
  obtain ⟨i, k1, k2, positions, k3, k4, k5⟩ := opened h (parserTypes texts) (parseFunctions (rest.onFiles files) texts)
  obtain ⟨i', k1', k2', positions', k3', k4', k5'⟩ := opened h' (parserTypes texts) (parseFunctions (rest.onFiles files) texts)
  rw [hxpath] at k5'
  have e : InputDecl.instantiate (rest.onFiles files) texts (completedInput (.xml d)) = .ok i := k1
  have e' : InputDecl.instantiate (rest.onFiles files') texts (completedInput (.xml d)) = .ok i' := k1'
  rw [e, e']
  refine .ok (C127_same_records i i' (by rw [k2, k2']) _ _ (k5 _ rfl).1 (k5' _ rfl).1 (placed_retold _ (fun _ _ _ => ⟨rfl, rfl⟩) k3 k3') ?_ ?_ (k5 _ rfl).2 (k5' _ rfl).2)
  · rw [placed_positions _ (fun _ _ => rfl) k3, List.pairwise_map]
    exact k4.imp (fun h => Int.ofNat_lt.2 h)
  · rw [placed_positions _ (fun _ _ => rfl) k3', List.pairwise_map]
    exact k4'.imp (fun h => Int.ofNat_lt.2 h)

/-! ### The program -/

/-- **C127** Only the records of the inputs matter. If for each input of a configuration with full scans and map indexes both machines have the same records, possibly at other positions, then
the program is the same on both of them: it does not start, with the same error, or it runs and answers every request in the same way. -/
theorem C127_program (config : ConfigLib) (p : ParsedConfig) (c : Config) (hc : loadConfig config p = .ok c) (d : Config) (ho : Reordered c d) (rest : StartLib) (hsort : OnlyCompares rest.sort)
    (hindexes : ∀ i ∈ p.indexes, FindsEqual i) (files files' : Files)
    (hsame : ∀ x ∈ p.inputs, ∀ texts, SameResult TellsTheSame (InputDecl.instantiate (rest.onFiles files) texts (completedInput x)) (InputDecl.instantiate (rest.onFiles files') texts (completedInput x))) :
    start (rest.onFiles files') d = start (rest.onFiles files) d := by
  obtain ⟨_, _, r2, r3, _, _, _, _⟩ := loadConfig_ok hc
  have hd := C77_defaults config p c hc
  refine start_retold hsort (fun k x hx => (r2.2 k x (ho.inputs.symm.subset hx)).1) ?_ ?_
  · intro e he
    obtain ⟨x, hx, e1⟩ := ((hd e.1).2.2.1 e.2).1 (mapGet_nodup_mem r3.1 (ho.indexes.symm.subset he))
    rw [e1]
    rcases hx with ⟨hx, _⟩ | ⟨_, hx, _⟩
    · rcases hindexes x hx with ⟨m, rfl⟩ | ⟨n, rfl⟩ <;> trivial
    · rw [List.mem_singleton] at hx
      subst hx
      trivial
  · intro texts _ e he
    obtain ⟨x, hx, _, e1⟩ := ((hd e.1).2.1 e.2).1 (mapGet_nodup_mem r2.1 (ho.inputs.symm.subset he))
    rw [e1]
    exact hsame x hx texts

/-- **C127** How the data files are written does not matter, as long as they hold the same data: quotes, line ends, blank lines, spaces, escapes. On both machines the program does not start, with
the same error, or it runs and answers every request in the same way. -/
theorem C127_files (config : ConfigLib) (p : ParsedConfig) (c : Config) (hc : loadConfig config p = .ok c) (d : Config) (ho : Reordered c d) (rest : StartLib) (hsort : OnlyCompares rest.sort)
    (hindexes : ∀ i ∈ p.indexes, FindsEqual i) (files files' : Files) (parseFloat : Bytes → Res GoFloat) (hsame : ∀ x ∈ p.inputs, SameData files files' parseFloat x) :
    start (rest.onFiles files') d = start (rest.onFiles files) d := by
  refine C127_program config p c hc d ho rest hsort hindexes files files' (fun x hx texts => ?_)
  have h := hsame x hx
  cases x with
  | csv d =>
    obtain ⟨columns, rows, h, h'⟩ := h
    exact C127_csv rest files files' texts d columns rows h h'
  | json d =>
    obtain ⟨objects, h, h'⟩ := h
    exact C127_json rest files files' parseFloat texts d objects h h'
  | xml d =>
    obtain ⟨hxpath, elements, h, h'⟩ := h
    exact C127_xml rest files files' hxpath texts d elements h h'

/-- The sort of the Go library for short lists only compares. -/
theorem insertionSort_onlyCompares : OnlyCompares goInsertionSort := by
  intro R less less' l l' hless hl
  have insert : ∀ {x x' : Rec} {m m' : List Rec}, R x x' → All2 R m m' → All2 R (insertRev less x m) (insertRev less' x' m') := by
    intro x x' m m' hx hm
    induction hm with
    | nil => exact .cons hx .nil
    | cons h hr ih =>
      simp only [insertRev, hless _ _ _ _ hx h]
      split
      · exact .cons h ih
      · exact .cons hx (.cons h hr)
  have fold : ∀ {l l' : List Rec}, All2 R l l' → ∀ {m m' : List Rec}, All2 R m m' →
      All2 R (l.foldl (fun rev x => insertRev less x rev) m) (l'.foldl (fun rev x => insertRev less' x rev) m') := by
    intro l l' h
    induction h with
    | nil => exact fun hm => hm
    | cons h _ ih => exact fun hm => ih (insert h hm)
  have rev : ∀ {l l' : List Rec}, All2 R l l' → All2 R l.reverse l'.reverse := by
    intro l l' h
    induction h with
    | nil => exact .nil
    | cons h _ ih => simp only [List.reverse_cons]; exact ih.append (.cons h .nil)
  exact rev (fold hl .nil)

namespace RetoldExample
/-- The data of the file in.csv of `FilesExample`, written in another way: n,s with CRLF / "1",a / 1,"b" / 2,"c""" with an end, and no empty line. -/
def rewritten : Files := { FilesExample.machine with
  content := fun path => if path = "in.csv" then some [110, 44, 115, 13, 10, 34, 49, 34, 44, 97, 10, 49, 44, 34, 98, 34, 10, 50, 44, 34, 99, 34, 34, 34, 10] else none }

theorem file : CsvFile rewritten FilesExample.decl [⟨"n", "integer"⟩, ⟨"s", "string"⟩] [[[49], [97]], [[49], [98]], [[50], [99, 34]]] := by
  refine ⟨_, 44, [[[110], [115]], [[49], [97]], [[49], [98]], [[50], [99, 34]]], _, rfl, by decide +kernel, by unfold GoodDelimiter; decide, ?_, rfl, rfl, [[110], [115]], rfl, rfl⟩
  refine .row (text := [110, 44, 115]) (e := [13, 10]) (.cons (text := [110]) (.plain (by decide)) (.one (.plain (by decide)))) (by decide) (.inr rfl) ?_
  refine .row (text := [34, 49, 34, 44, 97]) (e := [10]) (.cons (text := [34, 49, 34]) (.quoted (cell := [49])) (.one (.plain (by decide)))) (by decide) (.inl rfl) ?_
  refine .row (text := [49, 44, 34, 98, 34]) (e := [10]) (.cons (text := [49]) (.plain (by decide)) (.one (.quoted (cell := [98])))) (by decide) (.inl rfl) ?_
  exact .row (text := [50, 44, 34, 99, 34, 34, 34]) (e := [10]) (.cons (text := [50]) (.plain (by decide)) (.one (.quoted (cell := [99, 34])))) (by decide) (.inl rfl) .done

theorem starts : ∃ c, loadConfig ConfigExample.lib RunningExample.parsed = .ok c ∧ ∃ running, start (UnindexedExample.library.onFiles FilesExample.machine) c = .ok running := by
  have h : (match loadConfig ConfigExample.lib RunningExample.parsed with
      | .ok c => (match start (UnindexedExample.library.onFiles FilesExample.machine) c with | .ok _ => true | .error _ => false)
      | .error _ => false) = true := by decide +kernel
  cases hc : loadConfig ConfigExample.lib RunningExample.parsed with
  | error e => rw [hc] at h; cases h
  | ok c =>
    rw [hc] at h
    simp only at h
    refine ⟨c, rfl, ?_⟩
    cases hs : start (UnindexedExample.library.onFiles FilesExample.machine) c with
    | error e => rw [hs] at h; cases h
    | ok running => exact ⟨running, rfl⟩
end RetoldExample

/-- The program of the example, with a map index, a list and an object, runs on the file and is the same program on the file written in the other way. -/
example : ∃ c running, loadConfig ConfigExample.lib RunningExample.parsed = .ok c ∧ start (UnindexedExample.library.onFiles FilesExample.machine) c = .ok running ∧
    start (UnindexedExample.library.onFiles RetoldExample.rewritten) c = .ok running := by
  obtain ⟨c, hc, running, hs⟩ := RetoldExample.starts
  refine ⟨c, running, hc, hs, ?_⟩
  rw [← hs]
  refine C127_files ConfigExample.lib RunningExample.parsed c hc c ⟨.refl _, .refl _, .refl _, .refl _, .refl _⟩ UnindexedExample.library insertionSort_onlyCompares ?_
    FilesExample.machine RetoldExample.rewritten (fun _ => .error (.err "")) ?_
  · intro i hi
    simp only [RunningExample.parsed, List.mem_singleton] at hi
    exact .inl ⟨_, hi⟩
  · intro x hx
    simp only [RunningExample.parsed, List.mem_singleton] at hx
    subst hx
    exact ⟨_, _, FilesExample.file, RetoldExample.file⟩

end Rodb
