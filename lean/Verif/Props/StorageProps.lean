import Verif.Spec.Storage
import Verif.Props.RunningProps
import Verif.Props.OutputProps
import Verif.Props.FtsProps
import Verif.Props.WildcardProps
/-
  Requests to a running program whose indexes keep their data on disk (C80).
-/
namespace Rodb
open Rodb.Spec

/-- The declared index of a name, found again. -/
theorem declaredIndex_of_mem {config : ConfigLib} {p : ParsedConfig} (hw : WellFormed config p) {i : IndexDecl} (hi : i ∈ p.indexes) :
    declaredIndex p i.name = some i := by
  unfold declaredIndex
  cases h : p.indexes.find? (fun j => decide (j.name = i.name)) with
  | none =>
    rw [List.find?_eq_none] at h
    exact (h i hi (by simp)).elim
  | some j =>
    have hj := List.mem_of_find?_eq_some h
    have hn := List.find?_some h
    rw [IsIndex.unique hw (n := i.name) (.inl ⟨hi, rfl⟩) (.inl ⟨hj, by simpa using hn⟩)]

theorem declaredIndex_equal {config : ConfigLib} {p : ParsedConfig} (hw : WellFormed config p) {n : String} {i : IndexDecl} (hi : IsIndex p n i)
    (he : FindsEqual i) {j : IndexDecl} (hj : declaredIndex p n = some j) : FindsEqual j := by
  have hm := List.mem_of_find?_eq_some hj
  have hn := List.find?_some hj
  rw [← IsIndex.unique hw hi (.inl ⟨hm, by simpa using hn⟩)]
  exact he

theorem wildcardFinds_eq (lower : Bytes → Bytes) (d : WildcardDecl) (property : String) (v : Value) (r : Rec) :
    containsText (d.settings.normalize lower) property v r = wildcardFinds lower (d.ignoreCase.getD false) r property v := by
  unfold containsText wildcardFinds WildcardConfig.normalize WildcardDecl.settings
  cases v with
  | str q =>
    cases r.get property with
    | error e => rfl
    | ok t =>
      cases t <;> first | rfl | skip
      by_cases h : d.ignoreCase.getD false = true <;> simp only [h, if_true, if_false, Bool.false_eq_true]
  | _ =>
    cases r.get property with
    | error e => rfl
    | ok t => cases t <;> rfl

/-- The wildcard index of a running program finds the records containing the text. -/
theorem wildcard_serves_disk {st : Storage} {d : WildcardDecl} (hnd : d.properties.Nodup) {input : Input} {records : List Rec}
    (hdisk : WildcardDisk st d input records) {index : IndexFn} (hopen : openIndex st (.wildcard d) input = .ok index) :
    Serves index input records (fun q v r => wildcardFinds st.lower (d.ignoreCase.getD false) r q v)
      (fun q v => q ∈ d.properties ∧ ∃ query, v = .str query ∧ (if d.ignoreCase.getD false then st.lower query else query) ≠ []) := by
  obtain ⟨rows, htab, rfl⟩ := hdisk.texts
  obtain ⟨w, file, hw, hs⟩ := C44_wildcard_serves st.lower d.settings input rows hnd htab hdisk.small
  have hsat : containsText (d.settings.normalize st.lower) = fun q v r => wildcardFinds st.lower (d.ignoreCase.getD false) r q v := by
    funext q v r
    exact wildcardFinds_eq st.lower d q v r
  rw [hsat] at hs
  have hs' : Serves (fun input filters => w.getRecordPositions st.lower input.name filters) input (rows.map Row.record)
      (fun q v r => wildcardFinds st.lower (d.ignoreCase.getD false) r q v)
      (fun q v => q ∈ d.properties ∧ ∃ query, v = .str query ∧ (if d.ignoreCase.getD false then st.lower query else query) ≠ []) := hs
  unfold openIndex at hopen
  rcases hdisk.file with hf | hf
  · simp only [hf, hw] at hopen
    cases hopen
    exact hs'
  · obtain ⟨t, ht, _⟩ := htab.modTime
    obtain ⟨w1, file1, w', h1, h2, h3⟩ := C08_reload_same_answers st.lower d.settings input input rows hnd htab hdisk.small hdisk.count rfl rfl ⟨t, t, ht, ht, rfl⟩
    rw [hw] at h1
    cases h1
    simp only [hf, hw, h2] at hopen
    cases hopen
    simpa only [h3] using hs'

/-- The index that is opened holds the records of the input. -/
theorem stored_disk_holds {st : Storage} (hsql : ReadsInOrder st.sql) {x : StoredIndex} {dsn : String} {input : Input} (hdisk : StoredDisk st x dsn input) (hacc : x.Accepted)
    (hok : (x.start st.sql input ⟨st.db dsn, none⟩).1 = .ok ()) : HoldsAll x input (x.start st.sql input ⟨st.db dsn, none⟩).2.db := by
  obtain ⟨empty, starts, hempty, hall, hown, hdb⟩ := hdisk.database
  have hperm : PlansPermute st.sql := fun text rows => by rw [hsql.plan]
  have h := C62_history hperm hempty starts ⟨x, input, none⟩ (by
    intro s hs
    rcases List.mem_append.1 hs with hs | hs
    · exact hall s hs
    · rw [List.mem_singleton.1 hs]
      exact hacc)
  rw [afterStarts_last, ← hdb] at h
  unfold afterStart at h
  obtain ⟨b, hb, hname, hstat, hholds⟩ := h hok
  have hb' : b.index = x ∧ b.input.scan = input.scan := by
    rcases List.mem_append.1 hb with hb | hb
    · exact ⟨(hown b hb hname).1, (hown b hb hname).2 hstat⟩
    · rw [List.mem_singleton.1 hb]
      exact ⟨rfl, rfl⟩
  unfold HoldsAll at hholds ⊢
  rw [hb'.1, hb'.2] at hholds
  exact hholds

theorem start_sqlite (lib : SqlLib) (c : SqliteDecl) (input : Input) : (StoredIndex.sqlite c).start lib input = newSqlite lib c input := rfl

theorem start_fts5 (lib : SqlLib) (c : Fts5Decl) (input : Input) : (StoredIndex.fts5 c).start lib input = newFts5 lib c input := rfl

/-- The full-text index of a running program finds the records that match. -/
theorem fts_serves_disk {st : Storage} (hsql : ReadsInOrder st.sql) {d : Fts5Decl}
    {input : Input} (hname : input.name = d.input) {records : List Rec} (hscan : input.scan = .ok (records.map .ok)) (hdisk : StoredDisk st (.fts5 d) d.dsn input) {index : IndexFn}
    (hopen : openIndex st (.fts5 d) input = .ok index) : Serves index input records (fun _ => ftsSat st.sql d) FtsAcceptable := by
  have hacc : Fts5Accepted d := ⟨hdisk.name, hdisk.properties, hdisk.tokenize _ rfl⟩
  have hall := stored_disk_holds hsql hdisk (x := .fts5 d) hacc
  have hopen' : fts5Index st.sql d (newFts5 st.sql d input ⟨st.db d.dsn, none⟩) = .ok index := hopen
  clear hopen
  simp only [start_fts5] at hall
  generalize newFts5 st.sql d input ⟨st.db d.dsn, none⟩ = result at hopen' hall
  obtain ⟨r, s⟩ := result
  cases r with
  | error e => cases hopen'
  | ok u =>
    cases hopen'
    exact C81_serves_partial hsql.plan hsql.complete hacc hname hscan (hall rfl)

/-- The SQLite index of a running program finds the records that SQLite finds equal. -/
theorem sqlite_serves_disk {st : Storage} (hsql : ReadsInOrder st.sql) {d : SqliteDecl} (hcol : ∀ q ∈ d.properties, q.collate ∈ ["BINARY", "NOCASE", "RTIRM"])
    {input : Input} (hname : input.name = d.input) {records : List Rec} (hscan : input.scan = .ok (records.map .ok)) (hdisk : StoredDisk st (.sqlite d) d.dsn input) {index : IndexFn}
    (hopen : openIndex st (.sqlite d) input = .ok index) : Serves index input records (sqliteSat st.sql d) (SqliteAcceptable d) := by
  have hacc : SqliteAccepted d := ⟨hdisk.name, fun q hq => hdisk.properties q.name (List.mem_map_of_mem hq), hcol⟩
  have hall := stored_disk_holds hsql hdisk (x := .sqlite d) hacc
  have hopen' : sqliteIndex st.sql d (newSqlite st.sql d input ⟨st.db d.dsn, none⟩) = .ok index := hopen
  clear hopen
  simp only [start_sqlite] at hall
  generalize newSqlite st.sql d input ⟨st.db d.dsn, none⟩ = result at hopen' hall
  obtain ⟨r, s⟩ := result
  cases r with
  | error e => cases hopen'
  | ok u =>
    cases hopen'
    exact C63_serves_partial hsql.plan hsql.complete hacc hname hscan (hall rfl)

/-- **C80** The indexes of a running program find what they are documented to find: whether the files and databases of the indexes do not exist yet or are
left by earlier starts (for SQLite and FTS5, killed at any statement), wildcard indexes find the records that contain the text, full-text indexes those
that match, and SQLite indexes those that are equal for SQLite, like map indexes and full scans find the equal ones. -/
theorem C80_indexes_find_partial (config : ConfigLib) (lib : StartLib) (st : Storage) (p : ParsedConfig) (hw : WellFormed config p) (functions : GoMap (Bytes → Res Value))
    (x : InputDecl) (records : List Rec) (hdisk : DiskFor config lib st p functions x records) :
    IndexesFind config lib p functions x records (finds config st p) (findable config st p) where
  equality n i hi he q v r := by
    unfold finds
    cases h : declaredIndex p n with
    | none => rfl
    | some j =>
      rcases declaredIndex_equal hw hi he h with ⟨m, rfl⟩ | ⟨m, rfl⟩ <;> rfl
  others i hi hn hin e input index he hinput hindex := by
    have hd := declaredIndex_of_mem hw hi
    have hwf := hw.indexes i hi
    rw [hdisk.index] at hindex
    cases i with
    | map m => exact (hn (.inl ⟨m, rfl⟩)).elim
    | noop m => exact (hn (.inr ⟨m, rfl⟩)).elim
    | fts5 d =>
      have hx : d.input = x.name := Option.some.inj hin
      obtain ⟨hsql, hdb⟩ := hdisk.fts5 d hi hx
      have h := fts_serves_disk hsql (d := completedFts5 d) ((hdisk.named e input he hinput).trans hx.symm) (hdisk.rows e input he hinput) (hdb e input he hinput) (index := index) hindex
      have hf : finds config st p (IndexDecl.fts5 d).name = fun _ => ftsSat st.sql (completedFts5 d) := by
        funext q v r
        simp only [finds, hd]
      have ha : findable config st p (IndexDecl.fts5 d).name = FtsAcceptable := by
        funext q v
        simp only [findable, hd]
      rw [hf, ha]
      exact h
    | wildcard d =>
      have hx : d.input = x.name := Option.some.inj hin
      have h := wildcard_serves_disk hwf.2.2.2 (hdisk.wildcard d hi hx e input he hinput) (index := index) hindex
      have hf : finds config st p (IndexDecl.wildcard d).name = fun q v r => wildcardFinds st.lower (d.ignoreCase.getD false) r q v := by
        funext q v r
        simp only [finds, hd]
      have ha : findable config st p (IndexDecl.wildcard d).name = fun q v => q ∈ d.properties ∧ ∃ query, v = .str query ∧
          (if d.ignoreCase.getD false then st.lower query else query) ≠ [] := by
        funext q v
        simp only [findable, hd]
      rw [hf, ha]
      exact h
    | sqlite d =>
      have hx : d.input = x.name := Option.some.inj hin
      obtain ⟨hsql, hdb⟩ := hdisk.sqlite d hi hx
      have h := sqlite_serves_disk hsql (d := completedSqlite config d) (by
        intro q hq
        obtain ⟨q', hq', rfl⟩ := List.mem_map.1 hq
        simp only
        rcases hwf.2.2.2 q' hq' with h | h
        · simp [h]
        · by_cases h0 : q'.collate = ""
          · simp [h0]
          · rw [if_neg h0]
            exact h) ((hdisk.named e input he hinput).trans hx.symm) (hdisk.rows e input he hinput) (hdb e input he hinput) hindex
      have hf : finds config st p (IndexDecl.sqlite d).name = sqliteSat st.sql (completedSqlite config d) := by
        funext q v r
        simp only [finds, hd]
      have ha : findable config st p (IndexDecl.sqlite d).name = SqliteAcceptable (completedSqlite config d) := by
        funext q v
        simp only [findable, hd]
      rw [hf, ha]
      exact h

namespace StorageExample
open WildcardExample
/-- A CSV file of people with a wildcard index, a SQLite index and a full-text index on their names. -/
def parsed : ParsedConfig where
  parsers := []
  inputs := [.csv { name := "people", path := "people.csv", dieOnInputChange := none, ignoreFirstRow := true, autodetectColumns := false, delimiter := "",
                    columns := [⟨"name", ""⟩] }]
  indexes := [.wildcard { name := "w", path := "people.w", input := "people", properties := ["name"], ignoreCase := some true },
              .sqlite { name := "s", dsn := "people.sqlite", input := "people", properties := [⟨"name", "NOCASE"⟩] },
              .fts5 { name := "f", dsn := "people.sqlite", input := "people", prefixes := [], tokenize := "", properties := ["name"] }]
  services := []
  outputs := []
/-- The starts of the program before: one with the SQLite index on an earlier file without people, which died after a few statements, one that built it, and one that built the full-text index. -/
def before : List SqliteStart :=
  [⟨.sqlite { name := "s", dsn := "people.sqlite", input := "people", properties := [⟨"name", "NOCASE"⟩] }, { input with scan := .ok [], size := .ok 0 }, some 3⟩,
   ⟨.sqlite { name := "s", dsn := "people.sqlite", input := "people", properties := [⟨"name", "NOCASE"⟩] }, input, none⟩,
   ⟨.fts5 { name := "f", dsn := "people.sqlite", input := "people", prefixes := [], tokenize := "unicode61", properties := ["name"] }, input, none⟩]
/-- No wildcard file yet; the database was left by these starts. -/
def storage : Storage where
  lower := lower
  sql := wordLib
  file := fun _ => none
  db := fun _ => afterStarts wordLib emptyDb before
def startLib (parserLib : ParserLib) : StartLib := { ConfigExample.startLib parserLib with input := fun _ _ _ => .ok input, index := openIndex storage }
theorem before_accepted : ∀ s ∈ before, s.index.Accepted := by
  intro s hs
  have hname : ∀ q ∈ [(⟨"name", "NOCASE"⟩ : SqlitePropertyDecl)], NoNul q.name ∧ q.collate ∈ ["BINARY", "NOCASE", "RTIRM"] := by
    intro q hq
    rw [List.mem_singleton.1 hq]
    exact ⟨by unfold NoNul; decide, by decide⟩
  have hs' : SqliteAccepted { name := "s", dsn := "people.sqlite", input := "people", properties := [⟨"name", "NOCASE"⟩] } :=
    ⟨by unfold NoNul; decide, fun q hq => (hname q hq).1, fun q hq => (hname q hq).2⟩
  simp only [before, List.mem_cons, List.not_mem_nil, or_false] at hs
  rcases hs with rfl | rfl | rfl
  · exact hs'
  · exact hs'
  · refine ⟨?_, ?_, ?_⟩
    · unfold NoNul; decide
    · intro q hq
      rw [List.mem_singleton.1 hq]
      unfold NoNul
      decide
    · unfold NoNul; decide
theorem accepted : WellFormed ConfigExample.lib parsed := (C76_accepted _ _).1 ⟨_, rfl⟩
theorem disk (parserLib : ParserLib) (functions : GoMap (Bytes → Res Value)) (x : InputDecl) (hx : x ∈ parsed.inputs) :
    DiskFor ConfigExample.lib (startLib parserLib) storage parsed functions x (rows.map Row.record) where
  index := rfl
  named e i _ h := by
    rw [List.mem_singleton.1 hx]
    cases h
    rfl
  rows e i _ h := by cases h; rfl
  wildcard d hd _ e i _ h := by
    cases h
    simp only [parsed, List.mem_cons, IndexDecl.wildcard.injEq, reduceCtorEq, List.not_mem_nil, or_false] at hd
    subst hd
    exact ⟨⟨rows, table, rfl⟩, by decide +kernel, by decide, .inl rfl⟩
  sqlite d hd _ := by
    refine ⟨⟨fun _ _ => rfl, fun _ => rfl⟩, fun e i _ h => ?_⟩
    cases h
    simp only [parsed, List.mem_cons, IndexDecl.sqlite.injEq, reduceCtorEq, List.not_mem_nil, or_false, false_or] at hd
    subst hd
    refine ⟨by unfold NoNul; decide, ?_, ?_, emptyDb, before, fun _ => rfl, before_accepted, ?_, rfl⟩
    · intro q hq
      rw [List.mem_singleton.1 hq]
      unfold NoNul
      decide
    · intro s hs
      cases hs
    · intro s hs hsame
      simp only [before, List.mem_cons, List.not_mem_nil, or_false] at hs
      rcases hs with rfl | rfl | rfl
      · exact ⟨rfl, fun ⟨_, _, _, h1, h2, _⟩ => by cases h1; cases h2⟩
      · exact ⟨rfl, fun _ => rfl⟩
      · exact absurd hsame (by decide)
  fts5 d hd _ := by
    refine ⟨⟨fun _ _ => rfl, fun _ => rfl⟩, fun e i _ h => ?_⟩
    cases h
    simp only [parsed, List.mem_cons, IndexDecl.fts5.injEq, reduceCtorEq, List.not_mem_nil, or_false, false_or] at hd
    subst hd
    refine ⟨by unfold NoNul; decide, ?_, ?_, emptyDb, before, fun _ => rfl, before_accepted, ?_, rfl⟩
    · intro q hq
      rw [List.mem_singleton.1 hq]
      unfold NoNul
      decide
    · intro s hs
      cases hs
      decide
    · intro s hs hsame
      simp only [before, List.mem_cons, List.not_mem_nil, or_false] at hs
      rcases hs with rfl | rfl | rfl
      · exact absurd hsame (by decide)
      · exact absurd hsame (by decide)
      · exact ⟨rfl, fun _ => rfl⟩
/-- "AB" is contained in the first two names, "BAB" is equal to the second one for SQLite, and "Bab" matches it. -/
theorem found : (rows.map Row.record).filter (finds ConfigExample.lib storage parsed "w" "name" (.str [65, 66])) = [person 0 [97,98,97], person 7 [66,97,98]] ∧
    (rows.map Row.record).filter (finds ConfigExample.lib storage parsed "s" "name" (.str [66, 65, 66])) = [person 7 [66,97,98]] ∧
    (rows.map Row.record).filter (finds ConfigExample.lib storage parsed "f" "match" (.str [66, 97, 98])) = [person 7 [66,97,98]] ∧
    findable ConfigExample.lib storage parsed "w" "name" (.str [65, 66]) ∧ findable ConfigExample.lib storage parsed "s" "name" (.str [66, 65, 66]) ∧
    findable ConfigExample.lib storage parsed "f" "match" (.str [66, 97, 98]) :=
  ⟨rfl, rfl, rfl, ⟨.head _, _, rfl, by decide⟩, ⟨⟨_, .head _, rfl⟩, _, .text _⟩, rfl, _, .text _⟩
end StorageExample

example (parserLib : ParserLib) (functions : GoMap (Bytes → Res Value)) (x : InputDecl) (hx : x ∈ StorageExample.parsed.inputs) :
    WellFormed ConfigExample.lib StorageExample.parsed ∧
      DiskFor ConfigExample.lib (StorageExample.startLib parserLib) StorageExample.storage StorageExample.parsed functions x (WildcardExample.rows.map Row.record) :=
  ⟨StorageExample.accepted, StorageExample.disk parserLib functions x hx⟩

end Rodb
