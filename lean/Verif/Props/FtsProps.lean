import Verif.Proofs.FtsBuild
import Verif.Props.SqliteProps
/-
  C60, C62 and C81 for the full-text indexes that are stored in a SQLite database.
-/
namespace Rodb
open Rodb.Spec

/-! ### Concrete cases -/

/-- A SQLite whose full-text search refuses expressions with a double quote, and finds the values that are equal to the others. -/
def wordLib : SqlLib := { plainLib with
  «matches» := fun _ _ e => match e with
    | .text t => if 34 ∈ t then none else some (fun values => values.any (fun v => v = .text t))
    | _ => none }

theorem wordLib_permutes : PlansPermute wordLib := fun _ _ => List.Perm.refl _

/-- A full-text index of that name on these properties. -/
def wordIndex (name : String) (properties : List String) : Fts5Decl :=
  { name := name, dsn := "", input := "people", prefixes := [2, 3], tokenize := "unicode61", properties := properties }

theorem accepted_wordIndex {name : String} {properties : List String} (hn : NoNul name) (hp : ∀ p ∈ properties, NoNul p) : Fts5Accepted (wordIndex name properties) :=
  ⟨hn, hp, by show NoNul "unicode61"; unfold NoNul; decide⟩

theorem buildable_wordIndex : FtsBuildable (wordIndex "a" ["a", "b"]) := by
  refine ⟨by decide, by show List.Pairwise (fun p q : String => sameName p.toList q.toList = false) ["a", "b"]; decide, ?_, ⟨[], "unicode61".toList, [], rfl, by simp, .inl rfl, "unicode61", .head _, sameName_refl _⟩, by decide, ?_⟩
  · show ∀ p ∈ ["a", "b"], ∀ n ∈ ["__offset".toList, "rank".toList, "rowid".toList, "rodb_".toList ++ "a".toList ++ "_index".toList], sameName p.toList n = false
    decide
  · show ∀ n ∈ [(2 : Int), 3], 1 ≤ n ∧ n ≤ 999
    decide

/-! ### C60 -/

theorem itoa_toString (n : Int) : itoa n = (toString n).toList := by
  unfold itoa
  cases n with
  | ofNat m =>
    rw [if_neg (by simp)]
    show _ = (Nat.repr m).toList
    simp [Nat.repr]
  | negSucc m =>
    rw [if_pos (by omega)]
    show _ = ("-" ++ Nat.repr (m + 1)).toList
    simp [Nat.repr]

theorem prefixText_eq : ∀ l : List Int, prefixText l = [' '].intercalate (l.map (fun n => (toString n).toList))
  | [] => rfl
  | [n] => by simp [prefixText, itoa_toString, List.intercalate]
  | n :: m :: rest => by
    have ih := prefixText_eq (m :: rest)
    rw [prefixText, ih, itoa_toString]
    simp [List.intercalate]

/-- The statements of a full-text index, as SQLite reads them: whatever the names and the tokenizer contain, they name exactly the table of that index and the columns of those
properties, and pass the lengths of the prefixes and the tokenizer. -/
theorem C60_fts5_partial {c : Fts5Decl} (hc : Fts5Accepted c) (hne : c.properties ≠ []) :
    (let table := "rodb_".toList ++ c.name.toList ++ "_index".toList
     (parseSql (fts5CreateText c) = none ∧ parseFts (fts5CreateText c) = some (.create table (("__offset".toList, true) :: c.properties.map (fun p => (p.toList, false)))
       [("prefix".toList, [' '].intercalate (c.prefixes.map (fun n => (toString n).toList))), ("tokenize".toList, c.tokenize.toList)])) ∧
     parseSql (fts5InsertText c) = some (.insert table ("__offset".toList :: c.properties.map (·.toList)) (c.properties.length + 1)) ∧
     parseSql (matchText c) = none ∧ parseFts (matchText c) = some (.search "__offset".toList table table)) := by
  have ht : "rodb_".toList ++ c.name.toList ++ "_index".toList = indexTable c.name := (indexTable_plain hc.name).symm
  have hp : c.properties.map (fun p => (readName p.toList, false)) = c.properties.map (fun p => (p.toList, false)) :=
    List.map_congr_left (fun p hp => by rw [readName_plain (hc.properties p hp)])
  rw [ht]
  refine ⟨⟨parseSql_ftsCreate c, ?_⟩, ?_, parseSql_match c, parse_match c⟩
  · rw [parse_ftsCreate, hp, readName_plain hc.tokenize, prefixText_eq]
  · rw [parse_ftsInsert hne, ← ftsColumnsOf_eq hc]
    simp [ftsColumnsOf, Function.comp_def]

/-- Names that try to leave their quotes. -/
example : Fts5Accepted (wordIndex "x\" MATCH ''; DROP TABLE z; --" ["p\"\"q", "'), tokenize = 'x"]) ∧
    (wordIndex "x\" MATCH ''; DROP TABLE z; --" ["p\"\"q", "'), tokenize = 'x"]).properties ≠ [] :=
  ⟨accepted_wordIndex (by unfold NoNul; decide +kernel) (by unfold NoNul; decide +kernel), by decide⟩

/-! ### C62 -/

/-- A first start that is not killed builds the full-text index: if FTS5 can build it at all, the input can be read, and its records have the properties of the index with values
that SQLite has. -/
theorem C62_builds_fts5 {lib : SqlLib} {c : Fts5Decl} (hc : Fts5Accepted c) (hb : FtsBuildable c) {input : Input} {size time : Int} (hsize : input.size = .ok size)
    (htime : input.modTimeNs = .ok time) {records : List Rec} (hscan : input.scan = .ok (records.map .ok))
    (hrec : ∀ r ∈ records, ∀ p ∈ c.properties, ∃ v w, r.get p = .ok v ∧ Stands v w) :
    (newFts5 lib c input ⟨emptyDb, none⟩).1 = .ok () := by
  obtain ⟨db, h⟩ := newFts5_empty (lib := lib) hc hb hsize htime hscan hrec
  unfold emptyDb
  rw [h]

/-- The hypotheses of the theorem hold for an index on two properties and an input with two records. -/
theorem builds_wordIndex : (newFts5 wordLib (wordIndex "a" ["a", "b"]) twoPeople ⟨emptyDb, none⟩).1 = .ok () :=
  C62_builds_fts5 (c := wordIndex "a" ["a", "b"]) (accepted_wordIndex (by unfold NoNul; decide) (by unfold NoNul; decide)) buildable_wordIndex rfl rfl
    (records := [textRec 0 [("a", "x"), ("b", "y")], textRec 10 [("a", "x"), ("b", "z")]]) rfl (by
      intro r hr p hp
      have hr : r = textRec 0 [("a", "x"), ("b", "y")] ∨ r = textRec 10 [("a", "x"), ("b", "z")] := by simpa using hr
      have hp : p = "a" ∨ p = "b" := by simpa [wordIndex] using hp
      rcases hr with rfl | rfl <;> rcases hp with rfl | rfl <;> exact ⟨_, _, rfl, .text _⟩)

/-- A build that is killed is refused afterwards. -/
example : (newFts5 wordLib (wordIndex "a" ["a"]) twoPeople ⟨afterStarts wordLib emptyDb [⟨.fts5 (wordIndex "a" ["a"]), twoPeople, some 5⟩], none⟩).1 =
    .error (.err "The previous indexing process has not ended properly.") := by
  unfold afterStarts afterStarts afterStart
  decide +kernel

/-! ### C81 -/

/-- A search answers the positions of exactly the records that match the expression, each once, in the order of SQLite's choice. -/
theorem C81_positions_partial {lib : SqlLib} (hlib : ReadsAll lib) {c : Fts5Decl} (hc : Fts5Accepted c) {input : Input} {db : SqlDb} (hdb : HoldsAll (.fts5 c) input db) :
    ∃ records, input.scan = .ok (records.map .ok) ∧ ∀ expression w, Stands expression w →
      ∃ positions, positions.Perm (positionsOf records (ftsSat lib c expression)) ∧
        fts5GetRecordPositions lib c db c.input [("match", expression)] = .ok (iterateList positions) := by
  obtain ⟨records, table, hscan, ht, hcols, hfts, hd, hrows⟩ := hdb
  refine ⟨records, hscan, fun f w hw => ?_⟩
  obtain ⟨rows, h1, h2⟩ := fts_positions (lib := lib) hc ht hcols hfts hd hrows hw
  rcases h2 with h2 | ⟨h2, h3⟩
  · obtain ⟨qs, h3, h4⟩ := map_perm_ints (hlib.1 (matchText c) rows) h1
    refine ⟨qs, h3, ?_⟩
    rw [h2]
    simp only [hlib.2]
    rw [h4, sqliteRows_ints]
  · exact ⟨[], by rw [h2], h3⟩

/-- If SQLite gives the rows in the order of their insertion, the outputs can use the index with the filter `match`. -/
theorem C81_serves_partial {lib : SqlLib} (hplan : ∀ text rows, lib.plan text rows = rows) (hfail : ∀ text, lib.failsAfter text = none) {c : Fts5Decl} (hc : Fts5Accepted c)
    {input : Input} (hname : input.name = c.input) {db : SqlDb} {records : List Rec} (hscan : input.scan = .ok (records.map .ok)) (hdb : HoldsAll (.fts5 c) input db) :
    Serves (fun input filters => fts5GetRecordPositions lib c db input.name filters) input records (fun _ => ftsSat lib c) (FtsAcceptable) := by
  intro filters hne hnd hacc
  obtain ⟨records', table, hscan', ht, hcols, hfts, hd, hrows⟩ := hdb
  have hrec : records' = records := by
    rw [hscan] at hscan'
    injection hscan' with e
    exact ((List.map_inj_right (fun _ _ h => by injection h)).1 e).symm
  subst hrec
  cases filters with
  | nil => exact (hne rfl).elim
  | cons f rest =>
    obtain ⟨p, v⟩ := f
    obtain ⟨rfl, w, hw⟩ := hacc _ (.head _)
    cases rest with
    | cons g rest =>
      have hg := (hacc g (.tail _ (.head _))).1
      simp only [List.map_cons, List.nodup_cons, List.mem_cons] at hnd
      exact (hnd.1 (.inl hg.symm)).elim
    | nil =>
      obtain ⟨rows, h1, h2⟩ := fts_positions (lib := lib) hc ht hcols hfts hd hrows hw
      have hall : (fun r => [("match", v)].all (fun f => ftsSat lib c f.2 r)) = ftsSat lib c v := by
        funext r
        simp
      show fts5GetRecordPositions lib c db input.name _ = _
      rw [hname, hall]
      rcases h2 with h2 | ⟨h2, h3⟩
      · rw [h2]
        simp only [hplan, hfail, h1, sqliteRows_ints]
      · rw [h3, h2]

/-- From the starts of the program to an answer: the index that the last start accepted, after any starts with that index and input that were killed at any statement, answers
from exactly the records of the input. -/
theorem C81_after_starts_partial {lib : SqlLib} (hlib : ReadsAll lib) {db : SqlDb} (hdb : ∀ n, db.table ("rodb_".toList ++ n ++ "_metadata".toList) = none) {c : Fts5Decl}
    (hc : Fts5Accepted c) {input : Input} (deaths : List (Option Nat)) (last : Option Nat)
    (hok : (newFts5 lib c input ⟨afterStarts lib db (deaths.map (⟨.fts5 c, input, ·⟩)), last⟩).1 = .ok ()) :
    ∃ records, input.scan = .ok (records.map .ok) ∧ ∀ expression w, Stands expression w →
      ∃ positions, positions.Perm (positionsOf records (ftsSat lib c expression)) ∧
        fts5GetRecordPositions lib c (afterStarts lib db (deaths.map (⟨.fts5 c, input, ·⟩) ++ [⟨.fts5 c, input, last⟩])) c.input [("match", expression)] = .ok (iterateList positions) :=
  C81_positions_partial hlib hc (C62_same_input (c := .fts5 c) hlib.1 hdb hc deaths last hok)

/-- A request for another input, without filter, with more than one filter, or with a filter that is not called `match`, is rejected, whatever the database holds. -/
theorem C81_rejects {lib : SqlLib} {c : Fts5Decl} {db : SqlDb} {name : String} {filters : GoMap Value}
    (h : name ≠ c.input ∨ filters.length ≠ 1 ∨ ∀ f ∈ filters, f.1 ≠ "match") : ∃ e, fts5GetRecordPositions lib c db name filters = .error e := by
  unfold fts5GetRecordPositions
  split
  · exact ⟨_, rfl⟩
  · rename_i h1
    split
    · exact ⟨_, rfl⟩
    · rename_i h2
      have hf : ∀ f ∈ filters, f.1 ≠ "match" := by
        rcases h with h | h | h
        · exact (h1 h).elim
        · exact (h2 h).elim
        · exact h
      have : mapGet filters "match" = none := by
        cases hg : mapGet filters "match" with
        | none => rfl
        | some v => exact (hf _ (mapGet_mem hg) rfl).elim
      rw [this]
      exact ⟨_, rfl⟩

/-- The hypotheses of the theorems above hold, and a search finds one of the two records. -/
example : ReadsAll wordLib ∧ (newFts5 wordLib (wordIndex "a" ["a", "b"]) twoPeople ⟨afterStarts wordLib emptyDb (([] : List (Option Nat)).map (⟨.fts5 (wordIndex "a" ["a", "b"]), twoPeople, ·⟩)), none⟩).1 = .ok () :=
  ⟨⟨wordLib_permutes, fun _ => rfl⟩, builds_wordIndex⟩

example : fts5GetRecordPositions wordLib (wordIndex "a" ["b"]) (newFts5 wordLib (wordIndex "a" ["b"]) twoPeople ⟨emptyDb, none⟩).2.db "people"
    [("match", .str (utf8 "z".toList))] = .ok (iterateList [10]) := by decide +kernel

/-- An expression that FTS5 refuses is not reported: the search finds nothing, without an error. -/
theorem C81_malformed_false : ∃ (lib : SqlLib) (c : Fts5Decl) (input : Input) (expression : Value), ReadsAll lib ∧ Fts5Accepted c ∧
    (newFts5 lib c input ⟨emptyDb, none⟩).1 = .ok () ∧ lib.matches c.tokenize.toList (c.properties.map (·.toList)) (storedAs expression) = none ∧
    fts5GetRecordPositions lib c (newFts5 lib c input ⟨emptyDb, none⟩).2.db c.input [("match", expression)] = .ok (iterateList []) :=
  ⟨wordLib, wordIndex "a" ["b"], twoPeople, .str (utf8 "\"".toList), ⟨wordLib_permutes, fun _ => rfl⟩, accepted_wordIndex (by unfold NoNul; decide) (by unfold NoNul; decide),
    by decide +kernel, by decide +kernel, by decide +kernel⟩

/-- The kind of the stored index is not compared with the configuration: a SQLite index whose type has been changed to FTS5 is accepted, and then no search finds anything. -/
theorem C81_type_false : ∃ (c : SqliteDecl) (d : Fts5Decl) (input : Input) (records : List Rec) (expression : Value),
    input.scan = .ok (records.map .ok) ∧ SqliteAccepted c ∧ Fts5Accepted d ∧ d.name = c.name ∧ d.properties = c.properties.map (·.name) ∧
    (newSqlite wordLib c input ⟨emptyDb, none⟩).1 = .ok () ∧
    (let db := (newSqlite wordLib c input ⟨emptyDb, none⟩).2.db
     (newFts5 wordLib d input ⟨db, none⟩).1 = .ok () ∧ (newFts5 wordLib d input ⟨db, none⟩).2.db = db ∧
     fts5GetRecordPositions wordLib d db d.input [("match", expression)] = .ok (iterateList [])) ∧
    positionsOf records (ftsSat wordLib d expression) = [10] :=
  ⟨textIndex "a" ["b"], wordIndex "a" ["b"], twoPeople, [textRec 0 [("a", "x"), ("b", "y")], textRec 10 [("a", "x"), ("b", "z")]], .str (utf8 "z".toList), rfl,
    accepted_textIndex (by unfold NoNul; decide) (by unfold NoNul; decide), accepted_wordIndex (by unfold NoNul; decide) (by unfold NoNul; decide), rfl, rfl,
    by decide +kernel, ⟨by decide +kernel, by decide +kernel, by decide +kernel⟩, by decide +kernel⟩

end Rodb
