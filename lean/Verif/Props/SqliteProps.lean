import Verif.Props.SqliteNames
/-
  C62 and C63: building the index that is stored in a SQLite database, and its answers.
-/
namespace Rodb
open Rodb.Spec

/-! ### C62 -/

theorem afterStarts_last (lib : SqlLib) (last : SqliteStart) (l : List SqliteStart) (db : SqlDb) :
    afterStarts lib db (l ++ [last]) = afterStart lib (afterStarts lib db l) last := by
  induction l generalizing db with
  | nil => rfl
  | cons s l ih =>
    simp only [List.cons_append, afterStarts]
    exact ih _

/-- Start the program any number of times, with any SQLite and FTS5 indexes in the same database and any inputs, each time killed after any number of statements or not at all.
If then a start accepts the index, the database holds, complete, what one of these starts read from its input, for an index of that name (up to the case of
ASCII letters) and an input of the same size and modification time. -/
theorem C62_history {lib : SqlLib} (hlib : PlansPermute lib) {db : SqlDb} (hdb : ∀ n, db.table ("rodb_".toList ++ n ++ "_metadata".toList) = none) (starts : List SqliteStart)
    (last : SqliteStart) (hacc : ∀ s ∈ starts ++ [last], s.index.Accepted)
    (hok : (last.index.start lib last.input ⟨afterStarts lib db starts, last.writes⟩).1 = .ok ()) :
    ∃ b ∈ starts ++ [last], sameName b.index.name.toList last.index.name.toList = true ∧ SameStat b.input last.input ∧
      HoldsAll b.index b.input (afterStarts lib db (starts ++ [last])) := by
  have hinv : StoreInv (starts ++ [last]) db := by
    intro n hn t ht
    rw [metadataTable_plain hn, hdb] at ht
    cases ht
  have h1 := afterStarts_inv hlib hacc starts db (fun s hs => List.mem_append_left _ hs) hinv
  have hl : last ∈ starts ++ [last] := by simp
  have h2 := start_triple hacc hl hlib
  have h3 := (h2.ok (s := ⟨afterStarts lib db starts, last.writes⟩) h1 hok).2
  have e : afterStarts lib db (starts ++ [last]) = (last.index.start lib last.input ⟨afterStarts lib db starts, last.writes⟩).2.db := by
    rw [afterStarts_last]
    unfold afterStart
    rfl
  generalize (last.index.start lib last.input ⟨afterStarts lib db starts, last.writes⟩).2.db = d at e h3
  subst e
  exact h3.elim (fun b hb => ⟨b, hb.1, hb.2.1, hb.2.2.2, hb.2.2.1⟩)

/-- If all the starts with an index of that name were made with this index and this input, whatever other indexes the database was used for, the index that is accepted holds
exactly the records of that input. -/
theorem C62_own_name {lib : SqlLib} (hlib : PlansPermute lib) {db : SqlDb} (hdb : ∀ n, db.table ("rodb_".toList ++ n ++ "_metadata".toList) = none) (starts : List SqliteStart)
    (last : SqliteStart) (hacc : ∀ s ∈ starts ++ [last], s.index.Accepted)
    (hown : ∀ s ∈ starts, sameName s.index.name.toList last.index.name.toList = true → s.index = last.index ∧ s.input = last.input)
    (hok : (last.index.start lib last.input ⟨afterStarts lib db starts, last.writes⟩).1 = .ok ()) :
    HoldsAll last.index last.input (afterStarts lib db (starts ++ [last])) := by
  refine (C62_history hlib hdb starts last hacc hok).elim (fun b hb => ?_)
  have hb' : b.index = last.index ∧ b.input = last.input := by
    rcases List.mem_append.1 hb.1 with h | h
    · exact hown b h hb.2.1
    · rw [List.mem_singleton.1 h]
      exact ⟨rfl, rfl⟩
  have h1 := hb.2.2.2
  rw [hb'.1, hb'.2] at h1
  exact h1

/-- If all these starts were made with the same index and the same input, the index that is accepted holds exactly the records of that input. -/
theorem C62_same_input {lib : SqlLib} (hlib : PlansPermute lib) {db : SqlDb} (hdb : ∀ n, db.table ("rodb_".toList ++ n ++ "_metadata".toList) = none) {c : StoredIndex}
    (hc : c.Accepted) {input : Input} (deaths : List (Option Nat)) (last : Option Nat)
    (hok : (c.start lib input ⟨afterStarts lib db (deaths.map (⟨c, input, ·⟩)), last⟩).1 = .ok ()) :
    HoldsAll c input (afterStarts lib db (deaths.map (⟨c, input, ·⟩) ++ [⟨c, input, last⟩])) := by
  have hmem : ∀ s ∈ deaths.map (fun w => (⟨c, input, w⟩ : SqliteStart)) ++ [⟨c, input, last⟩], s.index = c ∧ s.input = input := by
    intro s hs
    rcases List.mem_append.1 hs with hs | hs
    · obtain ⟨w, _, rfl⟩ := List.mem_map.1 hs
      exact ⟨rfl, rfl⟩
    · rw [List.mem_singleton.1 hs]
      exact ⟨rfl, rfl⟩
  have h := C62_history hlib hdb (deaths.map (⟨c, input, ·⟩)) ⟨c, input, last⟩ (fun s hs => (hmem s hs).1 ▸ hc) hok
  refine h.elim (fun b hb => ?_)
  have h1 := hb.2.2.2
  rw [(hmem b hb.1).1, (hmem b hb.1).2] at h1
  exact h1

/-- A first start that is not killed builds the index: if the input can be read, its records have the properties of the index with values that SQLite has, and the
names of these properties differ in more than the case of letters. -/
theorem C62_builds {lib : SqlLib} {c : SqliteDecl} (hc : SqliteAccepted c) (hne : c.properties ≠ [])
    (hdiff : c.properties.Pairwise (fun p q => sameName p.name.toList q.name.toList = false)) (hcol : ∀ p ∈ c.properties, p.collate = "BINARY" ∨ p.collate = "NOCASE")
    {input : Input} {size time : Int} (hsize : input.size = .ok size) (htime : input.modTimeNs = .ok time) {records : List Rec} (hscan : input.scan = .ok (records.map .ok))
    (hrec : ∀ r ∈ records, ∀ p ∈ c.properties, ∃ v w, r.get p.name = .ok v ∧ Stands v w) :
    (newSqlite lib c input ⟨emptyDb, none⟩).1 = .ok () := by
  obtain ⟨db, h⟩ := newSqlite_empty (lib := lib) hc hne hdiff hcol hsize htime hscan hrec
  unfold emptyDb
  rw [h]

/-- The hypotheses of the three theorems hold for an index on two properties and an input with two records; a build that is killed is refused afterwards. -/
example : (∀ n, emptyDb.table ("rodb_".toList ++ n ++ "_metadata".toList) = none) ∧ SqliteAccepted (textIndex "a" ["a", "b"]) ∧
    (newSqlite plainLib (textIndex "a" ["a", "b"]) twoPeople ⟨emptyDb, none⟩).1 = .ok () :=
  ⟨fun _ => rfl, accepted_textIndex (by unfold NoNul; decide) (by unfold NoNul; decide),
    C62_builds (c := textIndex "a" ["a", "b"]) (accepted_textIndex (by unfold NoNul; decide) (by unfold NoNul; decide)) (by decide)
      (show List.Pairwise (fun p q : SqlitePropertyDecl => sameName p.name.toList q.name.toList = false) [⟨"a", "BINARY"⟩, ⟨"b", "BINARY"⟩] by decide)
      (fun p hp => by obtain ⟨q, _, rfl⟩ := List.mem_map.1 hp; exact .inl rfl) rfl rfl rfl (by
        intro r hr p hp
        have hr : r = textRec 0 [("a", "x"), ("b", "y")] ∨ r = textRec 10 [("a", "x"), ("b", "z")] := by simpa using hr
        have hp : p = ⟨"a", "BINARY"⟩ ∨ p = ⟨"b", "BINARY"⟩ := by simpa [textIndex] using hp
        rcases hr with rfl | rfl <;> rcases hp with rfl | rfl <;> exact ⟨_, _, rfl, .text _⟩)⟩

example : (newSqlite plainLib (textIndex "a" ["a"]) twoPeople ⟨afterStarts plainLib emptyDb [⟨.sqlite (textIndex "a" ["a"]), twoPeople, some 6⟩], none⟩).1 =
    .error (.err "The previous indexing process has not ended properly.") := by
  unfold afterStarts afterStarts afterStart
  decide +kernel

/-! ### C63 -/

/-- SQLite gives rows in some order and does not fail while they are read. -/
def ReadsAll (lib : SqlLib) : Prop := PlansPermute lib ∧ ∀ text, lib.failsAfter text = none

/-- With any order of the filters, the index answers the positions of exactly the records that satisfy all of them, each once, in the order of SQLite's choice. -/
theorem C63_positions_partial {lib : SqlLib} (hlib : ReadsAll lib) {c : SqliteDecl} (hc : SqliteAccepted c) {input : Input} {db : SqlDb} (hdb : HoldsAll (.sqlite c) input db) :
    ∃ records, input.scan = .ok (records.map .ok) ∧ ∀ filters : GoMap Value, filters ≠ [] → (∀ f ∈ filters, SqliteAcceptable c f.1 f.2) →
      ∃ positions, positions.Perm (positionsOf records (fun r => filters.all (fun f => sqliteSat lib c f.1 f.2 r))) ∧
        sqliteGetRecordPositions lib c db c.input filters = .ok (iterateList positions) := by
  obtain ⟨records, table, hscan, ht, hcols, _, hd, hrows⟩ := hdb
  refine ⟨records, hscan, fun filters hne hacc => ?_⟩
  obtain ⟨rows, h1, h2⟩ := sqlite_positions (lib := lib) hc ht hcols hd hrows hne hacc
  obtain ⟨qs, h3, h4⟩ := map_perm_ints (hlib.1 (selectText c (filters.map (fun f => propertyIdentifier f.1 ++ " = ?".toList))) rows) h1
  refine ⟨qs, h3, ?_⟩
  rw [h2]
  simp only [hlib.2]
  rw [h4, sqliteRows_ints]

/-- If SQLite gives the rows in the order of their insertion, the index can be used like a map index: `Serves` is what the theorems on the outputs ask for. -/
theorem C63_serves_partial {lib : SqlLib} (hplan : ∀ text rows, lib.plan text rows = rows) (hfail : ∀ text, lib.failsAfter text = none) {c : SqliteDecl} (hc : SqliteAccepted c)
    {input : Input} (hname : input.name = c.input) {db : SqlDb} {records : List Rec} (hscan : input.scan = .ok (records.map .ok)) (hdb : HoldsAll (.sqlite c) input db) :
    Serves (fun input filters => sqliteGetRecordPositions lib c db input.name filters) input records (sqliteSat lib c) (SqliteAcceptable c) := by
  intro filters hne _ hacc
  obtain ⟨records', table, hscan', ht, hcols, _, hd, hrows⟩ := hdb
  have hrec : records' = records := by
    rw [hscan] at hscan'
    injection hscan' with e
    have inj : ∀ a b : List Rec, a.map (Except.ok (ε := Fail)) = b.map .ok → a = b := by
      intro a
      induction a with
      | nil => intro b h; cases b with | nil => rfl | cons => simp at h
      | cons x a ih =>
        intro b h
        cases b with
        | nil => simp at h
        | cons y b =>
          simp only [List.map_cons, List.cons.injEq, Except.ok.injEq] at h
          rw [h.1, ih b h.2]
    exact (inj _ _ e).symm
  subst hrec
  obtain ⟨rows, h1, h2⟩ := sqlite_positions (lib := lib) hc ht hcols hd hrows hne hacc
  show sqliteGetRecordPositions lib c db input.name filters = _
  rw [hname, h2]
  simp only [hplan, hfail, h1, sqliteRows_ints]

/-- From the starts of the program to an answer: the index that the last start accepted, after any starts with that index and input that were killed at any
statement, answers from exactly the records of the input. -/
theorem C63_after_starts_partial {lib : SqlLib} (hlib : ReadsAll lib) {db : SqlDb} (hdb : ∀ n, db.table ("rodb_".toList ++ n ++ "_metadata".toList) = none) {c : SqliteDecl}
    (hc : SqliteAccepted c) {input : Input} (deaths : List (Option Nat)) (last : Option Nat)
    (hok : (newSqlite lib c input ⟨afterStarts lib db (deaths.map (⟨.sqlite c, input, ·⟩)), last⟩).1 = .ok ()) :
    ∃ records, input.scan = .ok (records.map .ok) ∧ ∀ filters : GoMap Value, filters ≠ [] → (∀ f ∈ filters, SqliteAcceptable c f.1 f.2) →
      ∃ positions, positions.Perm (positionsOf records (fun r => filters.all (fun f => sqliteSat lib c f.1 f.2 r))) ∧
        sqliteGetRecordPositions lib c (afterStarts lib db (deaths.map (⟨.sqlite c, input, ·⟩) ++ [⟨.sqlite c, input, last⟩])) c.input filters = .ok (iterateList positions) :=
  C63_positions_partial hlib hc (C62_same_input (c := .sqlite c) hlib.1 hdb hc deaths last hok)

/-- A filter on a property that the configuration of the index does not have is rejected, whatever the database holds. -/
theorem C63_rejects {lib : SqlLib} {c : SqliteDecl} {db : SqlDb} {name : String} {filters : GoMap Value} {f : String × Value} (hf : f ∈ filters)
    (h : ∀ p ∈ c.properties, p.name ≠ f.1) : ∃ e, sqliteGetRecordPositions lib c db name filters = .error e := by
  have hcl : ∃ e, sqliteClauses c filters = .error e := by
    induction filters with
    | nil => cases hf
    | cons g rest ih =>
      obtain ⟨p, v⟩ := g
      unfold sqliteClauses
      split
      · exact ⟨_, rfl⟩
      · rename_i hh
        cases hf with
        | head =>
          refine absurd ?_ hh
          simp only [IndexDecl.handlesProperty, Bool.not_eq_true', List.any_eq_false, beq_iff_eq]
          simpa using fun p hp e => h p hp e.symm
        | tail _ hf =>
          obtain ⟨e, he⟩ := ih hf
          exact ⟨e, by simp only [he, Bind.bind, Except.bind]⟩
  obtain ⟨e, he⟩ := hcl
  unfold sqliteGetRecordPositions
  split
  · exact ⟨_, rfl⟩
  · split
    · exact ⟨_, rfl⟩
    · exact ⟨e, by simp only [he, Bind.bind, Except.bind]⟩

/-- For filters of the type of the values, what SQLite finds equal with the collation BINARY is what the other indexes find equal; null is the exception. -/
theorem C63_equal {lib : SqlLib} {v f : Value} (h : (∃ a b, v = .str a ∧ f = .str b) ∨ (∃ a b, v = .int a ∧ f = .int b) ∨ (∃ a b, v = .bool a ∧ f = .bool b) ∨
    ∃ a b, v = .float a ∧ f = .float b) : sqliteEquals lib "BINARY" v f = sameValue v f := by
  rcases h with ⟨a, b, rfl, rfl⟩ | ⟨a, b, rfl, rfl⟩ | ⟨a, b, rfl, rfl⟩ | ⟨a, b, rfl, rfl⟩
  · rfl
  · rfl
  · rfl
  · cases a <;> cases b <;> simp [sqliteEquals, sameValue, GoFloat.eq]

/-- With the collation NOCASE, texts without NUL bytes are equal when they are equal after changing the ASCII letters to lower case. -/
theorem C63_nocase {lib : SqlLib} {a b : Bytes} (ha : 0 ∉ a) (hb : 0 ∉ b) :
    sqliteEquals lib "NOCASE" (.str a) (.str b) = decide (a.map asciiLower = b.map asciiLower) := by
  have e : ∀ l : Bytes, 0 ∉ l → l.takeWhile (· ≠ 0) = l := by
    intro l hl
    induction l with
    | nil => rfl
    | cons x l ih =>
      simp only [List.mem_cons, not_or] at hl
      rw [List.takeWhile_cons, if_pos (by simpa using fun e => hl.1 e.symm), ih hl.2]
  simp only [sqliteEquals, sameText, if_true, e a ha, e b hb]
  rw [Bool.eq_iff_iff]
  simp only [Bool.and_eq_true, decide_eq_true_eq, and_iff_right_iff_imp]
  intro h
  have := congrArg List.length h
  simpa using this

/-- The hypotheses of the theorems above hold, and the filters find one of the two records. -/
example : ReadsAll plainLib ∧ SqliteAcceptable (textIndex "a" ["a", "b"]) "b" (.str (utf8 "z".toList)) :=
  ⟨⟨plainLib_permutes, fun _ => rfl⟩, ⟨⟨"b", "BINARY"⟩, .tail _ (.head _), rfl⟩, _, .text _⟩

example : sqliteGetRecordPositions plainLib (textIndex "a" ["b"]) (newSqlite plainLib (textIndex "a" ["b"]) twoPeople ⟨emptyDb, none⟩).2.db "people"
    [("b", .str (utf8 "z".toList))] = .ok (iterateList [10]) := by decide +kernel

/-- The stored index is not compared with the properties of the configuration: an index that was built without a property is accepted after the property has been
added to the configuration, and filters on it, instead of being rejected or finding the record, find nothing. -/
theorem C63_false : ∃ (c d : SqliteDecl) (input : Input) (records : List Rec) (property : String) (f : Value),
    input.scan = .ok (records.map .ok) ∧ SqliteAccepted c ∧ SqliteAccepted d ∧ d.name = c.name ∧ SqliteAcceptable d property f ∧
    (newSqlite plainLib c input ⟨emptyDb, none⟩).1 = .ok () ∧
    (let db := (newSqlite plainLib c input ⟨emptyDb, none⟩).2.db
     (newSqlite plainLib d input ⟨db, none⟩).1 = .ok () ∧ (newSqlite plainLib d input ⟨db, none⟩).2.db = db ∧
     sqliteGetRecordPositions plainLib d db d.input [(property, f)] = .ok (iterateList [])) ∧
    positionsOf records (sqliteSat plainLib d property f) = [10] :=
  ⟨textIndex "a" ["a"], textIndex "a" ["b"], twoPeople, [textRec 0 [("a", "x"), ("b", "y")], textRec 10 [("a", "x"), ("b", "z")]], "b", .str (utf8 "z".toList), rfl,
    accepted_textIndex (by unfold NoNul; decide) (by unfold NoNul; decide), accepted_textIndex (by unfold NoNul; decide) (by unfold NoNul; decide), rfl,
    ⟨⟨⟨"b", "BINARY"⟩, .head _, rfl⟩, _, .text _⟩, by decide +kernel, ⟨by decide +kernel, by decide +kernel, by decide +kernel⟩, by decide +kernel⟩

/-- When SQLite fails while the rows are read, the list of positions just ends: the error is not looked at. -/
theorem C63_failure_false : ∃ (lib : SqlLib) (c : SqliteDecl) (db : SqlDb) (f : Value), PlansPermute lib ∧ lib.failsAfter (selectText c [propertyIdentifier "a" ++ " = ?".toList]) = some 1 ∧
    HoldsAll (.sqlite c) twoPeople db ∧ sqliteGetRecordPositions lib c db c.input [("a", f)] = .ok (iterateList [0]) ∧
    sqliteGetRecordPositions plainLib c db c.input [("a", f)] = .ok (iterateList [0, 10]) := by
  refine ⟨{ plainLib with failsAfter := fun _ => some 1 }, textIndex "a" ["a"], afterStarts plainLib emptyDb [⟨.sqlite (textIndex "a" ["a"]), twoPeople, none⟩], .str (utf8 "x".toList),
    plainLib_permutes, rfl, ?_, ?_, ?_⟩
  · refine C62_same_input (c := .sqlite (textIndex "a" ["a"])) plainLib_permutes (fun _ => rfl) (accepted_textIndex (by unfold NoNul; decide) (by unfold NoNul; decide)) [] none ?_
    unfold afterStarts
    decide +kernel
  · unfold afterStarts afterStarts afterStart
    decide +kernel
  · unfold afterStarts afterStarts afterStart
    decide +kernel

/-- A filter with null finds nothing, not even the records whose value is null, which the other indexes find. -/
theorem C63_null_false (lib : SqlLib) (collate : String) (v : Value) : sqliteEquals lib collate v .null = false ∧ sameValue .null .null = true :=
  ⟨by cases v <;> rfl, rfl⟩

end Rodb
