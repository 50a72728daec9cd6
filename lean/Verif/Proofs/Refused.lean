import Verif.Proofs.FtsBuild
import Verif.Proofs.RestartSql
/-
  What a build that succeeds tells about the index and its input.
-/
namespace Rodb
open Rodb.Spec

theorem SqlM.bind_inv {α β : Type} {m : SqlM α} {f : α → SqlM β} {s t : SqlState} {b : β} (h : (m >>= f) s = (.ok b, t)) :
    ∃ a s', m s = (.ok a, s') ∧ f a s' = (.ok b, t) := by
  have h : SqlM.bind m f s = (.ok b, t) := h
  unfold SqlM.bind at h
  split at h
  · rename_i a s' hm
    exact ⟨a, s', hm, h⟩
  · cases h

theorem SqlM.lift_inv {α : Type} {r : Res α} {s t : SqlState} {a : α} (h : SqlM.lift r s = (.ok a, t)) : r = .ok a ∧ t = s := by
  unfold SqlM.lift at h
  injection h with h1 h2
  exact ⟨h1, h2.symm⟩

theorem exec_inv {text : List Char} {args : List Value} {s t : SqlState} (h : exec text args s = (.ok (), t)) :
    ∃ vals, bindValues args = .ok vals ∧ sqlExec s.db text vals = .ok t.db := by
  unfold exec at h
  split at h
  · cases h
  · rename_i vals hv
    split at h
    · cases h
    · split at h
      · cases h
      · rename_i db hd
        injection h with _ h
        exact ⟨vals, hv, by rw [hd, ← h]⟩

theorem prepare_inv {text : List Char} {s t : SqlState} (h : prepare text s = (.ok (), t)) : parseSql text ≠ none := by
  unfold prepare at h
  split at h
  · cases h
  · rename_i h'
    rw [h']
    simp

theorem stands_of_stored {r : Rec} : ∀ {ps : List String} {ws : List SqlValue}, StoredValues r ps ws → ∀ p ∈ ps, ∃ v w, r.get p = .ok v ∧ Stands v w
  | p :: ps, w :: ws, ⟨⟨v, hv, hs⟩, h⟩, q, hq => by
    rcases List.mem_cons.1 hq with rfl | hq
    · exact ⟨v, w, hv, hs⟩
    · exact stands_of_stored h q hq
  | _ :: _, [], h, _, _ => h.elim

theorem insertRecords_inv {text : List Char} {ps : List String} : ∀ {l : List (Res Rec)} {s t : SqlState}, insertRecords text ps l s = (.ok (), t) →
    ∃ records : List Rec, l = records.map .ok ∧ ∀ r ∈ records, ∀ p ∈ ps, ∃ v w, r.get p = .ok v ∧ Stands v w
  | [], _, _, _ => ⟨[], rfl, by simp⟩
  | x :: l, s, t, h => by
    unfold insertRecords at h
    obtain ⟨r, s1, h1, h⟩ := SqlM.bind_inv h
    obtain ⟨hx, _⟩ := SqlM.lift_inv h1
    obtain ⟨vs, s2, h2, h⟩ := SqlM.bind_inv h
    obtain ⟨hv, _⟩ := SqlM.lift_inv h2
    obtain ⟨_, s3, h3, h⟩ := SqlM.bind_inv h
    obtain ⟨vals, hb, _⟩ := exec_inv h3
    obtain ⟨_, ws, _, hws, _⟩ := bindValues_cons.1 hb
    obtain ⟨records, hl, hr⟩ := insertRecords_inv h
    refine ⟨r :: records, by rw [hx, hl]; rfl, ?_⟩
    intro y hy
    rcases List.mem_cons.1 hy with rfl | hy
    · exact stands_of_stored (storedValues_of hv hws)
    · exact hr y hy

theorem newSqliteMetadata_inv {name : String} {input : Input} {m : SqliteMetadata} (h : newSqliteMetadata name input = .ok m) :
    (∃ size, input.size = .ok size) ∧ ∃ time, input.modTimeNs = .ok time := by
  unfold newSqliteMetadata at h
  cases hs : input.size with
  | error e => rw [hs] at h; cases h
  | ok size =>
    cases ht : input.modTimeNs with
    | error e => rw [hs, ht] at h; cases h
    | ok time => exact ⟨⟨size, rfl⟩, time, rfl⟩

theorem pairwise_of_differentColumns : ∀ {l : List SqlColumn}, differentColumns l = true → l.Pairwise (fun a b => sameName a.name b.name = false)
  | [], _ => .nil
  | c :: l, h => by
    simp only [differentColumns, Bool.and_eq_true, Bool.not_eq_true', List.any_eq_false] at h
    rw [List.pairwise_cons]
    exact ⟨fun d hd => by simpa using h.1 d hd, pairwise_of_differentColumns h.2⟩

/-! ### The SQLite index -/

theorem createTable_inv {c : SqliteDecl} (hc : SqliteAccepted c) {db db' : SqlDb} (h : sqlExec db (createTableText c) [] = .ok db') : SqliteBuildable c := by
  have hne : c.properties ≠ [] := by
    intro e
    simp only [sqlExec, parse_createTable_empty e, parseFts_noColumns e] at h
    cases h
  simp only [sqlExec, parse_createTable (fun p hp => collateWord_allowed (hc.collate p hp)) hne] at h
  split at h
  · simp at h
  split at h
  · cases h
  split at h
  · cases h
  rename_i hd
  split at h
  · cases h
  rename_i hcol
  rw [Bool.not_eq_true, Bool.not_eq_false'] at hd hcol
  refine ⟨hne, ?_, ?_⟩
  · have := pairwise_of_differentColumns hd
    rw [indexColumns, List.pairwise_cons, List.pairwise_map] at this
    refine List.Pairwise.imp_of_mem ?_ this.2
    intro p q hp hq hpq
    simp only [propertySqlColumn] at hpq
    rw [sameName_property (hc.properties p hp) (hc.properties q hq)] at hpq
    exact hpq
  · intro p hp
    have hm := hc.collate p hp
    simp only [List.mem_cons, List.not_mem_nil, or_false] at hm
    rcases hm with h | h | h
    · exact .inl h
    · exact .inr h
    · simp only [indexColumns, List.all_cons, List.all_map, Bool.and_eq_true, List.all_eq_true, Function.comp] at hcol
      have := hcol.2 p hp
      simp only [propertySqlColumn, h] at this
      exact absurd this (by decide)

theorem sqliteCreateIndex_inv {lib : SqlLib} {c : SqliteDecl} (hc : SqliteAccepted c) {input : Input} {s t : SqlState} (h : sqliteCreateIndex lib c input s = (.ok (), t)) :
    SqliteBuildable c ∧ Storable input (c.properties.map (·.name)) := by
  unfold sqliteCreateIndex at h
  obtain ⟨m, s1, h1, h⟩ := SqlM.bind_inv h
  obtain ⟨hsize, htime⟩ := newSqliteMetadata_inv (SqlM.lift_inv h1).1
  obtain ⟨_, s2, _, h⟩ := SqlM.bind_inv h
  obtain ⟨l, s3, h3, h⟩ := SqlM.bind_inv h
  obtain ⟨_, s4, h4, h⟩ := SqlM.bind_inv h
  obtain ⟨vals, hv, hx⟩ := exec_inv h4
  cases hv
  obtain ⟨_, s5, _, h⟩ := SqlM.bind_inv h
  obtain ⟨_, s6, _, h⟩ := SqlM.bind_inv h
  obtain ⟨_, s7, h7, h⟩ := SqlM.bind_inv h
  obtain ⟨records, hl, hr⟩ := insertRecords_inv h7
  exact ⟨createTable_inv hc hx, hsize, htime, records, by rw [(SqlM.lift_inv h3).1, hl], hr⟩

/-! ### The full-text index -/

theorem ftsPrefixOk_inv {l : List Int} (h : ftsPrefixOk (prefixText l) = true) : l.length ≤ 31 ∧ ∀ n ∈ l, 1 ≤ n ∧ n ≤ 999 := by
  have hf : (l.map itoa).filter (fun w => decide (w ≠ [])) = l.map itoa := by
    refine List.filter_eq_self.2 (fun w hw => ?_)
    obtain ⟨n, _, rfl⟩ := List.mem_map.1 hw
    simpa using itoa_ne_nil n
  simp only [ftsPrefixOk, spaceWords_prefix, hf, List.length_map, Bool.and_eq_true, decide_eq_true_eq, List.all_eq_true] at h
  refine ⟨h.1, fun n hn => ?_⟩
  obtain ⟨⟨hd, h1⟩, h2⟩ := h.2 (itoa n) (List.mem_map_of_mem hn)
  have hpos : 0 ≤ n := by
    by_cases hn : n < 0
    · exfalso
      have := hd '-' (by unfold itoa; rw [if_pos hn]; simp)
      exact absurd this (by decide)
    · omega
  rw [ftsDigits_itoa hpos] at h1 h2
  omega

theorem ftsOptionsOk_inv {p t : List Char} (h : ftsOptionsOk [("prefix".toList, p), ("tokenize".toList, t)] = true) : ftsPrefixOk p = true ∧ ftsTokenizerOk t = true := by
  have hab : "prefix".toList ≠ "tokenize".toList := by decide
  unfold ftsOptionsOk at h
  revert h hab
  generalize "prefix".toList = a
  generalize "tokenize".toList = b
  intro h hab
  simpa [hab, Ne.symm hab] using h

theorem createFts_inv {c : Fts5Decl} (hc : Fts5Accepted c) {db db' : SqlDb} (h : sqlExec db (fts5CreateText c) [] = .ok db') (hne : c.properties ≠ []) : FtsBuildable c := by
  simp only [sqlExec, parseSql_ftsCreate, parse_ftsCreate, sqlCreateFts] at h
  split at h
  · cases h
  split at h
  · cases h
  split at h
  · cases h
  rename_i hany
  split at h
  · cases h
  rename_i hopt
  split at h
  · cases h
  rename_i hd
  rw [Bool.not_eq_true, Bool.not_eq_false'] at hd hopt
  rw [Bool.not_eq_true, List.any_eq_false] at hany
  have hcols : (("__offset".toList, true) :: c.properties.map (fun p => (readName p.toList, false))).map (fun x => (⟨x.1, "BINARY".toList⟩ : SqlColumn)) = ftsColumnsOf c := by
    rw [ftsColumnsOf_eq hc]
    simp [ftsColumns, Function.comp_def]
  rw [hcols] at hd
  have hp := pairwise_of_differentColumns hd
  rw [List.pairwise_append] at hp
  obtain ⟨hp1, _, hp2⟩ := hp
  rw [ftsColumnsOf, List.pairwise_cons, List.pairwise_map] at hp1
  rw [readName_plain hc.tokenize] at hopt
  obtain ⟨h1, h2⟩ := ftsOptionsOk_inv hopt
  obtain ⟨hlen, hpre⟩ := ftsPrefixOk_inv h1
  refine ⟨hne, hp1.2, ?_, ftsTokenizerOk_iff.1 h2, hlen, hpre⟩
  intro p hpm n hn
  have hcol : (⟨p.toList, "BINARY".toList⟩ : SqlColumn) ∈ ftsColumnsOf c := by
    rw [ftsColumnsOf]
    exact .tail _ (List.mem_map_of_mem (f := fun p : String => (⟨p.toList, "BINARY".toList⟩ : SqlColumn)) hpm)
  have hres := hany (readName p.toList, false) (.tail _ (List.mem_map_of_mem (f := fun p : String => (readName p.toList, false)) hpm))
  simp only [readName_plain (hc.properties p hpm), Bool.or_eq_true, not_or, Bool.not_eq_true] at hres
  simp only [List.mem_cons, List.not_mem_nil, or_false] at hn
  rcases hn with rfl | rfl | rfl | rfl
  · rw [sameName_comm]
    exact hp1.1 _ (List.mem_map_of_mem (f := fun p : String => (⟨p.toList, "BINARY".toList⟩ : SqlColumn)) hpm)
  · exact hres.1
  · exact hres.2
  · have := hp2 _ hcol _ (List.mem_singleton.2 rfl)
    rw [← indexTable_plain hc.name]
    exact this

theorem fts5CreateIndex_inv {lib : SqlLib} {c : Fts5Decl} (hc : Fts5Accepted c) {input : Input} {s t : SqlState} (h : fts5CreateIndex lib c input s = (.ok (), t)) :
    FtsBuildable c ∧ Storable input c.properties := by
  unfold fts5CreateIndex at h
  obtain ⟨m, s1, h1, h⟩ := SqlM.bind_inv h
  obtain ⟨hsize, htime⟩ := newSqliteMetadata_inv (SqlM.lift_inv h1).1
  obtain ⟨_, s2, _, h⟩ := SqlM.bind_inv h
  obtain ⟨l, s3, h3, h⟩ := SqlM.bind_inv h
  obtain ⟨_, s3', _, h⟩ := SqlM.bind_inv h
  obtain ⟨_, s4, h4, h⟩ := SqlM.bind_inv h
  obtain ⟨vals, hv, hx⟩ := exec_inv h4
  cases hv
  obtain ⟨_, s6, h6, h⟩ := SqlM.bind_inv h
  obtain ⟨_, s7, h7, h⟩ := SqlM.bind_inv h
  obtain ⟨records, hl, hr⟩ := insertRecords_inv h7
  have hne : c.properties ≠ [] := fun e => prepare_inv h6 (parseSql_ftsInsert_empty e)
  exact ⟨createFts_inv hc hx hne, hsize, htime, records, by rw [(SqlM.lift_inv h3).1, hl], hr⟩

theorem master_row_inv (lib : SqlLib) {n : String} (h : NoNul n) {a b : List Char} {c : SqlValue} (hm : rowMatches lib masterColumns [.text (utf8 a), .text (utf8 b), c]
    [(.word "type".toList, .text "table".toList), (.word "name".toList, .quoted (metadataTable n))] [] = true) : a = "table".toList ∧ b = metadataTable n := by
  obtain ⟨e1, e2, e3⟩ := masterColumns_get n h (.text (utf8 a)) (.text (utf8 b)) c
  have e4 : ∀ s t : Bytes, sqlEq lib "BINARY".toList (.text s) (.text t) = decide (s = t) := by
    intro s t
    simp only [sqlEq, collateEq]
    rw [if_neg (by decide)]
  simp only [rowMatches, operandValue, e1, e2, e3, Option.some_or, Option.getD_some, e4, Bool.and_true, Bool.and_eq_true, decide_eq_true_eq] at hm
  exact ⟨utf8_inj hm.1, utf8_inj hm.2⟩

theorem hasMetadata_none {lib : SqlLib} {n : String} (hn : NoNul n) {db : SqlDb} {w : Option Nat} (h : db.table (metadataTable n) = none) :
    hasSqliteMetadata lib n ⟨db, w⟩ = (.ok false, ⟨db, w⟩) := by
  have hrow : db.master.rows.filter (fun row => rowMatches lib db.master.columns row
      [(.word "type".toList, .text "table".toList), (.word "name".toList, .quoted (metadataTable n))] []) = [] := by
    rw [List.filter_eq_nil_iff]
    intro row hr hm
    rw [master_columns] at hm
    rcases List.mem_append.1 hr with hr | hr
    · obtain ⟨t, ht, rfl⟩ := List.mem_map.1 hr
      have := (master_row_inv lib hn hm).2
      have hnone := List.find?_eq_none.1 h t ht
      rw [this, sameName_refl] at hnone
      exact hnone rfl
    · obtain ⟨t, ht, rfl⟩ := List.mem_map.1 hr
      exact absurd (master_row_inv lib hn hm).1 (by decide)
  have hquery : sqlQuery lib db (hasMetadataText n) [] = .ok [[.int (db.master.rows.filter (fun row => rowMatches lib db.master.columns row
      [(.word "type".toList, .text "table".toList), (.word "name".toList, .quoted (metadataTable n))] [])).length]] := by
    simp only [sqlQuery, parse_hasMetadata]
    rw [show db.source "sqlite_master".toList = some db.master by unfold SqlDb.source; rw [if_pos (sameName_refl _)]]
    dsimp only
    rw [if_neg (by rw [master_columns, master_known]; simp), if_neg (by simp [countParams])]
  rw [hrow] at hquery
  unfold hasSqliteMetadata
  show SqlM.bind _ _ _ = _
  simp only [SqlM.bind, query, bindValues, hquery, SqlM.lift]
  rfl

theorem newSqlite_inv {lib : SqlLib} {c : SqliteDecl} (hc : SqliteAccepted c) {input : Input} {db : SqlDb} {w : Option Nat} (hdb : db.table (metadataTable c.name) = none)
    (h : (newSqlite lib c input ⟨db, w⟩).1 = .ok ()) : SqliteBuildable c ∧ Storable input (c.properties.map (·.name)) := by
  have h' : newSqlite lib c input ⟨db, w⟩ = (.ok (), (newSqlite lib c input ⟨db, w⟩).2) := by rw [← h]
  unfold newSqlite at h'
  obtain ⟨e, s, h1, h2⟩ := SqlM.bind_inv h'
  rw [hasMetadata_none hc.name hdb] at h1
  injection h1 with h1 _
  cases h1
  exact sqliteCreateIndex_inv hc h2

theorem newFts5_inv {lib : SqlLib} {c : Fts5Decl} (hc : Fts5Accepted c) {input : Input} {db : SqlDb} {w : Option Nat} (hdb : db.table (metadataTable c.name) = none)
    (h : (newFts5 lib c input ⟨db, w⟩).1 = .ok ()) : FtsBuildable c ∧ Storable input c.properties := by
  have h' : newFts5 lib c input ⟨db, w⟩ = (.ok (), (newFts5 lib c input ⟨db, w⟩).2) := by rw [← h]
  unfold newFts5 at h'
  obtain ⟨e, s, h1, h2⟩ := SqlM.bind_inv h'
  rw [hasMetadata_none hc.name hdb] at h1
  injection h1 with h1 _
  cases h1
  exact fts5CreateIndex_inv hc h2

end Rodb
