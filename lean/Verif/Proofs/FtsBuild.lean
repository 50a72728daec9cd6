import Verif.Proofs.SqliteBuild
/-
  A build of an FTS5 index in an empty database by a process that lives on succeeds, and what the index answers.
-/
namespace Rodb
open Rodb.Spec

/-! ### The options -/

theorem spaceWords_word : ∀ {w : List Char}, ' ' ∉ w → w ≠ [] → spaceWords w = [w]
  | [c], h, _ => by
    have : c ≠ ' ' := fun e => h (by simp [e])
    simp [spaceWords, this]
  | c :: d :: w, h, _ => by
    have h1 : c ≠ ' ' := fun e => h (by simp [e])
    have ih := spaceWords_word (w := d :: w) (fun m => h (.tail _ m)) (by simp)
    rw [spaceWords, if_neg h1, ih]

theorem spaceWords_append : ∀ {w : List Char} {rest : List Char}, ' ' ∉ w → w ≠ [] → spaceWords (w ++ ' ' :: rest) = w :: spaceWords rest
  | [c], rest, h, _ => by
    have : c ≠ ' ' := fun e => h (by simp [e])
    simp [spaceWords, this]
  | c :: d :: w, rest, h, _ => by
    have h1 : c ≠ ' ' := fun e => h (by simp [e])
    have ih := spaceWords_append (w := d :: w) (rest := rest) (fun m => h (.tail _ m)) (by simp)
    rw [List.cons_append, spaceWords, if_neg h1, ih]

theorem itoa_noSpace (n : Int) : ' ' ∉ itoa n := fun h => by
  rcases itoa_chars h with e | e <;> exact absurd e (by decide)

theorem itoa_ne_nil (n : Int) : itoa n ≠ [] := by
  unfold itoa
  split
  · simp
  · exact Nat.toDigits_ne_nil

theorem spaceWords_prefix : ∀ l : List Int, spaceWords (prefixText l) = l.map itoa
  | [] => rfl
  | [n] => by
    rw [prefixText, spaceWords_word (itoa_noSpace n) (itoa_ne_nil n)]
    rfl
  | n :: m :: rest => by
    rw [prefixText, List.append_assoc, List.singleton_append, spaceWords_append (itoa_noSpace n) (itoa_ne_nil n), spaceWords_prefix (m :: rest)]
    rfl

theorem ftsDigits_foldl (l : List Char) : ∀ n : Nat, l.foldl (fun n d => 10 * n + (d.toNat - 48)) n = Nat.ofDigitChars 10 l n := by
  intro n
  unfold Nat.ofDigitChars
  rfl

theorem ftsDigits_itoa {n : Int} (h : 0 ≤ n) : ftsDigits (itoa n) = n.natAbs := by
  unfold ftsDigits itoa
  rw [if_neg (by omega), ftsDigits_foldl, Nat.ofDigitChars_ten_toDigits]

theorem ftsPrefixOk_prefix {l : List Int} (hl : l.length ≤ 31) (h : ∀ n ∈ l, 1 ≤ n ∧ n ≤ 999) : ftsPrefixOk (prefixText l) = true := by
  have hf : (l.map itoa).filter (fun w => decide (w ≠ [])) = l.map itoa := by
    refine List.filter_eq_self.2 (fun w hw => ?_)
    obtain ⟨n, _, rfl⟩ := List.mem_map.1 hw
    simpa using itoa_ne_nil n
  simp only [ftsPrefixOk, spaceWords_prefix, hf, List.length_map, hl, decide_true, Bool.true_and, List.all_eq_true]
  intro w hw
  obtain ⟨n, hn, rfl⟩ := List.mem_map.1 hw
  obtain ⟨h1, h2⟩ := h n hn
  rw [ftsDigits_itoa (by omega)]
  simp only [Bool.and_eq_true, decide_eq_true_eq, List.all_eq_true]
  refine ⟨⟨?_, by omega⟩, by omega⟩
  intro c hc
  unfold itoa at hc
  rw [if_neg (by omega)] at hc
  have := Nat.isDigit_of_mem_toDigits (by omega) (by omega) hc
  simp only [Char.isDigit, Bool.and_eq_true, decide_eq_true_eq] at this
  exact this

theorem spaceWords_spaces : ∀ {spaces t : List Char}, (∀ c ∈ spaces, c = ' ') →
    (spaceWords (spaces ++ t)).filter (fun w => decide (w ≠ [])) = (spaceWords t).filter (fun w => decide (w ≠ []))
  | [], _, _ => rfl
  | c :: spaces, t, h => by
    rw [List.cons_append, spaceWords, if_pos (h c (.head _)), List.filter_cons_of_neg (by simp)]
    exact spaceWords_spaces (fun d hd => h d (.tail _ hd))

theorem spaceWords_nil {t : List Char} (h : spaceWords t = []) : t = [] := by
  cases t with
  | nil => rfl
  | cons c t =>
    rw [spaceWords] at h
    split at h
    · cases h
    · split at h <;> cases h

/-- The first word, and what follows it. -/
theorem spaceWords_head : ∀ {t w : List Char} {ws : List (List Char)}, spaceWords t = w :: ws → ∃ rest, t = w ++ rest ∧ (rest = [] ∨ ∃ r, rest = ' ' :: r ∧ spaceWords r = ws)
  | [], w, ws, h => by cases h
  | c :: t, w, ws, h => by
    rw [spaceWords] at h
    by_cases hc : c = ' '
    · rw [if_pos hc] at h
      obtain ⟨rfl, rfl⟩ := List.cons.inj h
      exact ⟨c :: t, rfl, .inr ⟨t, by rw [hc], rfl⟩⟩
    · rw [if_neg hc] at h
      cases hs : spaceWords t with
      | nil =>
        rw [hs] at h
        obtain ⟨rfl, rfl⟩ := List.cons.inj h
        exact ⟨[], by rw [spaceWords_nil hs]; rfl, .inl rfl⟩
      | cons v vs =>
        rw [hs] at h
        obtain ⟨rfl, rfl⟩ := List.cons.inj h
        obtain ⟨rest, rfl, hr⟩ := spaceWords_head hs
        exact ⟨rest, rfl, hr⟩

theorem filter_head : ∀ {t : List Char} {w : List Char} {ws : List (List Char)}, (spaceWords t).filter (fun w => decide (w ≠ [])) = w :: ws →
    ∃ spaces rest, t = spaces ++ w ++ rest ∧ (∀ c ∈ spaces, c = ' ') ∧ (rest = [] ∨ ∃ r, rest = ' ' :: r)
  | [], w, ws, h => by cases h
  | c :: t, w, ws, h => by
    by_cases hc : c = ' '
    · rw [spaceWords, if_pos hc, List.filter_cons_of_neg (by simp)] at h
      obtain ⟨spaces, rest, rfl, h1, h2⟩ := filter_head h
      refine ⟨c :: spaces, rest, rfl, ?_, h2⟩
      intro d hd
      rcases List.mem_cons.1 hd with rfl | hd
      · exact hc
      · exact h1 d hd
    · cases hs : spaceWords (c :: t) with
      | nil => rw [hs] at h; cases h
      | cons v vs =>
        have hv : v ≠ [] := by
          rw [spaceWords, if_neg hc] at hs
          split at hs <;> (obtain ⟨rfl, _⟩ := List.cons.inj hs; simp)
        rw [hs, List.filter_cons_of_pos (by simpa using hv)] at h
        obtain ⟨rfl, _⟩ := List.cons.inj h
        obtain ⟨rest, hr, h⟩ := spaceWords_head hs
        exact ⟨[], rest, hr, by simp, h.imp id (fun ⟨r, hr, _⟩ => ⟨r, hr⟩)⟩

theorem ftsTokenizerOk_iff {t : List Char} : ftsTokenizerOk t = true ↔ KnownTokenizer t := by
  constructor
  · intro h
    unfold ftsTokenizerOk at h
    cases hs : (spaceWords t).filter (fun w => decide (w ≠ [])) with
    | nil => rw [hs] at h; cases h
    | cons w ws =>
      rw [hs] at h
      obtain ⟨spaces, rest, ht, h1, h2⟩ := filter_head hs
      refine ⟨spaces, w, rest, ht, h1, h2, ?_⟩
      simp only [List.any_cons, List.any_nil, Bool.or_false, Bool.or_eq_true] at h
      rcases h with h | h | h | h
      · exact ⟨_, .head _, h⟩
      · exact ⟨_, .tail _ (.head _), h⟩
      · exact ⟨_, .tail _ (.tail _ (.head _)), h⟩
      · exact ⟨_, .tail _ (.tail _ (.tail _ (.head _))), h⟩
  · rintro ⟨spaces, w, rest, rfl, h1, h2, known, hk, hw⟩
    have hs : ' ' ∉ w ∧ w ≠ [] := by
      rw [sameName_iff] at hw
      have hm : ' ' ∉ known.toList.map Char.toLower ∧ known.toList.map Char.toLower ≠ [] := by
        simp only [List.mem_cons, List.not_mem_nil, or_false] at hk
        rcases hk with rfl | rfl | rfl | rfl <;> decide
      rw [← hw] at hm
      exact ⟨fun h => hm.1 (List.mem_map.2 ⟨' ', h, by decide⟩), fun h => hm.2 (by rw [h]; rfl)⟩
    have hkn : ["unicode61".toList, "ascii".toList, "porter".toList, "trigram".toList].any (sameName w) = true := by
      rw [List.any_eq_true]
      refine ⟨known.toList, ?_, hw⟩
      simp only [List.mem_cons, List.not_mem_nil, or_false] at hk ⊢
      rcases hk with rfl | rfl | rfl | rfl <;> simp
    unfold ftsTokenizerOk
    rw [List.append_assoc, spaceWords_spaces h1]
    rcases h2 with rfl | ⟨r, rfl⟩
    · rw [List.append_nil, spaceWords_word hs.1 hs.2, List.filter_cons_of_pos (by simpa using hs.2)]
      exact hkn
    · rw [spaceWords_append hs.1 hs.2, List.filter_cons_of_pos (by simpa using hs.2)]
      exact hkn

/-! ### The table -/

theorem differentColumns_of_pairwise : ∀ {l : List SqlColumn}, l.Pairwise (fun a b => sameName a.name b.name = false) → differentColumns l = true
  | [], _ => rfl
  | c :: l, h => by
    rw [List.pairwise_cons] at h
    simp only [differentColumns, Bool.and_eq_true, Bool.not_eq_true', List.any_eq_false]
    exact ⟨fun d hd => by rw [h.1 d hd]; simp, differentColumns_of_pairwise h.2⟩

theorem offset_ne_table {n : String} (h : NoNul n) : sameName "__offset".toList (indexTable n) = false := by
  rw [indexTable_plain h, Bool.eq_false_iff, ne_eq, sameName_iff, List.append_assoc, List.map_append]
  intro e
  rw [show "rodb_".toList.map Char.toLower = ['r', 'o', 'd', 'b', '_'] by decide, show "__offset".toList.map Char.toLower = '_' :: "_offset".toList by decide] at e
  injection e with e1
  exact absurd e1 (by decide)

theorem fts_columns_differ {c : Fts5Decl} (hc : Fts5Accepted c) (hb : FtsBuildable c) :
    differentColumns (ftsColumnsOf c ++ [⟨indexTable c.name, "BINARY".toList⟩]) = true := by
  refine differentColumns_of_pairwise ?_
  rw [List.pairwise_append]
  refine ⟨?_, by simp, ?_⟩
  · rw [ftsColumnsOf, List.pairwise_cons, List.pairwise_map]
    refine ⟨?_, hb.different⟩
    intro d hd
    obtain ⟨p, hp, rfl⟩ := List.mem_map.1 hd
    rw [sameName_comm]
    exact hb.names p hp "__offset".toList (by simp)
  · intro a ha b hb'
    rw [List.mem_singleton.1 hb']
    rcases List.mem_cons.1 ha with rfl | ha
    · exact offset_ne_table hc.name
    · obtain ⟨p, hp, rfl⟩ := List.mem_map.1 ha
      rw [indexTable_plain hc.name]
      exact hb.names p hp _ (by simp)

theorem build_createFts {c : Fts5Decl} (hc : Fts5Accepted c) (hb : FtsBuildable c) {rows : List (List SqlValue)} {db : SqlDb} (h : Building (.fts5 c) (some rows) none [] db) :
    Runs (exec (fts5CreateText c) []) db (fun _ d => Building (.fts5 c) (some rows) (some []) [] d) := by
  have hp := hc.name
  have hnone : db.table (indexTable c.name) = none := h.index
  have hidx : db.hasIndex (indexTable c.name) = false := by rw [hasIndex_names, h.indexes]; rfl
  have hcols : (("__offset".toList, true) :: c.properties.map (fun p => (readName p.toList, false))).map (fun x => (⟨x.1, "BINARY".toList⟩ : SqlColumn)) = ftsColumnsOf c := by
    rw [ftsColumnsOf_eq hc]
    simp [ftsColumns, Function.comp_def]
  have hany : (("__offset".toList, true) :: c.properties.map (fun p => (readName p.toList, false))).any (fun c => sameName c.1 "rank".toList || sameName c.1 "rowid".toList) = false := by
    rw [List.any_eq_false]
    intro x hx
    rcases List.mem_cons.1 hx with rfl | hx
    · decide
    · obtain ⟨p, hpm, rfl⟩ := List.mem_map.1 hx
      simp only
      rw [readName_plain (hc.properties p hpm), hb.names p hpm "rank".toList (by simp), hb.names p hpm "rowid".toList (by simp)]
      simp
  have hopt : ftsOptionsOk [("prefix".toList, prefixText c.prefixes), ("tokenize".toList, readName c.tokenize.toList)] = true := by
    simp only [ftsOptionsOk, List.all_cons, List.all_nil, ftsPrefixOk_prefix hb.count hb.prefixes, readName_plain hc.tokenize, ftsTokenizerOk_iff.2 hb.tokenizer, decide_true, Bool.true_or, Bool.and_true, Bool.or_true]
  have hx : ∃ db', sqlExec db (fts5CreateText c) [] = .ok db' ∧ db'.indexes = db.indexes := by
    simp only [sqlExec, parseSql_ftsCreate, parse_ftsCreate, sqlCreateFts, hnone, Option.isSome_none, Bool.false_eq_true, if_false, hidx, hany, hopt, Bool.not_true, hcols,
      fts_columns_differ hc hb]
    exact ⟨_, rfl, rfl⟩
  obtain ⟨db', hx, hi⟩ := hx
  obtain ⟨a, d, h1, rfl⟩ := runs_exec (args := []) rfl hx
  obtain ⟨_, _, hu⟩ := exec_createFts hc hx
  exact ⟨a, d, h1, by rw [hu.other (by rw [sameName_comm]; exact metadata_ne_index hp hp)]; exact h.metadata, hu.same (sameName_refl _),
    fun n h1 h2 => by rw [hu.other h2]; exact h.others n h1 h2, by rw [hi]; exact h.indexes⟩

theorem newFts5_empty {lib : SqlLib} {c : Fts5Decl} (hc : Fts5Accepted c) (hb : FtsBuildable c) {input : Input} {size time : Int} (hsize : input.size = .ok size)
    (htime : input.modTimeNs = .ok time) {records : List Rec} (hscan : input.scan = .ok (records.map .ok))
    (hrec : ∀ r ∈ records, ∀ p ∈ c.properties, ∃ v w, r.get p = .ok v ∧ Stands v w) :
    ∃ db, newFts5 lib c input ⟨⟨[], []⟩, none⟩ = (.ok (), ⟨db, none⟩) := by
  have hp := hc.name
  have hoff : "__offset" ∉ c.properties := by
    intro h
    have := hb.names _ h "__offset".toList (by simp)
    rw [sameName_refl] at this
    cases this
  have hins : InsertText (.fts5 c) (fts5InsertText c) := by
    unfold InsertText
    rw [show (StoredIndex.fts5 c).columns = ftsColumns c from ftsColumnsOf_eq hc, parse_ftsInsert hb.some]
    simp [ftsColumns, StoredIndex.name]
  have hrun : Runs (fts5CreateIndex lib c input) ⟨[], []⟩ (fun _ _ => True) := by
    unfold fts5CreateIndex
    refine build_begin (c := .fts5 c) hp hsize htime hscan (fun m md d hm h => ?_)
    rw [if_neg hoff]
    refine Runs.bind (runs_lift rfl d) (fun _ d' ⟨_, hd'⟩ => ?_)
    rw [hd']
    refine Runs.bind (build_createFts hc hb h) (fun _ d h => ?_)
    exact build_finish (c := .fts5 c) (lib := lib) (m := m) hp hins (differentColumns_prefix (fts_columns_differ hc hb)) (by simp) hrec hm h
  obtain ⟨a, db, h1, _⟩ := hrun
  refine ⟨db, ?_⟩
  unfold newFts5
  show SqlM.bind _ _ _ = _
  simp only [SqlM.bind, hasMetadata_empty]
  exact h1

/-! ### Searches -/

theorem stands_storedAs {v : Value} {w : SqlValue} (h : Stands v w) : w = storedAs v := by
  cases h with
  | float f hf => cases f <;> first | rfl | exact (hf rfl).elim
  | _ => rfl

theorem offset_not_searched {c : Fts5Decl} (hd : (ftsColumnsOf c).Pairwise (fun a b => sameName a.name b.name = false)) {p : String} (hp : p ∈ c.properties) :
    sameName p.toList "__offset".toList = false := by
  rw [ftsColumnsOf, List.pairwise_cons] at hd
  rw [sameName_comm]
  exact hd.1 ⟨p.toList, "BINARY".toList⟩ (List.mem_map_of_mem hp)

theorem searchedColumns_fts {c : Fts5Decl} (hd : (ftsColumnsOf c).Pairwise (fun a b => sameName a.name b.name = false)) :
    searchedColumns ⟨c.tokenize.toList, ["__offset".toList]⟩ (ftsColumnsOf c) = c.properties.map (·.toList) := by
  unfold searchedColumns
  rw [ftsColumnsOf, List.filter_cons_of_neg (by simp [sameName_refl]), List.filter_eq_self.2]
  · rw [List.map_map]
    rfl
  · intro a ha
    obtain ⟨p, hp, rfl⟩ := List.mem_map.1 ha
    rw [List.any_cons, List.any_nil, offset_not_searched hd hp]
    rfl

theorem storedValues_eq {r : Rec} : ∀ {ps : List String} {ws : List SqlValue}, StoredValues r ps ws →
    ws = ps.map (storedProperty r)
  | [], [], _ => rfl
  | [], _ :: _, h => h.elim
  | _ :: _, [], h => h.elim
  | p :: ps, w :: ws, ⟨⟨v, hv, hs⟩, h⟩ => by
    rw [List.map_cons, storedProperty, hv, ← storedValues_eq h, stands_storedAs hs]

theorem searchedValues_fts {c : Fts5Decl} (hd : (ftsColumnsOf c).Pairwise (fun a b => sameName a.name b.name = false)) {r : Rec} {row : List SqlValue}
    (h : StoredRow c.properties r row) :
    searchedValues ⟨c.tokenize.toList, ["__offset".toList]⟩ (ftsColumnsOf c) row = c.properties.map (storedProperty r) := by
  obtain ⟨values, rfl, hv⟩ := h
  rw [← storedValues_eq hv]
  unfold searchedValues
  rw [ftsColumnsOf, List.zip_cons_cons, List.filter_cons_of_neg (by simp [sameName_refl]), List.filter_eq_self.2]
  · have : ∀ (ps : List String) (vs : List SqlValue), StoredValues r ps vs →
        (((ps.map (fun p => (⟨p.toList, "BINARY".toList⟩ : SqlColumn))).zip vs).map (·.2)) = vs := by
      intro ps
      induction ps with
      | nil => intro vs h; cases vs with | nil => rfl | cons => exact h.elim
      | cons p ps ih =>
        intro vs h
        cases vs with
        | nil => exact h.elim
        | cons v vs => rw [List.map_cons, List.zip_cons_cons, List.map_cons, ih vs h.2]
    exact this _ _ hv
  · intro e he
    obtain ⟨p, hp, h⟩ := List.mem_map.1 (List.of_mem_zip he).1
    rw [← h, List.any_cons, List.any_nil, offset_not_searched hd hp]
    rfl

theorem fts_positions {lib : SqlLib} {c : Fts5Decl} (hc : Fts5Accepted c) {db : SqlDb} {records : List Rec} {table : SqlTable}
    (ht : db.table ("rodb_".toList ++ c.name.toList ++ "_index".toList) = some table) (hcols : table.columns = ftsColumnsOf c)
    (hfts : table.fts = some ⟨c.tokenize.toList, ["__offset".toList]⟩)
    (hd : (ftsColumnsOf c).Pairwise (fun a b => sameName a.name b.name = false)) (hrows : StoredRows c.properties records table.rows) {f : Value} {w : SqlValue} (hw : Stands f w) :
    ∃ rows : List (List SqlValue), rows.map (fun row => [resultValue (ftsColumnsOf c) row "__offset".toList]) =
        (positionsOf records (ftsSat lib c f)).map (fun p => [SqlValue.int p]) ∧
      (fts5GetRecordPositions lib c db c.input [("match", f)] =
        (let out := (lib.plan (matchText c) rows).map (fun row => [resultValue (ftsColumnsOf c) row "__offset".toList])
         match lib.failsAfter (matchText c) with
         | none => .ok (sqliteRows out)
         | some n => .ok (sqliteRows (out.take n))) ∨
       (positionsOf records (ftsSat lib c f) = [] ∧ fts5GetRecordPositions lib c db c.input [("match", f)] = .ok (iterateList []))) := by
  rw [← indexTable_plain hc.name] at ht
  have hargs : bindValues [f] = .ok [w] := bindValues_cons.2 ⟨w, [], bindValue_stands.2 hw, rfl, rfl⟩
  have hws := stands_storedAs hw
  have key : ∀ found : List SqlValue → Bool, lib.matches c.tokenize.toList (c.properties.map (·.toList)) w = some found →
      ∀ {records : List Rec} {rows : List (List SqlValue)}, StoredRows c.properties records rows →
      (rows.filter (fun row => found (searchedValues ⟨c.tokenize.toList, ["__offset".toList]⟩ (ftsColumnsOf c) row))).map (fun row => [resultValue (ftsColumnsOf c) row "__offset".toList]) =
        (positionsOf records (ftsSat lib c f)).map (fun p => [SqlValue.int p]) := by
    intro found hfound records
    induction records with
    | nil => intro rows h; cases rows with | nil => rfl | cons => exact h.elim
    | cons r records ih =>
      intro rows h
      cases rows with
      | nil => exact h.elim
      | cons row rows =>
        obtain ⟨hrow, h⟩ := h
        have ih := ih h
        unfold positionsOf at ih ⊢
        have hm : found (searchedValues ⟨c.tokenize.toList, ["__offset".toList]⟩ (ftsColumnsOf c) row) = ftsSat lib c f r := by
          rw [searchedValues_fts hd hrow]
          simp only [ftsSat, ← hws, hfound]
        rw [List.filter_cons, List.filter_cons, hm]
        split
        · rw [List.map_cons, List.map_cons, List.map_cons, ih]
          congr 1
          obtain ⟨values, rfl, _⟩ := hrow
          simp only [resultValue, ftsColumnsOf, columnOf_hit (c := ⟨"__offset".toList, "BINARY".toList⟩) (sameName_refl _)]
        · exact ih
  have hq : sqlQuery lib db (matchText c) [w] =
      match lib.matches c.tokenize.toList (c.properties.map (·.toList)) w with
      | none => .ok []
      | some found => .ok ((lib.plan (matchText c) (table.rows.filter
          (fun row => found (searchedValues ⟨c.tokenize.toList, ["__offset".toList]⟩ (ftsColumnsOf c) row)))).map (fun row => [resultValue (ftsColumnsOf c) row "__offset".toList])) := by
    simp only [sqlQuery, parseSql_match, parse_match, sqlSearch, SqlDb.source, index_not_master hc.name, Bool.false_eq_true, if_false, ht, hfts, sameName_refl, Bool.not_true, hcols,
      searchedColumns_fts hd]
    rfl
  have hget : fts5GetRecordPositions lib c db c.input [("match", f)] = (sqlQuery lib db (matchText c) [w] >>= fun rows =>
      match lib.failsAfter (matchText c) with
      | none => .ok (sqliteRows rows)
      | some n => .ok (sqliteRows (rows.take n))) := by
    unfold fts5GetRecordPositions
    rw [if_neg (by simp), if_neg (by simp)]
    simp only [mapGet, if_true, hargs, Bind.bind, Except.bind]
    rfl
  rw [hget, hq]
  cases hm : lib.matches c.tokenize.toList (c.properties.map (·.toList)) w with
  | some found =>
    exact ⟨_, key found hm hrows, .inl rfl⟩
  | none =>
    have hnone : positionsOf records (ftsSat lib c f) = [] := by
      unfold positionsOf
      rw [List.map_eq_nil_iff, List.filter_eq_nil_iff]
      intro r _
      simp [ftsSat, ← hws, hm]
    refine ⟨[], by rw [hnone]; rfl, .inr ⟨hnone, ?_⟩⟩
    simp only [Bind.bind, Except.bind]
    cases lib.failsAfter (matchText c) with
    | none => rfl
    | some n => cases n <;> rfl

end Rodb
