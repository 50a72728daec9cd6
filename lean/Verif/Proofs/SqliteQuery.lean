import Verif.Proofs.SqliteCrash
import Verif.Spec.Records
/-
  What the SQLite index answers.
-/
namespace Rodb
open Rodb.Spec

theorem nocaseEq_eq : ∀ {a b : Bytes}, a.length = b.length → nocaseEq a b = decide ((a.takeWhile (· ≠ 0)).map asciiLower = (b.takeWhile (· ≠ 0)).map asciiLower)
  | [], [], _ => rfl
  | [], _ :: _, h => by simp at h
  | _ :: _, [], h => by simp at h
  | x :: a, y :: b, h => by
    have ih := nocaseEq_eq (a := a) (b := b) (by simpa using h)
    have hz : ∀ z : UInt8, lowerByte z = 0 → z = 0 := by
      intro z h
      unfold lowerByte at h
      split at h
      · rename_i hr
        have := congrArg UInt8.toNat h
        rw [UInt8.toNat_add] at this
        simp at this
        omega
      · exact h
    have hl : ∀ z : UInt8, asciiLower z = lowerByte z := fun z => rfl
    simp only [nocaseEq, ih, List.takeWhile_cons]
    by_cases hx : x = 0
    · subst hx
      by_cases hy : y = 0
      · subst hy
        simp [lowerByte]
      · have : ¬ lowerByte y = 0 := fun e => hy (hz y e)
        simp only [ne_eq, not_true_eq_false, decide_false, Bool.false_eq_true, if_false, hy, not_false_eq_true, decide_true, if_true, List.map_nil, List.map_cons,
          Bool.true_or, Bool.and_true]
        rw [show lowerByte 0 = 0 from rfl]
        simp [Ne.symm this]
    · by_cases hy : y = 0
      · subst hy
        have : ¬ lowerByte x = 0 := fun e => hx (hz x e)
        simp [hx, show lowerByte 0 = 0 from rfl, this]
      · simp [hx, hy, hl]

theorem collateEq_eq (collate : String) (a b : Bytes) : collateEq collate.toList a b = sameText collate a b := by
  unfold collateEq sameText
  by_cases h : collate = "NOCASE"
  · subst h
    rw [if_pos rfl, if_pos rfl]
    by_cases hl : a.length = b.length
    · rw [nocaseEq_eq hl]
    · simp [hl]
  · rw [if_neg (fun e => h (String.toList_inj.1 e)), if_neg h]

theorem sqlEq_equals (lib : SqlLib) (collate : String) {v f : Value} {a b : SqlValue} (ha : Stands v a) (hb : Stands f b) :
    sqlEq lib collate.toList a b = sqliteEquals lib collate v f := by
  cases ha <;> cases hb <;> try rfl
  all_goals simp_all [sqlEq, sqliteEquals, collateEq_eq, bit, GoFloat.eq]
  all_goals try rfl

theorem clauses_ok {c : SqliteDecl} : ∀ {filters : GoMap Value}, (∀ f ∈ filters, ∃ p ∈ c.properties, p.name = f.1) →
    sqliteClauses c filters = .ok (filters.map (fun f => propertyIdentifier f.1 ++ " = ?".toList), filters.map (·.2))
  | [], _ => rfl
  | (property, f) :: rest, h => by
    have hh : (IndexDecl.sqlite c).handlesProperty property = true := by
      obtain ⟨p, hp, he⟩ := h _ (.head _)
      simp only [IndexDecl.handlesProperty, List.any_eq_true, beq_iff_eq]
      exact ⟨p, hp, he.symm⟩
    simp only [sqliteClauses, hh, Bool.not_true, Bool.false_eq_true, if_false, clauses_ok (fun x hx => h x (.tail _ hx)), Bind.bind, Except.bind, List.map_cons]

/-- The column of a property in the row of a record. -/
theorem columnOf_property {r : Rec} : ∀ {ps : List SqlitePropertyDecl} {ws : List SqlValue}, StoredValues r (ps.map (·.name)) ws →
    (ps.map propertySqlColumn).Pairwise (fun a b => sameName a.name b.name = false) → ∀ p ∈ ps, ∃ v w, r.get p.name = .ok v ∧ Stands v w ∧
      columnOf (ps.map propertySqlColumn) ws (propertyColumn p.name) = some (w, p.collate.toList)
  | [], _, _, _, p, hp => by cases hp
  | q :: ps, [], h, _, _, _ => h.elim
  | q :: ps, w :: ws, ⟨⟨v, hv, hs⟩, h⟩, hd, p, hp => by
    rw [List.map_cons, List.pairwise_cons] at hd
    rcases List.mem_cons.1 hp with rfl | hp
    · exact ⟨v, w, hv, hs, columnOf_hit (c := propertySqlColumn p) (sameName_refl _)⟩
    · obtain ⟨v', w', h1, h2, h3⟩ := columnOf_property h hd.2 p hp
      refine ⟨v', w', h1, h2, ?_⟩
      rw [List.map_cons, columnOf_skip]
      · exact h3
      · exact hd.1 _ (List.mem_map_of_mem hp)

theorem offset_ne_property (p : String) : sameName "offset".toList (propertyColumn p) = false := by
  rw [Bool.eq_false_iff, ne_eq, sameName_iff]
  intro e
  rw [propertyColumn, show "property_".toList = ['p', 'r', 'o', 'p', 'e', 'r', 't', 'y', '_'] by decide, show "offset".toList.map Char.toLower = ['o', 'f', 'f', 's', 'e', 't'] by decide] at e
  simp only [readName, List.cons_append, List.takeWhile_cons, show ('p' ≠ '\x00') = True by simp, decide_true, if_true, List.map_cons, List.cons.injEq] at e
  exact absurd e.1 (by decide)

theorem sqliteSat_of_mem {lib : SqlLib} {c : SqliteDecl} (hd : (indexColumns c).Pairwise (fun a b => sameName a.name b.name = false)) {p : SqlitePropertyDecl} (hp : p ∈ c.properties)
    {r : Rec} {v : Value} (hv : r.get p.name = .ok v) (f : Value) : sqliteSat lib c p.name f r = sqliteEquals lib p.collate v f := by
  rw [indexColumns, List.pairwise_cons] at hd
  have huniq : ∀ q ∈ c.properties, q.name = p.name → q = p := by
    intro q hq he
    have h := List.Pairwise.of_map (R := fun a b : SqlitePropertyDecl => a.name ≠ b.name) propertySqlColumn (fun a b hab e => by
      simp only [propertySqlColumn, e, sameName_refl] at hab
      cases hab) hd.2
    clear hd hv
    generalize c.properties = l at hp hq h
    induction l with
    | nil => cases hp
    | cons x l ih =>
      rw [List.pairwise_cons] at h
      rcases List.mem_cons.1 hp with rfl | hp' <;> rcases List.mem_cons.1 hq with rfl | hq'
      · rfl
      · exact (h.1 q hq' he.symm).elim
      · exact (h.1 p hp' he).elim
      · exact ih hp' hq' h.2
  unfold sqliteSat
  rw [hv, Bool.eq_iff_iff, List.any_eq_true]
  constructor
  · rintro ⟨q, hq, h⟩
    simp only [Bool.and_eq_true, decide_eq_true_eq] at h
    rw [← huniq q hq h.1]
    exact h.2
  · intro h
    exact ⟨p, hp, by simp [h]⟩

theorem rowMatches_filters {lib : SqlLib} {c : SqliteDecl} {r : Rec} {row : List SqlValue} (hrow : StoredRow (c.properties.map (·.name)) r row)
    (hd : (indexColumns c).Pairwise (fun a b => sameName a.name b.name = false)) :
    ∀ {filters : GoMap Value} {args : List SqlValue}, (∀ f ∈ filters, ∃ p ∈ c.properties, p.name = f.1) → bindValues (filters.map (·.2)) = .ok args →
      rowMatches lib (indexColumns c) row (filters.map (fun f => (.quoted (propertyColumn f.1), .param))) args = filters.all (fun f => sqliteSat lib c f.1 f.2 r)
  | [], _, _, _ => rfl
  | (property, f) :: rest, args, hp, hb => by
    obtain ⟨w, ws, h1, h2, rfl⟩ := bindValues_cons.1 hb
    obtain ⟨p, hpm, rfl⟩ := hp _ (.head _)
    obtain ⟨values, rfl, hs⟩ := hrow
    have hd' := hd
    rw [indexColumns, List.pairwise_cons] at hd'
    obtain ⟨v, x, hv, hst, hcol⟩ := columnOf_property hs hd'.2 p hpm
    have hcol' : columnOf (indexColumns c) (.int r.position :: values) (propertyColumn p.name) = some (x, p.collate.toList) := by
      rw [indexColumns, columnOf_skip (offset_ne_property _)]
      exact hcol
    have ih := rowMatches_filters (lib := lib) (r := r) (row := .int r.position :: values) ⟨values, rfl, hs⟩ hd (filters := rest) (args := ws) (fun y hy => hp y (.tail _ hy)) h2
    simp only [List.map_cons, rowMatches, operandValue, hcol', Option.or, Option.getD, List.all_cons, ih, sqliteSat_of_mem hd hpm hv,
      sqlEq_equals lib p.collate hst (bindValue_stands.1 h1)]

theorem bindValues_ok : ∀ {vs : List Value}, (∀ v ∈ vs, ∃ w, Stands v w) → ∃ ws, bindValues vs = .ok ws ∧ ws.length = vs.length
  | [], _ => ⟨[], rfl, rfl⟩
  | v :: vs, h => by
    obtain ⟨w, hw⟩ := h v (.head _)
    obtain ⟨ws, h1, h2⟩ := bindValues_ok (vs := vs) (fun x hx => h x (.tail _ hx))
    exact ⟨w :: ws, bindValues_cons.2 ⟨w, ws, bindValue_stands.2 hw, h1, rfl⟩, by simp [h2]⟩

theorem index_not_master {n : String} (h : NoNul n) : sameName (indexTable n) "sqlite_master".toList = false := by
  rw [indexTable_plain h, Bool.eq_false_iff, ne_eq, sameName_iff, List.append_assoc, List.map_append]
  intro e
  rw [show "rodb_".toList.map Char.toLower = ['r', 'o', 'd', 'b', '_'] by decide, show "sqlite_master".toList.map Char.toLower = 's' :: "qlite_master".toList by decide] at e
  injection e with e1
  exact absurd e1 (by decide)

/-- The conditions of the query, and its rows. -/
theorem countParams_filters : ∀ filters : GoMap Value, countParams (filters.map (fun f => (.quoted (propertyColumn f.1), .param))) = filters.length
  | [] => rfl
  | f :: rest => by
    simp only [List.map_cons, countParams, countParams_filters rest, List.length_cons, reduceCtorEq, if_false, if_true]
    omega

theorem filter_rows {lib : SqlLib} {c : SqliteDecl} (m : List SqlValue → Bool) (sat : Rec → Bool) (hm : ∀ r row, StoredRow (c.properties.map (·.name)) r row → m row = sat r) :
    ∀ {records : List Rec} {rows : List (List SqlValue)}, StoredRows (c.properties.map (·.name)) records rows →
      (rows.filter m).map (fun row => ["offset".toList].map (resultValue (indexColumns c) row)) = (positionsOf records sat).map (fun p => [SqlValue.int p])
  | [], [], _ => rfl
  | [], _ :: _, h => h.elim
  | _ :: _, [], h => h.elim
  | r :: records, row :: rows, ⟨hrow, h⟩ => by
    have ih := filter_rows (lib := lib) m sat hm h
    unfold positionsOf at ih ⊢
    rw [List.filter_cons, List.filter_cons, hm r row hrow]
    split
    · rw [List.map_cons, List.map_cons, List.map_cons, ih]
      congr 1
      obtain ⟨values, rfl, _⟩ := hrow
      simp only [List.map_nil, resultValue, indexColumns, columnOf_hit (c := ⟨"offset".toList, "BINARY".toList⟩) (sameName_refl _)]
    · exact ih

theorem sqliteRows_ints : ∀ l : List Int, sqliteRows (l.map (fun p => [SqlValue.int p])) = iterateList l
  | [] => rfl
  | p :: l => by
    simp only [List.map_cons, sqliteRows, sqliteRows_ints l]
    rfl

theorem map_perm_ints {α : Type} {f : α → List SqlValue} {l m : List α} {ps : List Int} (h : l.Perm m) (hm : m.map f = ps.map (fun p => [SqlValue.int p])) :
    ∃ qs : List Int, qs.Perm ps ∧ l.map f = qs.map (fun p => [SqlValue.int p]) := by
  have h1 : (l.map f).Perm (ps.map (fun p => [SqlValue.int p])) := hm ▸ h.map f
  let g : List SqlValue → Int := fun row => match row with | [.int p] => p | _ => 0
  have hg : ∀ ps : List Int, (ps.map (fun p => [SqlValue.int p])).map g = ps := by
    intro ps
    rw [List.map_map]
    exact List.map_id' _
  refine ⟨(l.map f).map g, by have := h1.map g; rwa [hg] at this, ?_⟩
  have hall : ∀ row ∈ l.map f, [SqlValue.int (g row)] = row := by
    intro row hr
    obtain ⟨p, _, rfl⟩ := List.mem_map.1 (h1.mem_iff.1 hr)
    rfl
  rw [List.map_map]
  exact (List.map_id' (l.map f)).symm.trans (List.map_congr_left (fun row hr => (hall row hr).symm))

theorem sqlite_positions {lib : SqlLib} {c : SqliteDecl} (hc : SqliteAccepted c) {db : SqlDb} {records : List Rec} {table : SqlTable}
    (ht : db.table ("rodb_".toList ++ c.name.toList ++ "_index".toList) = some table) (hcols : table.columns = columnsOf c)
    (hd : (columnsOf c).Pairwise (fun a b => sameName a.name b.name = false)) (hrows : StoredRows (c.properties.map (·.name)) records table.rows) {filters : GoMap Value} (hne : filters ≠ [])
    (hacc : ∀ f ∈ filters, SqliteAcceptable c f.1 f.2) :
    ∃ rows : List (List SqlValue), rows.map (fun row => ["offset".toList].map (resultValue (indexColumns c) row)) =
        (positionsOf records (fun r => filters.all (fun f => sqliteSat lib c f.1 f.2 r))).map (fun p => [SqlValue.int p]) ∧
      sqliteGetRecordPositions lib c db c.input filters =
        (let text := selectText c (filters.map (fun f => propertyIdentifier f.1 ++ " = ?".toList))
         let out := (lib.plan text rows).map (fun row => ["offset".toList].map (resultValue (indexColumns c) row))
         match lib.failsAfter text with
         | none => .ok (sqliteRows out)
         | some n => .ok (sqliteRows (out.take n))) := by
  rw [columnsOf_eq hc] at hcols hd
  rw [← indexTable_plain hc.name] at ht
  obtain ⟨args, hargs, hlen⟩ := bindValues_ok (vs := filters.map (·.2)) (by
    intro v hv
    obtain ⟨f, hf, rfl⟩ := List.mem_map.1 hv
    exact (hacc f hf).2)
  have hp : ∀ f ∈ filters, ∃ p ∈ c.properties, p.name = f.1 := fun f hf => (hacc f hf).1
  have hparse := parse_select (c := c) (ps := filters.map (·.1)) (by simpa using hne)
  rw [List.map_map, List.map_map] at hparse
  refine ⟨table.rows.filter (fun row => rowMatches lib (indexColumns c) row (filters.map (fun f => (.quoted (propertyColumn f.1), .param))) args), ?_, ?_⟩
  · exact filter_rows (lib := lib) _ _ (fun r row hrow => rowMatches_filters hrow hd hp hargs) hrows
  · unfold sqliteGetRecordPositions
    rw [if_neg (by simp), if_neg (by simpa using hne)]
    simp only [clauses_ok hp, hargs, Bind.bind, Except.bind]
    have hq : sqlQuery lib db (selectText c (filters.map (fun f => propertyIdentifier f.1 ++ " = ?".toList))) args =
        .ok ((lib.plan (selectText c (filters.map (fun f => propertyIdentifier f.1 ++ " = ?".toList)))
          (table.rows.filter (fun row => rowMatches lib (indexColumns c) row (filters.map (fun f => (.quoted (propertyColumn f.1), .param))) args))).map
          (fun row => ["offset".toList].map (resultValue (indexColumns c) row))) := by
      unfold sqlQuery
      rw [show selectText c (filters.map (fun f => propertyIdentifier f.1 ++ " = ?".toList)) = selectText c (filters.map ((fun p => propertyIdentifier p ++ " = ?".toList) ∘ (·.1))) from rfl, hparse]
      simp only [SqlDb.source, index_not_master hc.name, Bool.false_eq_true, if_false, ht, hcols]
      rw [if_neg, if_neg]
      · rfl
      · rw [hlen, List.length_map]
        simp only [ne_eq, Decidable.not_not]
        exact countParams_filters filters
      · simp [operandKnown]
    rw [hq]
    rfl

end Rodb
