import Verif.Spec.Pool
import Verif.Proofs.Pool
import Verif.Props.FtsProps
/-
  C113: searches at the same time, and the connections to the database.
-/
namespace Rodb
open Rodb.Spec

theorem search_begins (lib : SqlLib) (x : StoredIndex) : Begins (x.search lib) := by
  cases x with
  | sqlite c => exact sqliteSearch_begins lib c
  | fts5 c => exact fts5Search_begins lib c

/-- On a new database every search fails. -/
theorem search_newDb {lib : SqlLib} {x : StoredIndex} (hx : x.Accepted) (name : String) (filters : GoMap Value) : ∃ e, (x.search lib name filters).answer newDb = .error e := by
  cases x with
  | sqlite c =>
    show ∃ e, (sqliteSearch lib c name filters).answer newDb = .error e
    rw [sqliteSearch_answer]
    unfold sqliteGetRecordPositions
    by_cases h1 : name ≠ c.input
    · rw [if_pos h1]; exact ⟨_, rfl⟩
    rw [if_neg h1]
    by_cases h2 : filters.length = 0
    · rw [if_pos h2]; exact ⟨_, rfl⟩
    rw [if_neg h2]
    by_cases h3 : ∀ f ∈ filters, ∃ p ∈ c.properties, p.name = f.1
    · have hparse := parse_select (c := c) (ps := filters.map (·.1)) (by intro e; apply h2; simpa using e)
      rw [List.map_map, List.map_map] at hparse
      simp only [clauses_ok h3, Bind.bind, Except.bind]
      cases bindValues (filters.map (·.2)) with
      | error e => exact ⟨e, rfl⟩
      | ok args =>
        have hq : sqlQuery lib newDb (selectText c (filters.map (fun f => propertyIdentifier f.1 ++ " = ?".toList))) args = .error (.err "no such table") := by
          unfold sqlQuery
          rw [show selectText c (filters.map (fun f => propertyIdentifier f.1 ++ " = ?".toList)) = selectText c (filters.map ((fun p => propertyIdentifier p ++ " = ?".toList) ∘ (·.1))) from rfl, hparse]
          simp only [SqlDb.source, index_not_master hx.name, Bool.false_eq_true, if_false]
          rfl
        simp only [hq]
        exact ⟨_, rfl⟩
    · simp only [Classical.not_forall] at h3
      obtain ⟨f, hf, h3⟩ := h3
      obtain ⟨e, he⟩ := C63_rejects (lib := lib) (db := newDb) (name := name) hf (fun p hp e => h3 ⟨p, hp, e⟩)
      unfold sqliteGetRecordPositions at he
      rw [if_neg h1, if_neg h2] at he
      exact ⟨e, he⟩
  | fts5 c =>
    show ∃ e, (fts5Search lib c name filters).answer newDb = .error e
    rw [fts5Search_answer]
    unfold fts5GetRecordPositions
    by_cases h1 : name ≠ c.input
    · rw [if_pos h1]; exact ⟨_, rfl⟩
    rw [if_neg h1]
    by_cases h2 : filters.length ≠ 1
    · rw [if_pos h2]; exact ⟨_, rfl⟩
    rw [if_neg h2]
    cases mapGet filters "match" with
    | none => exact ⟨_, rfl⟩
    | some f =>
      simp only [Bind.bind, Except.bind]
      cases bindValues [f] with
      | error e => exact ⟨e, rfl⟩
      | ok args =>
        have hq : ∃ e, sqlQuery lib newDb (matchText c) args = .error e := by
          simp only [sqlQuery, parseSql_match, parse_match, sqlSearch, SqlDb.source, index_not_master hx.name, Bool.false_eq_true, if_false]
          exact ⟨_, rfl⟩
        obtain ⟨e, hq⟩ := hq
        simp only [hq]
        exact ⟨_, rfl⟩

/-- On the database of the index a search answers the positions of the records that satisfy the filters. -/
theorem search_holds {lib : SqlLib} (hlib : ReadsAll lib) {x : StoredIndex} (hx : x.Accepted) {input : Input} {db : SqlDb} (hdb : HoldsAll x input db) :
    ∃ records : List Rec, input.scan = .ok (records.map .ok) ∧ ∀ filters, x.Asks filters → ∃ positions : List Int, positions.Perm (positionsOf records (x.finds lib filters)) ∧
      (x.search lib x.input filters).answer db = .ok (positions.map .ok) := by
  cases x with
  | sqlite c =>
    obtain ⟨records, h1, h2⟩ := C63_positions_partial hlib hx hdb
    refine ⟨records, h1, fun filters hf => ?_⟩
    obtain ⟨positions, h3, h4⟩ := h2 filters hf.1 hf.2
    exact ⟨positions, h3, (sqliteSearch_answer lib c c.input filters db).trans h4⟩
  | fts5 c =>
    obtain ⟨records, h1, h2⟩ := C81_positions_partial hlib hx hdb
    refine ⟨records, h1, fun filters hf => ?_⟩
    obtain ⟨expression, w, hw, rfl⟩ := hf
    obtain ⟨positions, h3, h4⟩ := h2 expression w hw
    refine ⟨positions, ?_, (fts5Search_answer lib c c.input _ db).trans h4⟩
    have : StoredIndex.finds lib (.fts5 c) [("match", expression)] = ftsSat lib c expression := by
      funext r
      simp [StoredIndex.finds]
    rw [this]
    exact h3

theorem search_left {lib : SqlLib} {x : StoredIndex} {name : String} {filters : GoMap Value} (n : Nat) (hf : x.Asks filters) :
    (x.search lib name filters).left n ≤ 2 * filters.length + n + 4 := by
  cases x with
  | sqlite c =>
    show (sqliteSearch lib c name filters).left n ≤ _
    unfold sqliteSearch
    have := (List.takeWhile_sublist (l := filters) (fun f => (IndexDecl.sqlite c).handlesProperty f.1)).length_le
    split
    · simp [Searching.left]
    · split
      · simp [Searching.left]
      · simp only [Searching.left]; omega
  | fts5 c =>
    show (fts5Search lib c name filters).left n ≤ _
    unfold fts5Search
    split
    · simp [Searching.left]
    · split
      · simp [Searching.left]
      · split
        · simp [Searching.left]
        · simp only [Searching.left]; omega

theorem prefix_of_append {α : Type} {a b c : List α} (h : a ++ b = c) : a <+: c := ⟨b, h⟩

/-- What the invariant says about a search. -/
theorem consistent_answers {own : Bool} {s0 x : Searching} {db : SqlDb} {positions : List Int} (h : Consistent (· = db) own s0 x) (ha : s0.answer db = .ok (positions.map .ok)) : AnswersWith positions x := by
  match x, h with
  | .quote n after, _ => exact ⟨id, List.nil_prefix, fun h => h.elim⟩
  | .quoting n after c, _ => exact ⟨id, List.nil_prefix, fun h => h.elim⟩
  | .failed e, ⟨_, rfl, h⟩ => rw [ha] at h; cases h
  | .reading given rest conn, ⟨_, rfl, h1, h2, _⟩ =>
    rw [ha] at h1
    injection h1 with h1
    refine ⟨id, prefix_of_append h1.symm, fun hend => ?_⟩
    cases conn with
    | some c => exact hend.elim
    | none =>
      rcases h2 rfl with h2 | ⟨e, h2⟩
      · rw [h2, List.append_nil] at h1; exact h1.symm
      · have hm : (.error e : Res Int) ∈ given ++ rest := List.mem_append_left _ h2
        rw [← h1] at hm
        simp at hm

theorem run_append {search : String → GoMap Value → Searching} : ∀ (a b : List SearchEvent) (s : Searches), s.run search (a ++ b) = (s.run search a).run search b
  | [], _, _ => rfl
  | e :: a, b, s => run_append a b (s.next search e)

theorem searchesBegun_append : ∀ a b : List SearchEvent, searchesBegun (a ++ b) = searchesBegun a ++ searchesBegun b
  | [], _ => rfl
  | .begin n f :: a, b => by simp only [List.cons_append, searchesBegun, searchesBegun_append a b]
  | .step _ _ :: a, b => by simp only [List.cons_append, searchesBegun, searchesBegun_append a b]

theorem stepsOf_append (k : Nat) : ∀ a b : List SearchEvent, stepsOf k (a ++ b) = stepsOf k a + stepsOf k b
  | [], _ => by simp [stepsOf]
  | .begin n f :: a, b => by simp only [List.cons_append, stepsOf, stepsOf_append k a b]
  | .step _ _ :: a, b => by simp only [List.cons_append, stepsOf, stepsOf_append k a b]; omega

theorem consistent_begin {D : SqlDb → Prop} {search : String → GoMap Value → Searching} {p : Pool} (h : SeesOnly D p) :
    ConsistentAll D (([] : List (String × GoMap Value)).map (fun b => search b.1 b.2)) ⟨p, []⟩ :=
  ⟨h, rfl, fun k hk => by simp at hk⟩

/-- From the invariant to what a search answers. -/
theorem consistentAll_answers {db : SqlDb} {search : String → GoMap Value → Searching} {begun : List (String × GoMap Value)} {s : Searches}
    (h : ConsistentAll (· = db) (begun.map (fun b => search b.1 b.2)) s) {k : Nat} {b : String × GoMap Value} (hb : begun[k]? = some b) {positions : List Int}
    (ha : (search b.1 b.2).answer db = .ok (positions.map .ok)) : ∃ x, s.all[k]? = some x ∧ AnswersWith positions x := by
  obtain ⟨hk, hget⟩ := List.getElem?_eq_some_iff.1 hb
  have hk' : k < s.all.length := by rw [h.length]; simpa using hk
  have h1 := (h.each k hk' (by simpa using hk)).1
  rw [List.getElem_map, hget] at h1
  exact ⟨_, List.getElem?_eq_getElem hk', consistent_answers h1 ha⟩

theorem begun_split : ∀ (events : List SearchEvent) (k : Nat) (b : String × GoMap Value), (searchesBegun events)[k]? = some b →
    ∃ pre post, events = pre ++ .begin b.1 b.2 :: post ∧ (searchesBegun pre).length = k
  | [], k, b, h => by simp [searchesBegun] at h
  | .begin n f :: rest, 0, b, h => by
    simp only [searchesBegun, List.getElem?_cons_zero, Option.some.injEq] at h
    subst h
    exact ⟨[], rest, rfl, rfl⟩
  | .begin n f :: rest, k + 1, b, h => by
    obtain ⟨pre, post, rfl, h2⟩ := begun_split rest k b (by simpa [searchesBegun] using h)
    exact ⟨.begin n f :: pre, post, rfl, by simp [searchesBegun, h2]⟩
  | .step i j :: rest, k, b, h => by
    obtain ⟨pre, post, rfl, h2⟩ := begun_split rest k b h
    exact ⟨.step i j :: pre, post, rfl, h2⟩

/-- A search ends after so many steps, whatever the others do. -/
theorem search_ends {D : SqlDb → Prop} (hD : ∃ db, D db) {search : String → GoMap Value → Searching} (hsearch : Begins search) {p : Pool}
    (h : ConsistentAll D (([] : List (String × GoMap Value)).map (fun b => search b.1 b.2)) ⟨p, []⟩) (hnew : p.own = true → D newDb) (events : List SearchEvent) (k : Nat) (b : String × GoMap Value)
    (hk : (searchesBegun events)[k]? = some b) (n : Nat) (hn : ∀ db, D db → ∀ l, (search b.1 b.2).answer db = .ok l → l.length ≤ n) {m : Nat} (hm : (search b.1 b.2).left n ≤ m)
    (more : List SearchEvent) (hmore : m ≤ stepsOf k more) : ∃ s, (Searches.run search ⟨p, []⟩ (events ++ more)).all[k]? = some s ∧ Ended s := by
  obtain ⟨pre, post, rfl, hlen⟩ := begun_split events k b hk
  have h1 := run_consistent hD hsearch pre h hnew
  have hown : ∀ (l : List SearchEvent) (s : Searches), (s.run search l).pool.own = s.pool.own := by
    intro l
    induction l with
    | nil => intro s; rfl
    | cons e l ih => intro s; exact (ih _).trans (next_own s e)
  rw [List.append_assoc, run_append, List.cons_append]
  simp only [List.nil_append] at h1
  have h2 := next_consistent hD hsearch h1 (.begin b.1 b.2) (fun _ _ _ e => by cases e)
  have hl := h1.length
  rw [List.length_map, hlen] at hl
  obtain ⟨y, hy, hle⟩ := run_left hD hsearch (post ++ more) h2 (fun e => by rw [next_own, hown] at e; exact hnew e) k b
    (by rw [List.getElem?_append_right (by omega)]; simp [hlen, searchesBegun]) n hn (search b.1 b.2)
    (by simp only [Searches.next]; rw [List.getElem?_append_right (by omega)]; simp [hl])
  refine ⟨y, hy, left_zero (n := n) ?_⟩
  rw [stepsOf_append] at hle
  omega

theorem open_holds {lib : SqlLib} (hlib : PlansPermute lib) {db : SqlDb} (hdb : ∀ n, db.table ("rodb_".toList ++ n ++ "_metadata".toList) = none) {x : StoredIndex} (hx : x.Accepted) {input : Input}
    (deaths : List (Option Nat)) (hok : (x.start lib input ⟨afterStarts lib db (deaths.map (⟨x, input, ·⟩)), none⟩).1 = .ok ()) :
    HoldsAll x input (x.start lib input ⟨afterStarts lib db (deaths.map (⟨x, input, ·⟩)), none⟩).2.db := by
  have h := C62_same_input hlib hdb hx deaths none hok
  have append : ∀ (a : List SqliteStart) (db : SqlDb) (s : SqliteStart), afterStarts lib db (a ++ [s]) = (s.index.start lib s.input ⟨afterStarts lib db a, s.writes⟩).2.db := by
    intro a
    induction a with
    | nil => intro db s; simp only [List.nil_append, afterStarts, afterStart]
    | cons t a ih => intro db s; simp only [List.cons_append, afterStarts]; exact ih _ s
  rw [append] at h
  exact h

/-- **C113** Searches at the same time, in an index whose DSN is a file. The index was opened (after any earlier starts that were killed at any statement). Whatever searches begin, and however their steps
and the reading of their iterators alternate, with some of them never read to their ends: a search answers the positions of exactly the records that satisfy its filters, in the order of SQLite's choice; it
does not fail; and it ends when it has made so many steps, whatever the others do. -/
theorem C113_file {lib : SqlLib} (hlib : ReadsAll lib) {db : SqlDb} (hdb : ∀ n, db.table ("rodb_".toList ++ n ++ "_metadata".toList) = none) {x : StoredIndex} (hx : x.Accepted) {input : Input}
    (deaths : List (Option Nat)) {pool : Pool} (hopen : openPool false (afterStarts lib db (deaths.map (⟨x, input, ·⟩))) (x.start lib input) = (.ok (), pool)) :
    ∃ records : List Rec, input.scan = .ok (records.map .ok) ∧ ∀ filters, x.Asks filters → ∃ positions : List Int, positions.Perm (positionsOf records (x.finds lib filters)) ∧
      ∀ events k, (searchesBegun events)[k]? = some (x.input, filters) →
        ∃ s, (Searches.run (x.search lib) ⟨pool, []⟩ events).all[k]? = some s ∧ AnswersWith positions s ∧
          ∀ more, 2 * filters.length + positions.length + 4 ≤ stepsOf k more → ∃ s', (Searches.run (x.search lib) ⟨pool, []⟩ (events ++ more)).all[k]? = some s' ∧ Ended s' := by
  simp only [openPool, Bool.false_eq_true, if_false, Prod.mk.injEq] at hopen
  obtain ⟨hok, rfl⟩ := hopen
  have hholds := open_holds hlib.1 hdb hx deaths hok
  generalize (x.start lib input ⟨afterStarts lib db (deaths.map (⟨x, input, ·⟩)), none⟩).2.db = d at hholds ⊢
  obtain ⟨records, h1, h2⟩ := search_holds hlib hx hholds
  refine ⟨records, h1, fun filters hf => ?_⟩
  obtain ⟨positions, h3, h4⟩ := h2 filters hf
  refine ⟨positions, h3, fun events k hk => ?_⟩
  have hsees : SeesOnly (· = d) ⟨false, d, [d]⟩ := ⟨fun _ => rfl, fun e => by cases e⟩
  have hrun := fun events => run_consistent (D := (· = d)) ⟨d, rfl⟩ (search_begins lib x) events (consistent_begin hsees) (fun e => by cases e)
  simp only [List.nil_append] at hrun
  obtain ⟨s, h5, h6⟩ := consistentAll_answers (hrun events) hk h4
  refine ⟨s, h5, h6, fun more hmore => ?_⟩
  exact search_ends (D := (· = d)) ⟨d, rfl⟩ (search_begins lib x) (consistent_begin hsees) (fun e => by cases e) events k _ hk _ (fun db e l hl => by
    subst e
    rw [h4] at hl
    cases hl
    simp) (search_left _ hf) more hmore

/-- What is left of this with the DSN `:memory:`, for which every connection has a database of its own. A search fails or answers as it should; nothing wrong is answered.
Missing for the full C113: a search must not fail (`C113_memory_false`). -/
theorem C113_memory_partial {lib : SqlLib} (hlib : ReadsAll lib) {x : StoredIndex} (hx : x.Accepted) {input : Input} {db : SqlDb} {pool : Pool}
    (hopen : openPool true db (x.start lib input) = (.ok (), pool)) :
    ∃ records : List Rec, input.scan = .ok (records.map .ok) ∧ ∀ filters, x.Asks filters → ∃ positions : List Int, positions.Perm (positionsOf records (x.finds lib filters)) ∧
      ∀ events k, (searchesBegun events)[k]? = some (x.input, filters) →
        (∃ s, (Searches.run (x.search lib) ⟨pool, []⟩ events).all[k]? = some s ∧ (Fails s ∨ AnswersWith positions s) ∧
          ∀ more, 2 * filters.length + positions.length + 4 ≤ stepsOf k more → ∃ s', (Searches.run (x.search lib) ⟨pool, []⟩ (events ++ more)).all[k]? = some s' ∧ Ended s') ∧
        (OneAtATime (x.search lib) ⟨pool, []⟩ events → ∃ s, (Searches.run (x.search lib) ⟨pool, []⟩ events).all[k]? = some s ∧ AnswersWith positions s) := by
  simp only [openPool, if_true, Prod.mk.injEq] at hopen
  obtain ⟨hok, rfl⟩ := hopen
  have hholds := open_holds (db := newDb) hlib.1 (fun _ => rfl) hx [] hok
  simp only [List.map_nil, afterStarts] at hholds
  generalize (x.start lib input ⟨newDb, none⟩).2.db = d at hholds ⊢
  obtain ⟨records, h1, h2⟩ := search_holds hlib hx hholds
  refine ⟨records, h1, fun filters hf => ?_⟩
  obtain ⟨positions, h3, h4⟩ := h2 filters hf
  obtain ⟨e0, he0⟩ := search_newDb (lib := lib) hx x.input filters
  refine ⟨positions, h3, fun events k hk => ⟨?_, fun hone => ?_⟩⟩
  · have hsees : SeesOnly (fun c => c = d ∨ c = newDb) ⟨true, db, [d]⟩ := ⟨(fun e => by cases e), fun _ c hc => .inl (List.mem_singleton.1 hc)⟩
    have hrun := run_consistent ⟨newDb, .inr rfl⟩ (search_begins lib x) events (consistent_begin hsees) (fun _ => .inr rfl)
    simp only [List.nil_append] at hrun
    obtain ⟨hk1, hget⟩ := List.getElem?_eq_some_iff.1 hk
    have hk2 : k < (Searches.run (x.search lib) ⟨⟨true, db, [d]⟩, []⟩ events).all.length := by rw [hrun.length]; simpa using hk1
    have h5 := (hrun.each k hk2 (by simpa using hk1)).1
    rw [List.getElem_map, hget] at h5
    refine ⟨_, List.getElem?_eq_getElem hk2, ?_, ?_⟩
    · generalize (Searches.run (x.search lib) ⟨⟨true, db, [d]⟩, []⟩ events).all[k] = s at h5 ⊢
      match s, h5 with
      | .quote n after, _ => exact .inr ⟨id, List.nil_prefix, fun h => h.elim⟩
      | .quoting n after c, _ => exact .inr ⟨id, List.nil_prefix, fun h => h.elim⟩
      | .failed e, _ => exact .inl trivial
      | .reading given rest conn, ⟨c, hc, h6, h7, h8⟩ =>
        rcases hc with rfl | rfl
        · exact .inr (consistent_answers (x := .reading given rest conn) ⟨c, rfl, h6, h7, h8⟩ h4)
        · rw [he0] at h6; cases h6
    · exact search_ends (D := fun c => c = d ∨ c = newDb) ⟨d, .inl rfl⟩ (search_begins lib x) (consistent_begin hsees) (fun _ => .inr rfl) events k _ hk _ (fun c hc l hl => by
        rcases hc with rfl | rfl
        · rw [h4] at hl
          cases hl
          simp
        · rw [he0] at hl; cases hl) (search_left _ hf)
  · have hsees : SeesOnly (· = d) ⟨true, db, [d]⟩ := ⟨(fun e => by cases e), fun _ c hc => List.mem_singleton.1 hc⟩
    have hrun := run_alone (search_begins lib x) events (s := ⟨⟨true, db, [d]⟩, []⟩) ⟨(fun _ _ h => by simp at h), (fun _ h => by simp at h), fun _ => rfl⟩ hone (consistent_begin hsees)
    simp only [List.nil_append] at hrun
    exact consistentAll_answers hrun hk h4

theorem run_length {search : String → GoMap Value → Searching} : ∀ (events : List SearchEvent) (s : Searches), (s.run search events).all.length = s.all.length + (searchesBegun events).length
  | [], _ => rfl
  | .begin n f :: rest, s => by
    refine (run_length rest _).trans ?_
    simp [Searches.next, searchesBegun]
    omega
  | .step i j :: rest, s => by
    refine (run_length rest _).trans ?_
    simp only [searchesBegun, Nat.add_right_cancel_iff]
    cases hx : s.all[i]? with
    | none => rw [next_none hx]
    | some x => rw [next_some hx]; simp

theorem run_own {search : String → GoMap Value → Searching} : ∀ (l : List SearchEvent) (s : Searches), (s.run search l).pool.own = s.pool.own
  | [], _ => rfl
  | e :: l, s => (run_own l _).trans (next_own s e)

theorem stepsOf_beyond : ∀ events : List SearchEvent, ∃ m, ∀ k, m ≤ k → stepsOf k events = 0
  | [] => ⟨0, fun _ _ => rfl⟩
  | .begin _ _ :: rest => stepsOf_beyond rest
  | .step i _ :: rest => by
    obtain ⟨m, h⟩ := stepsOf_beyond rest
    refine ⟨m + i + 1, fun k hk => ?_⟩
    rw [stepsOf, h k (by omega), if_neg (by omega)]

/-- Nothing that begins when the other connections have new databases returns an iterator. -/
theorem newBut_fails {lib : SqlLib} {x : StoredIndex} (hx : x.Accepted) {k : Nat} {s : Searches} (h : NewBut k s) (more : List SearchEvent) (hmore : stepsOf k more = 0) {j : Nat} (hj : s.all.length ≤ j)
    (hjk : j ≠ k) {t : Searching} (ht : (s.run (x.search lib) more).all[j]? = some t) : ¬ Returns t := by
  obtain ⟨hlt, _⟩ := List.getElem?_eq_some_iff.1 ht
  rw [run_length] at hlt
  have hi : j - s.all.length < (searchesBegun more).length := by omega
  have h1 := run_newBut (search_begins lib x) more h hmore j (x.search lib (searchesBegun more)[j - s.all.length].1 (searchesBegun more)[j - s.all.length].2) hjk
    (fun y hy => by rw [List.getElem?_eq_none (by omega)] at hy; cases hy)
    (fun i b hib hb => by
      obtain rfl : i = j - s.all.length := by omega
      rw [List.getElem?_eq_getElem hi] at hb
      cases hb
      rfl) t ht
  intro hr
  match t, h1, hr with
  | .reading given rest conn, ⟨_, rfl, h2, _⟩, _ =>
    obtain ⟨e, he⟩ := search_newDb (lib := lib) hx (searchesBegun more)[j - s.all.length].1 (searchesBegun more)[j - s.all.length].2
    rw [he] at h2
    cases h2

/-- While the iterator of a search is not read to its end, which may be forever, no other search that begins finds the index. -/
theorem C113_memory_unread {lib : SqlLib} {x : StoredIndex} (hx : x.Accepted) {input : Input} {db : SqlDb} {pool : Pool}
    (hopen : openPool true db (x.start lib input) = (.ok (), pool)) (events : List SearchEvent) (k : Nat) (s : Searching)
    (hs : (Searches.run (x.search lib) ⟨pool, []⟩ events).all[k]? = some s) (hreturns : Returns s) (hunread : ¬ Ended s) (more : List SearchEvent) (hmore : stepsOf k more = 0)
    (j : Nat) (hj : (searchesBegun events).length ≤ j) (t : Searching) (ht : (Searches.run (x.search lib) ⟨pool, []⟩ (events ++ more)).all[j]? = some t) : ¬ Returns t := by
  simp only [openPool, if_true, Prod.mk.injEq] at hopen
  obtain ⟨hok, rfl⟩ := hopen
  generalize (x.start lib input ⟨newDb, none⟩).2.db = d at hs ht
  have hsees : SeesOnly (fun _ => True) ⟨true, db, [d]⟩ := ⟨fun _ => trivial, fun _ _ _ => trivial⟩
  have hrun := run_consistent ⟨newDb, trivial⟩ (search_begins lib x) events (consistent_begin hsees) (fun _ => trivial)
  simp only [List.nil_append] at hrun
  have hold : oldOnes (Searches.run (x.search lib) ⟨⟨true, db, [d]⟩, []⟩ events) ≤ 1 := by
    refine Nat.le_trans (run_old (search_begins lib x) events _) ?_
    simp only [oldOnes, List.countP_nil, Nat.add_zero]
    exact List.countP_le_length
  obtain ⟨hk, hget⟩ := List.getElem?_eq_some_iff.1 hs
  have hlen : (searchesBegun events).length = (Searches.run (x.search lib) ⟨⟨true, db, [d]⟩, []⟩ events).all.length := by rw [hrun.length, List.length_map]
  have h1 := (hrun.each k hk (by rw [← hrun.length]; exact hk)).1
  rw [hget, run_own] at h1
  have hown1 := run_own (search := x.search lib) events ⟨⟨true, db, [d]⟩, []⟩
  rw [run_append] at ht
  generalize Searches.run (x.search lib) ⟨⟨true, db, [d]⟩, []⟩ events = s1 at *
  have hbut : NewBut k s1 := by
    match s, hreturns, hunread, h1 with
    | .reading given rest none, _, hu, _ => exact (hu trivial).elim
    | .reading given rest (some c), _, _, ⟨db', _, h2, _, h3⟩ =>
      have h3 := h3 c rfl rfl
      subst h3
      refine newBut_holder hown1 hold hs rfl ?_
      rintro rfl
      rw [List.getElem_map] at h2
      obtain ⟨e, he⟩ := search_newDb (lib := lib) hx (searchesBegun events)[k].1 (searchesBegun events)[k].2
      rw [he] at h2
      cases h2
  exact newBut_fails hx hbut more hmore (by omega) (by omega) ht

namespace PoolExample
def index : StoredIndex := .sqlite (textIndex "a" ["a", "b"])
theorem accepted : index.Accepted := accepted_textIndex (by unfold NoNul; decide) (by unfold NoNul; decide)
/-- Both of the people. -/
def filters : GoMap Value := [("a", .str (utf8 "x".toList))]
theorem asks : index.Asks filters :=
  ⟨by decide, fun f hf => by rw [List.mem_singleton.1 hf]; exact ⟨⟨⟨"a", "BINARY"⟩, .head _, rfl⟩, _, .text _⟩⟩
/-- The pool when the index is open. -/
def opened (own : Bool) : Pool := (openPool own newDb (index.start plainLib twoPeople)).2
theorem opens (own : Bool) : openPool own newDb (index.start plainLib twoPeople) = (.ok (), opened own) := by
  have h : (openPool own newDb (index.start plainLib twoPeople)).1 = .ok () := by cases own <;> decide +kernel
  unfold opened
  generalize openPool own newDb (index.start plainLib twoPeople) = r at h ⊢
  cases r
  cases h
  rfl
theorem opened_own : (opened true).own = true := by simp only [opened, openPool, if_true]
/-- The second search begins when one of the two positions of the first one was read. -/
def events : List SearchEvent :=
  [.begin "people" filters, .step 0 0, .step 0 0, .step 0 0, .step 0 0, .step 0 0, .step 0 0, .begin "people" filters, .step 1 0, .step 1 0, .step 1 0, .step 1 0, .step 1 0]
/-- Three searches at the same time, read to their ends. -/
def crowd : List SearchEvent :=
  [.begin "people" filters, .begin "people" filters, .begin "people" filters, .step 0 0, .step 0 0, .step 0 0, .step 0 0, .step 0 0,
    .step 1 0, .step 2 0, .step 1 0, .step 2 0, .step 0 0, .step 0 0, .step 0 0, .step 1 0, .step 1 0, .step 1 0, .step 2 0, .step 2 0, .step 2 0]
/-- Whether the searches failed, what they have answered, and whether they have ended. -/
def seen (own : Bool) (events : List SearchEvent) : List (Bool × List (Option Int) × Bool) :=
  (Searches.run (index.search plainLib) ⟨opened own, []⟩ events).all.map (fun s =>
    (match s with | .failed _ => true | _ => false, (answersOf s).map (fun r => match r with | .ok p => some p | .error _ => none), decide (Ended s)))

/-- With a file, the second search also finds both. -/
theorem file_seen : seen false (events ++ [.step 1 0, .step 1 0, .step 1 0]) = [(false, [some 0], false), (false, [some 0, some 10], true)] := by decide +kernel
/-- With `:memory:` it fails. -/
theorem memory_seen : seen true events = [(false, [some 0], false), (true, [], true)] := by decide +kernel
theorem crowd_seen : seen true crowd = [(false, [some 0, some 10], true), (true, [], true), (true, [], true)] := by decide +kernel
theorem crowd_lost : oldOnes (Searches.run (index.search plainLib) ⟨opened true, []⟩ crowd) = 0 := by decide +kernel
theorem records_eq {records : List Rec} (h : twoPeople.scan = .ok (records.map .ok)) : records = [textRec 0 [("a", "x"), ("b", "y")], textRec 10 [("a", "x"), ("b", "z")]] := by
  have h' : twoPeople.scan = .ok ([textRec 0 [("a", "x"), ("b", "y")], textRec 10 [("a", "x"), ("b", "z")]].map .ok) := rfl
  rw [h'] at h
  exact (List.map_inj_right (fun _ _ e => by cases e; rfl)).1 (Except.ok.inj h).symm
theorem found : positionsOf [textRec 0 [("a", "x"), ("b", "y")], textRec 10 [("a", "x"), ("b", "z")]] (index.finds plainLib filters) = [0, 10] := by decide +kernel
theorem first_ended : ∀ x ∈ (Searches.run (index.search plainLib) ⟨opened true, []⟩ (.begin "people" filters :: List.replicate 8 (.step 0 0))).all, Ended x := by decide +kernel
end PoolExample

/-- With `:memory:`, as in the example of the documentation, a search fails while another one is not read to its end. -/
theorem C113_memory_false : ∃ (lib : SqlLib) (x : StoredIndex) (input : Input) (db : SqlDb) (pool : Pool) (filters : GoMap Value) (events : List SearchEvent) (s : Searching),
    ReadsAll lib ∧ x.Accepted ∧ x.Asks filters ∧ openPool true db (x.start lib input) = (.ok (), pool) ∧ searchesBegun events = [(x.input, filters), (x.input, filters)] ∧
      (Searches.run (x.search lib) ⟨pool, []⟩ events).all[1]? = some s ∧ Fails s := by
  have h := PoolExample.memory_seen
  unfold PoolExample.seen at h
  cases hs : (Searches.run (PoolExample.index.search plainLib) ⟨PoolExample.opened true, []⟩ PoolExample.events).all[1]? with
  | none =>
    have := congrArg (·[1]?) h
    simp only [List.getElem?_map, hs] at this
    cases this
  | some s =>
    refine ⟨plainLib, PoolExample.index, twoPeople, newDb, _, PoolExample.filters, PoolExample.events, s, ⟨plainLib_permutes, fun _ => rfl⟩, PoolExample.accepted, PoolExample.asks, PoolExample.opens true,
      rfl, hs, ?_⟩
    have := congrArg (·[1]?) h
    simp only [List.getElem?_map, hs, Option.map_some, List.getElem?_cons_succ, List.getElem?_cons_zero, Option.some.injEq, Prod.mk.injEq] at this
    match s, this with
    | .failed e, _ => trivial

/-- With `:memory:` three searches at the same time can make the program lose the index: when all of them have ended, every later search fails, until the program is started again. -/
theorem C113_lost_false : ∃ (lib : SqlLib) (x : StoredIndex) (input : Input) (db : SqlDb) (pool : Pool) (events : List SearchEvent),
    ReadsAll lib ∧ x.Accepted ∧ openPool true db (x.start lib input) = (.ok (), pool) ∧ (searchesBegun events).length = 3 ∧
      (∀ s ∈ (Searches.run (x.search lib) ⟨pool, []⟩ events).all, Ended s) ∧
      ∀ (more : List SearchEvent) (j : Nat) (t : Searching), 3 ≤ j → (Searches.run (x.search lib) ⟨pool, []⟩ (events ++ more)).all[j]? = some t → ¬ Returns t := by
  refine ⟨plainLib, PoolExample.index, twoPeople, newDb, _, PoolExample.crowd, ⟨plainLib_permutes, fun _ => rfl⟩, PoolExample.accepted, PoolExample.opens true, rfl, fun s hs => ?_, fun more j t hj ht => ?_⟩
  · have h := PoolExample.crowd_seen
    unfold PoolExample.seen at h
    have hm := List.mem_map_of_mem (f := fun s => ((match s with | .failed _ => true | _ => false : Bool), (answersOf s).map (fun r => match r with | .ok p => some p | .error _ => none), decide (Ended s))) hs
    rw [h] at hm
    simp only [List.mem_cons, Prod.mk.injEq, List.not_mem_nil, or_false] at hm
    rcases hm with hm | hm | hm <;> exact of_decide_eq_true hm.2.2
  · rw [run_append] at ht
    have hlen : (Searches.run (PoolExample.index.search plainLib) ⟨PoolExample.opened true, []⟩ PoolExample.crowd).all.length = 3 := by rw [run_length]; rfl
    obtain ⟨k, hk⟩ : ∃ k, k ≠ j ∧ stepsOf k more = 0 := by
      obtain ⟨m, h⟩ := stepsOf_beyond more
      exact ⟨m + j + 1, by omega, h _ (by omega)⟩
    exact newBut_fails PoolExample.accepted (newBut_lost (by rw [run_own]; exact PoolExample.opened_own) PoolExample.crowd_lost k) more hk.2 (by omega) (fun e => hk.1 e.symm) ht

theorem take_free (p : Pool) (pick : Nat) (h : p.free.length ≤ 2) : (p.take pick).2.free.length ≤ 2 := by
  unfold Pool.take
  split
  · dsimp only
    rw [List.length_eraseIdx]
    split <;> omega
  · split
    · exact h
    · rename_i e
      rw [e] at h
      simp only [List.length_cons] at h ⊢
      omega

theorem release_free (p : Pool) (conn : SqlDb) (h : p.free.length ≤ 2) : (p.release conn).free.length ≤ 2 := by
  unfold Pool.release
  split
  · simp only [List.length_append, List.length_cons, List.length_nil]; omega
  · exact h

theorem step_free (p : Pool) (pick : Nat) (h : p.free.length ≤ 2) : ∀ x : Searching, (x.step p pick).2.free.length ≤ 2
  | .quote 0 (.error _) => h
  | .quote 0 (.ok ask) => by
    unfold Searching.step
    dsimp only
    split
    · exact release_free _ _ (take_free p pick h)
    · exact take_free p pick h
  | .quote (_ + 1) _ => take_free p pick h
  | .quoting _ _ _ => release_free p _ h
  | .failed _ => h
  | .reading _ [] (some _) => release_free p _ h
  | .reading _ (.error _ :: _) (some _) => release_free p _ h
  | .reading _ (.ok _ :: _) (some _) => h
  | .reading _ [] none => h
  | .reading _ (.error _ :: _) none => h
  | .reading _ (.ok _ :: _) none => h

theorem run_free {search : String → GoMap Value → Searching} : ∀ (events : List SearchEvent) (s : Searches), s.pool.free.length ≤ 2 → (s.run search events).pool.free.length ≤ 2
  | [], _, h => h
  | .begin _ _ :: rest, _, h => run_free rest _ h
  | .step i j :: rest, s, h => by
    refine run_free rest _ ?_
    cases hx : s.all[i]? with
    | none => rw [next_none hx]; exact h
    | some x => rw [next_some hx]; exact step_free _ _ h x

/-- Whatever the searches, and whichever the DSN: as many connections are open as searches have not ended, and at most two others; so at most two when all of them have ended. -/
theorem C113_connections {lib : SqlLib} {x : StoredIndex} {input : Input} {own : Bool} {db : SqlDb} {pool : Pool} (hopen : openPool own db (x.start lib input) = (.ok (), pool)) (events : List SearchEvent) :
    openConnections (Searches.run (x.search lib) ⟨pool, []⟩ events) ≤
      2 + ((Searches.run (x.search lib) ⟨pool, []⟩ events).all.filter (fun s => ¬ Ended s)).length := by
  have hfree : pool.free.length ≤ 2 := by
    simp only [openPool, Prod.mk.injEq] at hopen
    rw [← hopen.2]
    simp only [List.length_cons, List.length_nil]
    omega
  have h := run_free (search := x.search lib) events ⟨pool, []⟩ hfree
  generalize Searches.run (x.search lib) ⟨pool, []⟩ events = s at h ⊢
  unfold openConnections
  refine Nat.add_le_add h ?_
  rw [← List.countP_eq_length_filter, ← List.countP_eq_length_filter]
  refine List.countP_mono_left (fun y _ hy => ?_)
  match y, hy with
  | .quoting _ _ _, _ => rfl
  | .reading _ _ (some _), _ => rfl

/-! ## The theorems for the two people -/

/-- `C113_file`: the second search, which begins when the first one was read in part. -/
example : ∃ positions : List Int, positions.Perm [0, 10] ∧
    ∃ s, (Searches.run (PoolExample.index.search plainLib) ⟨PoolExample.opened false, []⟩ PoolExample.events).all[1]? = some s ∧ AnswersWith positions s := by
  obtain ⟨records, hscan, h⟩ := C113_file (lib := plainLib) ⟨plainLib_permutes, fun _ => rfl⟩ (db := newDb) (fun _ => rfl) PoolExample.accepted (input := twoPeople) [] (PoolExample.opens false)
  obtain ⟨positions, hperm, h⟩ := h PoolExample.filters PoolExample.asks
  obtain ⟨s, hs, ha, _⟩ := h PoolExample.events 1 rfl
  rw [PoolExample.records_eq hscan, PoolExample.found] at hperm
  exact ⟨positions, hperm, s, hs, ha⟩

/-- `C113_memory_partial`: the first of the searches, with the others at the same time. -/
example : ∃ positions : List Int, positions.Perm [0, 10] ∧
    ∃ s, (Searches.run (PoolExample.index.search plainLib) ⟨PoolExample.opened true, []⟩ PoolExample.crowd).all[0]? = some s ∧ (Fails s ∨ AnswersWith positions s) := by
  obtain ⟨records, hscan, h⟩ := C113_memory_partial (lib := plainLib) ⟨plainLib_permutes, fun _ => rfl⟩ PoolExample.accepted (input := twoPeople) (PoolExample.opens true)
  obtain ⟨positions, hperm, h⟩ := h PoolExample.filters PoolExample.asks
  obtain ⟨⟨s, hs, ha, _⟩, _⟩ := h PoolExample.crowd 0 rfl
  rw [PoolExample.records_eq hscan, PoolExample.found] at hperm
  exact ⟨positions, hperm, s, hs, ha⟩

/-- And one search after the other. -/
example : OneAtATime (PoolExample.index.search plainLib) ⟨PoolExample.opened true, []⟩
    (.begin "people" PoolExample.filters :: (List.replicate 8 (.step 0 0) ++ .begin "people" PoolExample.filters :: List.replicate 5 (.step 1 0))) :=
  ⟨(fun _ h => by cases h), (PoolExample.first_ended), trivial⟩

/-- `C113_memory_unread`: the first search has returned and has not ended when the second one begins. -/
example : ∃ s, (Searches.run (PoolExample.index.search plainLib) ⟨PoolExample.opened true, []⟩ (PoolExample.events.take 7)).all[0]? = some s ∧ Returns s ∧ ¬ Ended s := by
  have h : PoolExample.seen true (PoolExample.events.take 7) = [(false, [some 0], false)] := by decide +kernel
  unfold PoolExample.seen at h
  generalize Searches.run (PoolExample.index.search plainLib) ⟨PoolExample.opened true, []⟩ (PoolExample.events.take 7) = r at h ⊢
  cases hr : r.all with
  | nil => rw [hr] at h; cases h
  | cons s rest =>
    rw [hr, List.map_cons, List.cons.injEq, Prod.mk.injEq, Prod.mk.injEq] at h
    refine ⟨s, rfl, ?_, of_decide_eq_false h.1.2.2⟩
    match s, h.1.2.1 with
    | .reading _ _ _, _ => trivial

end Rodb
