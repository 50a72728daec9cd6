import Verif.Spec.Pool
import Verif.Spec.Sqlite
/-
  Lemmas on the connections of searches.
-/
namespace Rodb
open Rodb.Spec

/-- What a search that begins will answer on a database. -/
def Searching.answer (db : SqlDb) : Searching → Res PIter
  | .quote _ (.error e) => .error e
  | .quote _ (.ok ask) => ask db
  | .quoting _ (.error e) _ => .error e
  | .quoting _ (.ok ask) _ => ask db
  | .failed e => .error e
  | .reading given rest _ => .ok (given ++ rest)

theorem sqliteSearch_answer (lib : SqlLib) (c : SqliteDecl) (name : String) (filters : GoMap Value) (db : SqlDb) :
    (sqliteSearch lib c name filters).answer db = sqliteGetRecordPositions lib c db name filters := by
  unfold sqliteSearch sqliteGetRecordPositions
  by_cases h1 : name ≠ c.input
  · rw [if_pos h1, if_pos h1]; rfl
  · rw [if_neg h1, if_neg h1]
    by_cases h2 : filters.length = 0
    · rw [if_pos h2, if_pos h2]; rfl
    · rw [if_neg h2, if_neg h2]
      cases sqliteClauses c filters with
      | error e => rfl
      | ok q => rfl

theorem fts5Search_answer (lib : SqlLib) (c : Fts5Decl) (name : String) (filters : GoMap Value) (db : SqlDb) :
    (fts5Search lib c name filters).answer db = fts5GetRecordPositions lib c db name filters := by
  unfold fts5Search fts5GetRecordPositions
  by_cases h1 : name ≠ c.input
  · rw [if_pos h1, if_pos h1]; rfl
  · rw [if_neg h1, if_neg h1]
    by_cases h2 : filters.length ≠ 1
    · rw [if_pos h2, if_pos h2]; rfl
    · rw [if_neg h2, if_neg h2]
      cases mapGet filters "match" with
      | none => rfl
      | some q => rfl

/-- The search began like `s0`, and what it has answered comes from one of the databases `D`. -/
def Consistent (D : SqlDb → Prop) (own : Bool) (s0 : Searching) : Searching → Prop
  | .quote n after => ∀ db, (Searching.quote n after).answer db = s0.answer db
  | .quoting n after _ => ∀ db, (Searching.quote n after).answer db = s0.answer db
  | .failed e => ∃ db, D db ∧ s0.answer db = .error e
  | .reading given rest conn => ∃ db, D db ∧ s0.answer db = .ok (given ++ rest) ∧ (conn = none → rest = [] ∨ ∃ e, .error e ∈ given) ∧ ∀ c, conn = some c → own = true → db = c

/-- The connection that a search uses. -/
def Searching.conn : Searching → Option SqlDb
  | .quoting _ _ conn => some conn
  | .reading _ _ conn => conn
  | _ => none

theorem take_spec (p : Pool) (pick : Nat) : (p.take pick).2.own = p.own ∧ (p.take pick).2.db = p.db ∧
    ((p.free = [] ∧ (p.take pick).1 = newDb ∧ (p.take pick).2.free = []) ∨
      (p.free ≠ [] ∧ ∃ i, ∃ h : i < p.free.length, (p.take pick).1 = p.free[i] ∧ (p.take pick).2.free = p.free.eraseIdx i)) := by
  unfold Pool.take
  cases h : p.free[pick]? with
  | some conn =>
    obtain ⟨h1, h2⟩ := List.getElem?_eq_some_iff.1 h
    exact ⟨rfl, rfl, .inr ⟨(fun e => by simp [e] at h1), pick, h1, h2.symm, rfl⟩⟩
  | none =>
    cases hf : p.free with
    | nil => exact ⟨rfl, rfl, .inl ⟨rfl, rfl, hf⟩⟩
    | cons conn rest => exact ⟨rfl, rfl, .inr ⟨by simp, 0, by simp, rfl, rfl⟩⟩

theorem release_spec (p : Pool) (conn : SqlDb) : (p.release conn).own = p.own ∧ (p.release conn).db = p.db ∧
    ((p.free.length < 2 ∧ (p.release conn).free = p.free ++ [conn]) ∨ (2 ≤ p.free.length ∧ (p.release conn).free = p.free)) := by
  unfold Pool.release
  split
  · rename_i h; exact ⟨rfl, rfl, .inl ⟨h, rfl⟩⟩
  · rename_i h; exact ⟨rfl, rfl, .inr ⟨by omega, rfl⟩⟩

/-- The connections see only databases `D`. -/
structure SeesOnly (D : SqlDb → Prop) (p : Pool) : Prop where
  shared : p.own = false → D p.db
  own : p.own = true → ∀ c ∈ p.free, D c

/-- If the search takes a new connection, it sees a database `D`. -/
def MayTake (D : SqlDb → Prop) (p : Pool) (x : Searching) : Prop := p.own = true → p.free = [] → D newDb ∨ x.conn ≠ none ∨ Ended x

theorem SeesOnly.take {D : SqlDb → Prop} {p : Pool} (h : SeesOnly D p) (hnew : p.own = true → p.free = [] → D newDb) (pick : Nat) : SeesOnly D (p.take pick).2 ∧ ((p.take pick).2.own = true → D (p.take pick).1) := by
  obtain ⟨h1, h2, h3⟩ := take_spec p pick
  refine ⟨⟨fun e => h2 ▸ h.shared (h1 ▸ e), fun e c hc => ?_⟩, fun e => ?_⟩
  · rcases h3 with ⟨_, _, h3⟩ | ⟨_, i, hi, _, h3⟩
    · rw [h3] at hc; cases hc
    · rw [h3] at hc; exact h.own (h1 ▸ e) c (List.mem_of_mem_eraseIdx hc)
  · rcases h3 with ⟨h0, h3, _⟩ | ⟨_, i, hi, h3, _⟩
    · rw [h3]; exact hnew (h1 ▸ e) h0
    · rw [h3]; exact h.own (h1 ▸ e) _ (List.getElem_mem hi)

theorem SeesOnly.release {D : SqlDb → Prop} {p : Pool} (h : SeesOnly D p) {conn : SqlDb} (hc : p.own = true → D conn) : SeesOnly D (p.release conn) := by
  obtain ⟨h1, h2, h3⟩ := release_spec p conn
  refine ⟨fun e => h2 ▸ h.shared (h1 ▸ e), fun e c' hc' => ?_⟩
  rcases h3 with ⟨_, h3⟩ | ⟨_, h3⟩
  · rw [h3] at hc'
    rcases List.mem_append.1 hc' with hc' | hc'
    · exact h.own (h1 ▸ e) _ hc'
    · rw [List.mem_singleton.1 hc']; exact hc (h1 ▸ e)
  · rw [h3] at hc'; exact h.own (h1 ▸ e) _ hc'

theorem SeesOnly.sees {D : SqlDb → Prop} {p : Pool} (h : SeesOnly D p) {conn : SqlDb} (hc : p.own = true → D conn) : D (p.sees conn) := by
  unfold Pool.sees
  cases e : p.own with
  | true => exact hc e
  | false => exact h.shared e

theorem step_own (p : Pool) (pick : Nat) (x : Searching) : (x.step p pick).2.own = p.own := by
  unfold Searching.step
  split
  · rfl
  · dsimp only
    split
    · rw [(release_spec _ _).1, (take_spec p pick).1]
    · rw [(take_spec p pick).1]
  · rw [(take_spec p pick).1]
  · rw [(release_spec _ _).1]
  · rfl
  · rw [(release_spec _ _).1]
  · rw [(release_spec _ _).1]
  · rfl
  · rfl

theorem step_consistent {D : SqlDb → Prop} (hD : ∃ db, D db) {p : Pool} {pick : Nat} {s0 x : Searching} (hp : SeesOnly D p) (hx : Consistent D p.own s0 x) (hc : ∀ conn, x.conn = some conn → p.own = true → D conn)
    (hmay : MayTake D p x) : SeesOnly D (x.step p pick).2 ∧ Consistent D p.own s0 (x.step p pick).1 ∧ ∀ conn, (x.step p pick).1.conn = some conn → p.own = true → D conn := by
  have hown := step_own p pick x
  unfold Searching.step at hown ⊢
  split
  · -- the call fails
    obtain ⟨db, hdb⟩ := hD
    exact ⟨hp, ⟨db, hdb, (hx _).symm⟩, fun _ h => by cases h⟩
  · rename_i ask
    obtain ⟨h1, h2⟩ := hp.take (fun e e' => (hmay e e').resolve_right (by simp [Searching.conn, Ended])) pick
    dsimp only
    split
    · rename_i e he
      exact ⟨h1.release h2, ⟨_, h1.sees h2, (hx _).symm.trans he⟩, fun _ h => by cases h⟩
    · rename_i rest hrest
      refine ⟨h1, ⟨_, h1.sees h2, (hx _).symm.trans hrest, (fun h => by cases h), fun c hc e => by
        cases hc
        unfold Pool.sees
        rw [(take_spec p pick).1, if_pos e]⟩, fun conn h e => ?_⟩
      cases h
      exact h2 ((take_spec p pick).1.trans e)
  · rename_i n after
    obtain ⟨h1, h2⟩ := hp.take (fun e e' => (hmay e e').resolve_right (by simp [Searching.conn, Ended])) pick
    refine ⟨h1, fun db => ?_, fun conn h e => ?_⟩
    · rw [← hx db]; cases after <;> rfl
    · cases h
      exact h2 ((take_spec p pick).1.trans e)
  · rename_i n after conn
    exact ⟨hp.release (hc conn rfl), hx, fun _ h => by cases h⟩
  · exact ⟨hp, hx, hc⟩
  · rename_i given conn
    obtain ⟨db, h1, h2, _, h3⟩ := hx
    exact ⟨hp.release (hc conn rfl), ⟨db, h1, h2, (fun _ => .inl rfl), fun _ h => by cases h⟩, fun _ h => by cases h⟩
  · rename_i given e rest conn
    obtain ⟨db, h1, h2, _, h3⟩ := hx
    exact ⟨hp.release (hc conn rfl), ⟨db, h1, by simpa using h2, (fun _ => .inr ⟨e, by simp⟩), fun _ h => by cases h⟩, fun _ h => by cases h⟩
  · rename_i given position rest conn
    obtain ⟨db, h1, h2, _, h3⟩ := hx
    exact ⟨hp, ⟨db, h1, by simpa using h2, (fun h => by cases h), h3⟩, fun c h => hc c h⟩
  · exact ⟨hp, hx, hc⟩

theorem step_keeps {D : SqlDb → Prop} {p : Pool} {pick : Nat} {x : Searching} (hp : SeesOnly D p) (hc : ∀ conn, x.conn = some conn → p.own = true → D conn)
    (hmay : MayTake D p x) : SeesOnly D (x.step p pick).2 ∧ ∀ conn, (x.step p pick).1.conn = some conn → p.own = true → D conn := by
  unfold Searching.step
  split
  · exact ⟨hp, fun _ h => by cases h⟩
  · obtain ⟨h1, h2⟩ := hp.take (fun e e' => (hmay e e').resolve_right (by simp [Searching.conn, Ended])) pick
    dsimp only
    split
    · exact ⟨h1.release h2, fun _ h => by cases h⟩
    · refine ⟨h1, fun conn h e => ?_⟩
      cases h
      exact h2 ((take_spec p pick).1.trans e)
  · obtain ⟨h1, h2⟩ := hp.take (fun e e' => (hmay e e').resolve_right (by simp [Searching.conn, Ended])) pick
    refine ⟨h1, fun conn h e => ?_⟩
    cases h
    exact h2 ((take_spec p pick).1.trans e)
  · rename_i conn
    exact ⟨hp.release (hc conn rfl), fun _ h => by cases h⟩
  · exact ⟨hp, hc⟩
  · rename_i conn
    exact ⟨hp.release (hc conn rfl), fun _ h => by cases h⟩
  · rename_i conn
    exact ⟨hp.release (hc conn rfl), fun _ h => by cases h⟩
  · exact ⟨hp, hc⟩
  · exact ⟨hp, hc⟩

/-- The state of the searches, given those that began. -/
structure ConsistentAll (D : SqlDb → Prop) (begun : List Searching) (s : Searches) : Prop where
  pool : SeesOnly D s.pool
  length : s.all.length = begun.length
  each : ∀ (k : Nat) (h : k < s.all.length) (h' : k < begun.length), Consistent D s.pool.own begun[k] s.all[k] ∧ ∀ conn, s.all[k].conn = some conn → s.pool.own = true → D conn

/-- A search that has no connection and has not answered yet. -/
def IsBeginning : Searching → Prop
  | .quote _ _ => True
  | .failed _ => True
  | _ => False

theorem next_none {search : String → GoMap Value → Searching} {s : Searches} {which pick : Nat} (h : s.all[which]? = none) : s.next search (.step which pick) = s := by
  simp only [Searches.next, h]

theorem next_some {search : String → GoMap Value → Searching} {s : Searches} {which pick : Nat} {x : Searching} (h : s.all[which]? = some x) :
    s.next search (.step which pick) = { pool := (x.step s.pool pick).2, all := s.all.set which (x.step s.pool pick).1 } := by
  simp only [Searches.next, h]

theorem begins_consistent {D : SqlDb → Prop} {own : Bool} (hD : ∃ db, D db) {x : Searching} (hx : IsBeginning x) :
    Consistent D own x x ∧ x.conn = none := by
  match x with
  | .quote n after => exact ⟨fun _ => rfl, rfl⟩
  | .failed e => exact ⟨hD.elim fun db h => ⟨db, h, rfl⟩, rfl⟩

/-- A search begins without a connection. -/
def Begins (search : String → GoMap Value → Searching) : Prop := ∀ name filters, IsBeginning (search name filters)

theorem sqliteSearch_begins (lib : SqlLib) (c : SqliteDecl) : Begins (sqliteSearch lib c) := by
  intro name filters
  unfold sqliteSearch
  split
  · trivial
  · split <;> trivial

theorem fts5Search_begins (lib : SqlLib) (c : Fts5Decl) : Begins (fts5Search lib c) := by
  intro name filters
  unfold fts5Search
  split
  · trivial
  · split
    · trivial
    · split <;> trivial

theorem next_consistent {D : SqlDb → Prop} (hD : ∃ db, D db) {search : String → GoMap Value → Searching} (hsearch : Begins search) {begun : List (String × GoMap Value)} {s : Searches}
    (h : ConsistentAll D (begun.map (fun b => search b.1 b.2)) s) (e : SearchEvent) (hmay : ∀ which pick x, e = .step which pick → s.all[which]? = some x → MayTake D s.pool x) :
    ConsistentAll D ((begun ++ searchesBegun [e]).map (fun b => search b.1 b.2)) (s.next search e) := by
  cases e with
  | begin name filters =>
    obtain ⟨h1, h2⟩ := begins_consistent hD (hsearch name filters)
    refine ⟨h.pool, ?_, fun k hk hk' => ?_⟩
    · simpa [Searches.next, searchesBegun] using h.length
    · simp only [Searches.next, searchesBegun, List.map_append, List.map_cons, List.map_nil]
      by_cases hlt : k < s.all.length
      · rw [List.getElem_append_left hlt, List.getElem_append_left (by rw [← h.length]; exact hlt)]
        exact h.each k hlt (by rw [← h.length]; exact hlt)
      · have hk2 : k = s.all.length := by
          simp only [Searches.next, List.length_append, List.length_cons, List.length_nil] at hk
          omega
        subst hk2
        have e : ∀ (hh : s.all.length < (begun.map (fun b => search b.1 b.2) ++ [search name filters]).length),
            (begun.map (fun b => search b.1 b.2) ++ [search name filters])[s.all.length] = search name filters := by
          intro hh
          have hl : begun.length = s.all.length := by simpa using h.length.symm
          rw [List.getElem_append_right (by simp [hl])]
          simp [hl]
        rw [e, List.getElem_append_right (Nat.le_refl _)]
        simp only [Nat.sub_self, List.getElem_cons_zero]
        exact ⟨h1, fun conn hc => by rw [h2] at hc; cases hc⟩
  | step which pick =>
    simp only [searchesBegun, List.append_nil]
    cases hx : s.all[which]? with
    | none => rw [next_none hx]; exact h
    | some x =>
      rw [next_some hx]
      obtain ⟨hw, hx'⟩ := List.getElem?_eq_some_iff.1 hx
      have hw' : which < (begun.map (fun b => search b.1 b.2)).length := by rw [← h.length]; exact hw
      obtain ⟨g1, g2⟩ := h.each which hw hw'
      rw [hx'] at g1 g2
      obtain ⟨f1, f2, f3⟩ := step_consistent (pick := pick) hD h.pool g1 g2 (hmay _ _ _ rfl hx)
      have hown := step_own s.pool pick x
      refine ⟨f1, by simpa using h.length, fun k hk hk' => ?_⟩
      dsimp only
      rw [List.getElem_set]
      split
      · rename_i e
        subst e
        rw [hown]
        exact ⟨f2, fun conn hc e => f3 conn hc e⟩
      · obtain ⟨g1, g2⟩ := h.each k (by simpa using hk) hk'
        rw [hown]
        exact ⟨g1, g2⟩

theorem searchesBegun_cons (e : SearchEvent) (rest : List SearchEvent) : searchesBegun (e :: rest) = searchesBegun [e] ++ searchesBegun rest := by
  cases e <;> rfl

theorem next_own {search : String → GoMap Value → Searching} (s : Searches) (e : SearchEvent) : (s.next search e).pool.own = s.pool.own := by
  cases e with
  | begin name filters => rfl
  | step which pick =>
    cases hx : s.all[which]? with
    | none => rw [next_none hx]
    | some x => rw [next_some hx]; exact step_own _ _ _

theorem run_consistent {D : SqlDb → Prop} (hD : ∃ db, D db) {search : String → GoMap Value → Searching} (hsearch : Begins search) :
    ∀ (events : List SearchEvent) {begun : List (String × GoMap Value)} {s : Searches}, ConsistentAll D (begun.map (fun b => search b.1 b.2)) s →
    (s.pool.own = true → D newDb) → ConsistentAll D ((begun ++ searchesBegun events).map (fun b => search b.1 b.2)) (s.run search events)
  | [], begun, s, h, _ => by simpa [searchesBegun, Searches.run] using h
  | e :: rest, begun, s, h, hnew => by
    have := run_consistent hD hsearch rest (next_consistent hD hsearch h e (fun _ _ _ _ _ e' _ => .inl (hnew e'))) (fun e' => hnew (next_own s e ▸ e'))
    rw [searchesBegun_cons]
    rw [List.append_assoc] at this
    exact this

/-! ### Progress -/

/-- How many steps a search still makes on the way to its end, if its iterator will give `n` answers. -/
def Searching.left (n : Nat) : Searching → Nat
  | .quote k _ => 2 * k + n + 2
  | .quoting k _ _ => 2 * k + n + 3
  | .failed _ => 0
  | .reading _ rest (some _) => rest.length + 1
  | .reading _ _ none => 0

theorem left_zero {n : Nat} {x : Searching} (h : x.left n = 0) : Ended x := by
  match x with
  | .quote k _ => simp [Searching.left] at h
  | .quoting k _ _ => simp [Searching.left] at h
  | .failed _ => trivial
  | .reading _ rest (some _) => simp [Searching.left] at h
  | .reading _ _ none => trivial

theorem step_left {D : SqlDb → Prop} {p : Pool} {pick : Nat} {s0 x : Searching} (hp : SeesOnly D p) (hx : Consistent D p.own s0 x) (hmay : MayTake D p x) {n : Nat}
    (hn : ∀ db, D db → ∀ l, s0.answer db = .ok l → l.length ≤ n) : (x.step p pick).1.left n ≤ x.left n - 1 := by
  unfold Searching.step
  split
  · simp [Searching.left]
  · obtain ⟨h1, h2⟩ := hp.take (fun e e' => (hmay e e').resolve_right (by simp [Searching.conn, Ended])) pick
    dsimp only
    split
    · simp [Searching.left]
    · rename_i rest hrest
      have := hn _ (h1.sees h2) rest ((hx _).symm.trans hrest)
      simp only [Searching.left]
      omega
  · simp only [Searching.left]; omega
  · simp only [Searching.left]; omega
  · simp [Searching.left]
  · simp [Searching.left]
  · simp [Searching.left]
  · simp only [Searching.left, List.length_cons]; omega
  · simp [Searching.left]

theorem run_left {D : SqlDb → Prop} (hD : ∃ db, D db) {search : String → GoMap Value → Searching} (hsearch : Begins search) :
    ∀ (events : List SearchEvent) {begun : List (String × GoMap Value)} {s : Searches}, ConsistentAll D (begun.map (fun b => search b.1 b.2)) s → (s.pool.own = true → D newDb) →
    ∀ (k : Nat) (b : String × GoMap Value), begun[k]? = some b → ∀ n, (∀ db, D db → ∀ l, (search b.1 b.2).answer db = .ok l → l.length ≤ n) →
    ∀ x, s.all[k]? = some x → ∃ y, (s.run search events).all[k]? = some y ∧ y.left n ≤ x.left n - stepsOf k events
  | [], begun, s, h, _, k, b, hb, n, hn, x, hx => ⟨x, hx, by simp [stepsOf]⟩
  | e :: rest, begun, s, h, hnew, k, b, hb, n, hn, x, hx => by
    have hnext := next_consistent hD hsearch h e (fun _ _ _ _ _ e' _ => .inl (hnew e'))
    have hb' : (begun ++ searchesBegun [e])[k]? = some b := by
      rw [List.getElem?_append_left (List.getElem?_eq_some_iff.1 hb).1]; exact hb
    have key : ∃ z, (s.next search e).all[k]? = some z ∧ z.left n ≤ x.left n - stepsOf k [e] := by
      cases e with
      | begin name filters =>
        exact ⟨x, by simp only [Searches.next]; rw [List.getElem?_append_left (List.getElem?_eq_some_iff.1 hx).1]; exact hx, by simp [stepsOf]⟩
      | step which pick =>
        cases hw : s.all[which]? with
        | none =>
          rw [next_none hw]
          refine ⟨x, hx, ?_⟩
          have : which ≠ k := by rintro rfl; rw [hx] at hw; cases hw
          simp [stepsOf, this]
        | some w =>
          rw [next_some hw]
          obtain ⟨hlt, hget⟩ := List.getElem?_eq_some_iff.1 hw
          by_cases hwk : which = k
          · subst hwk
            rw [hx] at hw
            cases hw
            refine ⟨(x.step s.pool pick).1, by simp [hlt], ?_⟩
            obtain ⟨g1, g2⟩ := h.each which hlt (by rw [← h.length]; exact hlt)
            rw [hget] at g1
            have hb2 : (begun.map (fun b => search b.1 b.2))[which]'(by rw [← h.length]; exact hlt) = search b.1 b.2 := by
              rw [List.getElem_map, (List.getElem?_eq_some_iff.1 hb).2]
            rw [hb2] at g1
            have := step_left (pick := pick) h.pool g1 (fun e' _ => .inl (hnew e')) hn
            simpa [stepsOf] using this
          · exact ⟨x, by simpa [List.getElem?_set, hwk] using hx, by simp [stepsOf, hwk]⟩
    obtain ⟨z, hz, hle⟩ := key
    obtain ⟨y, hy, hle'⟩ := run_left hD hsearch rest hnext (fun e' => hnew (next_own s e ▸ e')) k b hb' n hn z hz
    refine ⟨y, hy, ?_⟩
    have : stepsOf k (e :: rest) = stepsOf k [e] + stepsOf k rest := by cases e <;> simp [stepsOf]
    omega

/-! ### Searches one after the other -/

theorem ended_conn {x : Searching} (h : Ended x) : x.conn = none := by
  match x with
  | .quote k _ => rfl
  | .quoting k _ _ => exact h.elim
  | .failed _ => rfl
  | .reading _ rest (some _) => exact h.elim
  | .reading _ _ none => rfl

theorem step_ended {p : Pool} {pick : Nat} {x : Searching} (h : Ended x) : x.step p pick = (x, p) := by
  match x with
  | .quote k _ => exact h.elim
  | .quoting k _ _ => exact h.elim
  | .failed _ => rfl
  | .reading _ rest (some _) => exact h.elim
  | .reading _ rest none => simp [Searching.step]

theorem take_one {p : Pool} {db : SqlDb} (h : p.free = [db]) (pick : Nat) : p.take pick = (db, { p with free := [] }) := by
  unfold Pool.take
  rw [h]
  cases pick with
  | zero => rfl
  | succ n => rfl

theorem release_one {p : Pool} {db : SqlDb} (h : p.free = []) : p.release db = { p with free := [db] } := by
  unfold Pool.release
  rw [h]
  rfl

theorem step_one {p : Pool} {pick : Nat} {x : Searching} {db : SqlDb} (h : (p.free = [db] ∧ x.conn = none) ∨ (p.free = [] ∧ x.conn = some db)) :
    ((x.step p pick).2.free = [db] ∧ (x.step p pick).1.conn = none) ∨ ((x.step p pick).2.free = [] ∧ (x.step p pick).1.conn = some db) := by
  unfold Searching.step
  split
  · rcases h with h | ⟨_, h⟩
    · exact .inl ⟨h.1, rfl⟩
    · cases h
  · rcases h with h | ⟨_, h⟩
    · rw [take_one h.1]
      dsimp only
      split
      · rw [release_one rfl]; exact .inl ⟨rfl, rfl⟩
      · exact .inr ⟨rfl, rfl⟩
    · cases h
  · rcases h with h | ⟨_, h⟩
    · rw [take_one h.1]
      exact .inr ⟨rfl, rfl⟩
    · cases h
  · rcases h with ⟨_, h⟩ | h
    · cases h
    · cases h.2
      rw [release_one h.1]; exact .inl ⟨rfl, rfl⟩
  · exact h
  · rcases h with ⟨_, h⟩ | h
    · cases h
    · cases h.2
      rw [release_one h.1]; exact .inl ⟨rfl, rfl⟩
  · rcases h with ⟨_, h⟩ | h
    · cases h
    · cases h.2
      rw [release_one h.1]; exact .inl ⟨rfl, rfl⟩
  · exact h
  · exact h

/-- At most the last search has not ended, and it uses the only connection. -/
structure Alone (db : SqlDb) (s : Searches) : Prop where
  before : ∀ k x, k + 1 < s.all.length → s.all[k]? = some x → Ended x
  last : ∀ x, s.all[s.all.length - 1]? = some x → (s.pool.free = [db] ∧ x.conn = none) ∨ (s.pool.free = [] ∧ x.conn = some db)
  none : s.all = [] → s.pool.free = [db]

theorem Alone.step {db : SqlDb} {s : Searches} (h : Alone db s) {search : String → GoMap Value → Searching} (which pick : Nat) : Alone db (s.next search (.step which pick)) := by
  cases hx : s.all[which]? with
  | none => rw [next_none hx]; exact h
  | some x =>
    rw [next_some hx]
    obtain ⟨hlt, hget⟩ := List.getElem?_eq_some_iff.1 hx
    by_cases hw : which + 1 < s.all.length
    · rw [step_ended (h.before _ _ hw hx)]
      dsimp only
      rw [← hget, List.set_getElem_self]
      exact h
    · have hw' : which = s.all.length - 1 := by omega
      refine ⟨fun k y hk hy => ?_, fun y hy => ?_, fun e => ?_⟩
      · simp only [List.length_set] at hk hy
        rw [List.getElem?_set_ne (by omega)] at hy
        exact h.before k y hk hy
      · simp only [List.length_set] at hy ⊢
        rw [← hw', List.getElem?_set_self hlt] at hy
        cases hy
        exact step_one (h.last x (hw' ▸ hx))
      · simp only [List.set_eq_nil_iff] at e
        rw [e] at hlt
        exact absurd hlt (by simp)

theorem Alone.begin {db : SqlDb} {s : Searches} (h : Alone db s) (hend : ∀ x ∈ s.all, Ended x) {search : String → GoMap Value → Searching} (hsearch : Begins search) (name : String) (filters : GoMap Value) :
    Alone db (s.next search (.begin name filters)) := by
  have hfree : s.pool.free = [db] := by
    by_cases e : s.all = []
    · exact h.none e
    · have hpos : s.all.length - 1 < s.all.length := by
        have := List.length_pos_iff.2 e
        omega
      rcases h.last _ (List.getElem?_eq_getElem hpos) with h | h
      · exact h.1
      · rw [ended_conn (hend _ (List.getElem_mem hpos))] at h
        cases h.2
  refine ⟨fun k y hk hy => ?_, fun y hy => ?_, fun e => ?_⟩
  · simp only [Searches.next, List.length_append, List.length_cons, List.length_nil] at hk hy
    rw [List.getElem?_append_left (by omega)] at hy
    exact hend _ (List.mem_of_getElem? hy)
  · simp only [Searches.next, List.length_append, List.length_cons, List.length_nil, Nat.add_sub_cancel] at hy ⊢
    rw [List.getElem?_append_right (by omega)] at hy
    simp only [Nat.sub_self, List.getElem?_cons_zero, Option.some.injEq] at hy
    subst hy
    refine .inl ⟨hfree, ?_⟩
    have := hsearch name filters
    match search name filters, this with
    | .quote _ _, _ => rfl
    | .failed _, _ => rfl
  · simp [Searches.next] at e

theorem Alone.mayTake {db : SqlDb} {s : Searches} (h : Alone db s) {which : Nat} {x : Searching} (hx : s.all[which]? = some x) : MayTake (· = db) s.pool x := by
  intro _ hfree
  obtain ⟨hlt, hget⟩ := List.getElem?_eq_some_iff.1 hx
  by_cases hw : which + 1 < s.all.length
  · exact .inr (.inr (h.before _ _ hw hx))
  · have hw' : which = s.all.length - 1 := by omega
    rcases h.last x (hw' ▸ hx) with h | h
    · rw [h.1] at hfree; cases hfree
    · exact .inr (.inl (by rw [h.2]; simp))

theorem run_alone {db : SqlDb} {search : String → GoMap Value → Searching} (hsearch : Begins search) :
    ∀ (events : List SearchEvent) {begun : List (String × GoMap Value)} {s : Searches}, Alone db s → OneAtATime search s events → ConsistentAll (· = db) (begun.map (fun b => search b.1 b.2)) s →
    ConsistentAll (· = db) ((begun ++ searchesBegun events).map (fun b => search b.1 b.2)) (s.run search events)
  | [], begun, s, _, _, h => by simpa [searchesBegun, Searches.run] using h
  | .begin name filters :: rest, begun, s, ha, ho, h => by
    have := run_alone hsearch rest (ha.begin ho.1 hsearch name filters) ho.2 (next_consistent (D := (· = db)) ⟨db, rfl⟩ hsearch h _ (fun _ _ _ e => by cases e))
    rw [searchesBegun_cons]
    rw [List.append_assoc] at this
    exact this
  | .step which pick :: rest, begun, s, ha, ho, h => by
    have := run_alone hsearch rest (ha.step which pick) ho (next_consistent (D := (· = db)) ⟨db, rfl⟩ hsearch h _ (fun _ _ x e hx => by cases e; exact ha.mayTake hx))
    rw [searchesBegun_cons]
    rw [List.append_assoc] at this
    exact this

/-! ### The connection with the index -/

/-- A connection that does not have a new database. -/
def isOld (c : SqlDb) : Bool := decide (c ≠ newDb)

/-- The search uses such a connection. -/
def usesOld (x : Searching) : Bool := (x.conn.map isOld).getD false

/-- How many such connections are open. -/
def oldOnes (s : Searches) : Nat := s.pool.free.countP isOld + s.all.countP usesOld

theorem countP_eraseIdx_add {α : Type} {f : α → Bool} : ∀ {l : List α} {i : Nat} (h : i < l.length), (l.eraseIdx i).countP f + (if f l[i] then 1 else 0) = l.countP f
  | a :: l, 0, _ => by simp [List.countP_cons]
  | a :: l, i + 1, h => by
    have := countP_eraseIdx_add (f := f) (l := l) (i := i) (by simpa using h)
    simp only [List.eraseIdx_cons_succ, List.countP_cons, List.getElem_cons_succ]
    omega

theorem take_old (p : Pool) (pick : Nat) : (p.take pick).2.free.countP isOld + (if isOld (p.take pick).1 then 1 else 0) = p.free.countP isOld := by
  obtain ⟨_, _, h⟩ := take_spec p pick
  rcases h with ⟨h1, h2, h3⟩ | ⟨_, i, hi, h1, h2⟩
  · rw [h1, h2, h3]; simp [isOld]
  · rw [h1, h2, countP_eraseIdx_add hi]

theorem release_old (p : Pool) (conn : SqlDb) : (p.release conn).free.countP isOld ≤ p.free.countP isOld + (if isOld conn then 1 else 0) := by
  obtain ⟨_, _, h⟩ := release_spec p conn
  rcases h with ⟨_, h⟩ | ⟨_, h⟩
  · rw [h, List.countP_append, List.countP_singleton]; omega
  · rw [h]; omega

theorem step_old (p : Pool) (pick : Nat) (x : Searching) :
    (x.step p pick).2.free.countP isOld + (if usesOld (x.step p pick).1 then 1 else 0) ≤ p.free.countP isOld + (if usesOld x then 1 else 0) := by
  have none : ∀ y : Searching, y.conn = none → (if usesOld y then 1 else 0) = 0 := fun y h => by simp [usesOld, h]
  have some : ∀ (y : Searching) c, y.conn = some c → (if usesOld y then 1 else 0) = (if isOld c then 1 else 0) := fun y c h => by simp [usesOld, h]
  match x with
  | .quote 0 (.error e) => rw [none _ rfl, none _ rfl]; exact Nat.le_refl _
  | .quote 0 (.ok ask) =>
    have h1 := take_old p pick
    have h2 := release_old (p.take pick).2 (p.take pick).1
    rw [none (.quote 0 (.ok ask)) rfl]
    cases ha : ask ((p.take pick).2.sees (p.take pick).1) with
    | error e =>
      have hs : Searching.step p pick (.quote 0 (.ok ask)) = (.failed e, (p.take pick).2.release (p.take pick).1) := by simp only [Searching.step, ha]
      rw [hs, none _ rfl]
      exact (by dsimp only; omega)
    | ok rest =>
      have hs : Searching.step p pick (.quote 0 (.ok ask)) = (.reading [] rest (.some (p.take pick).1), (p.take pick).2) := by simp only [Searching.step, ha]
      rw [hs, some _ _ rfl]
      exact (by dsimp only; omega)
  | .quote (n + 1) after =>
    have h1 := take_old p pick
    have hs : Searching.step p pick (.quote (n + 1) after) = (.quoting n after (p.take pick).1, (p.take pick).2) := rfl
    rw [none (.quote (n + 1) after) rfl, hs, some _ _ rfl]
    exact (by dsimp only; omega)
  | .quoting n after conn =>
    rw [some (.quoting n after conn) _ rfl, none _ rfl]
    exact release_old p conn
  | .failed e => exact Nat.le_refl _
  | .reading given [] (.some conn) =>
    rw [some (.reading given [] (.some conn)) _ rfl, none _ rfl]
    exact release_old p conn
  | .reading given (.error e :: rest) (.some conn) =>
    rw [some (.reading given (.error e :: rest) (.some conn)) _ rfl, none _ rfl]
    exact release_old p conn
  | .reading given (.ok position :: rest) (.some conn) =>
    rw [some (.reading given (.ok position :: rest) (.some conn)) _ rfl]
    exact Nat.le_refl _
  | .reading given rest .none => rw [step_ended (x := .reading given rest .none) trivial]; exact Nat.le_refl _

theorem next_old {search : String → GoMap Value → Searching} (hsearch : Begins search) (s : Searches) (e : SearchEvent) : oldOnes (s.next search e) ≤ oldOnes s := by
  cases e with
  | begin name filters =>
    have : usesOld (search name filters) = false := by
      have := hsearch name filters
      match search name filters, this with
      | .quote _ _, _ => rfl
      | .failed _, _ => rfl
    simp [oldOnes, Searches.next, List.countP_append, this]
  | step which pick =>
    cases hx : s.all[which]? with
    | none => rw [next_none hx]; exact Nat.le_refl _
    | some x =>
      rw [next_some hx]
      obtain ⟨hlt, hget⟩ := List.getElem?_eq_some_iff.1 hx
      have h := step_old s.pool pick x
      simp only [oldOnes]
      rw [List.countP_set hlt, hget]
      have hle : (if usesOld x then 1 else 0) ≤ s.all.countP usesOld := by
        split
        · rename_i hu
          exact List.one_le_countP_iff.2 ⟨x, List.mem_of_getElem? hx, hu⟩
        · omega
      omega

theorem run_old {search : String → GoMap Value → Searching} (hsearch : Begins search) : ∀ (events : List SearchEvent) (s : Searches), oldOnes (s.run search events) ≤ oldOnes s
  | [], _ => Nat.le_refl _
  | e :: rest, s => Nat.le_trans (run_old hsearch rest _) (next_old hsearch s e)

/-- All the connections, but for that of one search, have new databases. -/
structure NewBut (k : Nat) (s : Searches) : Prop where
  own : s.pool.own = true
  free : ∀ c ∈ s.pool.free, c = newDb
  others : ∀ j x, j ≠ k → s.all[j]? = some x → ∀ c, x.conn = some c → c = newDb

theorem countP_two {α : Type} {f : α → Bool} : ∀ {l : List α} {i j : Nat} {x y : α}, i ≠ j → l[i]? = some x → l[j]? = some y → f x = true → f y = true → 2 ≤ l.countP f
  | [], i, j, x, y, _, h, _, _, _ => by cases h
  | a :: l, i, j, x, y, hne, hi, hj, hx, hy => by
    rw [List.countP_cons]
    cases i with
    | zero =>
      cases j with
      | zero => exact (hne rfl).elim
      | succ j =>
        cases hi
        have := List.one_le_countP_iff.2 ⟨y, List.mem_of_getElem? (i := j) (l := l) (by simpa using hj), hy⟩
        simp only [hx, if_true]
        omega
    | succ i =>
      cases j with
      | zero =>
        cases hj
        have := List.one_le_countP_iff.2 ⟨x, List.mem_of_getElem? (i := i) (l := l) (by simpa using hi), hx⟩
        simp only [hy, if_true]
        omega
      | succ j =>
        have := countP_two (f := f) (fun e => hne (congrArg _ e)) (by simpa using hi) (by simpa using hj) hx hy
        omega

theorem newBut_holder {s : Searches} (hown : s.pool.own = true) (h : oldOnes s ≤ 1) {k : Nat} {x : Searching} (hx : s.all[k]? = some x) {c : SqlDb} (hc : x.conn = some c) (hne : c ≠ newDb) : NewBut k s := by
  have hu : usesOld x = true := by simp [usesOld, hc, isOld, hne]
  have h1 := List.one_le_countP_iff.2 ⟨x, List.mem_of_getElem? hx, hu⟩
  refine ⟨hown, fun c' hc' => ?_, fun j y hj hy c' hc' => ?_⟩
  · by_cases e : c' = newDb
    · exact e
    · have h2 := List.one_le_countP_iff.2 ⟨c', hc', show isOld c' = true by simp [isOld, e]⟩
      simp only [oldOnes] at h
      omega
  · by_cases e : c' = newDb
    · exact e
    · have h2 := countP_two hj.symm hx hy hu (show usesOld y = true by simp [usesOld, hc', isOld, e])
      simp only [oldOnes] at h
      omega

theorem newBut_lost {s : Searches} (hown : s.pool.own = true) (h : oldOnes s = 0) (k : Nat) : NewBut k s := by
  simp only [oldOnes, Nat.add_eq_zero_iff, List.countP_eq_zero] at h
  refine ⟨hown, fun c' hc' => ?_, fun j y hj hy c' hc' => ?_⟩
  · simpa [isOld] using h.1 c' hc'
  · simpa [usesOld, hc', isOld] using h.2 y (List.mem_of_getElem? hy)

theorem NewBut.sees {k : Nat} {s : Searches} (h : NewBut k s) : SeesOnly (· = newDb) s.pool :=
  ⟨(fun e => by rw [h.own] at e; cases e), fun _ => h.free⟩

/-- From a state in which all the other connections have new databases, if that search does not go on, nothing that begins is answered from another database. -/
theorem run_newBut {k : Nat} {search : String → GoMap Value → Searching} (hsearch : Begins search) :
    ∀ (events : List SearchEvent) {s : Searches}, NewBut k s → stepsOf k events = 0 →
    ∀ (j : Nat) (s0 : Searching), j ≠ k → (∀ x, s.all[j]? = some x → Consistent (· = newDb) true s0 x) → (∀ i b, s.all.length + i = j → (searchesBegun events)[i]? = some b → s0 = search b.1 b.2) →
    ∀ x, (s.run search events).all[j]? = some x → Consistent (· = newDb) true s0 x
  | [], s, h, _, j, s0, hj, hcon, hbegun, x, hx => hcon x hx
  | .begin name filters :: rest, s, h, hsteps, j, s0, hj, hcon, hbegun, x, hx => by
    have hconn : (search name filters).conn = none := (begins_consistent (own := true) (D := (· = newDb)) ⟨newDb, rfl⟩ (hsearch name filters)).2
    refine run_newBut (k := k) hsearch rest (s := s.next search (.begin name filters)) ⟨h.own, h.free, fun i y hi hy c hc => ?_⟩ hsteps j s0 hj (fun y hy => ?_) (fun i b hi hb => ?_) x hx
    · simp only [Searches.next] at hy
      by_cases hlt : i < s.all.length
      · rw [List.getElem?_append_left hlt] at hy
        exact h.others i y hi hy c hc
      · rw [List.getElem?_append_right (by omega)] at hy
        have := List.mem_of_getElem? hy
        rw [List.mem_singleton.1 this, hconn] at hc
        cases hc
    · simp only [Searches.next] at hy
      by_cases hlt : j < s.all.length
      · rw [List.getElem?_append_left hlt] at hy
        exact hcon y hy
      · rw [List.getElem?_append_right (by omega)] at hy
        obtain ⟨hi, _⟩ := List.getElem?_eq_some_iff.1 hy
        simp only [List.length_cons, List.length_nil] at hi
        have hy' := List.mem_singleton.1 (List.mem_of_getElem? hy)
        rw [hbegun 0 (name, filters) (by omega) rfl, hy']
        exact (begins_consistent (D := (· = newDb)) ⟨newDb, rfl⟩ (hsearch name filters)).1
    · simp only [Searches.next, List.length_append, List.length_cons, List.length_nil] at hi
      exact hbegun (i + 1) b (by omega) (by simpa [searchesBegun] using hb)
  | .step which pick :: rest, s, h, hsteps, j, s0, hj, hcon, hbegun, x, hx => by
    have hwk : which ≠ k := by
      rintro rfl
      simp [stepsOf] at hsteps
    have hrest : stepsOf k rest = 0 := by simpa [stepsOf, hwk] using hsteps
    cases hw : s.all[which]? with
    | none =>
      refine run_newBut (k := k) hsearch rest (s := s.next search (.step which pick)) ?_ hrest j s0 hj ?_ ?_ x hx
      · rw [next_none hw]; exact h
      · rw [next_none hw]; exact hcon
      · rw [next_none hw]; exact hbegun
    | some y =>
      have hmay : MayTake (· = newDb) s.pool y := fun _ _ => .inl rfl
      have hcs : ∀ conn, y.conn = some conn → s.pool.own = true → conn = newDb := fun c hc _ => h.others which y hwk hw c hc
      refine run_newBut (k := k) hsearch rest (s := s.next search (.step which pick)) ?_ hrest j s0 hj ?_ ?_ x hx
      · rw [next_some hw]
        have hown : (y.step s.pool pick).2.own = true := (step_own _ _ _).trans h.own
        obtain ⟨g1, g2⟩ := step_keeps (pick := pick) h.sees hcs hmay
        refine ⟨hown, g1.own hown, fun i z hi hz c hc => ?_⟩
        simp only [List.getElem?_set] at hz
        split at hz
        · split at hz
          · cases hz; exact g2 c hc h.own
          · cases hz
        · exact h.others i z hi hz c hc
      · rw [next_some hw]
        intro z hz
        simp only [List.getElem?_set] at hz
        split at hz
        · rename_i e
          subst e
          split at hz
          · cases hz
            have := (step_consistent (D := (· = newDb)) (pick := pick) ⟨newDb, rfl⟩ h.sees (by rw [h.own]; exact hcon y hw) hcs hmay).2.1
            rw [h.own] at this
            exact this
          · cases hz
        · exact hcon z hz
      · rw [next_some hw]
        simpa [searchesBegun] using hbegun

end Rodb
