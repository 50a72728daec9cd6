import Verif.Proofs.Output
import Verif.Props.WildcardProps
import Verif.Props.MapNoopProps
/-
  Properties of the list and object outputs.
-/
namespace Rodb
open Spec

/-! ### What the indexes answer -/

/-- **C44** The full scan serves filters on any properties that the records have: it selects by equality. -/
theorem C44_noop_serves (input : Input) (records : List Rec) (htab : RecordTable input records) :
    Serves noopGetRecordPositions input records (fun p v r => propEquals r p v)
      (fun p v => Scalar v ∧ ∀ r ∈ records, ∃ x, r.get p = .ok x) := by
  intro filters _ _ hacc
  refine noop_query htab.scan ?_
  intro r hr f hf
  obtain ⟨x, hx⟩ := (hacc f hf).2 r hr
  exact ⟨x, hx, .inr (hacc f hf).1⟩

/-- **C44** The map index serves filters on its properties: it selects by equality, like the full scan. -/
theorem C44_map_serves (cfg : MapConfig) (input : Input) (records : List Rec) (hnd : cfg.properties.Nodup)
    (htab : RecordTable input records) (hsc : ScalarIn records cfg.properties) :
    ∃ m, newMap cfg input = .ok m ∧
      Serves (fun input filters => m.getRecordPositions input.name filters) input records (fun p v r => propEquals r p v)
        (fun p v => p ∈ cfg.properties ∧ Scalar v) := by
  obtain ⟨m, h1, h2⟩ := map_query hnd htab hsc
  exact ⟨m, h1, fun filters hne _ hacc => h2 filters hne hacc⟩

/-- The property contains the text, both normalised. -/
def containsText (norm : Bytes → Bytes) (p : String) (v : Value) (r : Rec) : Bool :=
  match v, r.get p with
  | .str q, .ok (.str t) => decide (norm q <:+: norm t)
  | _, _ => false

/-- **C44** The wildcard index serves filters on its properties: it selects by containment. -/
theorem C44_wildcard_serves (lower : Bytes → Bytes) (cfg : WildcardConfig) (input : Input) (rows : List Row)
    (hnd : cfg.properties.Nodup) (htab : TextTable input cfg.properties rows)
    (hsize : (createIndex lower cfg input (Stream.new [] 0 cfg.bufferSize)).2.streamSize < 2^63) :
    ∃ w file, newWildcard lower cfg input none = (.ok w, file) ∧
      Serves (fun input filters => w.getRecordPositions lower input.name filters) input (rows.map Row.record)
        (containsText (cfg.normalize lower)) (fun p v => p ∈ cfg.properties ∧ ∃ q, v = .str q ∧ cfg.normalize lower q ≠ []) := by
  obtain ⟨w, file, h1, h2⟩ := C12_wildcard_conjunction lower cfg input rows hnd htab hsize
  refine ⟨w, file, h1, ?_⟩
  intro filters hne _ hacc
  obtain ⟨query, rfl⟩ : ∃ query, filters = textFilters query := by
    rename_i hno
    clear hne hno
    induction filters with
    | nil => exact ⟨[], rfl⟩
    | cons f fs ih =>
      obtain ⟨query, hq⟩ := ih (fun g hg => hacc g (List.mem_cons_of_mem _ hg))
      obtain ⟨_, q, hv, _⟩ := hacc f List.mem_cons_self
      exact ⟨(f.1, q) :: query, by rw [hq]; simp [textFilters, ← hv]⟩
  have hq : ∀ pq ∈ query, pq.1 ∈ cfg.properties ∧ cfg.normalize lower pq.2 ≠ [] := by
    intro pq hpq
    obtain ⟨a, q, e, b⟩ := hacc (pq.1, .str pq.2) (List.mem_map.mpr ⟨pq, hpq, rfl⟩)
    cases e
    exact ⟨a, b⟩
  refine (h2 query (by intro e; subst e; exact hne rfl) hq).trans ?_
  congr 1
  show List.map Except.ok _ = List.map Except.ok _
  congr 1
  simp only [positionsWhere, positionsOf, List.filter_map, List.map_map]
  have : rows.filter (containsAll (cfg.normalize lower) query) =
      rows.filter ((fun r => (textFilters query).all (fun f => containsText (cfg.normalize lower) f.1 f.2 r)) ∘ Row.record) := by
    apply List.filter_congr
    intro row hrow
    simp only [containsAll, textFilters, List.all_map, Function.comp_def]
    rw [Bool.eq_iff_iff, List.all_eq_true, List.all_eq_true]
    constructor
    · intro h pq hpq
      simp only [containsText, htab.text row hrow pq.1 (hq pq hpq).1]
      exact h pq hpq
    · intro h pq hpq
      have := h pq hpq
      simp only [containsText, htab.text row hrow pq.1 (hq pq hpq).1] at this
      exact this
  rw [this]
  rfl

/-- **C44** Without filter, the full scan gives the positions of all the records. -/
theorem C44_noop_everything (input : Input) (records : List Rec) (htab : RecordTable input records) :
    noopGetRecordPositions input [] = .ok (iterateList (records.map Rec.position)) := by
  rw [noop_query htab.scan (by simp)]
  have : records.filter (equalsAll []) = records := List.filter_eq_self.mpr (by simp [equalsAll])
  simp only [positionsOf, this]

namespace OutputExample
def rec1 : Rec := { position := 0, all := .ok [("n", .int 1), ("s", .str [97])], get := fun p => if p = "n" then .ok (.int 1) else .ok (.str [97]) }
def rec2 : Rec := { position := 7, all := .ok [("n", .int 1), ("s", .str [98])], get := fun p => if p = "n" then .ok (.int 1) else .ok (.str [98]) }
def rec3 : Rec := { position := 9, all := .ok [("n", .int 2), ("s", .str [97])], get := fun p => if p = "n" then .ok (.int 2) else .ok (.str [97]) }
/-- Three records: (1, "a"), (1, "b"), (2, "a"). -/
def recs : List Rec := [rec1, rec2, rec3]
def input : Input :=
  { name := "in", size := .ok 12, modTimeNs := .ok 5, scan := .ok (recs.map .ok),
    fetch := fun p => match recs.find? (fun r => r.position == p) with | some r => .ok r | none => .error (.err "none") }
def cfg : MapConfig := { properties := ["n"] }
theorem table : RecordTable input recs := ⟨rfl, by decide⟩
theorem have_properties : ∀ r ∈ recs, ∀ p, ∃ x, r.get p = .ok x ∧ Scalar x := by
  intro r hr p
  simp only [recs, List.mem_cons, List.not_mem_nil, or_false] at hr
  rcases hr with rfl | rfl | rfl
  all_goals
    by_cases h : p = "n" <;> simp [rec1, rec2, rec3, h, Scalar]
/-- A parser of single decimal digits, and one that takes the text as it is. -/
def parsers : GoMap (Bytes → Res Value) :=
  [("digit", fun t => match t with | [c] => .ok (.int ((c.toNat : Int) - 48)) | _ => .error (.err "not a digit")),
   ("text", fun t => .ok (.str t))]
/-- A full scan named "scan" and a map index named "map" on the input, and a given order of visit. -/
def env (m : MapIndex) (visit : List Nat → {α : Type} → List α → List α) : OutputEnv :=
  { inputs := [("in", input)], defaultIndex := noopGetRecordPositions, parsers := parsers, visit := visit,
    indexes := [("scan", noopGetRecordPositions), ("map", fun input filters => m.getRecordPositions input.name filters)],
    sort := fun _ l => l }
def acceptable (index property : String) (v : Value) : Prop := Scalar v ∧ (index = "map" → property = "n")
theorem data : ∃ m, newMap cfg input = .ok m ∧ ∀ visit : List Nat → {α : Type} → List α → List α,
    (∀ path α (l : List α), (visit path l).Perm l) →
    OutputData (env m visit) input recs (fun _ p v r => propEquals r p v) acceptable := by
  obtain ⟨m, h1, h2⟩ := C44_map_serves cfg input recs (by decide) table (fun r hr p _ => have_properties r hr p)
  refine ⟨m, h1, fun visit hv => ⟨hv, table.increasing, ?_, C44_noop_everything _ _ table, ?_⟩⟩
  · intro r hr
    simp only [recs, List.mem_cons, List.not_mem_nil, or_false] at hr
    rcases hr with rfl | rfl | rfl <;> rfl
  · intro name index h
    simp only [env, mapGet] at h
    split at h
    · cases h
      intro filters a b c
      exact C44_noop_serves _ _ table filters a b
        (fun f hf => ⟨(c f hf).1, fun r hr => ⟨_, (have_properties r hr f.1).choose_spec.1⟩⟩)
    · split at h
      · rename_i e
        cases h
        subst e
        intro filters a b c
        exact h2 filters a b (fun f hf => ⟨by rw [(c f hf).2 rfl]; simp [cfg], (c f hf).1⟩)
      · cases h
end OutputExample

/-! ### Lists -/

/-- **C42, C44** A list request whose parameters are read as conditions on different properties: the answer shows, of the
records that satisfy all the conditions, in order, those from `offset` on, at most `limit` of them. The
limit is the asked one, or the default one, but never more than the configured maximum. This holds for any
indexes that serve the conditions, any data, and any order in which Go visits the maps.
The limit must be below 2^63 (see `C46_false`). -/
theorem C42_window (env : OutputEnv) (c : ArrayConfig) (params : GoMap Bytes) (input : Input) (records : List Rec)
    (sat : String → String → Value → Rec → Bool) (acceptable : String → String → Value → Prop)
    (hin : mapGet env.inputs c.input = some input) (hdata : OutputData env input records sat acceptable)
    (conditions : List Condition) (hreads : Reads env (givenParameters c.parameters params) conditions)
    (hans : Answerable env acceptable conditions) (limit offset : Nat) (hlimit : AskedLimit c.limit params limit)
    (hoffset : AskedOffset c.offsetParameter params offset) (hsmall : min limit c.limit.max < 2^63) :
    ListsRecords env c.relationships (((matching records sat conditions).drop offset).take (min limit c.limit.max))
      (handleArray env c params) := by
  obtain ⟨filters, its, h1, h2, h3⟩ := array_positions hdata hreads hans
  obtain ⟨st, h4, h5⟩ := skipRows_gives offset its _ h3
  have h6 : (intOfUint (min limit c.limit.max)).toNat = min limit c.limit.max := by
    simp only [intOfUint, if_pos hsmall, Int.toNat_natCast]
  simp only [handleArray, getLimit_spec hlimit, getOffset_spec hoffset, h1, hin, h2, h4, h6]
  rw [readRows_gives _ _ _ _ _ h5, ← List.map_drop, ← List.map_take]
  exact rows_list hdata hin c.relationships (fun r hr =>
    (List.mem_filter.mp (List.mem_of_mem_drop (List.mem_of_mem_take hr))).1)

/-- A list of records answers to a list request without relationships. -/
theorem lists_plain {env : OutputEnv} {window : List Rec} {answer : Answer} (h : ListsRecords env [] window answer)
    (shown : Rec → GoMap Value) (hall : ∀ r ∈ window, r.all = .ok (shown r)) :
    answer = .data (.arr (window.map (fun r => .obj (shown r)))) := by
  rcases h with ⟨rows, h1, h2, h3⟩ | ⟨e, r, hr, h1, h2⟩
  · rw [h1]
    have : rows = window.map shown := by
      apply List.ext_getElem (by simpa using h2)
      intro k hk hk'
      have hkw : k < window.length := by omega
      rcases h3 k hkw hk with ⟨e, g1, g2⟩ | ⟨d, path, g1, g2⟩
      · cases g2
      · rw [hall _ (List.getElem_mem _)] at g1
        cases g1
        simp only [loadRelationships, Except.ok.injEq] at g2
        simp [g2]
    rw [this, List.map_map]
    rfl
  · exfalso
    rcases h2 with ⟨e', g1, _⟩ | ⟨d, path, _, g2⟩
    · rw [hall r hr] at g1; cases g1
    · simp [loadRelationships] at g2

/-- **C42** The same for an output without relationships: the answer is the array of the properties of those records. -/
theorem C42_window_plain (env : OutputEnv) (c : ArrayConfig) (params : GoMap Bytes) (input : Input) (records : List Rec)
    (sat : String → String → Value → Rec → Bool) (acceptable : String → String → Value → Prop)
    (hin : mapGet env.inputs c.input = some input) (hdata : OutputData env input records sat acceptable)
    (conditions : List Condition) (hreads : Reads env (givenParameters c.parameters params) conditions)
    (hans : Answerable env acceptable conditions) (limit offset : Nat) (hlimit : AskedLimit c.limit params limit)
    (hoffset : AskedOffset c.offsetParameter params offset) (hsmall : min limit c.limit.max < 2^63)
    (hrel : c.relationships = []) (shown : Rec → GoMap Value) (hall : ∀ r ∈ records, r.all = .ok (shown r)) :
    handleArray env c params = .data (.arr
      ((((matching records sat conditions).drop offset).take (min limit c.limit.max)).map (fun r => .obj (shown r)))) := by
  have h := C42_window env c params input records sat acceptable hin hdata conditions hreads hans limit offset hlimit hoffset hsmall
  rw [hrel] at h
  exact lists_plain h shown (fun r hr => hall r (List.mem_filter.mp (List.mem_of_mem_drop (List.mem_of_mem_take hr))).1)

namespace OutputExample
def array : ArrayConfig :=
  { input := "in", limit := { default := 100, max := 1000, parameter := "limit" }, offsetParameter := "offset",
    parameters := [("number", { property := "n", index := "map", parser := "digit" }),
      ("letter", { property := "s", index := "scan", parser := "text" })], relationships := [] }
def shown (r : Rec) : GoMap Value := match r.all with | .ok d => d | .error _ => []
theorem shown_all : ∀ r ∈ recs, r.all = .ok (shown r) := by
  intro r hr
  simp only [recs, List.mem_cons, List.not_mem_nil, or_false] at hr
  rcases hr with rfl | rfl | rfl <;> rfl
theorem digit1 : IntegerText [49] 1 := (atoi_iff [49] 1).mp (by decide)
/-- number=1 through the map index. -/
def byNumber : List Condition := [{ index := "map", property := "n", value := .int 1 }]
theorem reads_number (m : MapIndex) (visit) (rest : GoMap Bytes) (h : mapGet rest "letter" = none) :
    Reads (env m visit) (givenParameters array.parameters (("number", [49]) :: rest)) byNumber := by
  have : givenParameters array.parameters (("number", [49]) :: rest) = [({ property := "n", index := "map", parser := "digit" }, [49])] := by
    simp [givenParameters, array, mapGet, h]
  rw [this]
  exact ⟨rfl, rfl, ⟨_, rfl, rfl⟩, trivial⟩
theorem answer_number (m : MapIndex) (visit) : Answerable (env m visit) acceptable byNumber :=
  ⟨by intro c hc; rw [List.mem_singleton.mp hc]; exact ⟨_, rfl⟩,
   by intro c hc; rw [List.mem_singleton.mp hc]; exact ⟨trivial, fun _ => rfl⟩, by simp [byNumber]⟩
end OutputExample

/-- number=1&limit=1&offset=1 gives the second record, whatever the order of the maps. -/
example : ∃ m, newMap OutputExample.cfg OutputExample.input = .ok m ∧
    ∀ visit : List Nat → {α : Type} → List α → List α, (∀ path α (l : List α), (visit path l).Perm l) →
      handleArray (OutputExample.env m visit) OutputExample.array [("number", [49]), ("limit", [49]), ("offset", [49])] =
        .data (.arr [.obj [("n", .int 1), ("s", .str [98])]]) := by
  obtain ⟨m, h1, h2⟩ := OutputExample.data
  refine ⟨m, h1, fun visit hv => ?_⟩
  rw [C42_window_plain (OutputExample.env m visit) OutputExample.array [("number", [49]), ("limit", [49]), ("offset", [49])] _ _ _ _
    (show _ = some OutputExample.input from rfl) (h2 visit hv) OutputExample.byNumber
    (OutputExample.reads_number m visit _ (by decide))
    (OutputExample.answer_number m visit) 1 1 (.inr ⟨[49], by decide, OutputExample.digit1, by decide⟩)
    (.inr ⟨[49], by decide, OutputExample.digit1⟩) (by decide) rfl OutputExample.shown OutputExample.shown_all]
  rfl

/-- **C44** A list request without offset whose limit is not reached: the answer shows exactly the records that satisfy all the
given parameters, in order. -/
theorem C44_exactly_matching (env : OutputEnv) (c : ArrayConfig) (params : GoMap Bytes) (input : Input) (records : List Rec)
    (sat : String → String → Value → Rec → Bool) (acceptable : String → String → Value → Prop)
    (hin : mapGet env.inputs c.input = some input) (hdata : OutputData env input records sat acceptable)
    (conditions : List Condition) (hreads : Reads env (givenParameters c.parameters params) conditions)
    (hans : Answerable env acceptable conditions) (limit : Nat) (hlimit : AskedLimit c.limit params limit)
    (hoffset : mapGet params c.offsetParameter = none) (hsmall : min limit c.limit.max < 2^63)
    (henough : (matching records sat conditions).length ≤ min limit c.limit.max) :
    ListsRecords env c.relationships
      (records.filter (fun r => conditions.all (fun c => sat c.index c.property c.value r))) (handleArray env c params) := by
  have h := C42_window env c params input records sat acceptable hin hdata conditions hreads hans limit 0 hlimit (.inl ⟨hoffset, rfl⟩) hsmall
  rw [List.drop_zero, List.take_of_length_le henough] at h
  exact h

namespace OutputExample
/-- number=1 through the map index and letter=b through the scan. -/
def byBoth : List Condition :=
  [{ index := "map", property := "n", value := .int 1 }, { index := "scan", property := "s", value := .str [98] }]
end OutputExample

/-- number=1&letter=b is answered by two indexes and gives the second record. -/
example : ∃ m, newMap OutputExample.cfg OutputExample.input = .ok m ∧
    ∀ visit : List Nat → {α : Type} → List α → List α, (∀ path α (l : List α), (visit path l).Perm l) →
      handleArray (OutputExample.env m visit) OutputExample.array [("number", [49]), ("letter", [98])] =
        .data (.arr [.obj [("n", .int 1), ("s", .str [98])]]) := by
  obtain ⟨m, h1, h2⟩ := OutputExample.data
  refine ⟨m, h1, fun visit hv => ?_⟩
  have h := C44_exactly_matching (OutputExample.env m visit) OutputExample.array [("number", [49]), ("letter", [98])] _ _ _ _
    (show _ = some OutputExample.input from rfl) (h2 visit hv) OutputExample.byBoth
    ⟨rfl, rfl, ⟨_, rfl, rfl⟩, rfl, rfl, ⟨_, rfl, rfl⟩, trivial⟩
    ⟨by intro c hc; simp only [OutputExample.byBoth, List.mem_cons, List.not_mem_nil, or_false] at hc
        rcases hc with rfl | rfl <;> exact ⟨_, rfl⟩,
     by intro c hc; simp only [OutputExample.byBoth, List.mem_cons, List.not_mem_nil, or_false] at hc
        rcases hc with rfl | rfl
        · exact ⟨trivial, fun _ => rfl⟩
        · exact ⟨trivial, fun h => absurd h (by decide)⟩, by decide⟩
    100 (.inl ⟨by decide, rfl⟩) (by decide) (by decide) (by decide)
  have h' := lists_plain h OutputExample.shown (fun r hr => OutputExample.shown_all r (List.mem_filter.mp hr).1)
  rw [h']
  rfl

/-- **C43** The requests for the pages 0, 1, 2, ... of `size` records (`offset` = page × size), with the same conditions: when
`pages` of them cover the number of matching records, page by page they show every matching record once and in order. -/
theorem C43_pages (env : OutputEnv) (c : ArrayConfig) (input : Input) (records : List Rec)
    (sat : String → String → Value → Rec → Bool) (acceptable : String → String → Value → Prop)
    (hin : mapGet env.inputs c.input = some input) (hdata : OutputData env input records sat acceptable)
    (conditions : List Condition) (hans : Answerable env acceptable conditions)
    (size pages : Nat) (hsize : size ≤ c.limit.max) (hsmall : size < 2^63) (request : Nat → GoMap Bytes)
    (hreads : ∀ k < pages, Reads env (givenParameters c.parameters (request k)) conditions)
    (hlimit : ∀ k < pages, AskedLimit c.limit (request k) size)
    (hoffset : ∀ k < pages, AskedOffset c.offsetParameter (request k) (k * size))
    (hcover : (matching records sat conditions).length ≤ pages * size) :
    ∃ page : Nat → List Rec, (∀ k < pages, ListsRecords env c.relationships (page k) (handleArray env c (request k))) ∧
      (∀ k, (page k).length ≤ size) ∧
      (List.range pages).flatMap page = records.filter (fun r => conditions.all (fun c => sat c.index c.property c.value r)) := by
  refine ⟨fun k => ((matching records sat conditions).drop (k * size)).take size, ?_, ?_, ?_⟩
  · intro k hk
    have h := C42_window env c (request k) input records sat acceptable hin hdata conditions (hreads k hk) hans size (k * size)
      (hlimit k hk) (hoffset k hk) (by omega)
    rwa [Nat.min_eq_left hsize] at h
  · intro k; exact List.length_take_le _ _
  · have : ∀ n, (List.range n).flatMap (fun k => ((matching records sat conditions).drop (k * size)).take size) =
        (matching records sat conditions).take (n * size) := by
      intro n
      induction n with
      | zero => simp
      | succ n ih =>
        rw [List.range_succ, List.flatMap_append, ih, List.flatMap_singleton, Nat.add_mul, Nat.one_mul, List.take_add]
    rw [this, List.take_of_length_le hcover]
    rfl

/-- The two pages of one record for number=1. -/
example : ∃ m, newMap OutputExample.cfg OutputExample.input = .ok m ∧
    ∀ visit : List Nat → {α : Type} → List α → List α, (∀ path α (l : List α), (visit path l).Perm l) →
    ∃ page : Nat → List Rec, (∀ k < 2, ListsRecords (OutputExample.env m visit) [] (page k)
      (handleArray (OutputExample.env m visit) OutputExample.array
        [("number", [49]), ("limit", [49]), ("offset", if k = 0 then [48] else [49])])) ∧
      (page 0) ++ (page 1) = [OutputExample.rec1, OutputExample.rec2] := by
  obtain ⟨m, h1, h2⟩ := OutputExample.data
  refine ⟨m, h1, fun visit hv => ?_⟩
  obtain ⟨page, g1, _, g3⟩ := C43_pages (OutputExample.env m visit) OutputExample.array _ _ _ _
    (show _ = some OutputExample.input from rfl) (h2 visit hv) OutputExample.byNumber (OutputExample.answer_number m visit) 1 2
    (by decide) (by decide)
    (fun k => [("number", [49]), ("limit", [49]), ("offset", if k = 0 then [48] else [49])])
    (fun k _ => OutputExample.reads_number m visit _ (by simp [mapGet]))
    (fun k _ => .inr ⟨[49], by simp [OutputExample.array, mapGet], OutputExample.digit1, by decide⟩)
    (fun k hk => .inr (by
      match k, hk with
      | 0, _ => exact ⟨[48], rfl, (atoi_iff [48] 0).mp (by decide)⟩
      | 1, _ => exact ⟨[49], rfl, OutputExample.digit1⟩)) (by decide)
  refine ⟨page, g1, ?_⟩
  have : (List.range 2).flatMap page = page 0 ++ page 1 := by simp [List.range, List.range.loop]
  rw [← this, g3]
  rfl

/-- **C42** A limit that is not a positive number, or an offset that is not a non-negative number, is refused with an error. -/
theorem C42_refuses_bad_paging (env : OutputEnv) (c : ArrayConfig) (params : GoMap Bytes)
    (h : (∃ text, mapGet params c.limit.parameter = some text ∧ ∀ n : Int, 0 < n → ¬ IntegerText text n) ∨
      (∃ text, mapGet params c.offsetParameter = some text ∧ ∀ n : Int, 0 ≤ n → ¬ IntegerText text n)) :
    ∃ m, handleArray env c params = .error (.err m) := by
  rcases h with ⟨text, h1, h2⟩ | ⟨text, h1, h2⟩
  · have : ∃ m, getLimit c.limit params = .error (.err m) := by
      simp only [getLimit, h1]
      cases ha : atoi text with
      | none => exact ⟨_, rfl⟩
      | some n =>
        have hn : n ≤ 0 := by
          rcases Int.lt_or_le 0 n with hp | hp
          · exact absurd ((atoi_iff text n).mp ha) (h2 n hp)
          · exact hp
        simp only [if_pos hn]
        exact ⟨_, rfl⟩
    obtain ⟨m, hm⟩ := this
    exact ⟨m, by simp only [handleArray, hm]⟩
  · have : ∃ m, getOffset c.offsetParameter params = .error (.err m) := by
      simp only [getOffset, h1]
      cases ha : atoi text with
      | none => exact ⟨_, rfl⟩
      | some n =>
        have hn : n < 0 := by
          rcases Int.lt_or_le n 0 with hp | hp
          · exact hp
          · exact absurd ((atoi_iff text n).mp ha) (h2 n hp)
        simp only [if_pos hn]
        exact ⟨_, rfl⟩
    obtain ⟨m, hm⟩ := this
    simp only [handleArray]
    cases hg : getLimit c.limit params with
    | ok n => exact ⟨m, by simp only [hm]⟩
    | error e =>
      simp only [getLimit] at hg
      cases ht : mapGet params c.limit.parameter with
      | none => simp [ht] at hg
      | some t =>
        cases ha : atoi t with
        | none => simp [ht, ha] at hg; exact ⟨_, by rw [← hg]⟩
        | some n =>
          by_cases hn : n ≤ 0
          · simp [ht, ha, hn] at hg; exact ⟨_, by rw [← hg]⟩
          · simp [ht, ha, hn] at hg

/-- limit=0 is refused. -/
example (env : OutputEnv) : ∃ m, handleArray env OutputExample.array [("limit", [48])] = .error (.err m) :=
  C42_refuses_bad_paging env OutputExample.array [("limit", [48])] (.inl ⟨[48], rfl, fun n hn h => by
    have h1 := (atoi_iff [48] n).mpr h
    have h2 : atoi [48] = some 0 := by decide
    rw [h2] at h1
    cases h1
    omega⟩)

/-- **C44** A given parameter whose text its parser refuses is refused, whatever the other parameters and the order of visit. -/
theorem C44_refuses_unreadable (env : OutputEnv) (hv : ∀ (path : List Nat) (α : Type) (l : List α), (env.visit path l).Perm l)
    (c : ArrayConfig) (params : GoMap Bytes) (name : String) (p : ParamConfig) (text : Bytes) (parse : Bytes → Res Value) (e : Fail)
    (hp : (name, p) ∈ c.parameters) (hg : mapGet params name = some text) (hparser : mapGet env.parsers p.parser = some parse)
    (hbad : parse text = .error e) : ∃ e', handleArray env c params = .error e' := by
  have : ∀ (l : GoMap ParamConfig) (filters : GoMap (GoMap Value)), (name, p) ∈ l → ∃ e', arrayFilters env params l filters = .error e' := by
    intro l
    induction l with
    | nil => intro _ h; cases h
    | cons x l ih =>
      obtain ⟨n, q⟩ := x
      intro filters h
      simp only [arrayFilters]
      rcases List.mem_cons.mp h with e' | h
      · cases e'
        simp only [hg, hparser, hbad]
        exact ⟨_, rfl⟩
      · cases mapGet params n with
        | none => exact ih _ h
        | some t =>
          cases mapGet env.parsers q.parser with
          | none => exact ⟨_, rfl⟩
          | some ps =>
            simp only
            cases ps t with
            | error e => exact ⟨_, rfl⟩
            | ok v => exact ih _ h
  obtain ⟨e', h'⟩ := this (env.visit [0] c.parameters) [] ((hv [0] _ _).mem_iff.mpr hp)
  simp only [handleArray]
  cases getLimit c.limit params with
  | error e => exact ⟨_, rfl⟩
  | ok limit =>
    simp only
    cases getOffset c.offsetParameter params with
    | error e => exact ⟨_, rfl⟩
    | ok offset => simp only [h']; exact ⟨_, rfl⟩

/-- number=12 is not a digit. -/
example (m : MapIndex) : ∃ e', handleArray (OutputExample.env m (fun _ _ l => l)) OutputExample.array [("number", [49, 50])] = .error e' :=
  C44_refuses_unreadable _ (fun _ _ l => List.Perm.refl l) _ _ "number" _ [49, 50] _ _ List.mem_cons_self rfl rfl rfl

/-- **C45** is false of the code: of two given parameters on the same property and index, one is ignored, and which one depends
on the order in which Go visits the parameters. Here `a=1&b=2`, both on the number, shows records although no record
satisfies both, and not the same ones for two orders. -/
theorem C45_false :
    ¬ ∀ (env : OutputEnv) (c : ArrayConfig) (params : GoMap Bytes) (input : Input) (records : List Rec)
      (sat : String → String → Value → Rec → Bool) (acceptable : String → String → Value → Prop),
      mapGet env.inputs c.input = some input → OutputData env input records sat acceptable →
      ∀ conditions : List Condition, Reads env (givenParameters c.parameters params) conditions →
      (∀ c ∈ conditions, (∃ index, mapGet env.indexes c.index = some index) ∧ acceptable c.index c.property c.value) →
      ∀ limit, AskedLimit c.limit params limit → mapGet params c.offsetParameter = none →
      min limit c.limit.max < 2^63 → (matching records sat conditions).length ≤ min limit c.limit.max →
      ListsRecords env c.relationships (matching records sat conditions) (handleArray env c params) := by
  intro h
  obtain ⟨m, _, h2⟩ := OutputExample.data
  let c : ArrayConfig := { OutputExample.array with parameters :=
    [("a", { property := "n", index := "scan", parser := "digit" }), ("b", { property := "n", index := "scan", parser := "digit" })] }
  have := h (OutputExample.env m (fun _ _ l => l)) c [("a", [49]), ("b", [50])] _ _ _ _
    (show _ = some OutputExample.input from rfl) (h2 _ (fun _ _ l => List.Perm.refl l))
    [{ index := "scan", property := "n", value := .int 1 }, { index := "scan", property := "n", value := .int 2 }]
    ⟨rfl, rfl, ⟨_, rfl, rfl⟩, rfl, rfl, ⟨_, rfl, rfl⟩, trivial⟩
    (by intro c hc; simp only [List.mem_cons, List.not_mem_nil, or_false] at hc
        rcases hc with rfl | rfl <;> exact ⟨⟨_, rfl⟩, trivial, fun h => absurd h (by decide)⟩)
    100 (.inl ⟨by decide, rfl⟩) (by decide) (by decide) (by decide)
  have hl := lists_plain this OutputExample.shown (fun r hr => OutputExample.shown_all r (List.mem_filter.mp hr).1)
  have hv : handleArray (OutputExample.env m (fun _ _ l => l)) c [("a", [49]), ("b", [50])] =
      .data (.arr [.obj [("n", .int 2), ("s", .str [97])]]) := rfl
  rw [hv] at hl
  have : matching OutputExample.recs (fun _ p v r => propEquals r p v)
    [{ index := "scan", property := "n", value := .int 1 }, { index := "scan", property := "n", value := .int 2 }] = [] := by decide
  rw [this] at hl
  simp at hl

/-- **C45** The answer to the request of `C45_false` for the two orders of visit. -/
theorem C45_order_dependent (m : MapIndex) :
    let c : ArrayConfig := { OutputExample.array with parameters :=
      [("a", { property := "n", index := "scan", parser := "digit" }), ("b", { property := "n", index := "scan", parser := "digit" })] }
    handleArray (OutputExample.env m (fun _ _ l => l)) c [("a", [49]), ("b", [50])] =
      .data (.arr [.obj [("n", .int 2), ("s", .str [97])]]) ∧
    handleArray (OutputExample.env m (fun _ _ l => l.reverse)) c [("a", [49]), ("b", [50])] =
      .data (.arr [.obj [("n", .int 1), ("s", .str [97])], .obj [("n", .int 1), ("s", .str [98])]]) := ⟨rfl, rfl⟩

/-- **C45** Two given parameters on the same property are both applied when they are configured on different indexes. Missing: the
same index (`C45_false`). -/
theorem C45_different_indexes_partial (env : OutputEnv) (c : ArrayConfig) (params : GoMap Bytes) (input : Input) (records : List Rec)
    (sat : String → String → Value → Rec → Bool) (acceptable : String → String → Value → Prop)
    (hin : mapGet env.inputs c.input = some input) (hdata : OutputData env input records sat acceptable)
    (property index1 index2 : String) (v1 v2 : Value) (hne : index1 ≠ index2)
    (hreads : Reads env (givenParameters c.parameters params)
      [{ index := index1, property := property, value := v1 }, { index := index2, property := property, value := v2 }])
    (h1 : (∃ i, mapGet env.indexes index1 = some i) ∧ acceptable index1 property v1)
    (h2 : (∃ i, mapGet env.indexes index2 = some i) ∧ acceptable index2 property v2)
    (limit : Nat) (hlimit : AskedLimit c.limit params limit)
    (hoffset : mapGet params c.offsetParameter = none) (hsmall : min limit c.limit.max < 2^63)
    (henough : records.length ≤ min limit c.limit.max) :
    ListsRecords env c.relationships (records.filter (fun r => sat index1 property v1 r && sat index2 property v2 r)) (handleArray env c params) := by
  have h := C44_exactly_matching env c params input records sat acceptable hin hdata _ hreads
    ⟨by intro c hc; simp only [List.mem_cons, List.not_mem_nil, or_false] at hc; rcases hc with rfl | rfl; exact h1.1; exact h2.1,
     by intro c hc; simp only [List.mem_cons, List.not_mem_nil, or_false] at hc; rcases hc with rfl | rfl; exact h1.2; exact h2.2,
     by simp [hne]⟩ limit hlimit hoffset hsmall (Nat.le_trans (List.length_filter_le _ _) henough)
  simpa using h

/-- a=1 through the map index and b=2 through the scan, both on the number: nothing matches. -/
example : ∃ m, newMap OutputExample.cfg OutputExample.input = .ok m ∧
    ∀ visit : List Nat → {α : Type} → List α → List α, (∀ path α (l : List α), (visit path l).Perm l) →
      handleArray (OutputExample.env m visit) { OutputExample.array with parameters :=
        [("a", { property := "n", index := "map", parser := "digit" }), ("b", { property := "n", index := "scan", parser := "digit" })] }
        [("a", [49]), ("b", [50])] = .data (.arr []) := by
  obtain ⟨m, h1, h2⟩ := OutputExample.data
  refine ⟨m, h1, fun visit hv => ?_⟩
  have h := C45_different_indexes_partial (OutputExample.env m visit) { OutputExample.array with parameters :=
        [("a", { property := "n", index := "map", parser := "digit" }), ("b", { property := "n", index := "scan", parser := "digit" })] }
    [("a", [49]), ("b", [50])] _ _ _ _ (show _ = some OutputExample.input from rfl) (h2 visit hv) "n" "map" "scan" (.int 1) (.int 2) (by decide)
    ⟨rfl, rfl, ⟨_, rfl, rfl⟩, rfl, rfl, ⟨_, rfl, rfl⟩, trivial⟩ ⟨⟨_, rfl⟩, trivial, fun _ => rfl⟩
    ⟨⟨_, rfl⟩, trivial, fun h => absurd h (by decide)⟩ 100 (.inl ⟨by decide, rfl⟩) (by decide) (by decide) (by decide)
  exact lists_plain h OutputExample.shown (fun r hr => OutputExample.shown_all r (List.mem_filter.mp hr).1)

/-- **C46** is false of the code: a default limit of 2^63 is accepted, and then no record is shown although there are some. -/
theorem C46_false :
    ¬ ∀ (env : OutputEnv) (c : ArrayConfig) (params : GoMap Bytes) (input : Input) (records : List Rec)
      (sat : String → String → Value → Rec → Bool) (acceptable : String → String → Value → Prop),
      c.limit.default < 2^64 → c.limit.max < 2^64 → c.limit.validate = some c.limit →
      mapGet env.inputs c.input = some input → OutputData env input records sat acceptable →
      ∀ conditions : List Condition, Reads env (givenParameters c.parameters params) conditions →
      Answerable env acceptable conditions →
      mapGet params c.limit.parameter = none → mapGet params c.offsetParameter = none →
      ListsRecords env c.relationships ((matching records sat conditions).take c.limit.default) (handleArray env c params) := by
  intro h
  obtain ⟨m, _, h2⟩ := OutputExample.data
  let c : ArrayConfig := { OutputExample.array with limit := { default := 2^63, max := 2^63, parameter := "limit" } }
  have := h (OutputExample.env m (fun _ _ l => l)) c [] _ _ _ _ (by decide) (by decide) (by simp [c, LimitConfig.validate])
    (show _ = some OutputExample.input from rfl) (h2 _ (fun _ _ l => List.Perm.refl l)) [] trivial
    ⟨by simp, by simp, by simp⟩ rfl rfl
  have hl := lists_plain this OutputExample.shown (fun r hr => OutputExample.shown_all r (List.mem_filter.mp (List.mem_of_mem_take hr)).1)
  have hv : handleArray (OutputExample.env m (fun _ _ l => l)) c [] = .data (.arr []) := by
    have : (intOfUint (2^63)).toNat = 0 := by decide
    simp only [handleArray, c, getLimit, mapGet, getOffset, OutputExample.array, OutputExample.env, arrayFilters]
    rfl
  rw [hv] at hl
  have : matching OutputExample.recs (fun _ p v r => propEquals r p v) [] = OutputExample.recs := rfl
  rw [this] at hl
  simp [c, OutputExample.recs] at hl

/-- **C46** Any accepted limit configuration below 2^63 is honoured: a request without limit shows the first matching records, up
to the default number. Missing: limits from 2^63 on (`C46_false`). -/
theorem C46_default_limit_partial (env : OutputEnv) (c : ArrayConfig) (configured : LimitConfig) (params : GoMap Bytes) (input : Input)
    (records : List Rec) (sat : String → String → Value → Rec → Bool) (acceptable : String → String → Value → Prop)
    (hvalid : configured.validate = some c.limit)
    (hin : mapGet env.inputs c.input = some input) (hdata : OutputData env input records sat acceptable)
    (conditions : List Condition) (hreads : Reads env (givenParameters c.parameters params) conditions)
    (hans : Answerable env acceptable conditions) (hlimit : mapGet params c.limit.parameter = none)
    (hoffset : mapGet params c.offsetParameter = none) (hsmall : c.limit.default < 2^63) :
    (c.limit.default = if configured.default = 0 then 100 else configured.default) ∧
    ListsRecords env c.relationships ((matching records sat conditions).take c.limit.default) (handleArray env c params) := by
  obtain ⟨hd, hle⟩ : c.limit.default = (if configured.default = 0 then 100 else configured.default) ∧ c.limit.default ≤ c.limit.max := by
    unfold LimitConfig.validate at hvalid
    dsimp only at hvalid
    by_cases hgt : (if configured.default = 0 then 100 else configured.default) > (if configured.max = 0 then 1000 else configured.max)
    · rw [if_pos hgt] at hvalid; cases hvalid
    · rw [if_neg hgt, Option.some.injEq] at hvalid
      rw [← hvalid]
      exact ⟨rfl, by simp only; omega⟩
  refine ⟨hd, ?_⟩
  have h := C42_window env c params input records sat acceptable hin hdata conditions hreads hans c.limit.default 0 (.inl ⟨hlimit, rfl⟩)
    (.inl ⟨hoffset, rfl⟩) (by omega)
  rwa [List.drop_zero, Nat.min_eq_left hle] at h

example : ({ default := 0, max := 0, parameter := "" } : LimitConfig).validate = some OutputExample.array.limit := rfl
example : ({ default := 20, max := 10, parameter := "" } : LimitConfig).validate = none := rfl

/-! ### Objects -/

/-- **C47** An object request whose parameters are read as conditions on different properties: the answer shows the first record,
in order, that satisfies them all, or is the not-found error when there is none. A parameter that is not given counts as
the empty text. -/
theorem C47_first_match (env : OutputEnv) (c : ObjectConfig) (params : GoMap Bytes) (input : Input) (records : List Rec)
    (sat : String → String → Value → Rec → Bool) (acceptable : String → String → Value → Prop)
    (hin : mapGet env.inputs c.input = some input) (hdata : OutputData env input records sat acceptable)
    (conditions : List Condition) (hreads : Reads env (allParameters c.parameters params) conditions)
    (hans : Answerable env acceptable conditions) :
    match records.find? (fun r => conditions.all (fun c => sat c.index c.property c.value r)) with
    | none => handleObject env c params = .notFound
    | some r => (∃ item, handleObject env c params = .data (.obj item) ∧ ShowsRecord env c.relationships r (.ok item)) ∨
        ∃ e, handleObject env c params = .error e ∧ ShowsRecord env c.relationships r (.error e) := by
  obtain ⟨filters, its, h1, h2, h3⟩ := object_positions hdata hreads hans
  have hfind : records.find? (fun r => conditions.all (fun c => sat c.index c.property c.value r)) = (matching records sat conditions).head? := by
    unfold matching
    rw [List.head?_filter]
  rw [hfind]
  cases hm : matching records sat conditions with
  | nil =>
    rw [hm] at h3
    obtain ⟨st, g1, _⟩ := Gives.nil h3
    simp only [List.head?_nil, handleObject, h1, hin, h2, g1]
  | cons r rest =>
    rw [hm] at h3
    obtain ⟨st, g1, _⟩ := Gives.cons h3
    simp only [List.head?_cons, handleObject, h1, hin, h2, g1]
    have hr : r ∈ records := (List.mem_filter.mp (show r ∈ matching records sat conditions by rw [hm]; exact List.mem_cons_self)).1
    have hs := dataFromPosition_shows hdata hin [4] c.relationships hr
    cases hd : dataFromPosition env [4] c.input c.relationships r.position with
    | error e => rw [hd] at hs; exact .inr ⟨e, rfl, hs⟩
    | ok d => rw [hd] at hs; exact .inl ⟨d, rfl, hs⟩

namespace OutputExample
def object : ObjectConfig := { input := "in", parameters := array.parameters, relationships := [] }
theorem letter_condition (m : MapIndex) (visit) (n : UInt8) (l : UInt8) :
    Reads (env m visit) (allParameters object.parameters [("letter", [l]), ("number", [n])])
      [{ index := "map", property := "n", value := .int ((n.toNat : Int) - 48) }, { index := "scan", property := "s", value := .str [l] }] :=
  ⟨rfl, rfl, ⟨_, rfl, rfl⟩, rfl, rfl, ⟨_, rfl, rfl⟩, trivial⟩
theorem letter_answerable (m : MapIndex) (visit) (a : Int) (b : Bytes) : Answerable (env m visit) acceptable
    [{ index := "map", property := "n", value := .int a }, { index := "scan", property := "s", value := .str b }] :=
  ⟨by intro c hc; simp only [List.mem_cons, List.not_mem_nil, or_false] at hc
      rcases hc with rfl | rfl <;> exact ⟨_, rfl⟩,
   by intro c hc; simp only [List.mem_cons, List.not_mem_nil, or_false] at hc
      rcases hc with rfl | rfl
      · exact ⟨trivial, fun _ => rfl⟩
      · exact ⟨trivial, fun h => absurd h (show ¬ "scan" = "map" by decide)⟩, by simp⟩
end OutputExample

/-- number=2, letter=a is the third record; number=2, letter=b is not found. -/
example : ∃ m, newMap OutputExample.cfg OutputExample.input = .ok m ∧
    ∀ visit : List Nat → {α : Type} → List α → List α, (∀ path α (l : List α), (visit path l).Perm l) →
      handleObject (OutputExample.env m visit) OutputExample.object [("letter", [97]), ("number", [50])] =
        .data (.obj [("n", .int 2), ("s", .str [97])]) ∧
      handleObject (OutputExample.env m visit) OutputExample.object [("letter", [98]), ("number", [50])] = .notFound := by
  obtain ⟨m, h1, h2⟩ := OutputExample.data
  refine ⟨m, h1, fun visit hv => ⟨?_, ?_⟩⟩
  · have := C47_first_match (OutputExample.env m visit) OutputExample.object [("letter", [97]), ("number", [50])] _ _ _ _
      (show _ = some OutputExample.input from rfl) (h2 visit hv) _ (OutputExample.letter_condition m visit 50 97)
      (OutputExample.letter_answerable m visit _ _)
    rcases this with ⟨item, g1, ⟨e, _, g2⟩ | ⟨d, path, g2, g3⟩⟩ | ⟨e, g1, ⟨e', g2, _⟩ | ⟨d, path, _, g3⟩⟩
    · cases g2
    · cases g2; simp only [OutputExample.object, loadRelationships] at g3; cases g3; exact g1
    · cases g2
    · simp [OutputExample.object, loadRelationships] at g3
  · exact C47_first_match (OutputExample.env m visit) OutputExample.object [("letter", [98]), ("number", [50])] _ _ _ _
      (show _ = some OutputExample.input from rfl) (h2 visit hv) _ (OutputExample.letter_condition m visit 50 98)
      (OutputExample.letter_answerable m visit _ _)

end Rodb
