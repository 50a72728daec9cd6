import Verif.Proofs.MapNoop
/-
  C14 C15 C16 C17 C18 C19: the map index and the full scan.
  `filters` is a Go map given in the order in which `range` visits it, so each theorem holds for all orders.
-/
namespace Rodb
open Spec

namespace MapExample
/-- Three records: (1, "a"), (1, "b"), (2, "a"). -/
def recs : List Rec := [
  { position := 0, all := .ok [], get := fun p => if p = "n" then .ok (.int 1) else .ok (.str [97]) },
  { position := 7, all := .ok [], get := fun p => if p = "n" then .ok (.int 1) else .ok (.str [98]) },
  { position := 9, all := .ok [], get := fun p => if p = "n" then .ok (.int 2) else .ok (.str [97]) }]
def input : Input :=
  { name := "in", size := .ok 12, modTimeNs := .ok 5, fetch := fun _ => .error (.err "none"), scan := .ok (recs.map .ok) }
def cfg : MapConfig := { properties := ["n", "s"] }
theorem table : RecordTable input recs := ⟨rfl, by decide⟩
theorem scalar : ScalarIn recs cfg.properties := by
  intro r hr p _
  simp only [recs, List.mem_cons, List.not_mem_nil, or_false] at hr
  rcases hr with rfl | rfl | rfl
  all_goals
    by_cases h : p = "n" <;> simp [h, Scalar]
/-- A record whose property is an array. -/
def arrayInput : Input :=
  { name := "in", size := .ok 12, modTimeNs := .ok 5, fetch := fun _ => .error (.err "none"),
    scan := .ok [.ok { position := 0, all := .ok [], get := fun _ => .ok (.arr [.int 1, .int 2]) }] }
end MapExample

/-- **C14** When the indexed properties of all records are scalars, building the map index succeeds, and a
query by values of indexed properties returns exactly the positions of the records having all those values,
in increasing order and each once, whatever the order of the filters. -/
theorem C14_map_exact (cfg : MapConfig) (input : Input) (records : List Rec) (hnd : cfg.properties.Nodup)
    (htab : RecordTable input records) (hsc : ScalarIn records cfg.properties) :
    ∃ m, newMap cfg input = .ok m ∧ ∀ filters : GoMap Value, filters ≠ [] →
      (∀ pf ∈ filters, pf.1 ∈ cfg.properties ∧ Scalar pf.2) →
      ∃ ps : List Int, m.getRecordPositions input.name filters = .ok (iterateList ps) ∧ ps.Pairwise (· < ·) ∧
        ∀ p, p ∈ ps ↔ ∃ r ∈ records, r.position = p ∧ ∀ pf ∈ filters, ∃ v, r.get pf.1 = .ok v ∧ sameValue v pf.2 = true := by
  obtain ⟨m, h1, h2⟩ := map_query hnd htab hsc
  refine ⟨m, h1, fun filters hne hf => ⟨_, h2 filters hne hf, positionsOf_increasing htab.increasing _, ?_⟩⟩
  intro p
  rw [mem_positionsOf]
  constructor
  · rintro ⟨r, g1, g2, g3⟩
    refine ⟨r, g1, g3, fun pf hpf => ?_⟩
    have := List.all_eq_true.mp g2 pf hpf
    simp only [propEquals] at this
    split at this
    · exact ⟨_, by assumption, this⟩
    · cases this
  · rintro ⟨r, g1, g2, g3⟩
    refine ⟨r, g1, List.all_eq_true.mpr (fun pf hpf => ?_), g2⟩
    obtain ⟨v, h3, h4⟩ := g3 pf hpf
    simp only [propEquals, h3]
    exact h4

example : ∃ m, newMap MapExample.cfg MapExample.input = .ok m ∧
    m.getRecordPositions "in" [("s", .str [97]), ("n", .int 1)] = .ok [.ok 0] ∧
    m.getRecordPositions "in" [("s", .str [97])] = .ok [.ok 0, .ok 9] := by
  obtain ⟨m, h1, h2⟩ := map_query (by decide) MapExample.table MapExample.scalar
  refine ⟨m, h1, ?_, ?_⟩
  · exact h2 _ (by simp) (by simp [MapExample.cfg, Scalar])
  · exact h2 _ (by simp) (by simp [MapExample.cfg, Scalar])

/-- **C15** On scalar data, a map index answers every non-empty query on its properties like the full scan. -/
theorem C15_map_equals_scan (cfg : MapConfig) (input : Input) (records : List Rec) (hnd : cfg.properties.Nodup)
    (htab : RecordTable input records) (hsc : ScalarIn records cfg.properties) :
    ∃ m, newMap cfg input = .ok m ∧ ∀ filters : GoMap Value, filters ≠ [] →
      (∀ pf ∈ filters, pf.1 ∈ cfg.properties ∧ Scalar pf.2) →
      m.getRecordPositions input.name filters = noopGetRecordPositions input filters := by
  obtain ⟨m, h1, h2⟩ := map_query hnd htab hsc
  refine ⟨m, h1, fun filters hne hf => ?_⟩
  rw [h2 filters hne hf, noop_query htab.scan]
  intro r hr pf hpf
  obtain ⟨v, h3, _⟩ := hsc r hr pf.1 (hf pf hpf).1
  exact ⟨v, h3, Or.inr (hf pf hpf).2⟩

example : RecordTable MapExample.input MapExample.recs ∧ ScalarIn MapExample.recs MapExample.cfg.properties ∧
    noopGetRecordPositions MapExample.input [("n", .int 1), ("s", .str [98])] = .ok [.ok 7] :=
  ⟨MapExample.table, MapExample.scalar, by rfl⟩

/-- **C16** (partial) When no indexed property is an array and the failures of the input are ordinary errors,
building the map index succeeds or returns an ordinary error.
Missing: records with an array, for which the property is false (`C16_false`). -/
theorem C16_map_build_no_crash_partial (cfg : MapConfig) (input : Input) (hin : InputFails IsError input cfg.properties)
    (harr : ∀ rs, input.scan = .ok rs → ∀ r, .ok r ∈ rs → ∀ p ∈ cfg.properties, ∀ l, r.get p ≠ .ok (.arr l)) :
    (∃ m, newMap cfg input = .ok m) ∨ ∃ msg, newMap cfg input = .error (.err msg) := by
  cases h : newMap cfg input with
  | ok m => exact Or.inl ⟨m, rfl⟩
  | error e =>
    obtain ⟨msg, rfl⟩ := newMap_fails hin harr h
    exact Or.inr ⟨msg, rfl⟩

/-- A record holding an object: an error. -/
example : ∃ msg, newMap MapExample.cfg { MapExample.input with scan := .ok [.ok { position := 0, all := .ok [], get := fun _ => .ok (.obj []) }] } =
    .error (.err msg) := ⟨_, rfl⟩

/-- **C16** An array never can be indexed: whenever the build succeeds, all indexed properties are scalars. -/
theorem C16_only_scalars_indexed (cfg : MapConfig) (input : Input) (records : List Rec) (m : MapIndex)
    (hscan : input.scan = .ok (records.map .ok)) (h : newMap cfg input = .ok m) : ScalarIn records cfg.properties :=
  newMap_scalar h hscan

example : ∃ m, newMap MapExample.cfg MapExample.input = .ok m :=
  (map_query (by decide) MapExample.table MapExample.scalar).imp (fun _ h => h.1)

/-- **C16** is false: an input with one record whose property is the array [1, 2] crashes the process. -/
theorem C16_false : ∃ (cfg : MapConfig) (input : Input), InputFails IsError input cfg.properties ∧
    ∃ msg, newMap cfg input = .error (.panic msg) := by
  refine ⟨MapExample.cfg, MapExample.arrayInput, ?_, "runtime error: hash of unhashable type", by rfl⟩
  constructor
  · intro e h; cases h
  · intro e h; cases h
  · intro e h; cases h
  · intro rs h e he
    cases h
    simp at he
  · intro rs h r hr p _ e he
    cases h
    simp only [List.mem_cons, Except.ok.injEq, List.not_mem_nil, or_false] at hr
    subst hr
    cases he

/-- **C17** The iterator of a full scan returns, call after call, the positions of the records having all the
values of the filters, in the order of the input, and then the end marker for ever. (Comparing two arrays, or
two objects, panics in Go; so for each property, the value or the filter must be a scalar.) -/
theorem C17_scan_exact (input : Input) (records : List Rec) (filters : GoMap Value)
    (hscan : input.scan = .ok (records.map .ok))
    (h : ∀ r ∈ records, ∀ pf ∈ filters, ∃ v, r.get pf.1 = .ok v ∧ (Scalar v ∨ Scalar pf.2)) :
    ∃ s, noopStart input = .ok s ∧ ∀ n k : Nat, k < n →
      (callsOf (noopCall (.ok ()) filters) n s)[k]? =
        some (.ok ((positionsOf records (fun r => filters.all (fun pf => propEquals r pf.1 pf.2)))[k]?)) := by
  refine ⟨{ records := records.map .ok, closed := false }, by simp [noopStart, hscan, bind, Except.bind], ?_⟩
  intro n k hk
  rw [noop_calls n (fun r hr => noopMatches_scalar (h r hr))]
  rw [List.getElem?_take_of_lt hk]
  show _ = some (Except.ok ((positionsOf records (equalsAll filters))[k]?))
  generalize positionsOf records (equalsAll filters) = ps
  by_cases hl : k < ps.length
  · rw [List.getElem?_append_left (by simpa using hl)]
    simp [hl]
  · rw [List.getElem?_append_right (by simp; omega)]
    rw [List.getElem?_replicate_of_lt (by simp; omega)]
    rw [List.getElem?_eq_none (by omega)]

example : callsOf (noopCall (.ok ()) [("s", .str [97])]) 5 { records := MapExample.recs.map .ok, closed := false } =
    [.ok (some 0), .ok (some 9), .ok none, .ok none, .ok none] := by rfl

/-- **C17** Whatever the data, a position returned by a full scan is the position of a record of the input that
has all the values of the filters. -/
theorem C17_scan_sound (input : Input) (records : List (Res Rec)) (filters : GoMap Value) (it : PIter)
    (hscan : input.scan = .ok records) (h : noopGetRecordPositions input filters = .ok it) (p : Int) (hp : .ok p ∈ it) :
    ∃ r, .ok r ∈ records ∧ r.position = p ∧ ∀ pf ∈ filters, ∃ v, r.get pf.1 = .ok v ∧ sameValue v pf.2 = true := by
  simp only [noopGetRecordPositions, noopStart, hscan, bind, Except.bind] at h
  cases h
  obtain ⟨r, h1, h2, h3⟩ := noop_outcomes_sound _ _ p hp
  refine ⟨r, h1, h2, fun pf hpf => ?_⟩
  have := List.all_eq_true.mp h3 pf hpf
  simp only [propEquals] at this
  split at this
  · exact ⟨_, by assumption, this⟩
  · cases this

example : noopGetRecordPositions MapExample.arrayInput [("a", .arr [.int 1])] =
      .ok [.error (.panic "comparing uncomparable type []interface {}")] ∧
    noopGetRecordPositions MapExample.input [("n", .int 2)] = .ok [.ok 9] := ⟨by rfl, by rfl⟩

/-- **C18** (partial) The file opened by a full scan is closed exactly when some call returned the end marker.
Missing: requests that stop before, for which the file stays open (`C18_false`). -/
theorem C18_closed_iff_drained_partial (input : Input) (filters : GoMap Value) (s : NoopState) (hs : noopStart input = .ok s) (n : Nat) :
    (stateAfter (noopCall (.ok ()) filters) n s).closed = true ↔ .ok none ∈ callsOf (noopCall (.ok ()) filters) n s := by
  apply noop_closed_iff
  simp only [noopStart, bind, Except.bind] at hs
  split at hs
  · cases hs
  · cases hs; rfl

example : (stateAfter (noopCall (.ok ()) [("n", .int 1)]) 3 { records := MapExample.recs.map .ok, closed := false }).closed = true := by rfl

/-- **C18** is false: a request that only takes the first position found (an object output, or a list with
limit 1) leaves the file open, even when that position is the only match. -/
theorem C18_false : ∃ (input : Input) (filters : GoMap Value) (s : NoopState), noopStart input = .ok s ∧
    callsOf (noopCall (.ok ()) filters) 1 s = [.ok (some 9)] ∧
    noopGetRecordPositions input filters = .ok [.ok 9] ∧
    (stateAfter (noopCall (.ok ()) filters) 1 s).closed = false :=
  ⟨MapExample.input, [("n", .int 2)], _, rfl, by rfl, by rfl, by rfl⟩

/-- The types a value can have. -/
inductive ValueType where
  | null | bool | int | float | str | arr | obj
deriving DecidableEq, Repr

/-- The type of a value. -/
def typeOf : Value → ValueType
  | .null => .null
  | .bool _ => .bool
  | .int _ => .int
  | .float _ => .float
  | .str _ => .str
  | .arr _ => .arr
  | .obj _ => .obj

theorem sameValue_typeOf {a b : Value} (h : sameValue a b = true) : typeOf a = typeOf b := by
  cases a <;> cases b <;> first | rfl | (simp [sameValue] at h)

/-- **C19** A full scan only returns records whose properties have the same types as the filters. -/
theorem C19_scan_same_type (input : Input) (records : List (Res Rec)) (filters : GoMap Value) (it : PIter)
    (hscan : input.scan = .ok records) (h : noopGetRecordPositions input filters = .ok it) (p : Int) (hp : .ok p ∈ it) :
    ∃ r, .ok r ∈ records ∧ r.position = p ∧ ∀ pf ∈ filters, ∃ v, r.get pf.1 = .ok v ∧ typeOf v = typeOf pf.2 := by
  obtain ⟨r, h1, h2, h3⟩ := C17_scan_sound input records filters it hscan h p hp
  refine ⟨r, h1, h2, fun pf hpf => ?_⟩
  obtain ⟨v, h4, h5⟩ := h3 pf hpf
  exact ⟨v, h4, sameValue_typeOf h5⟩

example : noopGetRecordPositions MapExample.input [("n", .float (.fin 2))] = .ok [] ∧
    noopGetRecordPositions MapExample.input [("n", .str [50])] = .ok [] := ⟨by rfl, by rfl⟩

/-- **C19** A map index only returns records whose properties have the same types as the filters. -/
theorem C19_map_same_type (cfg : MapConfig) (input : Input) (records : List Rec) (m : MapIndex) (hnd : cfg.properties.Nodup)
    (htab : RecordTable input records) (hm : newMap cfg input = .ok m) (filters : GoMap Value) (hne : filters ≠ [])
    (hf : ∀ pf ∈ filters, pf.1 ∈ cfg.properties ∧ Scalar pf.2) (it : PIter)
    (h : m.getRecordPositions input.name filters = .ok it) (p : Int) (hp : .ok p ∈ it) :
    ∃ r ∈ records, r.position = p ∧ ∀ pf ∈ filters, ∃ v, r.get pf.1 = .ok v ∧ typeOf v = typeOf pf.2 := by
  obtain ⟨m', h1, h2⟩ := C14_map_exact cfg input records hnd htab (newMap_scalar hm htab.scan)
  rw [hm] at h1
  cases h1
  obtain ⟨ps, h3, _, h5⟩ := h2 filters hne hf
  rw [h] at h3
  cases h3
  have hp' : p ∈ ps := by simpa [iterateList] using hp
  obtain ⟨r, g1, g2, g3⟩ := (h5 p).mp hp'
  refine ⟨r, g1, g2, fun pf hpf => ?_⟩
  obtain ⟨v, h6, h7⟩ := g3 pf hpf
  exact ⟨v, h6, sameValue_typeOf h7⟩

example : ∃ m, newMap MapExample.cfg MapExample.input = .ok m ∧
    m.getRecordPositions "in" [("n", .float (.fin 2))] = .ok [] := by
  obtain ⟨m, h1, h2⟩ := map_query (by decide) MapExample.table MapExample.scalar
  exact ⟨m, h1, h2 _ (by simp) (by simp [MapExample.cfg, Scalar])⟩

/-- **C19** An integer filter never matches values that are not integers, such as the numbers of a JSON
document, which are all floating point. -/
theorem C19_integer_never_matches_json (input : Input) (records : List Rec) (p : String) (i : Int) (rest : GoMap Value) (it : PIter)
    (hscan : input.scan = .ok (records.map .ok)) (hjson : ∀ r ∈ records, ∀ v, r.get p = .ok v → typeOf v ≠ .int)
    (h : noopGetRecordPositions input ((p, .int i) :: rest) = .ok it) : ∀ q, .ok q ∉ it := by
  intro q hq
  obtain ⟨r, h1, _, h3⟩ := C19_scan_same_type input _ _ it hscan h q hq
  obtain ⟨v, h4, h5⟩ := h3 _ List.mem_cons_self
  simp only [List.mem_map, Except.ok.injEq, exists_eq_right] at h1
  exact hjson r h1 v h4 h5

example : noopGetRecordPositions { MapExample.input with scan := .ok [.ok { position := 3, all := .ok [], get := fun _ => .ok (.float (.fin 1)) }] }
    [("n", .int 1)] = .ok [] := by rfl

end Rodb
