import Verif.Proofs.Conj
import Verif.Model.Noop
/-
  The map index and the full scan.
-/
namespace Rodb
open Spec

/-! ### Map index -/

/-- What the index of property `p` holds after the given records. -/
def MapHolds (records : List Rec) (p : String) (m : MapPropertyIndex) : Prop :=
  ∀ v, vmapFind m v = if positionsOf records (fun r => propEquals r p v) = [] then none
    else some (positionsOf records (fun r => propEquals r p v))

/-- One more record in the index of one property. -/
theorem MapHolds.add {records : List Rec} {p : String} {m : MapPropertyIndex} (h : MapHolds records p m) {r : Rec} {v : Value}
    (hv : r.get p = .ok v) : MapHolds (records ++ [r]) p
      (match vmapFind m v with
        | some ps => vmapPut m v (ps ++ [r.position])
        | none => vmapPut m v [r.position]) := by
  intro x
  have hpos : positionsOf (records ++ [r]) (fun r => propEquals r p x) =
      positionsOf records (fun r => propEquals r p x) ++ (if sameValue v x then [r.position] else []) := by
    simp only [positionsOf, List.filter_append, List.map_append]
    congr 1
    simp only [List.filter_cons, List.filter_nil, propEquals, hv]
    split <;> rfl
  rw [hpos]
  have hput : ∀ ps, vmapFind (vmapPut m v ps) x = if sameValue v x then some ps else vmapFind m x := vmapFind_put m v x
  by_cases hs : sameValue v x = true
  · have hx := h v
    rw [vmapFind_same m hs, h x] at *
    simp only [if_pos hs] at *
    by_cases he : positionsOf records (fun r => propEquals r p x) = []
    · rw [if_pos he]
      simp only [hput, he, List.nil_append]
      simp
    · rw [if_neg he]
      simp only [hput]
      rw [if_neg (by simp)]
  · simp only [if_neg hs, List.append_nil]
    rw [← h x]
    cases vmapFind m v <;> simp only [hput, if_neg hs]

theorem mapAddValue_scalar {v : Value} (hs : Scalar v) (index : GoMap MapPropertyIndex) (p : String) (pos : Int) :
    mapAddValue index p v pos = mapAddScalar index p v pos := by
  cases v <;> simp_all [mapAddValue, Scalar]

theorem mapIndexProperties_spec {records : List Rec} {r : Rec} : ∀ (props done : List String) (index : GoMap MapPropertyIndex),
    (∀ p ∈ props, ∃ v, r.get p = .ok v ∧ Scalar v) → (done ++ props).Nodup →
    (∀ p ∈ done, ∃ m, mapGet index p = some m ∧ MapHolds (records ++ [r]) p m) →
    (∀ p ∈ props, ∃ m, mapGet index p = some m ∧ MapHolds records p m) →
    ∃ index', mapIndexProperties r props index = .ok index' ∧
      ∀ p ∈ done ++ props, ∃ m, mapGet index' p = some m ∧ MapHolds (records ++ [r]) p m := by
  intro props
  induction props with
  | nil => intro done index _ _ h _; exact ⟨index, rfl, by simpa using h⟩
  | cons p props ih =>
    intro done index hsc hnd hdone hprops
    obtain ⟨v, hv, hs⟩ := hsc p List.mem_cons_self
    obtain ⟨m, hm, hh⟩ := hprops p List.mem_cons_self
    have hadd := hh.add hv
    have hp1 : p ∉ done := by
      intro hp
      rw [List.nodup_append] at hnd
      exact hnd.2.2 p hp p List.mem_cons_self rfl
    have hp2 : p ∉ props := by
      rw [List.nodup_append, List.nodup_cons] at hnd
      exact hnd.2.1.1
    have hstep : ∃ m', mapAddValue index p v r.position = .ok (mapSet index p m') ∧ MapHolds (records ++ [r]) p m' := by
      rw [mapAddValue_scalar hs]
      unfold mapAddScalar
      rw [if_neg (by simp [(hashable_iff v).mpr hs])]
      simp only [hm]
      cases hf : vmapFind m v with
      | none => rw [hf] at hadd; exact ⟨_, rfl, hadd⟩
      | some ps => rw [hf] at hadd; exact ⟨_, rfl, hadd⟩
    obtain ⟨m', h1, h2⟩ := hstep
    obtain ⟨index', h3, h4⟩ := ih (done ++ [p]) (mapSet index p m') (fun q hq => hsc q (List.mem_cons_of_mem _ hq))
      (by simpa using hnd) (by
        intro q hq
        rw [mapGet_mapSet]
        by_cases he : p = q
        · subst he
          rw [if_pos rfl]
          exact ⟨m', rfl, h2⟩
        · rw [if_neg he]
          rcases List.mem_append.mp hq with hq | hq
          · exact hdone q hq
          · simp at hq; exact absurd hq.symm he) (by
        intro q hq
        rw [mapGet_mapSet, if_neg (fun e : p = q => hp2 (by rw [e]; exact hq))]
        exact hprops q (List.mem_cons_of_mem _ hq))
    refine ⟨index', ?_, by simpa using h4⟩
    simp only [mapIndexProperties, hv, bind, Except.bind, h1]
    exact h3

theorem mapIndexRecords_spec {props : List String} (hnd : props.Nodup) : ∀ (rest done : List Rec) (index : GoMap MapPropertyIndex),
    ScalarIn rest props → (∀ p ∈ props, ∃ m, mapGet index p = some m ∧ MapHolds done p m) →
    ∃ index', mapIndexRecords props (rest.map .ok) index = .ok index' ∧
      ∀ p ∈ props, ∃ m, mapGet index' p = some m ∧ MapHolds (done ++ rest) p m := by
  intro rest
  induction rest with
  | nil => intro done index _ h; exact ⟨index, rfl, by simpa using h⟩
  | cons r rest ih =>
    intro done index hsc h
    obtain ⟨index1, h1, h2⟩ := mapIndexProperties_spec props [] index (hsc r List.mem_cons_self) (by simpa using hnd)
      (by simp) h
    obtain ⟨index', h3, h4⟩ := ih (done ++ [r]) index1 (fun r' hr' => hsc r' (List.mem_cons_of_mem _ hr')) (by simpa using h2)
    refine ⟨index', ?_, by simpa using h4⟩
    simp only [List.map_cons, mapIndexRecords, bind, Except.bind, h1]
    exact h3

theorem mapEmpty_spec : ∀ (props : List String) (index : GoMap MapPropertyIndex),
    (∀ p m, mapGet index p = some m → m = []) →
    (∀ p ∈ props, mapGet (mapEmpty props index) p = some []) ∧ (∀ p m, mapGet (mapEmpty props index) p = some m → m = []) ∧
    (∀ p, mapGet index p = some [] → mapGet (mapEmpty props index) p = some []) := by
  intro props
  induction props with
  | nil => intro index h; exact ⟨by simp, h, fun _ h => h⟩
  | cons p props ih =>
    intro index h
    have h' : ∀ q m, mapGet (mapSet index p []) q = some m → m = [] := by
      intro q m hq
      rw [mapGet_mapSet] at hq
      split at hq
      · cases hq; rfl
      · exact h q m hq
    obtain ⟨h1, h2, h3⟩ := ih (mapSet index p []) h'
    refine ⟨?_, h2, ?_⟩
    · intro q hq
      rcases List.mem_cons.mp hq with rfl | hq
      · exact h3 q (by rw [mapGet_mapSet, if_pos rfl])
      · exact h1 q hq
    · intro q hq
      apply h3
      rw [mapGet_mapSet]
      split
      · rfl
      · exact hq

theorem newMap_spec {cfg : MapConfig} {input : Input} {records : List Rec} (hnd : cfg.properties.Nodup)
    (htab : RecordTable input records) (hsc : ScalarIn records cfg.properties) :
    ∃ m, newMap cfg input = .ok m ∧ m.config = cfg ∧ m.inputName = input.name ∧
      ∀ p ∈ cfg.properties, ∃ x, mapGet m.index p = some x ∧ MapHolds records p x := by
  obtain ⟨h1, _, _⟩ := mapEmpty_spec cfg.properties [] (by intro p m h; cases h)
  obtain ⟨index, h2, h3⟩ := mapIndexRecords_spec hnd records [] (mapEmpty cfg.properties []) hsc (by
    intro p hp
    refine ⟨[], h1 p hp, ?_⟩
    intro v
    simp [vmapFind, positionsOf])
  refine ⟨{ config := cfg, inputName := input.name, index := index }, ?_, rfl, rfl, by simpa using h3⟩
  simp only [newMap, htab.scan, bind, Except.bind, h2]

theorem mapFilters_spec {m : MapIndex} {records : List Rec}
    (hm : ∀ p ∈ m.config.properties, ∃ x, mapGet m.index p = some x ∧ MapHolds records p x) :
    ∀ (filters : GoMap Value), (∀ pf ∈ filters, pf.1 ∈ m.config.properties ∧ Scalar pf.2) →
    (mapFilters m filters = .ok none ∧ ∃ pf ∈ filters, positionsOf records (fun r => propEquals r pf.1 pf.2) = []) ∨
    mapFilters m filters = .ok (some (filters.map (fun pf => iterateList (positionsOf records (fun r => propEquals r pf.1 pf.2))))) := by
  intro filters
  induction filters with
  | nil => intro _; right; rfl
  | cons pf filters ih =>
    intro h
    obtain ⟨p, v⟩ := pf
    obtain ⟨hp, hs⟩ := h (p, v) List.mem_cons_self
    obtain ⟨x, hx, hh⟩ := hm p hp
    have hd : m.config.doesHandleProperty p = true := by
      simp [MapConfig.doesHandleProperty]
      exact hp
    simp only [mapFilters, hd, hx, (hashable_iff v).mpr hs, hh v]
    by_cases he : positionsOf records (fun r => propEquals r p v) = []
    · left
      rw [if_pos he]
      exact ⟨rfl, (p, v), List.mem_cons_self, he⟩
    · rw [if_neg he]
      simp only [not_true_eq_false, if_false]
      rcases ih (fun y hy => h y (List.mem_cons_of_mem _ hy)) with ⟨h1, y, hy, h2⟩ | h1
      · left
        rw [h1]
        exact ⟨rfl, y, List.mem_cons_of_mem _ hy, h2⟩
      · right
        rw [h1]
        rfl

theorem map_query {cfg : MapConfig} {input : Input} {records : List Rec} (hnd : cfg.properties.Nodup)
    (htab : RecordTable input records) (hsc : ScalarIn records cfg.properties) :
    ∃ m, newMap cfg input = .ok m ∧ ∀ filters : GoMap Value, filters ≠ [] →
      (∀ pf ∈ filters, pf.1 ∈ cfg.properties ∧ Scalar pf.2) →
      m.getRecordPositions input.name filters = .ok (iterateList (positionsOf records (equalsAll filters))) := by
  obtain ⟨m, h1, h2, h3, h4⟩ := newMap_spec hnd htab hsc
  refine ⟨m, h1, ?_⟩
  intro filters hne hf
  subst h2
  unfold MapIndex.getRecordPositions
  rw [if_neg (by simp [h3]), if_neg (by simpa using hne)]
  have hconj := join_conj htab.increasing (conds := filters.map (fun pf r => propEquals r pf.1 pf.2)) (by simpa using hne)
  simp only [List.map_map, List.all_map] at hconj
  rcases mapFilters_spec h4 filters hf with ⟨h5, pf, hpf, h6⟩ | h5
  · rw [h5]
    have : positionsOf records (equalsAll filters) = [] := by
      apply List.eq_nil_iff_forall_not_mem.mpr
      intro x hx
      obtain ⟨r, g1, g2, g3⟩ := mem_positionsOf.mp hx
      have : x ∈ positionsOf records (fun r => propEquals r pf.1 pf.2) :=
        mem_positionsOf.mpr ⟨r, g1, List.all_eq_true.mp g2 pf hpf, g3⟩
      rw [h6] at this
      cases this
    rw [this]
    rfl
  · rw [h5]
    simp only
    exact congrArg Except.ok hconj

/-! ### Full scan -/

theorem noopMatches_scalar {r : Rec} : ∀ {filters : GoMap Value},
    (∀ pf ∈ filters, ∃ v, r.get pf.1 = .ok v ∧ (Scalar v ∨ Scalar pf.2)) → noopMatches r filters = .ok (equalsAll filters r) := by
  intro filters
  induction filters with
  | nil => intro _; rfl
  | cons pf filters ih =>
    intro h
    obtain ⟨p, f⟩ := pf
    obtain ⟨v, hv, hs⟩ := h (p, f) List.mem_cons_self
    have ih' := ih (fun y hy => h y (List.mem_cons_of_mem _ hy))
    simp only at hv hs
    have hall : equalsAll ((p, f) :: filters) r = (sameValue v f && equalsAll filters r) := by
      simp [equalsAll, propEquals, hv]
    rw [hall]
    simp only [noopMatches, hv]
    cases v with
    | null =>
      cases f <;> simp [sameValue, ih']
    | _ =>
      simp only [goEq_scalar hs]
      cases sameValue _ f <;> simp [ih']

theorem noopSearch_spec {filters : GoMap Value} : ∀ {records : List Rec},
    (∀ r ∈ records, noopMatches r filters = .ok (equalsAll filters r)) →
    (positionsOf records (equalsAll filters) = [] ∧ noopSearch filters (records.map .ok) = (.ok none, [])) ∨
    ∃ p rest, (∀ r ∈ rest, r ∈ records) ∧ positionsOf records (equalsAll filters) = p :: positionsOf rest (equalsAll filters) ∧
      noopSearch filters (records.map .ok) = (.ok (some p), rest.map .ok) ∧ rest.length < records.length := by
  intro records
  induction records with
  | nil => intro _; left; exact ⟨rfl, rfl⟩
  | cons r records ih =>
    intro h
    simp only [List.map_cons, noopSearch, h r List.mem_cons_self]
    cases he : equalsAll filters r with
    | true =>
      right
      exact ⟨r.position, records, fun r' h' => List.mem_cons_of_mem _ h', by simp [positionsOf, he], rfl, by simp⟩
    | false =>
      have hp : positionsOf (r :: records) (equalsAll filters) = positionsOf records (equalsAll filters) := by
        simp [positionsOf, he]
      rw [hp]
      rcases ih (fun r' h' => h r' (List.mem_cons_of_mem _ h')) with h1 | ⟨p, rest, h1, h2, h3, h4⟩
      · exact Or.inl h1
      · exact Or.inr ⟨p, rest, fun r' h' => List.mem_cons_of_mem _ (h1 r' h'), h2, h3, by simp; omega⟩

theorem noop_calls_closed (filters : GoMap Value) (l : List (Res Rec)) (n : Nat) :
    callsOf (noopCall (.ok ()) filters) n { records := l, closed := true } = List.replicate n (.ok none) := by
  induction n with
  | zero => rfl
  | succ n ih => simp [callsOf, noopCall, ih, List.replicate_succ]

theorem noop_calls {filters : GoMap Value} : ∀ (n : Nat) {records : List Rec},
    (∀ r ∈ records, noopMatches r filters = .ok (equalsAll filters r)) →
    callsOf (noopCall (.ok ()) filters) n { records := records.map .ok, closed := false } =
      (((positionsOf records (equalsAll filters)).map (fun p => Except.ok (some p))) ++ List.replicate n (Except.ok none)).take n := by
  intro n
  induction n with
  | zero => intro _ _; simp [callsOf]
  | succ n ih =>
    intro records h
    rcases noopSearch_spec h with ⟨h1, h2⟩ | ⟨p, rest, h1, h2, h3, _⟩
    · simp only [callsOf, noopCall, h2, h1]
      rw [if_neg (by simp)]
      simp only [noop_calls_closed]
      simp [List.replicate_succ]
    · simp only [callsOf, noopCall, h3, h2]
      simp only [List.map_cons, List.cons_append, List.take_succ_cons]
      rw [if_neg (by simp)]
      simp only
      rw [ih (fun r hr => h r (h1 r hr))]
      congr 1
      rw [List.replicate_succ']
      rw [← List.append_assoc]
      exact (List.take_append_of_le_length (by simp)).symm

theorem noop_outcomes {filters : GoMap Value} : ∀ (n : Nat) {records : List Rec}, records.length < n →
    (∀ r ∈ records, noopMatches r filters = .ok (equalsAll filters r)) →
    outcomes (noopCall (.ok ()) filters) n { records := records.map .ok, closed := false } =
      iterateList (positionsOf records (equalsAll filters)) := by
  intro n
  induction n with
  | zero => intro _ h; omega
  | succ n ih =>
    intro records hn h
    rcases noopSearch_spec h with ⟨h1, h2⟩ | ⟨p, rest, h1, h2, h3, h4⟩
    · simp only [outcomes, noopCall, h2, h1]
      rfl
    · simp only [outcomes, noopCall, h3, h2]
      rw [if_neg (by simp)]
      simp only
      rw [ih (by omega) (fun r hr => h r (h1 r hr))]
      rfl

theorem noop_query {input : Input} {records : List Rec} {filters : GoMap Value} (hscan : input.scan = .ok (records.map .ok))
    (h : ∀ r ∈ records, ∀ pf ∈ filters, ∃ v, r.get pf.1 = .ok v ∧ (Scalar v ∨ Scalar pf.2)) :
    noopGetRecordPositions input filters = .ok (iterateList (positionsOf records (equalsAll filters))) := by
  simp only [noopGetRecordPositions, noopStart, hscan, bind, Except.bind]
  rw [noop_outcomes _ (by simp) (fun r hr => noopMatches_scalar (h r hr))]

/-- A matching record has, for each filter, a value of the same type and equal to it. -/
theorem noopMatches_true {r : Rec} : ∀ {filters : GoMap Value}, noopMatches r filters = .ok true →
    equalsAll filters r = true := by
  intro filters
  induction filters with
  | nil => intro _; rfl
  | cons pf filters ih =>
    intro h
    obtain ⟨p, f⟩ := pf
    simp only [noopMatches] at h
    simp only [equalsAll, List.all_cons, Bool.and_eq_true]
    cases hg : r.get p with
    | error e => rw [hg] at h; cases h
    | ok v =>
      rw [hg] at h
      simp only [propEquals, hg]
      cases v with
      | null =>
        simp only at h
        cases f <;> simp only at h
        · exact ⟨rfl, ih h⟩
        all_goals cases h
      | _ =>
        simp only at h
        split at h
        · cases h
        · rename_i hq
          exact ⟨(goEq_true_iff _ _).mp hq, ih h⟩
        · cases h

theorem noop_outcomes_sound {filters : GoMap Value} : ∀ (n : Nat) (s : NoopState) (p : Int),
    .ok p ∈ outcomes (noopCall (.ok ()) filters) n s → ∃ r, .ok r ∈ s.records ∧ r.position = p ∧ equalsAll filters r = true := by
  have hsearch : ∀ (l : List (Res Rec)), (∀ r, r ∈ (noopSearch filters l).2 → r ∈ l) ∧
      ∀ p, (noopSearch filters l).1 = .ok (some p) → ∃ r, .ok r ∈ l ∧ r.position = p ∧ equalsAll filters r = true := by
    intro l
    induction l with
    | nil => simp [noopSearch]
    | cons x l ih =>
      cases x with
      | error e => simp only [noopSearch]; exact ⟨fun r hr => List.mem_cons_of_mem _ hr, by intro p h; cases h⟩
      | ok r =>
        simp only [noopSearch]
        split
        · exact ⟨fun r hr => List.mem_cons_of_mem _ hr, by intro p h; cases h⟩
        · rename_i hm
          refine ⟨fun r hr => List.mem_cons_of_mem _ hr, ?_⟩
          intro p h
          cases h
          exact ⟨r, List.mem_cons_self, rfl, noopMatches_true hm⟩
        · refine ⟨fun r hr => List.mem_cons_of_mem _ (ih.1 r hr), ?_⟩
          intro p h
          obtain ⟨r', h1, h2⟩ := ih.2 p h
          exact ⟨r', List.mem_cons_of_mem _ h1, h2⟩
  intro n
  induction n with
  | zero => intro s p h; simp [outcomes] at h
  | succ n ih =>
    intro s p h
    simp only [outcomes, noopCall] at h
    by_cases hc : s.closed = true
    · rw [if_pos hc] at h; simp at h
    · rw [if_neg hc] at h
      have hs := hsearch s.records
      cases hx : noopSearch filters s.records with
      | mk res rest =>
        rw [hx] at h hs
        cases res with
        | error e => simp at h
        | ok o =>
          cases o with
          | none => simp at h
          | some q =>
            simp only [List.mem_cons] at h
            rcases h with h | h
            · cases h
              exact hs.2 p rfl
            · obtain ⟨r, h1, h2⟩ := ih _ p h
              exact ⟨r, hs.1 _ h1, h2⟩

/-- The file is closed exactly when a call has reported the end (or closing failed). -/
theorem noop_closed_iff {filters : GoMap Value} : ∀ (n : Nat) (s : NoopState), s.closed = false →
    ((stateAfter (noopCall (.ok ()) filters) n s).closed = true ↔ .ok none ∈ callsOf (noopCall (.ok ()) filters) n s) := by
  intro n
  induction n with
  | zero => intro s h; simp [stateAfter, callsOf, h]
  | succ n ih =>
    intro s h
    simp only [stateAfter, callsOf, List.mem_cons]
    have hcall : (∃ l, noopCall (.ok ()) filters s = (.ok none, { records := l, closed := true })) ∨
        ((noopCall (.ok ()) filters s).2.closed = false ∧ (noopCall (.ok ()) filters s).1 ≠ .ok none) := by
      unfold noopCall
      rw [if_neg (by simp [h])]
      cases hx : noopSearch filters s.records with
      | mk res rest =>
        cases res with
        | error e => right; exact ⟨h, by simp⟩
        | ok o =>
          cases o with
          | none => left; exact ⟨rest, rfl⟩
          | some q => right; exact ⟨h, by simp⟩
    rcases hcall with ⟨l, h1⟩ | ⟨h1, h2⟩
    · rw [h1]
      have hst : ∀ k, (stateAfter (noopCall (.ok ()) filters) k { records := l, closed := true }).closed = true := by
        intro k
        induction k with
        | zero => rfl
        | succ k ihk => simpa [stateAfter, noopCall] using ihk
      simp [hst n]
    · rw [ih _ h1]
      constructor
      · exact Or.inr
      · rintro (h3 | h3)
        · exact absurd h3.symm h2
        · exact h3

/-! ### Failing map builds -/

theorem mapAddScalar_fails {index : GoMap MapPropertyIndex} {p : String} {v : Value} {pos : Int} {e : Fail}
    (hi : ∃ m, mapGet index p = some m) (hs : Scalar v) : mapAddScalar index p v pos ≠ .error e := by
  obtain ⟨m, hm⟩ := hi
  unfold mapAddScalar
  rw [if_neg (by simp [(hashable_iff v).mpr hs])]
  simp only [hm]
  split <;> simp

theorem mapAddScalar_keys {index index' : GoMap MapPropertyIndex} {p : String} {v : Value} {pos : Int}
    (h : mapAddScalar index p v pos = .ok index') : Scalar v ∧ ∀ q, (∃ m, mapGet index q = some m) → ∃ m, mapGet index' q = some m := by
  unfold mapAddScalar at h
  split at h
  · cases h
  · rename_i hh
    refine ⟨(hashable_iff v).mp (by simpa using hh), ?_⟩
    intro q hq
    split at h
    · cases h
    · split at h <;>
      · cases h
        rw [mapGet_mapSet]
        split
        · exact ⟨_, rfl⟩
        · exact hq

theorem mapAddValue_ok {index index' : GoMap MapPropertyIndex} {p : String} {v : Value} {pos : Int}
    (h : mapAddValue index p v pos = .ok index') : Scalar v ∧ ∀ q, (∃ m, mapGet index q = some m) → ∃ m, mapGet index' q = some m := by
  cases v with
  | arr l =>
    simp only [mapAddValue, bind, Except.bind] at h
    split at h
    · cases h
    · exact absurd (mapAddScalar_keys h).1 (by simp [Scalar])
  | obj m => cases h
  | _ => exact mapAddScalar_keys (by simpa [mapAddValue] using h)

theorem mapIndexProperties_ok {r : Rec} : ∀ {props : List String} {index index' : GoMap MapPropertyIndex},
    mapIndexProperties r props index = .ok index' → ∀ p ∈ props, ∃ v, r.get p = .ok v ∧ Scalar v := by
  intro props
  induction props with
  | nil => intro _ _ _ p hp; simp at hp
  | cons p props ih =>
    intro index index' h q hq
    simp only [mapIndexProperties, bind, Except.bind] at h
    cases hg : r.get p with
    | error e => rw [hg] at h; cases h
    | ok v =>
      rw [hg] at h
      simp only at h
      split at h
      · rename_i hm
        rcases List.mem_cons.mp hq with rfl | hq
        · exact ⟨v, hg, (mapAddValue_ok hm).1⟩
        · exact ih h q hq
      · cases h
      · cases h

theorem mapIndexRecords_ok {props : List String} : ∀ {rs : List (Res Rec)} {index index' : GoMap MapPropertyIndex},
    mapIndexRecords props rs index = .ok index' → ∀ r, .ok r ∈ rs → ∀ p ∈ props, ∃ v, r.get p = .ok v ∧ Scalar v := by
  intro rs
  induction rs with
  | nil => intro _ _ _ r hr; simp at hr
  | cons x rs ih =>
    intro index index' h r hr
    simp only [mapIndexRecords, bind, Except.bind] at h
    cases x with
    | error e => cases h
    | ok r0 =>
      simp only at h
      split at h
      · cases h
      · rename_i hm
        rcases List.mem_cons.mp hr with hr | hr
        · cases hr
          exact mapIndexProperties_ok hm
        · exact ih h r hr

/-- Only scalar data can be indexed. -/
theorem newMap_scalar {cfg : MapConfig} {input : Input} {m : MapIndex} {records : List Rec} (h : newMap cfg input = .ok m)
    (hs : input.scan = .ok (records.map .ok)) : ScalarIn records cfg.properties := by
  simp only [newMap, hs, bind, Except.bind] at h
  split at h
  · cases h
  · rename_i hm
    intro r hr
    exact mapIndexRecords_ok hm r (List.mem_map_of_mem hr)

theorem mapIndexProperties_fails {r : Rec} {all : List String} : ∀ {props : List String} {index : GoMap MapPropertyIndex},
    (∀ p ∈ props, p ∈ all) → (∀ p ∈ all, ∃ m, mapGet index p = some m) →
    (∀ p ∈ props, ∀ e, r.get p = .error e → IsError e) → (∀ p ∈ props, ∀ l, r.get p ≠ .ok (.arr l)) →
    (∀ e, mapIndexProperties r props index = .error e → IsError e) ∧
    (∀ index', mapIndexProperties r props index = .ok index' → ∀ p ∈ all, ∃ m, mapGet index' p = some m) := by
  intro props
  induction props with
  | nil =>
    intro index _ h _ _
    refine ⟨?_, ?_⟩
    · intro e he; cases he
    · intro i hi; cases hi; exact h
  | cons p props ih =>
    intro index hsub h he ha
    simp only [mapIndexProperties, bind, Except.bind]
    cases hg : r.get p with
    | error e =>
      simp only
      refine ⟨?_, ?_⟩
      · intro e' h'; cases h'; exact he p List.mem_cons_self e hg
      · intro i hi; cases hi
    | ok v =>
      simp only
      cases hm : mapAddValue index p v r.position with
      | ok index1 =>
        simp only
        have := (mapAddValue_ok hm).2
        exact ih (fun q hq => hsub q (List.mem_cons_of_mem _ hq)) (fun q hq => this q (h q hq))
          (fun q hq => he q (List.mem_cons_of_mem _ hq)) (fun q hq => ha q (List.mem_cons_of_mem _ hq))
      | error e =>
        cases e with
        | err x =>
          simp only
          refine ⟨?_, ?_⟩
          · intro e' h'; cases h'; exact ⟨_, rfl⟩
          · intro i hi; cases hi
        | _ =>
          exfalso
          cases v with
          | arr l => exact ha p List.mem_cons_self l hg
          | obj o => cases hm
          | _ =>
            simp only [mapAddValue] at hm
            exact mapAddScalar_fails (h p (hsub p List.mem_cons_self)) (by simp [Scalar]) hm

theorem mapIndexRecords_fails {props : List String} : ∀ {rs : List (Res Rec)} {index : GoMap MapPropertyIndex},
    (∀ p ∈ props, ∃ m, mapGet index p = some m) → (∀ e, .error e ∈ rs → IsError e) →
    (∀ r, .ok r ∈ rs → ∀ p ∈ props, (∀ e, r.get p = .error e → IsError e) ∧ ∀ l, r.get p ≠ .ok (.arr l)) →
    ∀ e, mapIndexRecords props rs index = .error e → IsError e := by
  intro rs
  induction rs with
  | nil => intro _ _ _ _ e h; cases h
  | cons x rs ih =>
    intro index hi hx hr e h
    simp only [mapIndexRecords, bind, Except.bind] at h
    cases x with
    | error e' => cases h; exact hx e List.mem_cons_self
    | ok r =>
      simp only at h
      have hf := mapIndexProperties_fails (r := r) (index := index) (fun p hp => hp) hi
        (fun p hp => (hr r List.mem_cons_self p hp).1) (fun p hp => (hr r List.mem_cons_self p hp).2)
      split at h
      · rename_i e' he'
        cases h
        exact hf.1 e he'
      · rename_i index1 h1
        exact ih (hf.2 index1 h1) (fun e he => hx e (List.mem_cons_of_mem _ he))
          (fun r' hr' => hr r' (List.mem_cons_of_mem _ hr')) e h

theorem newMap_fails {cfg : MapConfig} {input : Input} {e : Fail} (hin : InputFails IsError input cfg.properties)
    (harr : ∀ rs, input.scan = .ok rs → ∀ r, .ok r ∈ rs → ∀ p ∈ cfg.properties, ∀ l, r.get p ≠ .ok (.arr l))
    (h : newMap cfg input = .error e) : IsError e := by
  simp only [newMap, bind, Except.bind] at h
  cases hs : input.scan with
  | error e' => rw [hs] at h; cases h; exact hin.scan e hs
  | ok rs =>
    rw [hs] at h
    simp only at h
    obtain ⟨h1, _, _⟩ := mapEmpty_spec cfg.properties [] (by intro p m h; cases h)
    split at h
    · rename_i e' he'
      cases h
      exact mapIndexRecords_fails (fun p hp => ⟨_, h1 p hp⟩) (fun e he => hin.next rs hs e he)
        (fun r hr p hp => ⟨fun e he => hin.get rs hs r hr p hp e he, harr rs hs r hr p hp⟩) e he'
    · cases h

end Rodb
