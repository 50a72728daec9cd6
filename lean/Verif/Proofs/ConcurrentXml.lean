import Verif.Proofs.ConcurrentStart
import Verif.Props.XmlInputProps
/-
  Lemmas about the positions that map and default indexes give, and about `Get` of XML inputs.
-/
namespace Rodb
open Spec

/-! ### Map and default indexes -/

/-- The positions of the records of a scan. -/
def ScanPosition (records : List (Res Rec)) (p : Int) : Prop := ∃ r, .ok r ∈ records ∧ r.position = p

theorem noopSearch_within {filters : GoMap Value} {A : Int → Prop} : ∀ {records : List (Res Rec)}, (∀ r, .ok r ∈ records → A r.position) →
    (∀ p, (noopSearch filters records).1 = .ok (some p) → A p) ∧ ∀ r, .ok r ∈ (noopSearch filters records).2 → A r.position
  | [], h => ⟨(fun p hp => by cases hp), h⟩
  | .error e :: rest, h => ⟨(fun p hp => by cases hp), fun r hr => h r (.tail _ hr)⟩
  | .ok x :: rest, h => by
    have htail : ∀ r, .ok r ∈ rest → A r.position := fun r hr => h r (.tail _ hr)
    simp only [noopSearch]
    match noopMatches x filters with
    | .error e => exact ⟨(fun p hp => by cases hp), htail⟩
    | .ok true =>
      refine ⟨fun p hp => ?_, htail⟩
      cases hp
      exact h x (.head _)
    | .ok false => exact noopSearch_within htail

theorem noop_within {input : Input} {filters : GoMap Value} {it : PIter} (h : noopGetRecordPositions input filters = .ok it) :
    ∃ records, input.scan = .ok records ∧ Within (ScanPosition records) it := by
  simp only [noopGetRecordPositions, noopStart, bind_ok] at h
  obtain ⟨s, ⟨records, hscan, hs⟩, h⟩ := h
  cases hs
  cases h
  refine ⟨records, hscan, ?_⟩
  refine outcomes_within (I := fun s : NoopState => ∀ r, .ok r ∈ s.records → ScanPosition records r.position) (fun s hs => ?_) (fun r hr => ⟨r, hr, rfl⟩)
  simp only [noopCall]
  split
  · exact ⟨(fun p hp => by cases hp), hs⟩
  · obtain ⟨h1, h2⟩ := noopSearch_within (filters := filters) hs
    generalize noopSearch filters s.records = j at h1 h2 ⊢
    obtain ⟨res, rest⟩ := j
    match res with
    | .error e => exact ⟨(fun p hp => by cases hp), h2⟩
    | .ok (some q) => exact ⟨h1, h2⟩
    | .ok none => exact ⟨(fun p hp => by cases hp), h2⟩

/-- All the positions of a map index are such ones. -/
def MapWithin (A : Int → Prop) (index : GoMap MapPropertyIndex) : Prop := ∀ property m, mapGet index property = some m → ∀ e ∈ m, ∀ p ∈ e.2, A p

theorem vmapPut_mem {m : MapPropertyIndex} {v : Value} {ps : List Int} : ∀ e ∈ vmapPut m v ps, e.2 = ps ∨ e ∈ m := by
  induction m with
  | nil =>
    intro e he
    rw [List.mem_singleton.1 he]
    exact .inl rfl
  | cons x m ih =>
    obtain ⟨k, ps'⟩ := x
    intro e he
    simp only [vmapPut] at he
    split at he
    · rcases List.mem_cons.1 he with rfl | he
      · exact .inl rfl
      · exact .inr (.tail _ he)
    · rcases List.mem_cons.1 he with rfl | he
      · exact .inr (.head _)
      · rcases ih e he with h | h
        · exact .inl h
        · exact .inr (.tail _ h)

theorem vmapFind_mem {m : MapPropertyIndex} {v : Value} {ps : List Int} (h : vmapFind m v = some ps) : ∃ k, (k, ps) ∈ m := by
  induction m with
  | nil => cases h
  | cons x m ih =>
    obtain ⟨k, ps'⟩ := x
    simp only [vmapFind] at h
    split at h
    · cases h
      exact ⟨k, .head _⟩
    · obtain ⟨k', hk⟩ := ih h
      exact ⟨k', .tail _ hk⟩

theorem MapWithin.put {A : Int → Prop} {index : GoMap MapPropertyIndex} (h : MapWithin A index) {property : String} {m : MapPropertyIndex} (hm : mapGet index property = some m) {v : Value}
    {ps : List Int} (hps : ∀ p ∈ ps, A p) : MapWithin A (mapSet index property (vmapPut m v ps)) := by
  intro q m' hm' e he p hp
  rw [mapGet_mapSet] at hm'
  split at hm'
  · cases hm'
    rcases vmapPut_mem e he with h1 | h1
    · rw [h1] at hp
      exact hps p hp
    · exact h _ _ hm e h1 p hp
  · exact h _ _ hm' e he p hp

theorem mapAddScalar_within {A : Int → Prop} {index index' : GoMap MapPropertyIndex} (h : MapWithin A index) {property : String} {v : Value} {position : Int} (hp : A position)
    (ha : mapAddScalar index property v position = .ok index') : MapWithin A index' := by
  simp only [mapAddScalar] at ha
  split at ha
  · cases ha
  · cases hm : mapGet index property with
    | none => rw [hm] at ha; cases ha
    | some m =>
      rw [hm] at ha
      simp only at ha
      cases hf : vmapFind m v with
      | none =>
        rw [hf] at ha
        cases ha
        exact h.put hm (fun p hp' => by rw [List.mem_singleton.1 hp']; exact hp)
      | some ps =>
        rw [hf] at ha
        cases ha
        refine h.put hm (fun p hp' => ?_)
        rcases List.mem_append.1 hp' with h' | h'
        · obtain ⟨k, hk⟩ := vmapFind_mem hf
          exact h _ _ hm _ hk p h'
        · rw [List.mem_singleton.1 h']; exact hp

mutual
theorem mapAddValue_within {A : Int → Prop} {index index' : GoMap MapPropertyIndex} (h : MapWithin A index) {property : String} {position : Int} (hp : A position) :
    ∀ {v : Value}, mapAddValue index property v position = .ok index' → MapWithin A index'
  | .arr l, ha => by
    rw [mapAddValue, bind_ok] at ha
    obtain ⟨i, h1, h2⟩ := ha
    exact mapAddScalar_within (mapAddValues_within h hp h1) hp h2
  | .obj _, ha => by rw [mapAddValue] at ha; cases ha
  | .null, ha => mapAddScalar_within h hp (by simpa only [mapAddValue] using ha)
  | .bool _, ha => mapAddScalar_within h hp (by simpa only [mapAddValue] using ha)
  | .int _, ha => mapAddScalar_within h hp (by simpa only [mapAddValue] using ha)
  | .float _, ha => mapAddScalar_within h hp (by simpa only [mapAddValue] using ha)
  | .str _, ha => mapAddScalar_within h hp (by simpa only [mapAddValue] using ha)
theorem mapAddValues_within {A : Int → Prop} {index index' : GoMap MapPropertyIndex} (h : MapWithin A index) {property : String} {position : Int} (hp : A position) :
    ∀ {l : List Value}, mapAddValues index property l position = .ok index' → MapWithin A index'
  | [], ha => by rw [mapAddValues] at ha; cases ha; exact h
  | v :: vs, ha => by
    rw [mapAddValues, bind_ok] at ha
    obtain ⟨i, h1, h2⟩ := ha
    exact mapAddValues_within (mapAddValue_within h hp h1) hp h2
end

theorem mapIndexProperties_within {A : Int → Prop} {r : Rec} (hr : A r.position) : ∀ {properties : List String} {index index' : GoMap MapPropertyIndex}, MapWithin A index →
    mapIndexProperties r properties index = .ok index' → MapWithin A index'
  | [], _, _, h, ha => by cases ha; exact h
  | property :: rest, index, index', h, ha => by
    simp only [mapIndexProperties, bind_ok] at ha
    obtain ⟨v, _, ha⟩ := ha
    cases hv : mapAddValue index property v r.position with
    | ok i =>
      rw [hv] at ha
      exact mapIndexProperties_within hr (mapAddValue_within h hr hv) ha
    | error e => rw [hv] at ha; cases e <;> cases ha

theorem mapIndexRecords_within {A : Int → Prop} {properties : List String} : ∀ {records : List (Res Rec)} {index index' : GoMap MapPropertyIndex}, (∀ r, .ok r ∈ records → A r.position) →
    MapWithin A index → mapIndexRecords properties records index = .ok index' → MapWithin A index'
  | [], _, _, _, h, ha => by cases ha; exact h
  | x :: rest, index, index', hr, h, ha => by
    simp only [mapIndexRecords, bind_ok] at ha
    obtain ⟨r, rfl, i, h1, h2⟩ := ha
    exact mapIndexRecords_within (fun r hr' => hr r (.tail _ hr')) (mapIndexProperties_within (hr r (.head _)) h h1) h2

theorem mapEmpty_within {A : Int → Prop} : ∀ {properties : List String} {index : GoMap MapPropertyIndex}, MapWithin A index → MapWithin A (mapEmpty properties index)
  | [], _, h => h
  | property :: rest, index, h => by
    refine mapEmpty_within (properties := rest) (index := mapSet index property []) (fun q m hm e he p hp => ?_)
    rw [mapGet_mapSet] at hm
    split at hm
    · cases hm
      cases he
    · exact h _ _ hm e he p hp

theorem mapFilters_within {A : Int → Prop} {m : MapIndex} (h : MapWithin A m.index) : ∀ {filters : GoMap Value} {its : List PIter}, mapFilters m filters = .ok (some its) →
    ∀ it ∈ its, Within A it
  | [], its, hf => by cases hf; exact fun it hit => by cases hit
  | (property, filter) :: rest, its, hf => by
    simp only [mapFilters] at hf
    split at hf
    · cases hf
    · cases hm : mapGet m.index property with
      | none => rw [hm] at hf; cases hf
      | some values =>
        rw [hm] at hf
        simp only at hf
        split at hf
        · cases hf
        · cases hv : vmapFind values filter with
          | none => rw [hv] at hf; cases hf
          | some results =>
            rw [hv] at hf
            simp only at hf
            cases hr : mapFilters m rest with
            | error e => rw [hr] at hf; cases hf
            | ok o =>
              rw [hr] at hf
              cases o with
              | none => cases hf
              | some its' =>
                cases hf
                intro it hit
                rcases List.mem_cons.1 hit with rfl | hit
                · intro p hp
                  obtain ⟨q, hq, e⟩ := List.mem_map.1 hp
                  cases e
                  obtain ⟨k, hk⟩ := vmapFind_mem hv
                  exact h _ _ hm _ hk p hq
                · exact mapFilters_within h hr it hit

theorem map_within {config : MapConfig} {input : Input} {m : MapIndex} (hm : newMap config input = .ok m) {name : String} {filters : GoMap Value} {it : PIter}
    (h : m.getRecordPositions name filters = .ok it) : name = input.name ∧ ∃ records, input.scan = .ok records ∧ Within (ScanPosition records) it := by
  simp only [newMap, bind_ok, ok_inj] at hm
  obtain ⟨records, hscan, index, hindex, rfl⟩ := hm
  have hw := mapIndexRecords_within (A := ScanPosition records) (fun r hr => ⟨r, hr, rfl⟩) (mapEmpty_within (fun q m hm => by cases hm)) hindex
  simp only [MapIndex.getRecordPositions] at h
  by_cases hn : name = input.name
  · refine ⟨hn, records, hscan, ?_⟩
    rw [if_neg (fun h => h hn)] at h
    split at h
    · cases h
    · cases hf : mapFilters { config := config, inputName := input.name, index := index } filters with
      | error e => rw [hf] at h; cases h
      | ok o =>
        rw [hf] at h
        cases o with
        | none =>
          cases h
          exact fun p hp => by cases hp
        | some its =>
          cases h
          exact joinIters_within (mapFilters_within hw hf)
  · rw [if_pos hn] at h
    cases h

/-! ### `Get` of XML inputs -/

/-- What is known of a call of `Get` of an XML input: the state of the parser is one after fetches of records. -/
def XmlCall.Idle (lex : XmlLexer) (query : XmlQuery) (make : XmlNode → Int → Rec) (content : Bytes) (records : List Rec) (s : XmlStream) : Prop :=
  ∃ before : List Int, (∀ p ∈ before, ∃ r ∈ records, r.position = p) ∧ s = xmlAfter lex query make content before

def XmlCall.Mid (lex : XmlLexer) (query : XmlQuery) (make : XmlNode → Int → Rec) (content : Bytes) (records : List Rec) (fetch : Int → Res Rec) (p : Int) (call : Int ⊕ Res Rec)
    (s : XmlStream) : Prop :=
  XmlCall.Idle lex query make content records s ∧ (∃ r ∈ records, r.position = p) ∧ (call = .inl p ∨ call = .inr (fetch p))

theorem xmlGet_computes (lex : XmlLexer) (hl : SteadyLexer lex) (query : XmlQuery) (P : String → List (String × Bytes) → Bool) (hq : LooksFor query P)
    (make : XmlNode → Int → Rec) (hmake : ∀ node p, (make node p).position = p) (content : Bytes) (nodes : List XmlNode) (h : IsDocument lex content nodes) (hs : Straight P nodes)
    (records : List Rec) (hscan : xmlScan lex query make content = .ok (records.map .ok)) (fetch : Int → Res Rec) (hfetch : ∀ r ∈ records, fetch r.position = .ok r) :
    (xmlGet lex query make content).Computes fetch (fun p => ∃ r ∈ records, r.position = p) (XmlCall.Idle lex query make content records)
      (XmlCall.Mid lex query make content records fetch) := by
  have hget : ∀ s p, XmlCall.Idle lex query make content records s → (∃ r ∈ records, r.position = p) →
      (xmlFetch lex query make content s p).1 = fetch p ∧ XmlCall.Idle lex query make content records (xmlFetch lex query make content s p).2 := by
    rintro s p ⟨before, hb, rfl⟩ ⟨r, hr, rfl⟩
    refine ⟨?_, r.position :: before, ?_, rfl⟩
    · rw [C99_xml_fetch_partial lex hl query P hq make hmake content nodes h hs records hscan before hb r hr, hfetch r hr]
    · intro p hp
      rcases List.mem_cons.1 hp with rfl | hp
      · exact ⟨r, hr, rfl⟩
      · exact hb p hp
  refine ⟨fun {s} hs => ⟨[], (fun p hp => by cases hp), hs⟩, fun {s p} hs hp => ⟨hs, hp, .inl rfl⟩, ?_, ?_, ?_⟩
  · rintro p call s call' s' ⟨hidle, hp, hcall⟩ ⟨q, rfl, rfl, rfl⟩
    rcases hcall with h | h
    · cases h
      obtain ⟨h1, h2⟩ := hget s p hidle hp
      exact ⟨h2, hp, .inr (by rw [h1])⟩
    · cases h
  · rintro p call s r ⟨hidle, hp, hcall⟩ hr
    rcases hcall with rfl | rfl
    · cases hr
    · cases hr
      exact ⟨rfl, hidle⟩
  · rintro p call s ⟨hidle, hp, hcall⟩
    rcases hcall with rfl | rfl
    · exact ⟨_, _, _, .head ⟨p, rfl, rfl, rfl⟩ .refl, rfl⟩
    · exact ⟨_, _, _, .refl, rfl⟩

end Rodb
