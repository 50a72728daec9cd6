import Verif.Spec.Unindexed
import Verif.Proofs.Added
import Verif.Props.MapNoopProps
/-
  Full scans instead of map indexes: the outputs.
-/
namespace Rodb
open Spec

/-- The second environment differs from the first one in the chosen indexes only, and they give the same answers as long as they are asked for scalars that they handle. -/
structure EnvSame (chosen : String → Bool) (handles : String → Input → String → Prop) (env env' : OutputEnv) : Prop where
  inputs : ∀ n, mapGet env'.inputs n = mapGet env.inputs n
  parsers : ∀ n, mapGet env'.parsers n = mapGet env.parsers n
  defaultIndex : env'.defaultIndex = env.defaultIndex
  sort : env'.sort = env.sort
  visit : ∀ path (α : Type) (l : List α), env'.visit path l = env.visit path l
  perm : ∀ path (α : Type) (l : List α), (env.visit path l).Perm l
  sorts : ∀ less l, (env.sort less l).Perm l
  indexes : ∀ n, mapGet env'.indexes n = mapGet env.indexes n ∨
    (chosen n = true ∧ ∃ i i', mapGet env.indexes n = some i ∧ mapGet env'.indexes n = some i' ∧
      ∀ input filters, filters ≠ [] → (∀ pf ∈ filters, handles n input pf.1 ∧ Scalar pf.2) → i' input filters = i input filters)

/-- Each of the chosen indexes is asked for scalars that it handles. -/
def AskedWell (chosen : String → Bool) (handles : String → Input → String → Prop) (input : Input) (filters : GoMap (GoMap Value)) : Prop :=
  ∀ e ∈ filters, e.2 ≠ [] ∧ (chosen e.1 = true → ∀ pf ∈ e.2, handles e.1 input pf.1 ∧ Scalar pf.2)

variable {chosen : String → Bool} {handles : String → Input → String → Prop} {env env' : OutputEnv}

theorem filteredPositionsLoop_same (h : EnvSame chosen handles env env') (path : List Nat) (input : Input) : ∀ (i : Nat) (filters : GoMap (GoMap Value)),
    AskedWell chosen handles input filters → filteredPositionsLoop env' path input i filters = filteredPositionsLoop env path input i filters
  | _, [], _ => rfl
  | i, (n, f) :: rest, hk => by
    have hr := filteredPositionsLoop_same h path input (i + 1) rest (fun e he => hk e (.tail _ he))
    obtain ⟨hne, hf⟩ := hk _ (.head _)
    rcases h.indexes n with e | ⟨hc, a, b, ha, hb, hab⟩
    · simp only [filteredPositionsLoop, e, h.visit, hr]
    · have e := hab input (env.visit (2 :: i :: path) f) (fun he => hne (List.Perm.nil_eq (he ▸ h.perm _ _ f)).symm) (fun pf hpf => hf hc pf ((h.perm _ _ _).subset hpf))
      simp only [filteredPositionsLoop, ha, hb, h.visit, hr, e]

theorem filteredPositions_same (h : EnvSame chosen handles env env') (path : List Nat) (input : Input) {filters : GoMap (GoMap Value)} (hk : AskedWell chosen handles input filters) :
    filteredPositions env' path input filters = filteredPositions env path input filters := by
  simp only [filteredPositions, h.defaultIndex, h.visit]
  rw [filteredPositionsLoop_same h path input 0 _ (fun e he => hk e ((h.perm _ _ _).subset he))]

theorem mapSet_ne_nil {α : Type} (m : GoMap α) (k : String) (v : α) : mapSet m k v ≠ [] := by
  intro h
  have := mapGet_mapSet m k v k
  rw [h] at this
  simp [mapGet] at this

theorem askedWell_add {input : Input} {filters : GoMap (GoMap Value)} (h : AskedWell chosen handles input filters) {index property : String} {v : Value}
    (hv : chosen index = true → handles index input property ∧ Scalar v) : AskedWell chosen handles input (addFilter filters index property v) := by
  intro e he
  obtain ⟨n, f⟩ := e
  simp only [addFilter] at he
  split at he
  · rename_i old hold
    rcases mapSet_mem he with he | ⟨rfl, rfl⟩
    · exact h _ he
    · refine ⟨mapSet_ne_nil _ _ _, fun hc pf hpf => ?_⟩
      obtain ⟨q, w⟩ := pf
      rcases mapSet_mem hpf with hpf | ⟨rfl, rfl⟩
      · exact (h _ (mapGet_mem hold)).2 hc _ hpf
      · exact hv hc
  · rcases mapSet_mem he with he | ⟨rfl, rfl⟩
    · exact h _ he
    · refine ⟨mapSet_ne_nil _ _ _, fun hc pf hpf => ?_⟩
      obtain ⟨q, w⟩ := pf
      rcases mapSet_mem hpf with hpf | ⟨rfl, rfl⟩
      · cases hpf
      · exact hv hc

theorem relationshipFilters_asked {data : GoMap Value} {input : Input} : ∀ {matching : List MatchConfig} {filters r : GoMap (GoMap Value)},
    relationshipFilters data matching filters = .ok r →
    (∀ m ∈ matching, ∀ v, mapGet data m.parentProperty = some v → chosen m.childIndex = true → handles m.childIndex input m.childProperty ∧ Scalar v) →
    AskedWell chosen handles input filters → AskedWell chosen handles input r
  | [], _, _, h, _, hf => by cases h; exact hf
  | m :: rest, filters, r, h, hm, hf => by
    simp only [relationshipFilters] at h
    split at h
    · cases h
    · rename_i v hv
      exact relationshipFilters_asked h (fun m hm' => hm m (.tail _ hm')) (askedWell_add hf (hm m (.head _) v hv))

/-! ### Relationships -/

/-- What the data has, apart from these names, is in a record of the input. -/
def FromRecord (inputs : GoMap Input) (parent : String) (names : List String) (data : GoMap Value) : Prop :=
  ∀ k v, mapGet data k = some v → k ∈ names ∨ ∃ i position r d, mapGet inputs parent = some i ∧ i.fetch position = .ok r ∧ r.all = .ok d ∧ mapGet d k = some v

theorem allPlainMatches_mem {inputs : GoMap Input} {parent : String} {names : List String} : ∀ {l : List (String × Relationship)}, AllPlainMatches inputs chosen parent names l →
    ∀ e ∈ l, PlainMatches inputs chosen parent names e.2
  | [], _, e, he => by cases he
  | (n, r) :: rest, h, e, he => by
    simp only [AllPlainMatches] at h
    rcases List.mem_cons.1 he with rfl | he
    · exact h.1
    · exact allPlainMatches_mem h.2 e he

theorem collectRecords_fetched {input : Input} : ∀ {it : PIter} {l : List Rec}, collectRecords input it = .ok l → ∀ r ∈ l, ∃ position, input.fetch position = .ok r
  | [], l, h, r, hr => by cases h; cases hr
  | .error e :: _, l, h, r, hr => by cases h
  | .ok p :: rest, l, h, r, hr => by
    simp only [collectRecords] at h
    split at h
    · cases h
    · rename_i r' hr'
      split at h
      · cases h
      · rename_i rs hrs
        cases h
        rcases List.mem_cons.1 hr with rfl | hr
        · exact ⟨p, hr'⟩
        · exact collectRecords_fetched hrs r hr

theorem loadItems_same {nested nested' : Nat → GoMap Value → Res (GoMap Value)} (count : Int) : ∀ (i : Nat) (l : List Rec),
    (∀ r ∈ l, ∀ data, r.all = .ok data → ∀ i, nested' i data = nested i data) → loadItems nested' count i l = loadItems nested count i l
  | _, [], _ => rfl
  | i, r :: rest, h => by
    simp only [loadItems]
    cases hr : r.all with
    | error e => rfl
    | ok data => simp only [h r (.head _) data hr i, loadItems_same count (i + 1) rest (fun r hr => h r (.tail _ hr))]

theorem loadLoop_same {load load' : Nat → GoMap Value → Relationship → Res Value} {P : GoMap Value → Prop} : ∀ (l : List (String × Relationship)) (i : Nat) (data : GoMap Value),
    P data → (∀ e ∈ l, ∀ data v, P data → P (mapSet data e.1 v)) → (∀ e ∈ l, ∀ i data, P data → load' i data e.2 = load i data e.2) → loadLoop load' i data l = loadLoop load i data l
  | [], _, _, _, _, _ => rfl
  | (n, r) :: rest, i, data, hP, hset, h => by
    simp only [loadLoop, h (n, r) (.head _) i data hP]
    cases load i data r with
    | error e => rfl
    | ok v => exact loadLoop_same rest (i + 1) _ (hset _ (.head _) data v hP) (fun e he => hset e (.tail _ he)) (fun e he => h e (.tail _ he))

/-- The chosen indexes handle what the relationships ask them for. -/
def HandledIn (chosen : String → Bool) (handles : String → Input → String → Prop) (env : OutputEnv) (l : List Relationship) : Prop :=
  ∀ r ∈ l, ∀ m ∈ matchesOfRelationship r, chosen m.childIndex = true → ∀ input, mapGet env.inputs (inputOfRelationship r) = some input → handles m.childIndex input m.childProperty

theorem sortRecords_mem (hs : ∀ less l, (env.sort less l).Perm l) {sort : List SortConfig} {l : List Rec} {r : Rec} (h : r ∈ sortRecords env.sort sort l) : r ∈ l :=
  (hs _ _).subset h

theorem loadRelationship_same (h : EnvSame chosen handles env env') {nested nested' : List Nat → GoMap Value → List (String × Relationship) → Res (GoMap Value)} (path : List Nat)
    (data : GoMap Value) (r : Relationship) {parent : String} {names : List String} (hd : FromRecord env.inputs parent names data) (hf : HandledIn chosen handles env (relationshipWithNested r))
    (hp : PlainMatches env.inputs chosen parent names r)
    (hn : ∀ path data l parent names, FromRecord env.inputs parent names data → names = l.map (·.1) → HandledIn chosen handles env (relationshipsAll l) → AllPlainMatches env.inputs chosen parent names l →
      nested' path data l = nested path data l) :
    loadRelationship env' nested' path data r = loadRelationship env nested path data r := by
  cases r with
  | mk inputName isArray limit sort matching relationships =>
    simp only [loadRelationship, h.inputs]
    cases hfil : relationshipFilters data matching [] with
    | error e => rfl
    | ok filters =>
      cases hi : mapGet env.inputs inputName with
      | none => rfl
      | some input =>
        simp only [PlainMatches] at hp
        have hk : AskedWell chosen handles input filters := by
          refine relationshipFilters_asked hfil ?_ (fun e he => by cases he)
          intro m hm v hv hc
          refine ⟨hf (.mk inputName isArray limit sort matching relationships) (by simp only [relationshipWithNested]; exact .head _) m hm hc input hi, ?_⟩
          obtain ⟨h1, h2⟩ := hp.1 m hm hc
          rcases hd _ _ hv with hv | ⟨i, position, r, d, e1, e2, e3, e4⟩
          · exact absurd hv h1
          · exact h2 i e1 position r d v e2 e3 e4
        simp only [filteredPositions_same h path input hk, h.sort]
        cases filteredPositions env path input filters with
        | error e => rfl
        | ok its =>
          simp only
          cases hcol : collectRecords input (joinIters its) with
          | error e => rfl
          | ok records =>
            have hmem : ∀ r ∈ (if sort.length > 0 then sortRecords env.sort sort records else records), ∃ position, input.fetch position = .ok r := by
              intro r hr
              refine collectRecords_fetched hcol r ?_
              split at hr
              · exact sortRecords_mem h.sorts hr
              · exact hr
            simp only
            rw [loadItems_same]
            intro r hr data hdata i
            obtain ⟨position, hfetch⟩ := hmem r hr
            exact hn _ _ _ inputName (relationships.map (·.1)) (fun k v hkv => .inr ⟨input, position, r, data, hi, hfetch, hdata, hkv⟩) rfl
              (fun r hr => hf r (by simp only [relationshipWithNested]; exact .tail _ hr)) hp.2

theorem loadRelationships_same (h : EnvSame chosen handles env env') : ∀ (fuel : Nat) (path : List Nat) (data : GoMap Value) (l : List (String × Relationship)) (parent : String) (names : List String),
    FromRecord env.inputs parent names data → names = l.map (·.1) → HandledIn chosen handles env (relationshipsAll l) → AllPlainMatches env.inputs chosen parent names l →
    loadRelationships env' fuel path data l = loadRelationships env fuel path data l
  | 0, _, _, [], _, _, _, _, _, _ => rfl
  | _+1, _, _, [], _, _, _, _, _, _ => rfl
  | 0, _, _, _ :: _, _, _, _, _, _, _ => rfl
  | fuel+1, path, data, x :: l, parent, names, hd, hnames, hf, hp => by
    simp only [loadRelationships, h.visit]
    refine loadLoop_same (P := FromRecord env.inputs parent names) _ 0 data hd ?_ ?_
    · intro e he data v hdata k w hkw
      rw [mapGet_mapSet] at hkw
      split at hkw
      · rename_i hk
        subst hk
        exact .inl (by rw [hnames]; exact List.mem_map_of_mem ((h.perm _ _ _).subset he))
      · exact hdata k w hkw
    · intro e he i data hdata
      have he := (h.perm _ _ _).subset he
      exact loadRelationship_same h (i :: path) data e.2 hdata (fun r hr => hf r (relationshipsAll_entry he hr)) (allPlainMatches_mem hp e he)
        (fun path data l parent names a b c d => loadRelationships_same h fuel path data l parent names a b c d)

theorem dataFromPosition_same (h : EnvSame chosen handles env env') (path : List Nat) (root : String) {l : List (String × Relationship)}
    (hf : HandledIn chosen handles env (relationshipsAll l)) (hp : AllPlainMatches env.inputs chosen root (l.map (·.1)) l) (position : Int) :
    dataFromPosition env' path root l position = dataFromPosition env path root l position := by
  simp only [dataFromPosition, h.inputs]
  cases hi : mapGet env.inputs root with
  | none => rfl
  | some input =>
    simp only
    cases hr : input.fetch position with
    | error e => rfl
    | ok r =>
      simp only
      cases hd : r.all with
      | error e => rfl
      | ok data => exact loadRelationships_same h _ _ data l root _ (fun k v hkv => .inr ⟨input, position, r, data, hi, hr, hd, hkv⟩) rfl hf hp

/-! ### Parameters -/

/-- The chosen indexes are asked for scalars that they handle. -/
def ParametersPlain (chosen : String → Bool) (handles : String → Input → String → Prop) (env : OutputEnv) (input : Input) (l : GoMap ParamConfig) : Prop :=
  ∀ e ∈ l, chosen e.2.index = true → handles e.2.index input e.2.property ∧ ∀ f text v, mapGet env.parsers e.2.parser = some f → f text = .ok v → Scalar v

theorem arrayFilters_same (h : EnvSame chosen handles env env') (params : GoMap Bytes) : ∀ (l : GoMap ParamConfig) (filters : GoMap (GoMap Value)),
    arrayFilters env' params l filters = arrayFilters env params l filters
  | [], _ => rfl
  | (n, p) :: rest, filters => by simp only [arrayFilters, h.parsers, arrayFilters_same h params rest]

theorem objectFilters_same (h : EnvSame chosen handles env env') (params : GoMap Bytes) : ∀ (l : GoMap ParamConfig) (filters : GoMap (GoMap Value)),
    objectFilters env' params l filters = objectFilters env params l filters
  | [], _ => rfl
  | (n, p) :: rest, filters => by simp only [objectFilters, h.parsers, objectFilters_same h params rest]

theorem arrayFilters_asked {params : GoMap Bytes} {input : Input} : ∀ {l : GoMap ParamConfig} {filters r : GoMap (GoMap Value)},
    arrayFilters env params l filters = .ok r → ParametersPlain chosen handles env input l → AskedWell chosen handles input filters → AskedWell chosen handles input r
  | [], _, _, h, _, hf => by cases h; exact hf
  | (n, p) :: rest, filters, r, h, hm, hf => by
    have hr : ParametersPlain chosen handles env input rest := fun e he => hm e (.tail _ he)
    simp only [arrayFilters] at h
    split at h
    · exact arrayFilters_asked h hr hf
    · split at h
      · cases h
      · rename_i parse hparse
        split at h
        · cases h
        · rename_i v hv
          exact arrayFilters_asked h hr (askedWell_add hf (fun hc => ⟨(hm _ (.head _) hc).1, (hm _ (.head _) hc).2 parse _ v hparse hv⟩))

theorem objectFilters_asked {params : GoMap Bytes} {input : Input} : ∀ {l : GoMap ParamConfig} {filters r : GoMap (GoMap Value)},
    objectFilters env params l filters = .ok r → ParametersPlain chosen handles env input l → AskedWell chosen handles input filters → AskedWell chosen handles input r
  | [], _, _, h, _, hf => by cases h; exact hf
  | (n, p) :: rest, filters, r, h, hm, hf => by
    have hr : ParametersPlain chosen handles env input rest := fun e he => hm e (.tail _ he)
    simp only [objectFilters] at h
    split at h
    · cases h
    · rename_i parse hparse
      split at h
      · cases h
      · rename_i v hv
        exact objectFilters_asked h hr (askedWell_add hf (fun hc => ⟨(hm _ (.head _) hc).1, (hm _ (.head _) hc).2 parse _ v hparse hv⟩))

theorem handleArray_same (h : EnvSame chosen handles env env') (c : ArrayConfig) (hp : ∀ input, mapGet env.inputs c.input = some input → ParametersPlain chosen handles env input c.parameters)
    (hf : HandledIn chosen handles env (relationshipsAll c.relationships)) (hr : AllPlainMatches env.inputs chosen c.input (c.relationships.map (·.1)) c.relationships) (params : GoMap Bytes) :
    handleArray env' c params = handleArray env c params := by
  simp only [handleArray, h.visit, arrayFilters_same h params, dataFromPosition_same h _ _ hf hr, h.inputs]
  cases getLimit c.limit params with
  | error e => rfl
  | ok limit =>
    cases getOffset c.offsetParameter params with
    | error e => rfl
    | ok offset =>
      simp only
      cases hfil : arrayFilters env params (env.visit [0] c.parameters) [] with
      | error e => rfl
      | ok filters =>
        cases hi : mapGet env.inputs c.input with
        | none => rfl
        | some input =>
          have hk := arrayFilters_asked hfil (fun e he => hp input hi e ((h.perm _ _ _).subset he)) (fun e he => by cases he)
          simp only [filteredPositions_same h [] input hk]

theorem handleObject_same (h : EnvSame chosen handles env env') (c : ObjectConfig) (hp : ∀ input, mapGet env.inputs c.input = some input → ParametersPlain chosen handles env input c.parameters)
    (hf : HandledIn chosen handles env (relationshipsAll c.relationships)) (hr : AllPlainMatches env.inputs chosen c.input (c.relationships.map (·.1)) c.relationships) (params : GoMap Bytes) :
    handleObject env' c params = handleObject env c params := by
  simp only [handleObject, h.visit, objectFilters_same h params, dataFromPosition_same h _ _ hf hr, h.inputs]
  cases hfil : objectFilters env params (env.visit [0] c.parameters) [] with
  | error e => rfl
  | ok filters =>
    cases hi : mapGet env.inputs c.input with
    | none => rfl
    | some input =>
      have hk := objectFilters_asked hfil (fun e he => hp input hi e ((h.perm _ _ _).subset he)) (fun e he => by cases he)
      simp only [filteredPositions_same h [] input hk]

end Rodb
