import Verif.Proofs.Unindexed
import Verif.Proofs.AddedStart
/-
  Full scans instead of map indexes: the program.
-/
namespace Rodb
open Spec

theorem mapIndexRecords_read {properties : List String} : ∀ {l : List (Res Rec)} {index r : GoMap MapPropertyIndex}, mapIndexRecords properties l index = .ok r → ∃ records : List Rec, l = records.map .ok
  | [], _, _, _ => ⟨[], rfl⟩
  | .error e :: rest, _, _, h => by simp only [mapIndexRecords, bind, Except.bind, reduceCtorEq] at h
  | .ok x :: rest, index, r, h => by
    simp only [mapIndexRecords, bind_ok, ok_inj] at h
    obtain ⟨y, rfl, index', _, h⟩ := h
    obtain ⟨records, rfl⟩ := mapIndexRecords_read h
    exact ⟨x :: records, rfl⟩

theorem newMap_scanned {cfg : MapConfig} {input : Input} {m : MapIndex} (h : newMap cfg input = .ok m) : ∃ records : List Rec, input.scan = .ok (records.map .ok) := by
  simp only [newMap, bind_ok] at h
  obtain ⟨l, hl, index, hi, _⟩ := h
  obtain ⟨records, rfl⟩ := mapIndexRecords_read hi
  exact ⟨records, hl⟩

/-- A map index that could be built gives the answers of the full scan. -/
theorem newMap_scan {cfg : MapConfig} {input : Input} {m : MapIndex} (h : newMap cfg input = .ok m) (hnd : cfg.properties.Nodup) (ho : PositionsIncrease input) (filters : GoMap Value) (hne : filters ≠ [])
    (hf : ∀ pf ∈ filters, pf.1 ∈ cfg.properties ∧ Scalar pf.2) : noopGetRecordPositions input filters = m.getRecordPositions input.name filters := by
  obtain ⟨records, hs⟩ := newMap_scanned h
  obtain ⟨m', h1, h2⟩ := C15_map_equals_scan cfg input records hnd ⟨hs, ho records hs⟩ (C16_only_scalars_indexed cfg input records m hs h)
  rw [h] at h1
  cases h1
  exact (h2 filters hne hf).symm

theorem parse_scalar {lib : ParserLib} {parsers : GoMap ParserConfig} {fuel : Nat} {c : ParserConfig} (hc : c.primitive = true) {text : Bytes} {v : Value} (h : parse lib parsers fuel c text = .ok v) : Scalar v := by
  cases c with
  | string convert =>
    simp only [parse, stringParse] at h
    split at h
    · cases h; trivial
    · split at h <;> cases h; trivial
  | integer ignore =>
    simp only [parse, integerParse] at h
    split at h <;> cases h; trivial
  | float s i =>
    simp only [parse, floatParse] at h
    split at h <;> cases h; trivial
  | boolean a b =>
    simp only [parse, booleanParse] at h
    split at h
    · cases h; trivial
    · split at h <;> cases h; trivial
  | json => cases hc
  | split d p => cases hc

theorem instantiate_primitive {lib : StartLib} {p : ParserDecl} {t : TextParser} (h : p.instantiate lib = .ok t) (hp : p.primitive = true) : t.config.primitive = true := by
  obtain ⟨name, kind⟩ := p
  cases kind with
  | string charset =>
    simp only [ParserDecl.instantiate] at h
    split at h
    · simp only [bind_ok, ok_inj] at h
      obtain ⟨_, _, rfl⟩ := h
      rfl
    · cases h; rfl
  | integer i => cases h; rfl
  | float s i => cases h; rfl
  | boolean a b => cases h; rfl
  | json => cases hp
  | split d r q => cases hp

theorem parseFunctions_scalar {lib : StartLib} {texts : GoMap TextParser} {n : String} {t : TextParser} (ht : mapGet texts n = some t) (hp : t.config.primitive = true) {f : Bytes → Res Value}
    (hf : mapGet (parseFunctions lib texts) n = some f) {text : Bytes} {v : Value} (h : f text = .ok v) : Scalar v := by
  simp only [parseFunctions] at hf
  rw [mapGet_mapValues (g := fun q : TextParser => parse lib.parserLib (texts.map (fun q => (q.1, q.2.config))) texts.length q.config), ht] at hf
  cases hf
  exact parse_scalar hp h

/-- The second configuration has full scans instead of the chosen map indexes of the first one. -/
structure ConfigScanned (chosen : String → Bool) (c c' : Config) : Prop where
  parsers : c.parsers.Perm c'.parsers
  inputs : c.inputs.Perm c'.inputs
  services : c.services.Perm c'.services
  outputs : c.outputs.Perm c'.outputs
  indexes : ∀ n, mapGet c'.indexes n = (mapGet c.indexes n).map (scannedIndex chosen)
  nodup : (c'.indexes.map (·.1)).Nodup
  maps : ∀ n d, mapGet c.indexes n = some (.map d) → d.name = n ∧ d.properties.Nodup

/-- The name is the one of a chosen map index. -/
def chosenMap (chosen : String → Bool) (c : Config) (n : String) : Bool :=
  chosen n && (match mapGet c.indexes n with | some (.map _) => true | _ => false)

mutual
theorem plainMatches_mono {inputs : GoMap Input} {chosen chosen' : String → Bool} (h : ∀ n, chosen' n = true → chosen n = true) : ∀ (r : Relationship) {parent : String} {names : List String},
    PlainMatches inputs chosen parent names r → PlainMatches inputs chosen' parent names r
  | .mk input isArray limit sort matching relationships, parent, names, hp => by
    simp only [PlainMatches] at hp ⊢
    exact ⟨fun m hm hc => hp.1 m hm (h _ hc), allPlainMatches_mono h relationships hp.2⟩
theorem allPlainMatches_mono {inputs : GoMap Input} {chosen chosen' : String → Bool} (h : ∀ n, chosen' n = true → chosen n = true) : ∀ (l : List (String × Relationship)) {parent : String} {names : List String},
    AllPlainMatches inputs chosen parent names l → AllPlainMatches inputs chosen' parent names l
  | [], _, _, _ => by simp only [AllPlainMatches]
  | (_, .mk input isArray limit sort matching relationships) :: rest, parent, names, hp => by
    simp only [AllPlainMatches] at hp ⊢
    exact ⟨plainMatches_mono h (.mk input isArray limit sort matching relationships) hp.1, allPlainMatches_mono h rest hp.2⟩
end

/-- The map index of this name is for this input and this property. -/
def MapHandles (c : Config) (inputs : GoMap Input) (n : String) (input : Input) (property : String) : Prop :=
  ∃ d, mapGet c.indexes n = some (.map d) ∧ property ∈ d.properties ∧ mapGet inputs d.input = some input

theorem start_scanned {chosen : String → Bool} (hdefault : chosen "default" = false) {lib : StartLib} (hsort : SortContract lib.sort)
    (hvisit : ∀ path (α : Type) (l : List α), (lib.visit path l).Perm l)
    (hin : ∀ texts texts' : GoMap TextParser, texts.Perm texts' → (texts.map (·.1)).Nodup → InputDecl.instantiate lib texts = InputDecl.instantiate lib texts')
    {c c' : Config} (hr : References c) (hk : ConfigScanned chosen c c') (hn1 : (c.parsers.map (·.1)).Nodup) (hn2 : (c.inputs.map (·.1)).Nodup)
    (hn4 : (c.outputs.map (·.1)).Nodup) (hn5 : (c.services.map (·.1)).Nodup)
    {texts : GoMap TextParser} {inputs : GoMap Input} {indexes : GoMap IndexFn} {apis : GoMap OutputApi} {s : GoMap (String × List Route)}
    (q1 : instantiateMap (ParserDecl.instantiate lib) c.parsers = .ok texts) (q2 : instantiateMap (InputDecl.instantiate lib texts) c.inputs = .ok inputs)
    (q3 : instantiateMap (IndexDecl.instantiate lib inputs) c.indexes = .ok indexes) (q4 : instantiateMap (OutputDecl.instantiate lib inputs indexes texts) c.outputs = .ok apis)
    (q5 : instantiateMap (ServiceDecl.instantiate lib apis) c.services = .ok s)
    (hordered : ∀ n d input, mapGet c.indexes n = some (.map d) → chosen n = true → mapGet inputs d.input = some input → PositionsIncrease input)
    (hplain : ∀ n o, mapGet c.outputs n = some o → ∀ root, inputOfOutput o = some root → AllPlainMatches inputs chosen root ((relationshipsOfOutput o).map (·.1)) (relationshipsOfOutput o)) :
    ∃ s', start lib c' = .ok s' ∧ ∀ n, mapGet s' n = mapGet s n := by
  obtain ⟨texts', p1, e1⟩ := instantiateMap_perm hk.parsers q1
  have m1 : (texts.map (·.1)).Nodup := by rw [instantiateMap_keys q1]; exact hn1
  have g1 := mapGet_perm e1 m1
  have gf := parseFunctions_congr lib e1 m1
  obtain ⟨inputs', p2, e2⟩ := instantiateMap_perm hk.inputs q2
  rw [hin texts texts' e1 m1] at p2
  have m2 : (inputs.map (·.1)).Nodup := by rw [instantiateMap_keys q2]; exact hn2
  have g2 := mapGet_perm e2 m2
  have efind : findInput inputs' = findInput inputs := by
    funext n
    simp only [findInput, g2]
  have einst : IndexDecl.instantiate lib inputs' = IndexDecl.instantiate lib inputs := by
    funext x
    cases x <;> simp only [IndexDecl.instantiate, efind]
  -- the indexes
  obtain ⟨indexes', p3⟩ : ∃ indexes', instantiateMap (IndexDecl.instantiate lib inputs') c'.indexes = .ok indexes' := by
    rw [instantiateMap_ok]
    intro k y hy
    have hy := mapGet_nodup_mem hk.nodup hy
    rw [hk.indexes, Option.map_eq_some_iff] at hy
    obtain ⟨x, hx, rfl⟩ := hy
    obtain ⟨i, _, hi⟩ := instantiateMap_get q3 hx
    rw [einst]
    by_cases hs : scannedIndex chosen x = x
    · exact ⟨i, by rw [hs]; exact hi⟩
    · cases x with
      | map d =>
        simp only [scannedIndex] at hs ⊢
        split
        · exact ⟨_, rfl⟩
        · rename_i h; exact absurd (if_neg h) hs
      | wildcard d => exact absurd rfl hs
      | sqlite d => exact absurd rfl hs
      | fts5 d => exact absurd rfl hs
      | noop d => exact absurd rfl hs
  have hindexes : ∀ n, mapGet indexes' n = mapGet indexes n ∨
      (chosenMap chosen c n = true ∧ ∃ i i', mapGet indexes n = some i ∧ mapGet indexes' n = some i' ∧
        ∀ input filters, filters ≠ [] → (∀ pf ∈ filters, MapHandles c inputs n input pf.1 ∧ Scalar pf.2) → i' input filters = i input filters) := by
    intro n
    have hc' := hk.indexes n
    cases hx : mapGet c.indexes n with
    | none =>
      left
      rw [hx] at hc'
      have h1 : mapGet indexes n = none := by
        cases h : mapGet indexes n with
        | none => rfl
        | some i => obtain ⟨x, hx', _⟩ := instantiateMap_name q3 h; rw [hx] at hx'; cases hx'
      have h2 : mapGet indexes' n = none := by
        cases h : mapGet indexes' n with
        | none => rfl
        | some i => obtain ⟨x, hx', _⟩ := instantiateMap_name p3 h; rw [hc'] at hx'; cases hx'
      rw [h1, h2]
    | some x =>
      rw [hx] at hc'
      simp only [Option.map_some] at hc'
      obtain ⟨i, hi, hix⟩ := instantiateMap_get q3 hx
      obtain ⟨i', hi', hix'⟩ := instantiateMap_get p3 hc'
      rw [einst] at hix'
      by_cases hs : scannedIndex chosen x = x
      · left
        rw [hs, hix] at hix'
        cases hix'
        rw [hi, hi']
      · right
        cases x with
        | map d =>
          obtain ⟨hname, hnd⟩ := hk.maps n d hx
          simp only [scannedIndex] at hs hix'
          by_cases hc : chosen d.name = true
          · rw [if_pos hc] at hix'
            cases hix'
            rw [hname] at hc
            refine ⟨by simp only [chosenMap, hc, hx, Bool.and_self], i, _, hi, hi', ?_⟩
            intro input filters hne hf
            simp only [IndexDecl.instantiate, bind_ok, ok_inj] at hix
            obtain ⟨input₀, hfind, m, hm, rfl⟩ := hix
            have hget : mapGet inputs d.input = some input₀ := by
              simp only [findInput] at hfind
              split at hfind
              · cases hfind
              · rename_i h; cases hfind; exact h
            have hsame : ∀ pf ∈ filters, pf.1 ∈ d.properties ∧ input = input₀ ∧ Scalar pf.2 := by
              intro pf hpf
              obtain ⟨⟨d', h1, h2, h3⟩, h4⟩ := hf pf hpf
              rw [hx] at h1
              cases h1
              rw [hget] at h3
              cases h3
              exact ⟨h2, rfl, h4⟩
            obtain ⟨pf, hpf⟩ := List.exists_mem_of_ne_nil _ hne
            obtain ⟨_, rfl, _⟩ := hsame pf hpf
            exact newMap_scan hm hnd (hordered n d _ hx hc hget) filters hne (fun pf hpf => ⟨(hsame pf hpf).1, (hsame pf hpf).2.2⟩)
          · exact absurd (if_neg hc) hs
        | wildcard d => exact absurd rfl hs
        | sqlite d => exact absurd rfl hs
        | fts5 d => exact absurd rfl hs
        | noop d => exact absurd rfl hs
  have hdef : mapGet indexes' "default" = mapGet indexes "default" := by
    rcases hindexes "default" with h | ⟨h, _⟩
    · exact h
    · simp only [chosenMap, hdefault, Bool.false_and, Bool.false_eq_true] at h
  -- the outputs
  have keeps2 : Keeps inputs inputs' := fun n x h => by rw [← g2]; exact h
  obtain ⟨defaultIndex, hd⟩ := instantiateMap_known q3 hr.default
  have henv : EnvSame (chosenMap chosen c) (MapHandles c inputs) (outputEnv lib inputs indexes defaultIndex texts) (outputEnv lib inputs' indexes' defaultIndex texts') :=
    ⟨fun n => (g2 n).symm, fun n => (gf n).symm, rfl, rfl, fun _ _ _ => rfl, hvisit, hsort.perm, hindexes⟩
  have known2 := fun n (hn : Known c.inputs n) => instantiateMap_known q2 hn
  have hout : ∀ n o, mapGet c.outputs n = some o → OutputDecl.instantiate lib inputs' indexes' texts' o = OutputDecl.instantiate lib inputs indexes texts o := by
    intro n o ho
    have hm := mapGet_mem ho
    have hchk := checkRelationships_keeps keeps2 (relationshipsOfOutput o) (fun q hq => known2 _ (hr.relationships n o hm q hq).1)
    have hmap : ∀ k, chosenMap chosen c k = true → ∃ d, mapGet c.indexes k = some (.map d) := by
      intro k hk
      simp only [chosenMap, Bool.and_eq_true] at hk
      obtain ⟨_, hk⟩ := hk
      split at hk
      · rename_i d hd; exact ⟨d, hd⟩
      · cases hk
    have hhandled : HandledIn (chosenMap chosen c) (MapHandles c inputs) (outputEnv lib inputs indexes defaultIndex texts) (relationshipsAll (relationshipsOfOutput o)) := by
      intro r hr' m hm' hc input hinput
      obtain ⟨i, hi, hsearch⟩ := (hr.relationships n o hm r hr').2 m hm'
      obtain ⟨d, hd'⟩ := hmap _ hc
      rw [hd'] at hi
      cases hi
      obtain ⟨h1, h2⟩ := hsearch
      exact ⟨d, hd', h2, by rw [h1]; exact hinput⟩
    have hparams : ∀ root, inputOfOutput o = some root → ∀ input, mapGet inputs root = some input →
        ParametersPlain (chosenMap chosen c) (MapHandles c inputs) (outputEnv lib inputs indexes defaultIndex texts) input (parametersOfOutput o) := by
      intro root hroot input hinput e he hc
      obtain ⟨⟨q, hq, hprim⟩, i, hi, hsearch⟩ := (hr.outputs n o hm root hroot).2 e.1 e.2 he
      obtain ⟨d, hd'⟩ := hmap _ hc
      rw [hd'] at hi
      cases hi
      obtain ⟨h1, h2⟩ := hsearch
      refine ⟨⟨d, hd', h2, by rw [h1]; exact hinput⟩, ?_⟩
      intro f text v hf hv
      obtain ⟨t, ht, hti⟩ := instantiateMap_get q1 hq
      exact parseFunctions_scalar ht (instantiate_primitive hti hprim) hf hv
    simp only [OutputDecl.instantiate, hd, hdef]
    cases o with
    | graphql n => rfl
    | array k d =>
      simp only [relationshipsOfOutput] at hchk hhandled
      simp only [parametersOfOutput] at hparams
      have hrel := allPlainMatches_mono (chosen' := chosenMap chosen c) (fun n hn => by simp only [chosenMap, Bool.and_eq_true] at hn; exact hn.1) _ (hplain n _ ho _ rfl)
      have e : arrayApi (outputEnv lib inputs' indexes' defaultIndex texts') d texts' = arrayApi (outputEnv lib inputs indexes defaultIndex texts) d texts := by
        simp only [arrayApi, OutputApi.mk.injEq, true_and, ← g1]
        funext params payload
        exact handleArray_same henv d (hparams _ rfl) hhandled hrel params
      simp only [hchk, e, ← g2]
    | object k d =>
      simp only [relationshipsOfOutput] at hchk hhandled
      simp only [parametersOfOutput] at hparams
      have hrel := allPlainMatches_mono (chosen' := chosenMap chosen c) (fun n hn => by simp only [chosenMap, Bool.and_eq_true] at hn; exact hn.1) _ (hplain n _ ho _ rfl)
      have e : objectApi (outputEnv lib inputs' indexes' defaultIndex texts') d texts' = objectApi (outputEnv lib inputs indexes defaultIndex texts) d texts := by
        simp only [objectApi, OutputApi.mk.injEq, true_and, ← g1]
        funext params payload
        exact handleObject_same henv d (hparams _ rfl) hhandled hrel params
      simp only [hchk, e, ← g1, ← g2]
  obtain ⟨apis', p4, e4⟩ := instantiateMap_perm hk.outputs q4
  have p4' : instantiateMap (OutputDecl.instantiate lib inputs' indexes' texts') c'.outputs = .ok apis' := by
    rw [← p4]
    refine instantiateMap_eq (fun a ha => hout a.1 a.2 (mapGet_nodup_mem hn4 (hk.outputs.symm.subset ha)))
  have m4 : (apis.map (·.1)).Nodup := by rw [instantiateMap_keys q4]; exact hn4
  have g4 := mapGet_perm e4 m4
  obtain ⟨s', p5, e5⟩ := instantiateMap_perm hk.services q5
  have p5' : instantiateMap (ServiceDecl.instantiate lib apis') c'.services = .ok s' := by
    rw [← p5]
    refine instantiateMap_eq (fun a ha => ?_)
    have ha := mapGet_nodup_mem hn5 (hk.services.symm.subset ha)
    exact Spec.ServiceDecl.instantiate_keeps (fun n x h => by rw [← g4]; exact h) (fun r hr' => instantiateMap_known q4 (hr.routes a.1 a.2 (mapGet_mem ha) r hr'))
  refine ⟨s', ?_, fun n => (mapGet_perm e5 (by rw [instantiateMap_keys q5]; exact hn5) n).symm⟩
  simp only [start, bind_ok]
  exact ⟨texts', p1, inputs', p2, indexes', p3, apis', p4', p5'⟩

end Rodb
