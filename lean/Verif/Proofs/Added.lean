import Verif.Spec.Added
import Verif.Proofs.Startup
import Verif.Proofs.Running
import Verif.Proofs.RestartOrder
import Verif.Props.WellFormedProps
import Verif.Model.Inputs
/-
  Adding components to a configuration.
-/
namespace Rodb
open Spec

/-! ### Outputs -/

/-- What the first environment has, the second one has too. -/
structure EnvKeeps (env env' : OutputEnv) : Prop where
  inputs : Keeps env.inputs env'.inputs
  indexes : Keeps env.indexes env'.indexes
  parsers : Keeps env.parsers env'.parsers
  defaultIndex : env'.defaultIndex = env.defaultIndex
  sort : env'.sort = env.sort
  visit : ∀ path (α : Type) (l : List α), env'.visit path l = env.visit path l
  perm : ∀ path (α : Type) (l : List α), (env.visit path l).Perm l

variable {env env' : OutputEnv}

theorem filteredPositionsLoop_keeps (h : EnvKeeps env env') (path : List Nat) (input : Input) : ∀ (i : Nat) (filters : GoMap (GoMap Value)),
    (∀ e ∈ filters, Known env.indexes e.1) → filteredPositionsLoop env' path input i filters = filteredPositionsLoop env path input i filters
  | _, [], _ => rfl
  | i, (n, f) :: rest, hk => by
    obtain ⟨index, hi⟩ := hk _ (.head _)
    simp only [filteredPositionsLoop, hi, h.indexes n index hi, h.visit, filteredPositionsLoop_keeps h path input (i + 1) rest (fun e he => hk e (.tail _ he))]

theorem filteredPositions_keeps (h : EnvKeeps env env') (path : List Nat) (input : Input) {filters : GoMap (GoMap Value)} (hk : ∀ e ∈ filters, Known env.indexes e.1) :
    filteredPositions env' path input filters = filteredPositions env path input filters := by
  simp only [filteredPositions, h.defaultIndex, h.visit]
  rw [filteredPositionsLoop_keeps h path input 0 _ (fun e he => hk e ((h.perm _ _ _).subset he))]

theorem addFilter_mem {filters : GoMap (GoMap Value)} {index property : String} {v : Value} {e : String × GoMap Value} (h : e ∈ addFilter filters index property v) :
    e.1 = index ∨ e ∈ filters := by
  simp only [addFilter] at h
  split at h <;> exact (mapSet_mem h).symm.imp And.left id

theorem relationshipFilters_mem {data : GoMap Value} {P : String → Prop} : ∀ {matching : List MatchConfig} {filters r : GoMap (GoMap Value)},
    relationshipFilters data matching filters = .ok r → (∀ m ∈ matching, P m.childIndex) → (∀ e ∈ filters, P e.1) → ∀ e ∈ r, P e.1
  | [], _, _, h, _, hf => by cases h; exact hf
  | m :: rest, filters, r, h, hm, hf => by
    simp only [relationshipFilters] at h
    split at h
    · cases h
    · refine relationshipFilters_mem h (fun m hm' => hm m (.tail _ hm')) ?_
      intro e he
      rcases addFilter_mem he with he | he
      · rw [he]; exact hm m (.head _)
      · exact hf e he

theorem loadItems_congr {nested nested' : Nat → GoMap Value → Res (GoMap Value)} (h : ∀ i data, nested' i data = nested i data) (count : Int) (i : Nat) (l : List Rec) :
    loadItems nested' count i l = loadItems nested count i l := by
  have e : nested' = nested := funext (fun i => funext (h i))
  rw [e]

/-- The relationship, with those inside it, only refers to inputs and indexes that are there. -/
def FoundIn (env : OutputEnv) (l : List Relationship) : Prop :=
  ∀ r ∈ l, Known env.inputs (inputOfRelationship r) ∧ ∀ m ∈ matchesOfRelationship r, Known env.indexes m.childIndex

theorem relationshipsAll_entry {l : List (String × Relationship)} {e : String × Relationship} (h : e ∈ l) {r : Relationship} (hr : r ∈ relationshipWithNested e.2) : r ∈ relationshipsAll l := by
  induction l with
  | nil => cases h
  | cons x l ih =>
    obtain ⟨n, x⟩ := x
    simp only [relationshipsAll, List.mem_append]
    rcases List.mem_cons.1 h with rfl | h
    · exact .inl hr
    · exact .inr (ih h)

theorem loadRelationship_keeps (h : EnvKeeps env env') {nested nested' : List Nat → GoMap Value → List (String × Relationship) → Res (GoMap Value)} (path : List Nat)
    (data : GoMap Value) (r : Relationship) (hf : FoundIn env (relationshipWithNested r))
    (hn : ∀ path data l, FoundIn env (relationshipsAll l) → nested' path data l = nested path data l) :
    loadRelationship env' nested' path data r = loadRelationship env nested path data r := by
  cases r with
  | mk inputName isArray limit sort matching relationships =>
    simp only [loadRelationship]
    obtain ⟨⟨input, hi⟩, hm⟩ := hf _ (by simp only [relationshipWithNested]; exact .head _)
    simp only [inputOfRelationship] at hi
    simp only [matchesOfRelationship] at hm
    have hr : FoundIn env (relationshipsAll relationships) := fun r hr => hf r (by simp only [relationshipWithNested]; exact .tail _ hr)
    cases hfil : relationshipFilters data matching [] with
    | error e => rfl
    | ok filters =>
      have hk := relationshipFilters_mem (P := Known env.indexes) hfil hm (fun e he => by cases he)
      simp only [hi, h.inputs _ _ hi, filteredPositions_keeps h path input hk, h.sort, hn _ _ _ hr]

theorem loadLoop_congr {load load' : Nat → GoMap Value → Relationship → Res Value} : ∀ (l : List (String × Relationship)) (i : Nat) (data : GoMap Value),
    (∀ e ∈ l, ∀ i data, load' i data e.2 = load i data e.2) → loadLoop load' i data l = loadLoop load i data l
  | [], _, _, _ => rfl
  | (n, r) :: rest, i, data, h => by
    simp only [loadLoop, h (n, r) (.head _)]
    cases load i data r with
    | error e => rfl
    | ok v => exact loadLoop_congr rest (i + 1) _ (fun e he => h e (.tail _ he))

theorem loadRelationships_keeps (h : EnvKeeps env env') : ∀ (fuel : Nat) (path : List Nat) (data : GoMap Value) (l : List (String × Relationship)),
    FoundIn env (relationshipsAll l) → loadRelationships env' fuel path data l = loadRelationships env fuel path data l
  | 0, _, _, [], _ => rfl
  | _+1, _, _, [], _ => rfl
  | 0, _, _, _ :: _, _ => rfl
  | fuel+1, path, data, x :: l, hf => by
    simp only [loadRelationships, h.visit]
    refine loadLoop_congr _ 0 data ?_
    intro e he i data
    refine loadRelationship_keeps h (i :: path) data e.2 ?_ (fun path data l hl => loadRelationships_keeps h fuel path data l hl)
    intro r hr
    exact hf r (relationshipsAll_entry ((h.perm _ _ _).subset he) hr)

theorem dataFromPosition_keeps (h : EnvKeeps env env') (path : List Nat) {root : String} (hroot : Known env.inputs root) {l : List (String × Relationship)}
    (hf : FoundIn env (relationshipsAll l)) (position : Int) : dataFromPosition env' path root l position = dataFromPosition env path root l position := by
  obtain ⟨input, hi⟩ := hroot
  simp only [dataFromPosition, hi, h.inputs _ _ hi, loadRelationships_keeps h _ _ _ l hf]

theorem arrayFilters_keeps (h : EnvKeeps env env') (params : GoMap Bytes) : ∀ (l : GoMap ParamConfig) (filters : GoMap (GoMap Value)), (∀ e ∈ l, Known env.parsers e.2.parser) →
    arrayFilters env' params l filters = arrayFilters env params l filters
  | [], _, _ => rfl
  | (n, p) :: rest, filters, hk => by
    obtain ⟨f, hf⟩ := hk _ (.head _)
    have hr : ∀ e ∈ rest, Known env.parsers e.2.parser := fun e he => hk e (.tail _ he)
    simp only [arrayFilters, hf, h.parsers _ _ hf, arrayFilters_keeps h params rest _ hr]

theorem arrayFilters_mem {params : GoMap Bytes} {P : String → Prop} : ∀ {l : GoMap ParamConfig} {filters r : GoMap (GoMap Value)},
    arrayFilters env params l filters = .ok r → (∀ e ∈ l, P e.2.index) → (∀ e ∈ filters, P e.1) → ∀ e ∈ r, P e.1
  | [], _, _, h, _, hf => by cases h; exact hf
  | (n, p) :: rest, filters, r, h, hm, hf => by
    have hr : ∀ e ∈ rest, P e.2.index := fun e he => hm e (.tail _ he)
    simp only [arrayFilters] at h
    split at h
    · exact arrayFilters_mem h hr hf
    · split at h
      · cases h
      · split at h
        · cases h
        · refine arrayFilters_mem h hr ?_
          intro e he
          rcases addFilter_mem he with he | he
          · rw [he]; exact hm _ (.head _)
          · exact hf e he

theorem objectFilters_keeps (h : EnvKeeps env env') (params : GoMap Bytes) : ∀ (l : GoMap ParamConfig) (filters : GoMap (GoMap Value)), (∀ e ∈ l, Known env.parsers e.2.parser) →
    objectFilters env' params l filters = objectFilters env params l filters
  | [], _, _ => rfl
  | (n, p) :: rest, filters, hk => by
    obtain ⟨f, hf⟩ := hk _ (.head _)
    have hr : ∀ e ∈ rest, Known env.parsers e.2.parser := fun e he => hk e (.tail _ he)
    simp only [objectFilters, hf, h.parsers _ _ hf, objectFilters_keeps h params rest _ hr]

theorem objectFilters_mem {params : GoMap Bytes} {P : String → Prop} : ∀ {l : GoMap ParamConfig} {filters r : GoMap (GoMap Value)},
    objectFilters env params l filters = .ok r → (∀ e ∈ l, P e.2.index) → (∀ e ∈ filters, P e.1) → ∀ e ∈ r, P e.1
  | [], _, _, h, _, hf => by cases h; exact hf
  | (n, p) :: rest, filters, r, h, hm, hf => by
    have hr : ∀ e ∈ rest, P e.2.index := fun e he => hm e (.tail _ he)
    simp only [objectFilters] at h
    split at h
    · cases h
    · split at h
      · cases h
      · refine objectFilters_mem h hr ?_
        intro e he
        rcases addFilter_mem he with he | he
        · rw [he]; exact hm _ (.head _)
        · exact hf e he

theorem handleArray_keeps (h : EnvKeeps env env') (c : ArrayConfig) (hi : Known env.inputs c.input) (hp : ∀ e ∈ c.parameters, Known env.parsers e.2.parser ∧ Known env.indexes e.2.index)
    (hf : FoundIn env (relationshipsAll c.relationships)) (params : GoMap Bytes) : handleArray env' c params = handleArray env c params := by
  have hv : ∀ e ∈ env.visit [0] c.parameters, Known env.parsers e.2.parser ∧ Known env.indexes e.2.index := fun e he => hp e ((h.perm _ _ _).subset he)
  simp only [handleArray, h.visit, arrayFilters_keeps h params _ [] (fun e he => (hv e he).1), dataFromPosition_keeps h _ hi hf]
  obtain ⟨input, hi⟩ := hi
  simp only [hi, h.inputs _ _ hi]
  cases getLimit c.limit params with
  | error e => rfl
  | ok limit =>
    cases getOffset c.offsetParameter params with
    | error e => rfl
    | ok offset =>
      simp only
      cases hfil : arrayFilters env params (env.visit [0] c.parameters) [] with
      | error e => rfl
      | ok filters =>
        have hk := arrayFilters_mem (P := Known env.indexes) hfil (fun e he => (hv e he).2) (fun e he => by cases he)
        simp only [filteredPositions_keeps h [] input hk]

theorem handleObject_keeps (h : EnvKeeps env env') (c : ObjectConfig) (hi : Known env.inputs c.input) (hp : ∀ e ∈ c.parameters, Known env.parsers e.2.parser ∧ Known env.indexes e.2.index)
    (hf : FoundIn env (relationshipsAll c.relationships)) (params : GoMap Bytes) : handleObject env' c params = handleObject env c params := by
  have hv : ∀ e ∈ env.visit [0] c.parameters, Known env.parsers e.2.parser ∧ Known env.indexes e.2.index := fun e he => hp e ((h.perm _ _ _).subset he)
  simp only [handleObject, h.visit, objectFilters_keeps h params _ [] (fun e he => (hv e he).1), dataFromPosition_keeps h _ hi hf]
  obtain ⟨input, hi⟩ := hi
  simp only [hi, h.inputs _ _ hi]
  cases hfil : objectFilters env params (env.visit [0] c.parameters) [] with
  | error e => rfl
  | ok filters =>
    have hk := objectFilters_mem (P := Known env.indexes) hfil (fun e he => (hv e he).2) (fun e he => by cases he)
    simp only [filteredPositions_keeps h [] input hk]

/-! ### Maps -/

theorem keeps_known {α : Type} {m m' : GoMap α} (h : Keeps m m') {n : String} (hn : Known m n) : mapGet m' n = mapGet m n := by
  obtain ⟨x, hx⟩ := hn
  rw [hx, h n x hx]

theorem keeps_map {α β : Type} {m m' : GoMap α} (h : Keeps m m') (f : α → β) : Keeps (m.map (fun e => (e.1, f e.2))) (m'.map (fun e => (e.1, f e.2))) := by
  intro n y hy
  rw [mapGet_mapValues] at hy ⊢
  cases hx : mapGet m n with
  | none => rw [hx] at hy; cases hy
  | some x => rw [hx] at hy; rw [h n x hx]; exact hy

/-- What is made from the components of the first map is made from those of the second one too. -/
theorem instantiateMap_keeps {α β : Type} {f f' : α → Res β} {m m' : GoMap α} {r r' : GoMap β} (h : instantiateMap f m = .ok r) (h' : instantiateMap f' m' = .ok r') (hk : Keeps m m')
    (hf : ∀ n x y, mapGet m n = some x → f x = .ok y → f' x = .ok y) : Keeps r r' := by
  intro n y hy
  obtain ⟨x, hx, hfx⟩ := instantiateMap_name h hy
  obtain ⟨z, hz, hfz⟩ := instantiateMap_get h' (hk n x hx)
  rw [hf n x y hx hfx] at hfz
  cases hfz
  exact hz

theorem instantiateMap_fewer {α β : Type} {f f' : α → Res β} {m m' : GoMap α} {r' : GoMap β} (h' : instantiateMap f' m' = .ok r') (hn : (m.map (·.1)).Nodup) (hk : Keeps m m')
    (hf : ∀ n x, mapGet m n = some x → f' x = f x) : ∃ r, instantiateMap f m = .ok r ∧ Keeps r r' := by
  obtain ⟨r, hr⟩ := instantiateMap_ok.2 (fun k x hx => by
    have hx := mapGet_nodup_mem hn hx
    obtain ⟨y, _, hy⟩ := instantiateMap_get h' (hk k x hx)
    rw [hf k x hx] at hy
    exact ⟨y, hy⟩ : ∀ k x, (k, x) ∈ m → ∃ y, f x = .ok y)
  exact ⟨r, hr, instantiateMap_keeps hr h' hk (fun n x y hx hy => by rw [hf n x hx]; exact hy)⟩

theorem instantiateMap_known {α β : Type} {f : α → Res β} {m : GoMap α} {r : GoMap β} (h : instantiateMap f m = .ok r) {n : String} (hn : Known m n) : Known r n := by
  obtain ⟨x, hx⟩ := hn
  obtain ⟨y, hy, _⟩ := instantiateMap_get h hx
  exact ⟨y, hy⟩

/-! ### Parsers -/

theorem nodup_subset_length {l m : List String} (hn : l.Nodup) (hs : l ⊆ m) : l.length ≤ m.length := by
  induction l generalizing m with
  | nil => exact Nat.zero_le _
  | cons a l ih =>
    have ha : a ∈ m := hs (.head _)
    obtain ⟨hal, hn⟩ := List.nodup_cons.1 hn
    have h := ih (m := m.erase a) hn (fun x hx => (List.mem_erase_of_ne (by rintro rfl; exact hal hx)).2 (hs (.tail _ hx)))
    rw [List.length_erase_of_mem ha] at h
    have := List.length_pos_of_mem ha
    simp only [List.length_cons]
    omega

/-- The names that one comes by when following split parsers, up to a parser that does not split. -/
inductive SplitChain (parsers : GoMap ParserConfig) : List String → Prop where
  | plain {name : String} {x : ParserConfig} : mapGet parsers name = some x → (∀ d inner, x ≠ .split d inner) → SplitChain parsers [name]
  | next {name inner : String} {d : Delimiter} {l : List String} : mapGet parsers name = some (.split d inner) → SplitChain parsers (inner :: l) → SplitChain parsers (name :: inner :: l)

theorem SplitChain.from {parsers : GoMap ParserConfig} {l : List String} (h : SplitChain parsers l) {n : String} (hn : n ∈ l) :
    ∃ l', SplitChain parsers (n :: l') ∧ (n :: l').Sublist l := by
  induction h with
  | plain h hp =>
    rw [List.mem_singleton] at hn
    subst hn
    exact ⟨[], .plain h hp, .refl _⟩
  | @next name inner d l h hc ih =>
    rcases List.mem_cons.1 hn with rfl | hn
    · exact ⟨inner :: l, .next h hc, .refl _⟩
    · obtain ⟨l', h1, h2⟩ := ih hn
      exact ⟨l', h1, h2.cons _⟩

theorem SplitChain.known {parsers : GoMap ParserConfig} {l : List String} (h : SplitChain parsers l) : ∀ n ∈ l, n ∈ parsers.map (·.1) := by
  have key : ∀ {n : String} {x : ParserConfig}, mapGet parsers n = some x → n ∈ parsers.map (·.1) := fun hx => List.mem_map.2 ⟨_, mapGet_mem hx, rfl⟩
  induction h with
  | plain h hp => intro n hn; rw [List.mem_singleton] at hn; subst hn; exact key h
  | next h hc ih =>
    intro n hn
    rcases List.mem_cons.1 hn with rfl | hn
    · exact key h
    · exact ih n hn

theorem SplitChain.keeps {parsers parsers' : GoMap ParserConfig} (hk : Keeps parsers parsers') {l : List String} (h : SplitChain parsers l) : SplitChain parsers' l := by
  induction h with
  | plain h hp => exact .plain (hk _ _ h) hp
  | next h hc ih => exact .next (hk _ _ h) ih

/-- Along such names, the answer does not depend on what else there is, nor on the fuel if there is enough of it. -/
theorem SplitChain.parse {lib : ParserLib} {parsers parsers' : GoMap ParserConfig} (hk : Keeps parsers parsers') {l : List String} (h : SplitChain parsers l) :
    ∀ {n : String} {rest : List String}, l = n :: rest → ∀ {x : ParserConfig}, mapGet parsers n = some x → ∀ (fuel fuel' : Nat), rest.length ≤ fuel → rest.length ≤ fuel' →
      ∀ value, Rodb.parse lib parsers' fuel' x value = Rodb.parse lib parsers fuel x value := by
  induction h with
  | @plain name x h hp =>
    intro n rest hl y hy fuel fuel' _ _ value
    cases hl
    rw [h] at hy; cases hy
    cases x with
    | split d inner => exact absurd rfl (hp d inner)
    | _ => cases fuel <;> cases fuel' <;> rfl
  | @next name inner d l h hc ih =>
    intro n rest hl y hy fuel fuel' hf hf' value
    cases hl
    rw [h] at hy; cases hy
    simp only [List.length_cons] at hf hf'
    obtain ⟨z, hz⟩ : ∃ z, mapGet parsers inner = some z := by
      cases hc with
      | plain h _ => exact ⟨_, h⟩
      | next h _ => exact ⟨_, h⟩
    cases fuel with
    | zero => omega
    | succ fuel =>
      cases fuel' with
      | zero => omega
      | succ fuel' =>
        have e : Rodb.parse lib parsers' fuel' z = Rodb.parse lib parsers fuel z := funext (ih rfl hz fuel fuel' (by omega) (by omega))
        simp only [Rodb.parse, hz, hk _ _ hz, e]

theorem instantiate_split {lib : StartLib} {x : ParserDecl} {y : TextParser} (h : x.instantiate lib = .ok y) {d : Option String} {r : Option Bool} {inner : String}
    (hx : x.kind = .split d r inner) : ∃ d', y.config = .split d' inner := by
  simp only [ParserDecl.instantiate, hx] at h
  cases d with
  | none => cases h
  | some d =>
    cases h
    exact ⟨_, rfl⟩

theorem instantiate_plain {lib : StartLib} {x : ParserDecl} {y : TextParser} (h : x.instantiate lib = .ok y) (hx : ∀ d r inner, x.kind ≠ .split d r inner) :
    ∀ d' inner, y.config ≠ .split d' inner := by
  intro d' inner hy
  cases hk : x.kind with
  | split d r inner => exact hx d r inner hk
  | string charset =>
    simp only [ParserDecl.instantiate, hk] at h
    split at h
    · simp only [bind_ok, ok_inj] at h
      obtain ⟨f, _, rfl⟩ := h
      cases hy
    · cases h; cases hy
  | integer ignore => simp only [ParserDecl.instantiate, hk] at h; cases h; cases hy
  | float separator ignore => simp only [ParserDecl.instantiate, hk] at h; cases h; cases hy
  | boolean t f => simp only [ParserDecl.instantiate, hk] at h; cases h; cases hy
  | json => simp only [ParserDecl.instantiate, hk] at h; cases h; cases hy

theorem splitsEnd_chain {lib : StartLib} {decls : GoMap ParserDecl} {parsers : GoMap TextParser} (h : instantiateMap (ParserDecl.instantiate lib) decls = .ok parsers) {n : String}
    (hn : SplitsEnd decls n) : ∃ l, SplitChain (parsers.map (fun q => (q.1, q.2.config))) (n :: l) ∧ (n :: l).Nodup := by
  induction hn with
  | @plain name x hx hp =>
    obtain ⟨y, hy, hi⟩ := instantiateMap_get h hx
    exact ⟨[], .plain (x := y.config) (by rw [mapGet_mapValues, hy]; rfl) (instantiate_plain hi hp), by simp⟩
  | @next name x d r inner hx hk _ ih =>
    obtain ⟨l, hc, hnd⟩ := ih
    obtain ⟨y, hy, hi⟩ := instantiateMap_get h hx
    obtain ⟨d', hd⟩ := instantiate_split hi hk
    have hg : mapGet (parsers.map (fun q => (q.1, q.2.config))) name = some (.split d' inner) := by rw [mapGet_mapValues, hy, ← hd]; rfl
    by_cases hm : name ∈ inner :: l
    · obtain ⟨l', h1, h2⟩ := hc.from hm
      exact ⟨l', h1, h2.nodup hnd⟩
    · exact ⟨inner :: l, .next hg hc, List.nodup_cons.2 ⟨hm, hnd⟩⟩

theorem parseFunctions_keeps {lib : StartLib} {decls : GoMap ParserDecl} {parsers parsers' : GoMap TextParser} (h : instantiateMap (ParserDecl.instantiate lib) decls = .ok parsers)
    (hends : ∀ n, Known decls n → SplitsEnd decls n) (hk : Keeps parsers parsers') : Keeps (parseFunctions lib parsers) (parseFunctions lib parsers') := by
  intro n f hf
  have hk' := keeps_map hk TextParser.config
  simp only [parseFunctions] at hf ⊢
  rw [mapGet_mapValues (g := fun q : TextParser => parse lib.parserLib (parsers.map (fun q => (q.1, q.2.config))) parsers.length q.config)] at hf
  rw [mapGet_mapValues (g := fun q : TextParser => parse lib.parserLib (parsers'.map (fun q => (q.1, q.2.config))) parsers'.length q.config)]
  cases hx : mapGet parsers n with
  | none => rw [hx] at hf; cases hf
  | some x =>
    rw [hx] at hf
    rw [hk n x hx]
    have hfe := Option.some.inj hf
    subst hfe
    obtain ⟨z, hz, _⟩ := instantiateMap_name h hx
    obtain ⟨l, hc, hnd⟩ := splitsEnd_chain h (hends n ⟨z, hz⟩)
    have l1 := nodup_subset_length hnd (fun a ha => hc.known a ha)
    have l2 := nodup_subset_length hnd (fun a ha => (hc.keeps hk').known a ha)
    simp only [List.length_map, List.length_cons] at l1 l2
    simp only [Option.map_some]
    congr 1
    funext value
    exact hc.parse hk' rfl (by rw [mapGet_mapValues, hx]; rfl) _ _ (by omega) (by omega) value

/-! ### XML records -/

mutual
/-- The parsers of the property and of those inside it. -/
def xmlParsersOk {N : Type} (P : String → Prop) : XmlProp N → Prop
  | .array _ _ items => xmlParsersOk P items
  | .object _ _ properties => xmlAllParsersOk P properties
  | .primitive _ _ parser => P parser
def xmlAllParsersOk {N : Type} (P : String → Prop) : List (XmlProp N) → Prop
  | [] => True
  | p :: rest => xmlParsersOk P p ∧ xmlAllParsersOk P rest
end

mutual
theorem xmlParsersOk_mono {N : Type} {P Q : String → Prop} (h : ∀ n, P n → Q n) : ∀ (x : XmlProp N), xmlParsersOk P x → xmlParsersOk Q x
  | .array _ _ items, hx => by simp only [xmlParsersOk] at hx ⊢; exact xmlParsersOk_mono h items hx
  | .object _ _ properties, hx => by simp only [xmlParsersOk] at hx ⊢; exact xmlAllParsersOk_mono h properties hx
  | .primitive _ _ parser, hx => by simp only [xmlParsersOk] at hx ⊢; exact h _ hx
theorem xmlAllParsersOk_mono {N : Type} {P Q : String → Prop} (h : ∀ n, P n → Q n) : ∀ (l : List (XmlProp N)), xmlAllParsersOk P l → xmlAllParsersOk Q l
  | [], _ => trivial
  | x :: rest, hx => by simp only [xmlAllParsersOk] at hx ⊢; exact ⟨xmlParsersOk_mono h x hx.1, xmlAllParsersOk_mono h rest hx.2⟩
end

section xml
variable {N : Type} {a b : XmlEnv} {P : String → Prop}

mutual
theorem xmlAllValues_among (h : ∀ p, P p → ∀ r, a.primitiveValue p r = b.primitiveValue p r) : ∀ (x : XmlProp N) (node : N), xmlParsersOk P x → xmlAllValues a x node = xmlAllValues b x node
  | .array _ select items, node, hx => by
    simp only [xmlParsersOk] at hx
    have e : xmlAllValues a items = xmlAllValues b items := funext (fun n => xmlAllValues_among h items n hx)
    simp only [xmlAllValues, e]
  | .object _ select properties, node, hx => by
    simp only [xmlParsersOk] at hx
    simp only [xmlAllValues]
    split
    · rfl
    · rw [xmlObject_among h properties _ _ hx]
    · rfl
  | .primitive _ eval parser, node, hx => by
    simp only [xmlParsersOk] at hx
    simp only [xmlAllValues, h _ hx]
theorem xmlObject_among (h : ∀ p, P p → ∀ r, a.primitiveValue p r = b.primitiveValue p r) : ∀ (l : List (XmlProp N)) (node : N) (values : GoMap Value), xmlAllParsersOk P l →
    xmlObject a l node values = xmlObject b l node values
  | [], _, _, _ => rfl
  | x :: rest, node, values, hx => by
    simp only [xmlAllParsersOk] at hx
    simp only [xmlObject, xmlAllValues_among h x node hx.1]
    cases xmlAllValues b x node with
    | error e => rfl
    | ok v => exact xmlObject_among h rest node _ hx.2
end

mutual
theorem xmlSubValue_among (hs : ∀ p, P p → ∀ s, a.stringValue p s = b.stringValue p s) (h : ∀ p, P p → ∀ r, a.primitiveValue p r = b.primitiveValue p r) :
    ∀ (x : XmlProp N) (node : N) (path : List String), xmlParsersOk P x → xmlSubValue a x node path = xmlSubValue b x node path
  | .array _ select items, node, path, hx => by
    simp only [xmlParsersOk] at hx
    have e : xmlAllValues a items = xmlAllValues b items := funext (fun n => xmlAllValues_among h items n hx)
    simp only [xmlSubValue, e]
    cases path with
    | nil => rfl
    | cons key sub =>
      simp only
      split
      · rfl
      · split
        · rfl
        · split
          · rfl
          · exact xmlSubValue_among hs h items _ sub hx
  | .object _ select properties, node, path, hx => by
    simp only [xmlParsersOk] at hx
    simp only [xmlSubValue]
    cases path with
    | nil =>
      simp only
      split
      · rfl
      · rw [xmlObject_among h properties _ _ hx]
      · rfl
    | cons key sub =>
      simp only
      split
      · rfl
      · exact xmlSubProperty_among hs h properties _ key sub _ hx
      · rfl
  | .primitive _ eval parser, node, path, hx => by
    simp only [xmlParsersOk] at hx
    simp only [xmlSubValue, hs _ hx, h _ hx]
theorem xmlSubProperty_among (hs : ∀ p, P p → ∀ s, a.stringValue p s = b.stringValue p s) (h : ∀ p, P p → ∀ r, a.primitiveValue p r = b.primitiveValue p r) :
    ∀ (l : List (XmlProp N)) (node : N) (key : String) (sub : List String) (absent : Res Value), xmlAllParsersOk P l → xmlSubProperty a l node key sub absent = xmlSubProperty b l node key sub absent
  | [], _, _, _, _, _ => rfl
  | x :: rest, node, key, sub, absent, hx => by
    simp only [xmlAllParsersOk] at hx
    simp only [xmlSubProperty]
    rw [xmlSubValue_among hs h x node sub hx.1, xmlSubProperty_among hs h rest node key sub absent hx.2]
end

theorem xmlRecord_among (hf : ∀ p, P p → mapGet a.functions p = mapGet b.functions p) (ht : ∀ p, P p → a.types p = b.types p) (hi : a.floatToInt = b.floatToInt) {l : List (XmlProp N)}
    (hx : xmlAllParsersOk P l) (node : N) (position : Int) : xmlRecord a l node position = xmlRecord b l node position := by
  have hs : ∀ p, P p → ∀ s, a.stringValue p s = b.stringValue p s := fun p hp s => by simp only [XmlEnv.stringValue, hf p hp]
  have h : ∀ p, P p → ∀ r, a.primitiveValue p r = b.primitiveValue p r := by
    intro p hp r
    cases r with
    | str s => exact hs p hp s
    | num f => simp only [XmlEnv.primitiveValue, XmlEnv.numericValue, ht p hp, hi]
    | bool b => simp only [XmlEnv.primitiveValue, XmlEnv.boolValue, ht p hp]
    | nodes x => simp only [XmlEnv.primitiveValue, XmlEnv.nodesValue, ht p hp]
    | other => rfl
  simp only [xmlRecord, xmlObject_among h l node [] hx]
  congr 1
  funext path
  split
  · rfl
  · split
    · rfl
    · exact xmlSubProperty_among hs h l node _ _ _ hx

end xml

mutual
theorem xmlParsersOk_completed {lib : ConfigLib} {p : ParsedConfig} {P : String → Prop} (hP : ∀ n, ParserName p n → P (orText n "string")) (xpath : XPathLib) :
    ∀ (x : XmlPropDecl), (∀ q ∈ xmlWithNested x, WellFormedXml lib p q) → xmlParsersOk P ((completedXml x).prop xpath)
  | .mk name type parser xp items properties, h => by
    have hx := (h (.mk name type parser xp items properties) (by simp only [xmlWithNested]; exact .head _)).2
    rcases hx with ⟨ht, hn, rfl, rfl⟩ | ⟨rfl, rfl, hi, rfl⟩ | ⟨rfl, rfl, rfl, _, _⟩
    · have e : orText type "primitive" = "primitive" := by rcases ht with rfl | rfl <;> rfl
      simp only [completedXml, e, if_true, XmlPropDecl.prop, show ("primitive" : String) ≠ "array" by decide, show ("primitive" : String) ≠ "object" by decide, if_false, xmlParsersOk]
      exact hP _ hn
    · have e : orText "array" "primitive" = "array" := rfl
      cases items with
      | none => exact absurd rfl hi
      | some q =>
        simp only [completedXml, e, XmlPropDecl.prop, if_true, completedItems, xmlItemsProp, xmlParsersOk]
        exact xmlParsersOk_completed hP xpath q (fun y hy => h y (by simp only [xmlWithNested, xmlItems, List.mem_cons, List.mem_append]; exact .inr (.inl hy)))
    · have e : orText "object" "primitive" = "object" := rfl
      simp only [completedXml, e, XmlPropDecl.prop, show ("object" : String) ≠ "array" by decide, if_false, if_true, xmlParsersOk]
      exact xmlAllParsersOk_completed hP xpath properties (fun y hy => h y (by simp only [xmlWithNested, xmlItems, List.mem_cons, List.mem_append]; exact .inr (.inr hy)))
theorem xmlAllParsersOk_completed {lib : ConfigLib} {p : ParsedConfig} {P : String → Prop} (hP : ∀ n, ParserName p n → P (orText n "string")) (xpath : XPathLib) :
    ∀ (l : List XmlPropDecl), (∀ q ∈ xmlAll l, WellFormedXml lib p q) → xmlAllParsersOk P (xmlProps xpath (completedProperties l))
  | [], _ => trivial
  | x :: rest, h => by
    simp only [completedProperties, xmlProps, xmlAllParsersOk]
    exact ⟨xmlParsersOk_completed hP xpath x (fun q hq => h q (by simp only [xmlAll, List.mem_append]; exact .inl hq)),
      xmlAllParsersOk_completed hP xpath rest (fun q hq => h q (by simp only [xmlAll, List.mem_append]; exact .inr hq))⟩
end

/-! ### Inputs -/

theorem detectColumns_string : ∀ {names seen : List String} {columns : List ColumnDecl}, detectColumns seen names = .ok columns → ∀ c ∈ columns, c.parser = "string"
  | [], _, _, h => by cases h; intro c hc; cases hc
  | name :: rest, seen, columns, h => by
    simp only [detectColumns, bind_ok, ok_inj] at h
    obtain ⟨_, _, _, _, r, hr, rfl⟩ := h
    intro c hc
    rcases List.mem_cons.1 hc with rfl | hc
    · rfl
    · exact detectColumns_string hr c hc

theorem openInput_keeps {files : Files} {parsers parsers' : GoMap TextParser} {f f' : GoMap (Bytes → Res Value)} (hk : Keeps parsers parsers') (hf : Keeps f f') (hkn : ∀ n, Known parsers n → Known f n)
    {d : InputDecl} (hcsv : ∀ c, d = .csv c → ∀ column ∈ c.columns, Known parsers column.parser)
    (hxml : ∀ c, d = .xml c → xmlAllParsersOk (Known parsers) (xmlProps files.xpath c.properties)) :
    openInput files d (parserTypes parsers') f' = openInput files d (parserTypes parsers) f := by
  cases d with
  | json c => rfl
  | csv c =>
    have e : c.csvColumns f' = c.csvColumns f := by
      simp only [CsvDecl.csvColumns]
      refine List.map_congr_left ?_
      intro column hc
      rw [keeps_known hf (hkn _ (hcsv c rfl column hc))]
    simp only [openInput, openCsvInput, e]
  | xml c =>
    have e : c.record files.xpath (parserTypes parsers') f' = c.record files.xpath (parserTypes parsers) f := by
      funext node position
      simp only [XmlDecl.record]
      refine xmlRecord_among (P := Known parsers) (a := ⟨f', parserTypes parsers', files.xpath.floatToInt⟩) (b := ⟨f, parserTypes parsers, files.xpath.floatToInt⟩) (fun p hp => keeps_known hf (hkn p hp)) (fun p hp => ?_) rfl (hxml c rfl) node position
      simp only [parserTypes, keeps_known hk hp]
    simp only [openInput, openXmlInput, e]

end Rodb
