import Verif.Spec.Failing
import Verif.Proofs.WildcardCut
/-
  Outputs whose indexes and inputs can fail.
-/
namespace Rodb
open Rodb.Spec

/-- The second result is the first one, or an error. -/
def ResMayFail {α : Type} (full r : Res α) : Prop := r = full ∨ ∃ m, r = .error (.err m)

theorem cut_take (it : PIter) (n : Nat) (m : String) : Cut (it.take n ++ [.error (.err m)]) it := by
  induction it generalizing n with
  | nil =>
    rw [List.take_nil]
    exact .err m []
  | cons o it ih =>
    cases n with
    | zero => exact .err m _
    | succ n => exact .cons o (ih n)

theorem Spec.SearchMayFail.cut {full r : Res PIter} (h : SearchMayFail full r) : (∃ m, r = .error (.err m)) ∨ (∃ e, full = .error e ∧ r = .error e) ∨ ∃ it it', full = .ok it ∧ r = .ok it' ∧ Cut it' it := by
  rcases h with rfl | ⟨m, rfl⟩ | ⟨it, n, m, rfl, rfl⟩
  · cases r with
    | error e => exact .inr (.inl ⟨e, rfl, rfl⟩)
    | ok it => exact .inr (.inr ⟨it, it, rfl, rfl, Cut.refl it⟩)
  · exact .inl ⟨m, rfl⟩
  · exact .inr (.inr ⟨it, _, rfl, rfl, cut_take it n m⟩)

theorem Spec.InputMayFail.cases {a b : Option Input} (h : InputMayFail a b) : (a = none ∧ b = none) ∨ ∃ input input', a = some input ∧ b = some input' ∧
    ∀ position, ResMayFail (input.fetch position) (input'.fetch position) := by
  match a, b, h with
  | none, none, _ => exact .inl ⟨rfl, rfl⟩
  | some input, some input', h => exact .inr ⟨input, input', rfl, rfl, h⟩

theorem Spec.IndexMayFail.cases {inputs inputs' : GoMap Input} {a b : Option IndexFn} (h : IndexMayFail inputs inputs' a b) : (a = none ∧ b = none) ∨ ∃ f f', a = some f ∧ b = some f' ∧
    ∀ n input input', mapGet inputs n = some input → mapGet inputs' n = some input' → ∀ filters, SearchMayFail (f input filters) (f' input' filters) := by
  match a, b, h with
  | none, none, _ => exact .inl ⟨rfl, rfl⟩
  | some f, some f', h => exact .inr ⟨f, f', rfl, rfl, h⟩

section
variable {env env' : OutputEnv}

theorem positionsLoop_fails (h : MayFail env env') {path : List Nat} {n : String} {input input' : Input} (hi : mapGet env.inputs n = some input) (hi' : mapGet env'.inputs n = some input') :
    ∀ (filters : GoMap (GoMap Value)) (i : Nat), (∃ m, filteredPositionsLoop env' path input' i filters = .error (.err m)) ∨
      (∃ e, filteredPositionsLoop env path input i filters = .error e ∧ filteredPositionsLoop env' path input' i filters = .error e) ∨
      ∃ its its', filteredPositionsLoop env path input i filters = .ok its ∧ filteredPositionsLoop env' path input' i filters = .ok its' ∧ CutAll its' its
  | [], i => .inr (.inr ⟨[], [], rfl, rfl, .nil⟩)
  | (name, f) :: rest, i => by
    simp only [filteredPositionsLoop]
    rcases (h.indexes name).cases with ⟨e1, e2⟩ | ⟨index, index', e1, e2, hx⟩
    · simp only [e1, e2]
      exact .inr (.inl ⟨_, rfl, rfl⟩)
    · simp only [e1, e2, h.visit]
      rcases (hx n input input' hi hi' (env.visit (2 :: i :: path) f)).cut with ⟨m, hm⟩ | ⟨e, g1, g2⟩ | ⟨it, it', g1, g2, hc⟩
      · simp only [hm]
        exact .inl ⟨m, rfl⟩
      · simp only [g1, g2]
        exact .inr (.inl ⟨e, rfl, rfl⟩)
      · simp only [g1, g2]
        rcases positionsLoop_fails h (path := path) hi hi' rest (i + 1) with ⟨m, hm⟩ | ⟨e, g1, g2⟩ | ⟨its, its', g1, g2, hcs⟩
        · simp only [hm]
          exact .inl ⟨m, rfl⟩
        · simp only [g1, g2]
          exact .inr (.inl ⟨e, rfl, rfl⟩)
        · simp only [g1, g2]
          exact .inr (.inr ⟨_, _, rfl, rfl, .cons hc hcs⟩)

theorem positions_fails (h : MayFail env env') {path : List Nat} {n : String} {input input' : Input} (hi : mapGet env.inputs n = some input) (hi' : mapGet env'.inputs n = some input')
    (filters : GoMap (GoMap Value)) : (∃ m, filteredPositions env' path input' filters = .error (.err m)) ∨
      (∃ e, filteredPositions env path input filters = .error e ∧ filteredPositions env' path input' filters = .error e) ∨
      ∃ its its', filteredPositions env path input filters = .ok its ∧ filteredPositions env' path input' filters = .ok its' ∧ CutAll its' its := by
  unfold filteredPositions
  by_cases h0 : filters.length = 0
  · simp only [if_pos h0]
    rcases (h.defaultIndex n input input' hi hi' []).cut with ⟨m, hm⟩ | ⟨e, g1, g2⟩ | ⟨it, it', g1, g2, hc⟩
    · simp only [hm]
      exact .inl ⟨m, rfl⟩
    · simp only [g1, g2]
      exact .inr (.inl ⟨e, rfl, rfl⟩)
    · simp only [g1, g2]
      exact .inr (.inr ⟨_, _, rfl, rfl, .cons hc .nil⟩)
  · simp only [if_neg h0, h.visit]
    exact positionsLoop_fails h hi hi' _ 0

theorem collect_fails {input input' : Input} (hf : ∀ position, ResMayFail (input.fetch position) (input'.fetch position)) {it it' : PIter} (h : Cut it' it) :
    ResMayFail (collectRecords input it) (collectRecords input' it') := by
  induction h with
  | nil => exact .inl rfl
  | err e it => exact .inr ⟨e, rfl⟩
  | cons o h ih =>
    cases o with
    | error e => exact .inl rfl
    | ok p =>
      simp only [collectRecords]
      rcases hf p with hp | ⟨m, hp⟩
      · rw [hp]
        cases input.fetch p with
        | error e => exact .inl rfl
        | ok r =>
          rcases ih with ih | ⟨m, ih⟩
          · simp only [ih]
            exact .inl rfl
          · simp only [ih]
            exact .inr ⟨m, rfl⟩
      · simp only [hp]
        exact .inr ⟨m, rfl⟩

theorem loadItems_fails {nested nested' : Nat → GoMap Value → Res (GoMap Value)} (h : ∀ i data, ResMayFail (nested i data) (nested' i data)) (count : Int) :
    ∀ (records : List Rec) (i : Nat), ResMayFail (loadItems nested count i records) (loadItems nested' count i records)
  | [], i => .inl rfl
  | r :: rest, i => by
    simp only [loadItems]
    cases r.all with
    | error e => exact .inl rfl
    | ok data =>
      rcases h i data with hp | ⟨m, hp⟩
      · simp only [hp]
        cases nested i data with
        | error e => exact .inl rfl
        | ok data =>
          simp only
          by_cases hc : (i : Int) + 1 ≥ count
          · simp only [if_pos hc]
            exact .inl rfl
          · simp only [if_neg hc]
            rcases loadItems_fails h count rest (i + 1) with ih | ⟨m, ih⟩
            · rw [ih]
              exact .inl rfl
            · rw [ih]
              exact .inr ⟨m, rfl⟩
      · simp only [hp]
        exact .inr ⟨m, rfl⟩

theorem loadRelationship_fails (h : MayFail env env') {nested nested' : List Nat → GoMap Value → List (String × Relationship) → Res (GoMap Value)}
    (hn : ∀ path data relationships, ResMayFail (nested path data relationships) (nested' path data relationships)) (path : List Nat) (data : GoMap Value) (r : Relationship) :
    ResMayFail (loadRelationship env nested path data r) (loadRelationship env' nested' path data r) := by
  cases r with
  | mk inputName isArray limit sort matching relationships =>
    simp only [loadRelationship]
    cases relationshipFilters data matching [] with
    | error e => exact .inl rfl
    | ok filters =>
      rcases (h.inputs inputName).cases with ⟨e1, e2⟩ | ⟨input, input', e1, e2, hf⟩
      · simp only [e1, e2]
        exact .inl rfl
      · simp only [e1, e2]
        rcases positions_fails h (path := path) e1 e2 filters with ⟨m, hm⟩ | ⟨e, g1, g2⟩ | ⟨its, its', g1, g2, hc⟩
        · simp only [hm]
          exact .inr ⟨m, rfl⟩
        · simp only [g1, g2]
          exact .inl rfl
        · simp only [g1, g2]
          rcases collect_fails hf hc.join with hcol | ⟨m, hcol⟩
          · simp only [hcol]
            cases collectRecords input (joinIters its) with
            | error e => exact .inl rfl
            | ok records =>
              simp only [h.sort]
              generalize (if sort.length > 0 then sortRecords env.sort sort records else records) = records
              by_cases hcount : relationshipCount isArray limit records.length < 0
              · simp only [if_pos hcount]
                exact .inl rfl
              · simp only [if_neg hcount]
                rcases loadItems_fails (nested := fun i item => nested (3 :: i :: path) item relationships) (nested' := fun i item => nested' (3 :: i :: path) item relationships)
                  (fun i data => hn _ _ _) (relationshipCount isArray limit records.length) records 0 with hp | ⟨m, hp⟩
                · simp only [hp]
                  exact .inl rfl
                · simp only [hp]
                  exact .inr ⟨m, rfl⟩
          · simp only [hcol]
            exact .inr ⟨m, rfl⟩

theorem loadLoop_fails {load load' : Nat → GoMap Value → Relationship → Res Value} (h : ∀ i data r, ResMayFail (load i data r) (load' i data r)) :
    ∀ (l : List (String × Relationship)) (i : Nat) (data : GoMap Value), ResMayFail (loadLoop load i data l) (loadLoop load' i data l)
  | [], i, data => .inl rfl
  | (name, r) :: rest, i, data => by
    simp only [loadLoop]
    rcases h i data r with hp | ⟨m, hp⟩
    · simp only [hp]
      cases load i data r with
      | error e => exact .inl rfl
      | ok v => exact loadLoop_fails h rest (i + 1) _
    · simp only [hp]
      exact .inr ⟨m, rfl⟩

theorem loadRelationships_fails (h : MayFail env env') : ∀ (fuel : Nat) (path : List Nat) (data : GoMap Value) (relationships : List (String × Relationship)),
    ResMayFail (loadRelationships env fuel path data relationships) (loadRelationships env' fuel path data relationships)
  | _, _, _, [] => .inl (by unfold loadRelationships; rfl)
  | 0, _, _, _ :: _ => .inl rfl
  | fuel + 1, path, data, r :: rest => by
    simp only [loadRelationships, h.visit]
    exact loadLoop_fails (fun i data r => loadRelationship_fails h (fun path data relationships => loadRelationships_fails h fuel path data relationships) _ _ _) _ _ _

theorem dataFromPosition_fails (h : MayFail env env') (path : List Nat) (root : String) (relationships : List (String × Relationship)) (position : Int) :
    ResMayFail (dataFromPosition env path root relationships position) (dataFromPosition env' path root relationships position) := by
  unfold dataFromPosition
  rcases (h.inputs root).cases with ⟨e1, e2⟩ | ⟨input, input', e1, e2, hf⟩
  · simp only [e1, e2]
    exact .inl rfl
  · simp only [e1, e2]
    rcases hf position with hp | ⟨m, hp⟩
    · rw [hp]
      cases input.fetch position with
      | error e => exact .inl rfl
      | ok record =>
        simp only
        cases record.all with
        | error e => exact .inl rfl
        | ok data => exact loadRelationships_fails h _ _ _ _
    · rw [hp]
      exact .inr ⟨m, rfl⟩

theorem arrayFilters_fails (h : env'.parsers = env.parsers) (params : GoMap Bytes) : ∀ (l : GoMap ParamConfig) (filters : GoMap (GoMap Value)), arrayFilters env' params l filters = arrayFilters env params l filters
  | [], _ => rfl
  | (name, p) :: rest, filters => by
    simp only [arrayFilters, h, arrayFilters_fails h params rest]

theorem objectFilters_fails (h : env'.parsers = env.parsers) (params : GoMap Bytes) : ∀ (l : GoMap ParamConfig) (filters : GoMap (GoMap Value)), objectFilters env' params l filters = objectFilters env params l filters
  | [], _ => rfl
  | (name, p) :: rest, filters => by
    simp only [objectFilters, h, objectFilters_fails h params rest]

theorem skipRows_fails : ∀ (n : Nat) {its its' : List PIter}, CutAll its' its → (∃ m, skipRows n its' = .error (.err m)) ∨ (∃ e, skipRows n its = .error e ∧ skipRows n its' = .error e) ∨
    ∃ st st', skipRows n its = .ok st ∧ skipRows n its' = .ok st' ∧ CutAll st' st
  | 0, its, its', h => .inr (.inr ⟨_, _, rfl, rfl, h⟩)
  | n + 1, its, its', h => by
    simp only [skipRows]
    have hc := h.joinCall
    unfold SimR at hc
    revert hc
    generalize joinCall its' = j'
    generalize joinCall its = j
    obtain ⟨r', s'⟩ := j'
    obtain ⟨r, s⟩ := j
    dsimp only
    rintro (⟨m, rfl⟩ | ⟨rfl, hc⟩)
    · exact .inl ⟨m, rfl⟩
    · rcases r' with e | _ | p
      · exact .inr (.inl ⟨e, rfl, rfl⟩)
      · exact .inr (.inr ⟨_, _, rfl, rfl, hc⟩)
      · exact skipRows_fails n hc

theorem readRows_fails {getData getData' : Nat → Int → Res (GoMap Value)} (hd : ∀ i p, ResMayFail (getData i p) (getData' i p)) : ∀ (n i : Nat) {its its' : List PIter}, CutAll its' its →
    ResMayFail (readRows getData n i its) (readRows getData' n i its')
  | 0, i, its, its', h => .inl rfl
  | n + 1, i, its, its', h => by
    simp only [readRows]
    have hc := h.joinCall
    unfold SimR at hc
    revert hc
    generalize joinCall its' = j'
    generalize joinCall its = j
    obtain ⟨r', s'⟩ := j'
    obtain ⟨r, s⟩ := j
    dsimp only
    rintro (⟨m, rfl⟩ | ⟨rfl, hc⟩)
    · exact .inr ⟨m, rfl⟩
    · rcases r' with e | _ | p
      · exact .inl rfl
      · exact .inl rfl
      · dsimp only
        rcases hd i p with hp | ⟨m, hp⟩
        · rw [hp]
          cases getData i p with
          | error e => exact .inl rfl
          | ok data =>
            dsimp only
            rcases readRows_fails hd n (i + 1) hc with hr | ⟨m, hr⟩
            · rw [hr]
              exact .inl rfl
            · rw [hr]
              exact .inr ⟨m, rfl⟩
        · rw [hp]
          exact .inr ⟨m, rfl⟩

theorem handleArray_fails (h : MayFail env env') (c : ArrayConfig) (params : GoMap Bytes) : SameOrError (handleArray env c params) (handleArray env' c params) := by
  unfold handleArray
  cases getLimit c.limit params with
  | error e => exact .inl rfl
  | ok limit =>
    dsimp only
    cases getOffset c.offsetParameter params with
    | error e => exact .inl rfl
    | ok offset =>
      dsimp only
      rw [h.visit, arrayFilters_fails h.parsers]
      cases arrayFilters env params (env.visit [0] c.parameters) [] with
      | error e => exact .inl rfl
      | ok filters =>
        dsimp only
        rcases (h.inputs c.input).cases with ⟨e1, e2⟩ | ⟨input, input', e1, e2, hf⟩
        · simp only [e1, e2]
          exact .inl rfl
        · simp only [e1, e2]
          rcases positions_fails h (path := []) e1 e2 filters with ⟨m, hm⟩ | ⟨e, g1, g2⟩ | ⟨its, its', g1, g2, hc⟩
          · simp only [hm]
            exact .inr ⟨m, rfl⟩
          · simp only [g1, g2]
            exact .inl rfl
          · simp only [g1, g2]
            rcases skipRows_fails offset hc with ⟨m, hm⟩ | ⟨e, g1, g2⟩ | ⟨st, st', g1, g2, hc⟩
            · simp only [hm]
              exact .inr ⟨m, rfl⟩
            · simp only [g1, g2]
              exact .inl rfl
            · simp only [g1, g2]
              rcases readRows_fails (getData := fun i p => dataFromPosition env [4, i] c.input c.relationships p) (getData' := fun i p => dataFromPosition env' [4, i] c.input c.relationships p)
                (fun i p => dataFromPosition_fails h _ _ _ _) (intOfUint limit).toNat 0 hc with hr | ⟨m, hr⟩
              · simp only [hr]
                exact .inl rfl
              · simp only [hr]
                exact .inr ⟨m, rfl⟩

theorem handleObject_fails (h : MayFail env env') (c : ObjectConfig) (params : GoMap Bytes) : SameOrError (handleObject env c params) (handleObject env' c params) := by
  unfold handleObject
  rw [h.visit, objectFilters_fails h.parsers]
  cases objectFilters env params (env.visit [0] c.parameters) [] with
  | error e => exact .inl rfl
  | ok filters =>
    dsimp only
    rcases (h.inputs c.input).cases with ⟨e1, e2⟩ | ⟨input, input', e1, e2, hf⟩
    · simp only [e1, e2]
      exact .inl rfl
    · simp only [e1, e2]
      rcases positions_fails h (path := []) e1 e2 filters with ⟨m, hm⟩ | ⟨e, g1, g2⟩ | ⟨its, its', g1, g2, hc⟩
      · simp only [hm]
        exact .inr ⟨m, rfl⟩
      · simp only [g1, g2]
        exact .inl rfl
      · simp only [g1, g2]
        have hj := hc.joinCall
        unfold SimR at hj
        revert hj
        generalize joinCall its' = j'
        generalize joinCall its = j
        obtain ⟨r', s'⟩ := j'
        obtain ⟨r, s⟩ := j
        dsimp only
        rintro (⟨m, rfl⟩ | ⟨rfl, _⟩)
        · exact .inr ⟨m, rfl⟩
        · rcases r' with e | _ | p
          · exact .inl rfl
          · exact .inl rfl
          · dsimp only
            rcases dataFromPosition_fails h [4] c.input c.relationships p with hr | ⟨m, hr⟩
            · rw [hr]
              exact .inl rfl
            · rw [hr]
              exact .inr ⟨m, rfl⟩
end

/-! ### The service -/

section
variable {service : ServiceLib} {errorsType : String}

theorem error500 (m : String) (events : List Event) (h : events = .header "X-Powered-By" "RODB (https://rodb-io.github.io/rodb/)" :: sendErrorResponse service errorsType 500 m) :
    ∃ r, clientGets (events, .returned) = some r ∧ r.status = 500 := by
  subst h
  refine ⟨_, rfl, ?_⟩
  unfold sendErrorResponse
  split <;> rfl

theorem Spec.RouteMayFail.matches {route route' : Route} (h : RouteMayFail route route') (request : Request) : routeMatches service request route' = routeMatches service request route := by
  unfold routeMatches
  rw [h.payloadType, h.regexp]

theorem matching_fails (request : Request) : ∀ {routes routes' : List Route}, RoutesMayFail routes routes' →
    (getMatchingRoute service request routes = none ∧ getMatchingRoute service request routes' = none) ∨
    ∃ route route', getMatchingRoute service request routes = some route ∧ getMatchingRoute service request routes' = some route' ∧ RouteMayFail route route'
  | [], [], _ => .inl ⟨rfl, rfl⟩
  | route :: rest, route' :: rest', h => by
    simp only [getMatchingRoute, h.1.matches request]
    by_cases hm : routeMatches service request route = true
    · simp only [if_pos hm]
      exact .inr ⟨_, _, rfl, rfl, h.1⟩
    · simp only [if_neg hm]
      exact matching_fails request h.2

theorem handleRequest_fails {routes routes' : List Route} (h : RoutesMayFail routes routes') (request : Request) :
    RightOr500 (clientGets (handleRequest service errorsType routes request)) (clientGets (handleRequest service errorsType routes' request)) := by
  unfold handleRequest
  rcases matching_fails (service := service) request h with ⟨e1, e2⟩ | ⟨route, route', e1, e2, hr⟩
  · rw [e1, e2]
    exact .inl rfl
  · rw [e1, e2]
    dsimp only
    have hp : getPayload route' request = getPayload route request := by
      unfold getPayload
      rw [hr.payloadType]
    have hq : getParams service route' request = getParams service route request := by
      unfold getParams
      rw [hr.regexp, hr.parameters]
    unfold serveRoute
    rw [hp, hq]
    cases getPayload route request with
    | error e => exact .inl rfl
    | ok payload =>
      dsimp only
      cases getParams service route request with
      | error e => exact .inl rfl
      | ok params =>
        dsimp only
        rcases hr.handle params payload with hh | ⟨m, hh⟩
        · rw [hh, hr.responseType]
          exact .inl rfl
        · rw [hh]
          exact .inr (error500 m _ rfl)

theorem serveTarget_fails {routes routes' : List Route} (h : RoutesMayFail routes routes') (old : Bool) (visit : GoMap (List Bytes) → GoMap (List Bytes)) (method contentType : String) (target : Bytes)
    (body : Res Bytes) :
    RightOr500 (serveTarget service errorsType routes old visit method contentType target body) (serveTarget service errorsType routes' old visit method contentType target body) := by
  unfold serveTarget
  cases readTarget old target with
  | bad => exact .inl rfl
  | unmodelled => exact .inl rfl
  | read path query => exact handleRequest_fails h _
end

end Rodb
