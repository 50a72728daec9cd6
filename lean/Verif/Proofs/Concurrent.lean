import Verif.Spec.Concurrent
import Verif.Proofs.Reader
import Verif.Props.JsonFetchProps
/-
  Lemmas about requests that are handled at the same time.
-/
namespace Rodb
open Spec

/-! ### The handlers, call by call -/

theorem Asking.run_bind {α β : Type} (fetch : String → Int → Res Rec) (t : Asking α) (g : α → Asking β) : (t.bind g).run fetch = (g (t.run fetch)).run fetch := by
  induction t with
  | done a => rfl
  | get input position next ih => exact ih _

/-- The outputs with other results of `Get`. -/
def OutputEnv.withFetch (fetch : String → Int → Res Rec) (env : OutputEnv) : OutputEnv := { env with inputs := env.inputs.map (fun e => (e.1, e.2.withFetch fetch)) }

theorem mapGet_map {α β : Type} (f : α → β) (m : GoMap α) (k : String) : mapGet (m.map (fun e => (e.1, f e.2))) k = (mapGet m k).map f := by
  induction m with
  | nil => rfl
  | cons e m ih =>
    obtain ⟨n, v⟩ := e
    simp only [List.map_cons, mapGet]
    split
    · rfl
    · exact ih

/-- An index that does not fetch. -/
def FetchFree (index : IndexFn) : Prop := ∀ (fetch : String → Int → Res Rec) (input : Input) (filters : GoMap Value), index (input.withFetch fetch) filters = index input filters

/-- Indexes that do not fetch. -/
structure OutputEnv.FetchFree (env : OutputEnv) : Prop where
  indexes : ∀ name index, mapGet env.indexes name = some index → Rodb.FetchFree index
  default : Rodb.FetchFree env.defaultIndex

theorem filteredPositionsLoop_withFetch {env : OutputEnv} (h : env.FetchFree) (fetch : String → Int → Res Rec) (path : List Nat) (input : Input) :
    ∀ (filters : GoMap (GoMap Value)) (i : Nat), filteredPositionsLoop (env.withFetch fetch) path (input.withFetch fetch) i filters = filteredPositionsLoop env path input i filters := by
  intro filters
  induction filters with
  | nil => intro i; rfl
  | cons e rest ih =>
    intro i
    obtain ⟨name, filters⟩ := e
    simp only [filteredPositionsLoop, ih]
    show (match mapGet env.indexes name with | none => _ | some index => _) = _
    cases hi : mapGet env.indexes name with
    | none => rfl
    | some index =>
      simp only
      rw [h.indexes name index hi]
      rfl

theorem filteredPositions_withFetch {env : OutputEnv} (h : env.FetchFree) (fetch : String → Int → Res Rec) (path : List Nat) (input : Input) (filters : GoMap (GoMap Value)) :
    filteredPositions (env.withFetch fetch) path (input.withFetch fetch) filters = filteredPositions env path input filters := by
  unfold filteredPositions
  rw [filteredPositionsLoop_withFetch h]
  rw [show (env.withFetch fetch).defaultIndex = env.defaultIndex from rfl, h.default]
  rfl

theorem collectSteps_run (fetch : String → Int → Res Rec) (input : Input) : ∀ it : PIter, (collectSteps input.name it).run fetch = collectRecords (input.withFetch fetch) it := by
  intro it
  induction it with
  | nil => rfl
  | cons r it ih =>
    cases r with
    | error e => rfl
    | ok p =>
      simp only [collectSteps, Asking.run, collectRecords]
      show _ = (match fetch input.name p with | .error e => _ | .ok r => _)
      cases fetch input.name p with
      | error e => rfl
      | ok r =>
        simp only [Asking.run_bind, ih]
        cases collectRecords (input.withFetch fetch) it <;> rfl

theorem itemsSteps_run (fetch : String → Int → Res Rec) {nested : Nat → GoMap Value → Asking (Res (GoMap Value))} {nested' : Nat → GoMap Value → Res (GoMap Value)}
    (h : ∀ i data, (nested i data).run fetch = nested' i data) (count : Int) : ∀ (rs : List Rec) (i : Nat), (itemsSteps nested count i rs).run fetch = loadItems nested' count i rs := by
  intro rs
  induction rs with
  | nil => intro i; rfl
  | cons r rs ih =>
    intro i
    simp only [itemsSteps, loadItems]
    cases r.all with
    | error e => rfl
    | ok data =>
      simp only [Asking.run_bind, h]
      cases nested' i data with
      | error e => rfl
      | ok data =>
        simp only
        split
        · rfl
        · simp only [Asking.run_bind, ih]
          cases loadItems nested' count (i + 1) rs <;> rfl

theorem relationshipSteps_run (fetch : String → Int → Res Rec) {env : OutputEnv} (hfree : env.FetchFree)
    {nested : List Nat → GoMap Value → List (String × Relationship) → Asking (Res (GoMap Value))} {nested' : List Nat → GoMap Value → List (String × Relationship) → Res (GoMap Value)}
    (h : ∀ path data rs, (nested path data rs).run fetch = nested' path data rs) (path : List Nat) (data : GoMap Value) (r : Relationship) :
    (relationshipSteps env nested path data r).run fetch = loadRelationship (env.withFetch fetch) nested' path data r := by
  obtain ⟨inputName, isArray, limit, sort, matching, relationships⟩ := r
  simp only [relationshipSteps, loadRelationship]
  cases relationshipFilters data matching [] with
  | error e => rfl
  | ok filters =>
    simp only
    rw [show (env.withFetch fetch).inputs = env.inputs.map (fun e => (e.1, e.2.withFetch fetch)) from rfl, mapGet_map]
    cases mapGet env.inputs inputName with
    | none => rfl
    | some input =>
      simp only [Option.map_some, filteredPositions_withFetch hfree]
      cases filteredPositions env path input filters with
      | error e => rfl
      | ok its =>
        simp only [Asking.run_bind, collectSteps_run]
        cases collectRecords (input.withFetch fetch) (joinIters its) with
        | error e => rfl
        | ok records =>
          simp only
          rw [show (env.withFetch fetch).sort = env.sort from rfl]
          generalize (if sort.length > 0 then sortRecords env.sort sort records else records) = records
          by_cases hcount : relationshipCount isArray limit records.length < 0
          · rw [if_pos hcount, if_pos hcount]
            rfl
          · rw [if_neg hcount, if_neg hcount, Asking.run_bind, itemsSteps_run fetch (fun i data => h (3 :: i :: path) data relationships)]
            cases loadItems (fun i item => nested' (3 :: i :: path) item relationships) _ 0 _ <;> rfl

theorem loopSteps_run (fetch : String → Int → Res Rec) {load : Nat → GoMap Value → Relationship → Asking (Res Value)} {load' : Nat → GoMap Value → Relationship → Res Value}
    (h : ∀ i data r, (load i data r).run fetch = load' i data r) :
    ∀ (rs : List (String × Relationship)) (i : Nat) (data : GoMap Value), (loopSteps load i data rs).run fetch = loadLoop load' i data rs := by
  intro rs
  induction rs with
  | nil => intro i data; rfl
  | cons r rs ih =>
    intro i data
    obtain ⟨name, r⟩ := r
    simp only [loopSteps, loadLoop, Asking.run_bind, h]
    cases load' i data r with
    | error e => rfl
    | ok v => exact ih _ _

theorem relationshipsSteps_run (fetch : String → Int → Res Rec) {env : OutputEnv} (hfree : env.FetchFree) :
    ∀ (fuel : Nat) (path : List Nat) (data : GoMap Value) (rs : List (String × Relationship)),
      (relationshipsSteps env fuel path data rs).run fetch = loadRelationships (env.withFetch fetch) fuel path data rs := by
  intro fuel
  induction fuel with
  | zero =>
    intro path data rs
    cases rs <;> rfl
  | succ fuel ih =>
    intro path data rs
    cases rs with
    | nil => rfl
    | cons r rs => exact loopSteps_run fetch (fun i data r => relationshipSteps_run fetch hfree ih (i :: path) data r) _ _ _

theorem dataSteps_run (fetch : String → Int → Res Rec) {env : OutputEnv} (hfree : env.FetchFree) (path : List Nat) (rootInput : String) (relationships : List (String × Relationship))
    (position : Int) : (dataSteps env path rootInput relationships position).run fetch = dataFromPosition (env.withFetch fetch) path rootInput relationships position := by
  simp only [dataSteps, dataFromPosition]
  rw [show (env.withFetch fetch).inputs = env.inputs.map (fun e => (e.1, e.2.withFetch fetch)) from rfl, mapGet_map]
  cases mapGet env.inputs rootInput with
  | none => rfl
  | some input =>
    simp only [Option.map_some, Asking.run]
    show _ = (match fetch input.name position with | .error e => _ | .ok r => _)
    cases fetch input.name position with
    | error e => rfl
    | ok record =>
      simp only
      cases record.all with
      | error e => rfl
      | ok data => exact relationshipsSteps_run fetch hfree _ _ _ _

theorem rowsSteps_run (fetch : String → Int → Res Rec) {getData : Nat → Int → Asking (Res (GoMap Value))} {getData' : Nat → Int → Res (GoMap Value)}
    (h : ∀ i p, (getData i p).run fetch = getData' i p) : ∀ (n i : Nat) (st : List PIter), (rowsSteps getData n i st).run fetch = readRows getData' n i st := by
  intro n
  induction n with
  | zero => intro i st; rfl
  | succ n ih =>
    intro i st
    simp only [rowsSteps, readRows]
    cases joinCall st with
    | mk r st' =>
      cases r with
      | error e => rfl
      | ok p =>
        cases p with
        | none => rfl
        | some p =>
          simp only [Asking.run_bind, h]
          cases getData' i p with
          | error e => rfl
          | ok data =>
            simp only [Asking.run_bind, ih]
            cases readRows getData' n (i + 1) st' <;> rfl

theorem arrayFilters_withFetch (fetch : String → Int → Res Rec) (env : OutputEnv) (params : GoMap Bytes) :
    ∀ (ps : GoMap ParamConfig) (filters : GoMap (GoMap Value)), arrayFilters (env.withFetch fetch) params ps filters = arrayFilters env params ps filters := by
  intro ps
  induction ps with
  | nil => intro _; rfl
  | cons p ps ih =>
    intro filters
    simp only [arrayFilters, ih]
    rfl

theorem objectFilters_withFetch (fetch : String → Int → Res Rec) (env : OutputEnv) (params : GoMap Bytes) :
    ∀ (ps : GoMap ParamConfig) (filters : GoMap (GoMap Value)), objectFilters (env.withFetch fetch) params ps filters = objectFilters env params ps filters := by
  intro ps
  induction ps with
  | nil => intro _; rfl
  | cons p ps ih =>
    intro filters
    simp only [objectFilters, ih]
    rfl

/-- The array handler makes these calls of `Get`. -/
theorem arraySteps_run (fetch : String → Int → Res Rec) {env : OutputEnv} (hfree : env.FetchFree) (c : ArrayConfig) (params : GoMap Bytes) :
    (arraySteps env c params).run fetch = handleArray (env.withFetch fetch) c params := by
  simp only [arraySteps, handleArray, arrayFilters_withFetch]
  cases getLimit c.limit params with
  | error e => rfl
  | ok limit =>
    simp only
    cases getOffset c.offsetParameter params with
    | error e => rfl
    | ok offset =>
      simp only
      rw [show (env.withFetch fetch).visit [0] c.parameters = env.visit [0] c.parameters from rfl]
      cases arrayFilters env params (env.visit [0] c.parameters) [] with
      | error e => rfl
      | ok filters =>
        simp only
        rw [show (env.withFetch fetch).inputs = env.inputs.map (fun e => (e.1, e.2.withFetch fetch)) from rfl, mapGet_map]
        cases mapGet env.inputs c.input with
        | none => rfl
        | some input =>
          simp only [Option.map_some, filteredPositions_withFetch hfree]
          cases filteredPositions env [] input filters with
          | error e => rfl
          | ok its =>
            simp only
            cases skipRows offset its with
            | error e => rfl
            | ok st =>
              simp only
              rw [Asking.run_bind, rowsSteps_run fetch (fun i p => dataSteps_run fetch hfree [4, i] c.input c.relationships p)]
              cases readRows _ (intOfUint limit).toNat 0 st <;> rfl

/-- The object handler makes these calls of `Get`. -/
theorem objectSteps_run (fetch : String → Int → Res Rec) {env : OutputEnv} (hfree : env.FetchFree) (c : ObjectConfig) (params : GoMap Bytes) :
    (objectSteps env c params).run fetch = handleObject (env.withFetch fetch) c params := by
  simp only [objectSteps, handleObject, objectFilters_withFetch]
  rw [show (env.withFetch fetch).visit [0] c.parameters = env.visit [0] c.parameters from rfl]
  cases objectFilters env params (env.visit [0] c.parameters) [] with
  | error e => rfl
  | ok filters =>
    simp only
    rw [show (env.withFetch fetch).inputs = env.inputs.map (fun e => (e.1, e.2.withFetch fetch)) from rfl, mapGet_map]
    cases mapGet env.inputs c.input with
    | none => rfl
    | some input =>
      simp only [Option.map_some, filteredPositions_withFetch hfree]
      cases filteredPositions env [] input filters with
      | error e => rfl
      | ok its =>
        simp only
        cases joinCall its with
        | mk r st' =>
          cases r with
          | error e => rfl
          | ok p =>
            cases p with
            | none => rfl
            | some p =>
              simp only
              rw [Asking.run_bind, dataSteps_run fetch hfree]
              cases dataFromPosition (env.withFetch fetch) [4] c.input c.relationships p <;> rfl

/-! ### Sharing -/

/-- Some steps of one call. -/
inductive GetSteps.Steps (g : GetSteps) : g.Call → g.Shared → g.Call → g.Shared → Prop where
  | refl {call s} : Steps g call s call s
  | head {call s call' s' call'' s''} : g.Step call s call' s' → Steps g call' s' call'' s'' → Steps g call s call'' s''

/-- Calls of `Get` that, one at a time, return this for the positions that are asked. `Idle` is what is known of the shared state when nothing is locked, `Mid` what is known of a call with the lock. -/
structure GetSteps.Computes (g : GetSteps) (fetch : Int → Res Rec) (Asked : Int → Prop) (Idle : g.Shared → Prop) (Mid : Int → g.Call → g.Shared → Prop) : Prop where
  opened : ∀ {s}, g.Opened s → Idle s
  enter : ∀ {s p}, Idle s → Asked p → Mid p (g.enter p) s
  step : ∀ {p call s call' s'}, Mid p call s → g.Step call s call' s' → Mid p call' s'
  result : ∀ {p call s r}, Mid p call s → g.result call = some r → r = fetch p ∧ Idle s
  finishes : ∀ {p call s}, Mid p call s → ∃ call' s' r, g.Steps call s call' s' ∧ g.result call' = some r

/-- What is known of a request, when the shared states are these. -/
def Handler.Good {get : String → GetSteps} {α : Type} (fetch : String → Int → Res Rec) (Asked : String → Int → Prop) (Mid : (name : String) → Int → (get name).Call → (get name).Shared → Prop)
    (shared : (name : String) → (get name).Shared) (a : α) : Handler get α → Prop
  | .outside todo => todo.run fetch = a ∧ AsksOnly Asked todo
  | .inside input call next => ∃ p, Mid input p call (shared input) ∧ (next (fetch input p)).run fetch = a ∧ AsksOnly Asked (next (fetch input p))

/-- Is this request inside of `Get` of this input? -/
def Handler.Holds {get : String → GetSteps} {α : Type} (name : String) : Handler get α → Prop
  | .outside _ => False
  | .inside input _ _ => input = name

/-- What is known of all the requests. -/
structure HandlingInv {get : String → GetSteps} {Q α : Type} (handle : Q → Asking α) (fetch : String → Int → Res Rec) (Asked : String → Int → Prop)
    (Idle : (name : String) → (get name).Shared → Prop) (Mid : (name : String) → Int → (get name).Call → (get name).Shared → Prop) (s : Handling get Q α) : Prop where
  asks : ∀ q, AsksOnly Asked (handle q)
  good : ∀ (i : Nat) (q : Q) (h : Handler get α), s.handlers[i]? = some (q, h) → h.Good fetch Asked Mid s.shared ((handle q).run fetch)
  free : ∀ name, s.locked name = false → Idle name (s.shared name) ∧ ∀ (i : Nat) (q : Q) (h : Handler get α), s.handlers[i]? = some (q, h) → ¬ h.Holds name
  held : ∀ name, s.locked name = true → ∃ (i : Nat) (q : Q) (h : Handler get α), s.handlers[i]? = some (q, h) ∧ h.Holds name
  one : ∀ (name : String) (i j : Nat) (q q' : Q) (h h' : Handler get α), s.handlers[i]? = some (q, h) → s.handlers[j]? = some (q', h') → h.Holds name → h'.Holds name → i = j

theorem setAt_same {β : String → Type} (f : (s : String) → β s) (a : String) (v : β a) : setAt f a v a = v := by simp [setAt]
theorem setAt_other {β : String → Type} (f : (s : String) → β s) {a b : String} (v : β a) (h : b ≠ a) : setAt f a v b = f b := by simp [setAt, h]

theorem getElem?_set_cases {α : Type} {l : List α} {i j : Nat} {a b : α} (h : (l.set i a)[j]? = some b) : (j = i ∧ b = a) ∨ (j ≠ i ∧ l[j]? = some b) := by
  rw [List.getElem?_set] at h
  split at h
  · rename_i heq
    split at h
    · exact .inl ⟨heq.symm, (Option.some.inj h).symm⟩
    · cases h
  · rename_i hne
    exact .inr ⟨fun h => hne h.symm, h⟩

theorem getElem?_set_of {α : Type} {l : List α} {i : Nat} {a b : α} (h : l[i]? = some b) : (l.set i a)[i]? = some a := by
  rw [List.getElem?_set_self (List.getElem?_eq_some_iff.1 h).1]

/-- The shared state of an input matters only to the request inside. -/
theorem Handler.Good.other {get : String → GetSteps} {α : Type} {fetch : String → Int → Res Rec} {Asked : String → Int → Prop} {Mid : (name : String) → Int → (get name).Call → (get name).Shared → Prop}
    {shared shared' : (name : String) → (get name).Shared} {a : α} {h : Handler get α} (hg : h.Good fetch Asked Mid shared a)
    (hs : ∀ name, h.Holds name → shared' name = shared name) : h.Good fetch Asked Mid shared' a := by
  cases h with
  | outside todo => exact hg
  | inside input call next =>
    obtain ⟨p, h1, h2⟩ := hg
    exact ⟨p, by rw [hs input rfl]; exact h1, h2⟩

theorem HandlingInv.step {get : String → GetSteps} {Q α : Type} {handle : Q → Asking α} {fetch : String → Int → Res Rec} {Asked : String → Int → Prop}
    {Idle : (name : String) → (get name).Shared → Prop} {Mid : (name : String) → Int → (get name).Call → (get name).Shared → Prop} (hget : ∀ name, (get name).Computes (fetch name) (Asked name) (Idle name) (Mid name))
    {s t : Handling get Q α} (hi : HandlingInv handle fetch Asked Idle Mid s) (hstep : Handling.Step handle s t) : HandlingInv handle fetch Asked Idle Mid t := by
  cases hstep with
  | arrive q =>
    have hcases : ∀ {i : Nat} {q' : Q} {h : Handler get α}, (s.handlers ++ [(q, Handler.outside (handle q))])[i]? = some (q', h) →
        s.handlers[i]? = some (q', h) ∨ (q' = q ∧ h = Handler.outside (handle q)) := by
      intro i q' h hh
      rw [List.getElem?_append] at hh
      split at hh
      · exact .inl hh
      · rw [List.getElem?_singleton] at hh
        split at hh
        · cases hh; exact .inr ⟨rfl, rfl⟩
        · cases hh
    refine ⟨hi.asks, ?_, ?_, ?_, ?_⟩
    · intro i q' h hh
      rcases hcases hh with hh | ⟨rfl, rfl⟩
      · exact hi.good i q' h hh
      · exact ⟨rfl, hi.asks _⟩
    · intro name hl
      refine ⟨(hi.free name hl).1, fun i q' h hh => ?_⟩
      rcases hcases hh with hh | ⟨rfl, rfl⟩
      · exact (hi.free name hl).2 i q' h hh
      · exact fun h => h
    · intro name hl
      obtain ⟨i, q', h, h1, h2⟩ := hi.held name hl
      exact ⟨i, q', h, by rw [List.getElem?_append_left (List.getElem?_eq_some_iff.1 h1).1]; exact h1, h2⟩
    · intro name i j q1 q2 h1 h2 e1 e2 p1 p2
      rcases hcases e1 with e1 | ⟨rfl, rfl⟩
      · rcases hcases e2 with e2 | ⟨rfl, rfl⟩
        · exact hi.one name i j q1 q2 h1 h2 e1 e2 p1 p2
        · exact p2.elim
      · exact p1.elim
  | @lock i q input position next hh hl =>
    have hnot : ∀ (j : Nat) (q' : Q) (h' : Handler get α), s.handlers[j]? = some (q', h') → ¬ h'.Holds input := (hi.free input hl).2
    refine ⟨hi.asks, ?_, ?_, ?_, ?_⟩
    · intro j q' h' hj
      rcases getElem?_set_cases hj with ⟨rfl, he⟩ | ⟨hne, hj⟩
      · cases he
        obtain ⟨hrun, hasks⟩ := hi.good j q _ hh
        cases hasks with
        | get h1 h2 => exact ⟨position, (hget input).enter (hi.free input hl).1 h1, hrun, h2 _⟩
      · exact hi.good j q' h' hj
    · intro name hl'
      by_cases hn : name = input
      · subst hn
        simp only [setAt_same] at hl'
        cases hl'
      · simp only [setAt_other _ _ hn] at hl'
        refine ⟨(hi.free name hl').1, fun j q' h' hj => ?_⟩
        rcases getElem?_set_cases hj with ⟨rfl, he⟩ | ⟨hne, hj⟩
        · cases he
          exact fun h => hn h.symm
        · exact (hi.free name hl').2 j q' h' hj
    · intro name hl'
      by_cases hn : name = input
      · subst hn
        exact ⟨i, q, _, getElem?_set_of hh, rfl⟩
      · simp only [setAt_other _ _ hn] at hl'
        obtain ⟨j, q', h', h1, h2⟩ := hi.held name hl'
        have hne : j ≠ i := by
          rintro rfl
          rw [hh] at h1
          cases h1
          exact h2
        exact ⟨j, q', h', by rw [List.getElem?_set_ne (fun e => hne e.symm)]; exact h1, h2⟩
    · intro name j k q1 q2 h1 h2 e1 e2 p1 p2
      rcases getElem?_set_cases e1 with ⟨rfl, he⟩ | ⟨hne, e1'⟩
      · cases he
        rcases getElem?_set_cases e2 with ⟨rfl, he⟩ | ⟨hne', e2⟩
        · rfl
        · cases p1
          exact absurd p2 (hnot k q2 h2 e2)
      · rcases getElem?_set_cases e2 with ⟨rfl, he⟩ | ⟨hne', e2⟩
        · cases he
          have p2' : input = name := p2
          rw [← p2'] at p1
          exact absurd p1 (hnot j q1 h1 e1')
        · exact hi.one name j k q1 q2 h1 h2 e1' e2 p1 p2
  | @move i q input call call' next shared' hh hs =>
    have hother : ∀ (j : Nat) (q' : Q) (h' : Handler get α), j ≠ i → s.handlers[j]? = some (q', h') → ¬ h'.Holds input :=
      fun j q' h' hne hj hin => hne (hi.one input j i q' q h' _ hj hh hin rfl)
    have hlocked : s.locked input = true := by
      cases hl : s.locked input with
      | true => rfl
      | false => exact absurd rfl ((hi.free input hl).2 i q _ hh)
    refine ⟨hi.asks, ?_, ?_, ?_, ?_⟩
    · intro j q' h' hj
      rcases getElem?_set_cases hj with ⟨rfl, he⟩ | ⟨hne, hj⟩
      · cases he
        obtain ⟨p, h1, h2⟩ := hi.good j q _ hh
        exact ⟨p, by simp only [setAt_same]; exact (hget input).step h1 hs, h2⟩
      · refine (hi.good j q' h' hj).other (fun name hn => setAt_other _ _ (fun he => ?_))
        rw [he] at hn
        exact hother j q' h' hne hj hn
    · intro name hl'
      have hn : name ≠ input := by
        rintro rfl
        rw [hlocked] at hl'
        cases hl'
      refine ⟨by simp only [setAt_other _ _ hn]; exact (hi.free name hl').1, fun j q' h' hj => ?_⟩
      rcases getElem?_set_cases hj with ⟨rfl, he⟩ | ⟨hne, hj⟩
      · cases he
        exact fun h => hn h.symm
      · exact (hi.free name hl').2 j q' h' hj
    · intro name hl'
      obtain ⟨j, q', h', h1, h2⟩ := hi.held name hl'
      by_cases hne : j = i
      · subst hne
        rw [hh] at h1
        cases h1
        exact ⟨j, q, _, getElem?_set_of hh, h2⟩
      · exact ⟨j, q', h', by rw [List.getElem?_set_ne (fun e => hne e.symm)]; exact h1, h2⟩
    · intro name j k q1 q2 h1 h2 e1 e2 p1 p2
      rcases getElem?_set_cases e1 with ⟨rfl, he⟩ | ⟨hne, e1'⟩
      · cases he
        rcases getElem?_set_cases e2 with ⟨rfl, he⟩ | ⟨hne', e2⟩
        · rfl
        · cases p1
          exact absurd p2 (hother k q2 h2 hne' e2)
      · rcases getElem?_set_cases e2 with ⟨rfl, he⟩ | ⟨hne', e2⟩
        · cases he
          have p2' : input = name := p2
          rw [← p2'] at p1
          exact absurd p1 (hother j q1 h1 hne e1')
        · exact hi.one name j k q1 q2 h1 h2 e1' e2 p1 p2
  | @unlock i q input call next r hh hr =>
    obtain ⟨p, hmid, hrun⟩ := hi.good i q _ hh
    obtain ⟨rfl, hopened⟩ := (hget input).result hmid hr
    have hother : ∀ (j : Nat) (q' : Q) (h' : Handler get α), j ≠ i → s.handlers[j]? = some (q', h') → ¬ h'.Holds input :=
      fun j q' h' hne hj hin => hne (hi.one input j i q' q h' _ hj hh hin rfl)
    refine ⟨hi.asks, ?_, ?_, ?_, ?_⟩
    · intro j q' h' hj
      rcases getElem?_set_cases hj with ⟨rfl, he⟩ | ⟨hne, hj⟩
      · cases he
        exact hrun
      · exact hi.good j q' h' hj
    · intro name hl'
      by_cases hn : name = input
      · subst hn
        refine ⟨hopened, fun j q' h' hj => ?_⟩
        rcases getElem?_set_cases hj with ⟨rfl, he⟩ | ⟨hne, hj⟩
        · cases he
          exact fun h => h
        · exact hother j q' h' hne hj
      · simp only [setAt_other _ _ hn] at hl'
        refine ⟨(hi.free name hl').1, fun j q' h' hj => ?_⟩
        rcases getElem?_set_cases hj with ⟨rfl, he⟩ | ⟨hne, hj⟩
        · cases he
          exact fun h => h
        · exact (hi.free name hl').2 j q' h' hj
    · intro name hl'
      have hn : name ≠ input := by
        rintro rfl
        simp only [setAt_same] at hl'
        cases hl'
      simp only [setAt_other _ _ hn] at hl'
      obtain ⟨j, q', h', h1, h2⟩ := hi.held name hl'
      have hne : j ≠ i := by
        rintro rfl
        rw [hh] at h1
        cases h1
        exact hn h2.symm
      exact ⟨j, q', h', by rw [List.getElem?_set_ne (fun e => hne e.symm)]; exact h1, h2⟩
    · intro name j k q1 q2 h1 h2 e1 e2 p1 p2
      rcases getElem?_set_cases e1 with ⟨rfl, he⟩ | ⟨hne, e1⟩
      · cases he
        exact p1.elim
      · rcases getElem?_set_cases e2 with ⟨rfl, he⟩ | ⟨hne', e2⟩
        · cases he
          exact p2.elim
        · exact hi.one name j k q1 q2 h1 h2 e1 e2 p1 p2

theorem HandlingInv.run {get : String → GetSteps} {Q α : Type} {handle : Q → Asking α} {fetch : String → Int → Res Rec} {Asked : String → Int → Prop}
    {Idle : (name : String) → (get name).Shared → Prop} {Mid : (name : String) → Int → (get name).Call → (get name).Shared → Prop} (hget : ∀ name, (get name).Computes (fetch name) (Asked name) (Idle name) (Mid name))
    {s t : Handling get Q α} (hi : HandlingInv handle fetch Asked Idle Mid s) (hrun : Handling.Run handle s t) : HandlingInv handle fetch Asked Idle Mid t := by
  induction hrun with
  | refl => exact hi
  | step _ hstep ih => exact ih.step hget hstep

/-- Before the first request. -/
theorem HandlingInv.start {get : String → GetSteps} {Q α : Type} (handle : Q → Asking α) (fetch : String → Int → Res Rec) {Asked : String → Int → Prop}
    {Idle : (name : String) → (get name).Shared → Prop} {Mid : (name : String) → Int → (get name).Call → (get name).Shared → Prop} (hasks : ∀ q, AsksOnly Asked (handle q))
    (shared : (name : String) → (get name).Shared) (hidle : ∀ name, Idle name (shared name)) :
    HandlingInv handle fetch Asked Idle Mid { locked := fun _ => false, shared := shared, handlers := ([] : List (Q × Handler get α)) } :=
  ⟨hasks, fun i q h hh => (by simp at hh), fun name _ => ⟨hidle name, fun i q h hh => (by simp at hh)⟩, fun name h => (by cases h), fun name i j q q' h h' hh => (by simp at hh)⟩

/-! ### `Get` of CSV and JSON inputs -/

/-- What is known of a call of `Get` of a CSV input. -/
def CsvCall.Mid (c : CsvInput) (content : Bytes) (p : Int) (call : CsvCall c.reader) (r : BufReader) : Prop :=
  r.content = content ∧
  match call with
  | .locked q => q = p
  | .sought q => q = p ∧ 0 ≤ p ∧ r.offset = p.toNat
  | .reading q s => q = p ∧ 0 ≤ p ∧ ∃ n, r.At n ∧ (readItem c.reader s (content.drop n)).1 = firstItem c.reader (content.drop p.toNat)
  | .finished a => ∀ sched, a = (csvFetch c sched { content := content, offset := 0, buffer := [] } p).1

theorem csvFetch_result (c : CsvInput) (sched : List Nat) (r : BufReader) {p : Int} (hp : 0 ≤ p) :
    (csvFetch c sched r p).1 = csvResult c.columns p (firstItem c.reader (r.content.drop p.toNat)) := by
  obtain ⟨n, rfl⟩ := Int.eq_ofNat_of_zero_le hp
  rw [csvFetch_spec, Int.toNat_natCast]
  cases firstItem c.reader (r.content.drop n) <;> rfl

/-- What `Get` of a CSV input returns does not depend on the reader. -/
theorem csvFetch_same (c : CsvInput) (sched sched' : List Nat) {r r' : BufReader} (h : r.content = r'.content) (p : Int) :
    (csvFetch c sched r p).1 = (csvFetch c sched' r' p).1 := by
  by_cases hp : 0 ≤ p
  · rw [csvFetch_result c sched r hp, csvFetch_result c sched' r' hp, h]
  · have : p < 0 := by omega
    simp [csvFetch, setBufferedReaderOffset, this]

theorem csvGet_computes (c : CsvInput) (content : Bytes) (fetch : Int → Res Rec)
    (hfetch : ∀ p sched, fetch p = (csvFetch c sched { content := content, offset := 0, buffer := [] } p).1) : (csvGet c content).Computes fetch (fun _ => True) (fun r => r.content = content) (CsvCall.Mid c content) := by
  refine ⟨id, fun {s p} h _ => ⟨h, rfl⟩, ?_, ?_, ?_⟩
  · rintro p call s call' s' ⟨hc, hmid⟩ hstep
    replace hstep : CsvCall.Step c call s call' s' := hstep
    cases hstep with
    | refused hp =>
      cases hmid
      exact ⟨hc, fun sched => by simp [csvFetch, setBufferedReaderOffset, hp]⟩
    | seek hp =>
      cases hmid
      exact ⟨hc, rfl, hp, rfl⟩
    | reset =>
      obtain ⟨rfl, hp, ho⟩ := hmid
      refine ⟨hc, rfl, hp, _, ?_, rfl⟩
      simp [BufReader.At, ho]
    | byte ahead hn hst =>
      obtain ⟨rfl, hp, n, hat, hread⟩ := hmid
      obtain ⟨h1, h2, h3⟩ := BufReader.next_spec hat ahead
      rw [hn] at h1 h2 h3
      simp only at h1 h2 h3
      rw [hc] at h1 h2 h3
      cases hd : content.drop n with
      | nil => rw [hd] at h1; cases h1
      | cons b bs =>
        rw [hd] at h1 hread
        cases h1
        have hlen : 1 ≤ content.length - n := by
          have := congrArg List.length hd
          simp at this; omega
        rw [Nat.min_eq_left hlen] at h3
        simp only [readItem, hst] at hread
        refine ⟨h2, rfl, hp, n + 1, h3, ?_⟩
        rw [← List.drop_drop, hd]
        exact hread
    | last ahead hn hst =>
      obtain ⟨rfl, hp, n, hat, hread⟩ := hmid
      obtain ⟨h1, h2, h3⟩ := BufReader.next_spec hat ahead
      rw [hn] at h1 h2 h3
      simp only at h1 h2 h3
      rw [hc] at h1 h2 h3
      cases hd : content.drop n with
      | nil => rw [hd] at h1; cases h1
      | cons b bs =>
        rw [hd] at h1 hread
        cases h1
        simp only [readItem, hst] at hread
        exact ⟨h2, fun sched => by rw [csvFetch_result c sched _ hp, hread]⟩
    | eof ahead hn =>
      obtain ⟨rfl, hp, n, hat, hread⟩ := hmid
      obtain ⟨h1, h2, h3⟩ := BufReader.next_spec hat ahead
      rw [hn] at h1 h2 h3
      simp only at h1 h2 h3
      rw [hc] at h1 h2 h3
      cases hd : content.drop n with
      | nil =>
        rw [hd] at hread
        simp only [readItem] at hread
        exact ⟨h2, fun sched => by rw [csvFetch_result c sched _ hp, hread]⟩
      | cons b bs => rw [hd] at h1; cases h1
  · rintro p call s r ⟨hc, hmid⟩ hr
    cases call with
    | finished a =>
      simp only [csvGet, Option.some.injEq] at hr
      subst hr
      exact ⟨(hmid []).trans (hfetch p []).symm, hc⟩
    | locked => cases hr
    | sought => cases hr
    | reading => cases hr
  · have hreading : ∀ (n : Nat) (p : Int) (st : c.reader.σ) (s : BufReader) (k : Nat), (content.drop k).length ≤ n → s.content = content → s.At k →
        ∃ call' s' r, (csvGet c content).Steps (CsvCall.reading p st) s call' s' ∧ (csvGet c content).result call' = some r := by
      intro n
      induction n with
      | zero =>
        intro p st s k hn hc hat
        obtain ⟨h1, h2, h3⟩ := BufReader.next_spec hat 0
        have hnil : content.drop k = [] := List.length_eq_zero_iff.1 (by omega)
        rw [hc, hnil] at h1
        exact ⟨_, _, _, .head (CsvCall.Step.eof 0 (r' := (s.next 0).2) (Prod.ext h1 rfl)) .refl, rfl⟩
      | succ n ih =>
        intro p st s k hn hc hat
        obtain ⟨h1, h2, h3⟩ := BufReader.next_spec hat 0
        rw [hc] at h1 h2 h3
        cases hd : content.drop k with
        | nil =>
          rw [hd] at h1
          exact ⟨_, _, _, .head (CsvCall.Step.eof 0 (r' := (s.next 0).2) (Prod.ext h1 rfl)) .refl, rfl⟩
        | cons b bs =>
          rw [hd] at h1
          have hlen : 1 ≤ content.length - k := by
            have := congrArg List.length hd
            simp at this; omega
          rw [Nat.min_eq_left hlen] at h3
          cases hs : c.reader.step st b with
          | inr a => exact ⟨_, _, _, .head (CsvCall.Step.last 0 (r' := (s.next 0).2) (Prod.ext h1 rfl) hs) .refl, rfl⟩
          | inl st' =>
            obtain ⟨call', s', r, i1, i2⟩ := ih p st' (s.next 0).2 (k + 1) (by rw [List.length_drop] at hn ⊢; omega) h2 h3
            exact ⟨call', s', r, .head (CsvCall.Step.byte 0 (Prod.ext h1 rfl) hs) i1, i2⟩
    have hsought : ∀ (p : Int) (s : BufReader), 0 ≤ p → s.content = content → s.offset = p.toNat →
        ∃ call' s' r, (csvGet c content).Steps (CsvCall.sought p) s call' s' ∧ (csvGet c content).result call' = some r := by
      intro p s hp hc ho
      obtain ⟨call', s', r, i1, i2⟩ := hreading (content.drop p.toNat).length p c.reader.init { s with buffer := [] } p.toNat (Nat.le_refl _) hc (by simp [BufReader.At, ho])
      exact ⟨call', s', r, .head CsvCall.Step.reset i1, i2⟩
    intro p call (s : BufReader) hmid
    obtain ⟨hc, hmid⟩ := hmid
    cases call with
    | finished a => exact ⟨_, _, a, .refl, rfl⟩
    | locked q =>
      by_cases hq : q < 0
      · exact ⟨_, _, _, .head (CsvCall.Step.refused hq) .refl, rfl⟩
      · obtain ⟨call', s', r, i1, i2⟩ := hsought q { s with offset := q.toNat } (by omega) hc rfl
        exact ⟨call', s', r, .head (CsvCall.Step.seek (by omega)) i1, i2⟩
    | sought q =>
      obtain ⟨rfl, hp, ho⟩ := hmid
      exact hsought q s hp hc ho
    | reading q st =>
      obtain ⟨rfl, hp, k, hat, _⟩ := hmid
      exact hreading _ q st s k (Nat.le_refl _) hc hat

/-- What is known of a call of `Get` of a JSON input. -/
def JsonCall.Mid (decode : JsonDecoder) (content : Bytes) (p : Int) (call : JsonCall) (offset : Nat) : Prop :=
  match call with
  | .locked q => q = p
  | .sought q => q = p ∧ 0 ≤ p ∧ offset = p.toNat
  | .reading q got => (q : Int) = p ∧ content.drop q = got ++ content.drop offset
  | .finished a => a = jsonFetch decode content p

theorem jsonGet_computes (decode : JsonDecoder) (content : Bytes) : (jsonGet decode content).Computes (jsonFetch decode content) (fun _ => True) (fun _ => True) (JsonCall.Mid decode content) := by
  refine ⟨id, fun {s p} _ _ => rfl, ?_, ?_, ?_⟩
  · intro p call (s : Nat) call' (s' : Nat) hmid hstep
    replace hstep : JsonCall.Step decode content call s call' s' := hstep
    cases hstep with
    | refused hp =>
      cases hmid
      show _ = jsonFetch decode content _
      rw [jsonFetch, if_pos hp]
    | seek hp =>
      cases hmid
      exact ⟨rfl, hp, rfl⟩
    | start =>
      obtain ⟨rfl, hp, rfl⟩ := hmid
      exact ⟨by simp; omega, rfl⟩
    | read n =>
      obtain ⟨hp, hd⟩ := hmid
      refine ⟨hp, ?_⟩
      rw [hd, List.append_assoc, ← List.drop_drop]
      congr 1
      conv => lhs; rw [← List.take_append_drop (n + 1) (content.drop s)]
      congr 1
      by_cases hl : n + 1 ≤ (content.drop s).length
      · rw [List.length_take, Nat.min_eq_left hl]
      · rw [List.length_take, Nat.min_eq_right (by omega), List.drop_length, List.drop_eq_nil_of_le (by omega)]
    | enough he =>
      obtain ⟨rfl, hd⟩ := hmid
      show _ = jsonFetch decode content _
      rw [jsonFetch_result, hd, he]
    | eof he =>
      obtain ⟨rfl, hd⟩ := hmid
      show _ = jsonFetch decode content _
      rw [jsonFetch_result, hd, he, List.append_nil]
  · rintro p call s r hmid hr
    cases call with
    | finished a =>
      simp only [jsonGet, Option.some.injEq] at hr
      subst hr
      exact ⟨hmid, trivial⟩
    | locked => cases hr
    | sought => cases hr
    | reading => cases hr
  · have hreading : ∀ (p : Nat) (got : Bytes) (s : Nat), ∃ call' s' r, (jsonGet decode content).Steps (JsonCall.reading p got) s call' s' ∧
        (jsonGet decode content).result call' = some r := by
      intro p got s
      refine ⟨_, _, _, .head (JsonCall.Step.read (content.length + 1)) (.head (JsonCall.Step.eof ?_) .refl), rfl⟩
      rw [List.take_of_length_le (by rw [List.length_drop]; omega), List.length_drop]
      exact List.drop_eq_nil_of_le (by omega)
    intro p call (s : Nat) hmid
    cases call with
    | finished a => exact ⟨_, _, a, .refl, rfl⟩
    | locked q =>
      by_cases hq : q < 0
      · exact ⟨_, _, _, .head (JsonCall.Step.refused hq) .refl, rfl⟩
      · obtain ⟨call', s', r, i1, i2⟩ := hreading q.toNat [] q.toNat
        exact ⟨call', s', r, .head (JsonCall.Step.seek (by omega)) (.head JsonCall.Step.start i1), i2⟩
    | sought q =>
      obtain ⟨call', s', r, i1, i2⟩ := hreading q.toNat [] s
      exact ⟨call', s', r, .head JsonCall.Step.start i1, i2⟩
    | reading q got => exact hreading q got s

theorem noGet_computes : noGet.Computes (fun _ => .error (.err "There is no such input")) (fun _ => True) (fun _ => True) (fun _ _ _ => True) :=
  ⟨fun _ => trivial, fun _ _ => trivial, fun _ _ => trivial, fun _ hr => ⟨(Option.some.inj hr).symm, trivial⟩, fun {p call s} _ => ⟨call, s, _, .refl, rfl⟩⟩

/-! ### Finishing -/

theorem Handling.Run.trans {get : String → GetSteps} {Q α : Type} {handle : Q → Asking α} {s t u : Handling get Q α} (h : Handling.Run handle s t) (h' : Handling.Run handle t u) :
    Handling.Run handle s u := by
  induction h' with
  | refl => exact h
  | step _ hs ih => exact .step ih hs

/-- A request inside of `Get` goes on to the end of the call. -/
theorem Handling.run_call {get : String → GetSteps} {Q α : Type} {handle : Q → Asking α} {input : String} {next : Res Rec → Asking α} {call call' : (get input).Call}
    {shared shared' : (get input).Shared} (h : (get input).Steps call shared call' shared') : ∀ {s : Handling get Q α} {i : Nat} {q : Q},
    s.handlers[i]? = some (q, .inside input call next) → s.shared input = shared →
    ∃ t, Handling.Run handle s t ∧ t.locked = s.locked ∧ t.handlers = s.handlers.set i (q, .inside input call' next) := by
  induction h with
  | refl =>
    intro s i q hi hs
    refine ⟨s, .refl, rfl, ?_⟩
    obtain ⟨hlt, he⟩ := List.getElem?_eq_some_iff.1 hi
    rw [← he, List.set_getElem_self]
  | head hstep _ ih =>
    intro s i q hi hs
    subst hs
    obtain ⟨t, h1, h2, h3⟩ := ih (s := { s with shared := setAt s.shared input _, handlers := s.handlers.set i (q, .inside input _ next) }) (getElem?_set_of hi) (setAt_same _ _ _)
    exact ⟨t, Handling.Run.trans (.step .refl (.move hi hstep)) h1, h2, by rw [h3, List.set_set]⟩

/-- A request inside of `Get` comes out. -/
theorem HandlingInv.leave {get : String → GetSteps} {Q α : Type} {handle : Q → Asking α} {fetch : String → Int → Res Rec} {Asked : String → Int → Prop}
    {Idle : (name : String) → (get name).Shared → Prop} {Mid : (name : String) → Int → (get name).Call → (get name).Shared → Prop} (hget : ∀ name, (get name).Computes (fetch name) (Asked name) (Idle name) (Mid name))
    {s : Handling get Q α} (hi : HandlingInv handle fetch Asked Idle Mid s) {i : Nat} {q : Q} {input : String} {call : (get input).Call} {next : Res Rec → Asking α}
    (h : s.handlers[i]? = some (q, .inside input call next)) :
    ∃ t r, Handling.Run handle s t ∧ t.locked = setAt s.locked input false ∧ t.handlers = s.handlers.set i (q, .outside (next r)) := by
  obtain ⟨p, hmid, _⟩ := hi.good i q _ h
  obtain ⟨call', s', r, h1, h2⟩ := (hget input).finishes hmid
  obtain ⟨t, h3, h4, h5⟩ := Handling.run_call (handle := handle) h1 h rfl
  refine ⟨_, r, .step h3 (.unlock (i := i) (q := q) (by rw [h5]; exact getElem?_set_of h) h2), by rw [h4], by rw [h5, List.set_set]⟩

/-- When nothing is locked, a request can be handled to its end. -/
theorem HandlingInv.complete {get : String → GetSteps} {Q α : Type} {handle : Q → Asking α} {fetch : String → Int → Res Rec} {Asked : String → Int → Prop}
    {Idle : (name : String) → (get name).Shared → Prop} {Mid : (name : String) → Int → (get name).Call → (get name).Shared → Prop} (hget : ∀ name, (get name).Computes (fetch name) (Asked name) (Idle name) (Mid name)) (todo : Asking α) :
    ∀ {s : Handling get Q α}, HandlingInv handle fetch Asked Idle Mid s → (∀ name, s.locked name = false) → ∀ {i : Nat} {q : Q}, s.handlers[i]? = some (q, .outside todo) →
    ∃ t a, Handling.Run handle s t ∧ (∀ name, t.locked name = false) ∧ t.handlers = s.handlers.set i (q, .outside (.done a)) := by
  induction todo with
  | done a =>
    intro s hi hl i q h
    refine ⟨s, a, .refl, hl, ?_⟩
    obtain ⟨hlt, he⟩ := List.getElem?_eq_some_iff.1 h
    rw [← he, List.set_getElem_self]
  | get input position next ih =>
    intro s hi hl i q h
    have hstep := Handling.Step.lock (handle := handle) h (hl input)
    obtain ⟨t, r, h1, h2, h3⟩ := (hi.step hget hstep).leave hget (getElem?_set_of h)
    have hrun := Handling.Run.trans (.step .refl hstep) h1
    simp only at h2 h3
    obtain ⟨u, a, h4, h5, h6⟩ := ih r (hi.run hget hrun) (by
      intro name
      rw [h2]
      by_cases hn : name = input
      · subst hn
        rw [setAt_same]
      · rw [setAt_other _ _ hn, setAt_other _ _ hn]
        exact hl name) (i := i) (q := q) (by rw [h3, List.set_set]; exact getElem?_set_of h)
    exact ⟨u, a, hrun.trans h4, h5, by rw [h6, h3, List.set_set, List.set_set]⟩

/-- All the requests that are inside of `Get` can come out. -/
theorem HandlingInv.all_out {get : String → GetSteps} {Q α : Type} {handle : Q → Asking α} {fetch : String → Int → Res Rec} {Asked : String → Int → Prop}
    {Idle : (name : String) → (get name).Shared → Prop} {Mid : (name : String) → Int → (get name).Call → (get name).Shared → Prop} (hget : ∀ name, (get name).Computes (fetch name) (Asked name) (Idle name) (Mid name))
    {s : Handling get Q α} (hi : HandlingInv handle fetch Asked Idle Mid s) : ∀ k : Nat,
    ∃ t, Handling.Run handle s t ∧ t.handlers.map (·.1) = s.handlers.map (·.1) ∧ ∀ (i : Nat) (q : Q) (h : Handler get α), i < k → t.handlers[i]? = some (q, h) → ∃ todo, h = .outside todo := by
  intro k
  induction k with
  | zero => exact ⟨s, .refl, rfl, fun i q h hk => by omega⟩
  | succ k ih =>
    obtain ⟨t, h1, h2, h3⟩ := ih
    cases hh : t.handlers[k]? with
    | none =>
      refine ⟨t, h1, h2, fun i q h hk hi => ?_⟩
      by_cases hik : i = k
      · subst hik
        rw [hh] at hi
        cases hi
      · exact h3 i q h (by omega) hi
    | some e =>
      obtain ⟨q, h⟩ := e
      cases h with
      | outside todo =>
        refine ⟨t, h1, h2, fun i q' h hk hi => ?_⟩
        by_cases hik : i = k
        · subst hik
          rw [hh] at hi
          cases hi
          exact ⟨todo, rfl⟩
        · exact h3 i q' h (by omega) hi
      | inside input call next =>
        obtain ⟨u, r, g1, _, g3⟩ := (hi.run hget h1).leave hget hh
        refine ⟨u, h1.trans g1, ?_, fun i q' h hk hi => ?_⟩
        · rw [g3, List.map_set, ← h2]
          obtain ⟨hlt, he⟩ := List.getElem?_eq_some_iff.1 hh
          have : (t.handlers.map (·.1))[k]'(by simpa using hlt) = q := by rw [List.getElem_map, he]
          simp only
          rw [← this, List.set_getElem_self]
        · rw [g3] at hi
          rcases getElem?_set_cases hi with ⟨rfl, he⟩ | ⟨hne, hi⟩
          · cases he
            exact ⟨_, rfl⟩
          · exact h3 i q' h (by omega) hi

/-- All the requests can be handled to their ends. -/
theorem HandlingInv.all_done {get : String → GetSteps} {Q α : Type} {handle : Q → Asking α} {fetch : String → Int → Res Rec} {Asked : String → Int → Prop}
    {Idle : (name : String) → (get name).Shared → Prop} {Mid : (name : String) → Int → (get name).Call → (get name).Shared → Prop} (hget : ∀ name, (get name).Computes (fetch name) (Asked name) (Idle name) (Mid name))
    {s : Handling get Q α} (hi : HandlingInv handle fetch Asked Idle Mid s) :
    ∃ t, Handling.Run handle s t ∧ t.handlers.map (·.1) = s.handlers.map (·.1) ∧ ∀ (i : Nat) (q : Q) (h : Handler get α), t.handlers[i]? = some (q, h) → ∃ a, h = .outside (.done a) := by
  obtain ⟨t, h1, h2, h3⟩ := hi.all_out hget s.handlers.length
  have hlen : t.handlers.length = s.handlers.length := by simpa using congrArg List.length h2
  have hout : ∀ (i : Nat) (q : Q) (h : Handler get α), t.handlers[i]? = some (q, h) → ∃ todo, h = .outside todo := by
    intro i q h hh
    exact h3 i q h (by rw [← hlen]; exact (List.getElem?_eq_some_iff.1 hh).1) hh
  have ht := hi.run hget h1
  have hfree : ∀ name, t.locked name = false := by
    intro name
    cases hl : t.locked name with
    | false => rfl
    | true =>
      obtain ⟨i, q, h, e1, e2⟩ := ht.held name hl
      obtain ⟨todo, rfl⟩ := hout i q h e1
      exact e2.elim
  suffices hk : ∀ k : Nat, ∃ u, Handling.Run handle t u ∧ u.handlers.map (·.1) = t.handlers.map (·.1) ∧ (∀ name, u.locked name = false) ∧
      ∀ (i : Nat) (q : Q) (h : Handler get α), u.handlers[i]? = some (q, h) → (∃ todo, h = .outside todo) ∧ (i < k → ∃ a, h = .outside (.done a)) by
    obtain ⟨u, g1, g2, _, g4⟩ := hk s.handlers.length
    have hlen' : u.handlers.length = s.handlers.length := by rw [← hlen]; simpa using congrArg List.length g2
    exact ⟨u, h1.trans g1, g2.trans h2, fun i q h hh => (g4 i q h hh).2 (by rw [← hlen']; exact (List.getElem?_eq_some_iff.1 hh).1)⟩
  intro k
  induction k with
  | zero => exact ⟨t, .refl, rfl, hfree, fun i q h hh => ⟨hout i q h hh, fun hk => by omega⟩⟩
  | succ k ih =>
    obtain ⟨u, g1, g2, g3, g4⟩ := ih
    cases hh : u.handlers[k]? with
    | none =>
      refine ⟨u, g1, g2, g3, fun i q h hi => ⟨(g4 i q h hi).1, fun hk => ?_⟩⟩
      by_cases hik : i = k
      · subst hik
        rw [hh] at hi
        cases hi
      · exact (g4 i q h hi).2 (by omega)
    | some e =>
      obtain ⟨q, h⟩ := e
      obtain ⟨todo, rfl⟩ := (g4 k q h hh).1
      obtain ⟨v, a, k1, k2, k3⟩ := HandlingInv.complete hget todo (ht.run hget g1) g3 hh
      refine ⟨v, g1.trans k1, ?_, k2, fun i q' h hi => ?_⟩
      · rw [k3, List.map_set, ← g2]
        obtain ⟨hlt, he⟩ := List.getElem?_eq_some_iff.1 hh
        have : (u.handlers.map (·.1))[k]'(by simpa using hlt) = q := by rw [List.getElem_map, he]
        simp only
        rw [← this, List.set_getElem_self]
      · rw [k3] at hi
        rcases getElem?_set_cases hi with ⟨rfl, he⟩ | ⟨hne, hi⟩
        · cases he
          exact ⟨⟨_, rfl⟩, fun _ => ⟨_, rfl⟩⟩
        · exact ⟨(g4 i q' h hi).1, fun hk => (g4 i q' h hi).2 (by omega)⟩

end Rodb
