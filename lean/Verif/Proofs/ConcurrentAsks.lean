import Verif.Proofs.Concurrent
/-
  Lemmas about the positions for which handlers call `Get`.
-/
namespace Rodb
open Spec

theorem Spec.AsksOnly.bind {α β : Type} {Asked : String → Int → Prop} {t : Asking α} {g : α → Asking β} (ht : AsksOnly Asked t) (hg : ∀ a, AsksOnly Asked (g a)) :
    AsksOnly Asked (t.bind g) := by
  induction ht with
  | done a => exact hg a
  | get h _ ih => exact .get h ih

theorem asksOnly_all {α : Type} {Asked : String → Int → Prop} (h : ∀ name p, Asked name p) (t : Asking α) : AsksOnly Asked t := by
  induction t with
  | done a => exact .done a
  | get input position next ih => exact .get (h _ _) ih

theorem Spec.AsksOnly.mono {α : Type} {A B : String → Int → Prop} (h : ∀ name p, A name p → B name p) {t : Asking α} (ht : AsksOnly A t) : AsksOnly B t := by
  induction ht with
  | done a => exact .done a
  | get h' _ ih => exact .get (h _ _ h') ih

/-! ### Iterators -/

/-- The positions of an iterator are such ones. -/
def Within (A : Int → Prop) (it : PIter) : Prop := ∀ p, .ok p ∈ it → A p

theorem Within.tail {A : Int → Prop} {x : Res Int} {it : PIter} (h : Within A (x :: it)) : Within A it := fun p hp => h p (.tail _ hp)

theorem joinPrime_within {A : Int → Prop} : ∀ {its : List PIter}, (∀ it ∈ its, Within A it) → ∀ it ∈ (joinPrime its).2, Within A it
  | [], h => h
  | it :: rest, h => by
    have hrest := joinPrime_within (its := rest) (fun x hx => h x (.tail _ hx))
    have hit := h it (.head _)
    have hcons : ∀ (a : PIter) (l : List PIter), Within A a → (∀ x ∈ l, Within A x) → ∀ x ∈ a :: l, Within A x := by
      intro a l ha hl x hx
      rcases List.mem_cons.1 hx with rfl | hx
      · exact ha
      · exact hl x hx
    cases it with
    | nil => exact hcons _ _ hit (fun x hx => h x (.tail _ hx))
    | cons o r =>
      cases o with
      | error e => exact hcons _ _ hit.tail (fun x hx => h x (.tail _ hx))
      | ok p =>
        simp only [joinPrime, PIter.call]
        generalize joinPrime rest = j at hrest ⊢
        obtain ⟨res, rest'⟩ := j
        match res with
        | .ok (some ps) => exact hcons _ _ hit.tail hrest
        | .ok none => exact hcons _ _ hit.tail hrest
        | .error e => exact hcons _ _ hit.tail hrest

theorem joinAdvance_within {A : Int → Prop} {target : Int} : ∀ {it : PIter} {cur : Int}, Within A it → Within A (joinAdvance target cur it).2
  | [], cur, h => by
    simp only [joinAdvance]
    split <;> exact h
  | o :: r, cur, h => by
    simp only [joinAdvance]
    split
    · cases o with
      | ok p => exact joinAdvance_within h.tail
      | error e => exact h.tail
    · exact h

theorem joinCheck_within {A : Int → Prop} {target : Int} : ∀ {l : List (Int × PIter)}, (∀ x ∈ l, Within A x.2) → ∀ x ∈ (joinCheck target l).2, Within A x.2
  | [], h => h
  | (cur, it) :: rest, h => by
    have hrest := joinCheck_within (target := target) (l := rest) (fun x hx => h x (.tail _ hx))
    have hit := joinAdvance_within (target := target) (cur := cur) (h (cur, it) (.head _))
    have hcons : ∀ (c : Int) (a : PIter) (l : List (Int × PIter)), Within A a → (∀ x ∈ l, Within A x.2) → ∀ x ∈ (c, a) :: l, Within A x.2 := by
      intro c a l ha hl x hx
      rcases List.mem_cons.1 hx with rfl | hx
      · exact ha
      · exact hl x hx
    simp only [joinCheck]
    generalize joinAdvance target cur it = j at hit ⊢
    obtain ⟨res, it'⟩ := j
    match res with
    | .error e => exact hcons _ _ _ hit (fun x hx => h x (.tail _ hx))
    | .ok none => exact hcons _ _ _ hit (fun x hx => h x (.tail _ hx))
    | .ok (some cur') =>
      simp only
      split
      · exact hcons _ _ _ hit (fun x hx => h x (.tail _ hx))
      · exact hcons _ _ _ hit hrest

theorem joinMain_within {A : Int → Prop} : ∀ {it : PIter} {others : List (Int × PIter)}, Within A it → (∀ x ∈ others, Within A x.2) →
    (∀ p, (joinMain it others).1 = .ok (some p) → A p) ∧ ∀ x ∈ (joinMain it others).2, Within A x
  | it, others, h, ho => by
    have hmap : ∀ {l : List (Int × PIter)}, (∀ x ∈ l, Within A x.2) → ∀ {a : PIter}, Within A a → ∀ x ∈ a :: l.map (·.2), Within A x := by
      intro l hl a ha x hx
      rcases List.mem_cons.1 hx with rfl | hx
      · exact ha
      · obtain ⟨y, hy, rfl⟩ := List.mem_map.1 hx
        exact hl y hy
    match it with
    | [] => exact ⟨(fun p hp => by cases hp), hmap ho h⟩
    | .error e :: r => exact ⟨(fun p hp => by cases hp), hmap ho h.tail⟩
    | .ok q :: r =>
      have hc := joinCheck_within (target := q) ho
      simp only [joinMain]
      generalize joinCheck q others = j at hc ⊢
      obtain ⟨res, others'⟩ := j
      match res with
      | .found =>
        refine ⟨fun p hp => ?_, hmap hc h.tail⟩
        cases hp
        exact h _ (.head _)
      | .ended => exact ⟨(fun p hp => by cases hp), hmap hc h.tail⟩
      | .failed e => exact ⟨(fun p hp => by cases hp), hmap hc h.tail⟩
      | .notFound => exact joinMain_within h.tail hc

theorem joinCall_within {A : Int → Prop} {its : List PIter} (h : ∀ it ∈ its, Within A it) :
    (∀ p, (joinCall its).1 = .ok (some p) → A p) ∧ ∀ x ∈ (joinCall its).2, Within A x := by
  match its with
  | [] => exact ⟨(fun p hp => by cases hp), h⟩
  | [it] =>
    have hit := h it (.head _)
    have hone : ∀ {a : PIter}, Within A a → ∀ x ∈ [a], Within A x := by
      intro a ha x hx
      rw [List.mem_singleton.1 hx]
      exact ha
    match it with
    | [] => exact ⟨(fun p hp => by cases hp), hone hit⟩
    | .error e :: r => exact ⟨(fun p hp => by cases hp), hone hit.tail⟩
    | .ok q :: r =>
      refine ⟨fun p hp => ?_, hone hit.tail⟩
      cases hp
      exact hit _ (.head _)
  | it :: it2 :: rest =>
    have hp' := joinPrime_within (its := it2 :: rest) (fun x hx => h x (.tail _ hx))
    have hit := h it (.head _)
    have hcons : ∀ {l : List PIter}, (∀ x ∈ l, Within A x) → ∀ x ∈ it :: l, Within A x := by
      intro l hl x hx
      rcases List.mem_cons.1 hx with rfl | hx
      · exact hit
      · exact hl x hx
    simp only [joinCall]
    generalize joinPrime (it2 :: rest) = j at hp' ⊢
    obtain ⟨res, rest'⟩ := j
    match res with
    | .error e => exact ⟨(fun p hp => by cases hp), hcons hp'⟩
    | .ok none => exact ⟨(fun p hp => by cases hp), hcons hp'⟩
    | .ok (some ps) => exact joinMain_within hit (fun x hx => hp' x.2 (List.of_mem_zip (a := x.1) (b := x.2) hx).2)

theorem outcomes_within {σ : Type} {A : Int → Prop} {call : σ → Res (Option Int) × σ} {I : σ → Prop}
    (h : ∀ s, I s → (∀ p, (call s).1 = .ok (some p) → A p) ∧ I (call s).2) : ∀ {n : Nat} {s : σ}, I s → Within A (outcomes call n s)
  | 0, s, _ => fun p hp => by cases hp with | tail _ hp => cases hp
  | n + 1, s, hs => by
    obtain ⟨h1, h2⟩ := h s hs
    simp only [outcomes]
    generalize call s = j at h1 h2 ⊢
    obtain ⟨res, s'⟩ := j
    match res with
    | .error e => intro p hp; cases hp with | tail _ hp => cases hp
    | .ok none => intro p hp; cases hp
    | .ok (some q) =>
      intro p hp
      cases hp with
      | head => exact h1 _ rfl
      | tail _ hp => exact outcomes_within h h2 p hp

theorem joinIters_within {A : Int → Prop} {its : List PIter} (h : ∀ it ∈ its, Within A it) : Within A (joinIters its) :=
  outcomes_within (I := fun s => ∀ it ∈ s, Within A it) (fun _ hs => joinCall_within hs) h

theorem skipRows_within {A : Int → Prop} : ∀ {n : Nat} {its st : List PIter}, (∀ it ∈ its, Within A it) → skipRows n its = .ok st → ∀ it ∈ st, Within A it
  | 0, its, st, h, hs => by cases hs; exact h
  | n + 1, its, st, h, hs => by
    have hc := (joinCall_within h).2
    simp only [skipRows] at hs
    generalize joinCall its = j at hc hs
    obtain ⟨res, its'⟩ := j
    match res with
    | .error e => cases hs
    | .ok none => cases hs; exact hc
    | .ok (some q) => exact skipRows_within hc hs

/-! ### Handlers -/

/-- An index gives such positions of these inputs only. -/
def GivesAsked (Asked : String → Int → Prop) (inputs : GoMap Input) (index : IndexFn) : Prop :=
  ∀ n input, mapGet inputs n = some input → ∀ filters it, index input filters = .ok it → Within (Asked input.name) it

/-- The indexes give such positions only. -/
structure OutputEnv.GivesOnly (Asked : String → Int → Prop) (env : OutputEnv) : Prop where
  indexes : ∀ name index, mapGet env.indexes name = some index → GivesAsked Asked env.inputs index
  default : GivesAsked Asked env.inputs env.defaultIndex

variable {Asked : String → Int → Prop} {env : OutputEnv}

theorem filteredPositionsLoop_within (henv : env.GivesOnly Asked) {path : List Nat} {n : String} {input : Input} (hin : mapGet env.inputs n = some input) :
    ∀ {i : Nat} {filters : GoMap (GoMap Value)} {its : List PIter}, filteredPositionsLoop env path input i filters = .ok its → ∀ it ∈ its, Within (Asked input.name) it
  | _, [], its, h => by cases h; exact fun it hit => by cases hit
  | i, (indexName, f) :: rest, its, h => by
    simp only [filteredPositionsLoop] at h
    cases hx : mapGet env.indexes indexName with
    | none => rw [hx] at h; cases h
    | some index =>
      rw [hx] at h
      simp only at h
      cases hit : index input (env.visit (2 :: i :: path) f) with
      | error e => rw [hit] at h; cases h
      | ok it =>
        rw [hit] at h
        simp only at h
        cases hl : filteredPositionsLoop env path input (i + 1) rest with
        | error e => rw [hl] at h; cases h
        | ok its' =>
          rw [hl] at h
          cases h
          intro x hx'
          rcases List.mem_cons.1 hx' with rfl | hx'
          · exact henv.indexes _ _ hx _ _ hin _ _ hit
          · exact filteredPositionsLoop_within henv hin hl x hx'

theorem filteredPositions_within (henv : env.GivesOnly Asked) {path : List Nat} {n : String} {input : Input} (hin : mapGet env.inputs n = some input)
    {filters : GoMap (GoMap Value)} {its : List PIter} (h : filteredPositions env path input filters = .ok its) : ∀ it ∈ its, Within (Asked input.name) it := by
  unfold filteredPositions at h
  split at h
  · cases hd : env.defaultIndex input [] with
    | error e => rw [hd] at h; cases h
    | ok it =>
      rw [hd] at h
      cases h
      intro x hx
      rw [List.mem_singleton.1 hx]
      exact henv.default _ _ hin _ _ hd
  · exact filteredPositionsLoop_within henv hin h

theorem collectSteps_asks {name : String} : ∀ {it : PIter}, Within (Asked name) it → AsksOnly Asked (collectSteps name it)
  | [], _ => .done _
  | .error _ :: _, _ => .done _
  | .ok p :: rest, h => by
    refine .get (h p (.head _)) (fun r => ?_)
    cases r with
    | error e => exact .done _
    | ok r =>
      refine (collectSteps_asks h.tail).bind (fun rs => ?_)
      cases rs <;> exact .done _

theorem itemsSteps_asks {nested : Nat → GoMap Value → Asking (Res (GoMap Value))} (h : ∀ i data, AsksOnly Asked (nested i data)) {count : Int} :
    ∀ {l : List Rec} {i : Nat}, AsksOnly Asked (itemsSteps nested count i l)
  | [], _ => .done _
  | r :: rest, i => by
    simp only [itemsSteps]
    cases r.all with
    | error e => exact .done _
    | ok data =>
      refine (h i data).bind (fun d => ?_)
      cases d with
      | error e => exact .done _
      | ok d =>
        simp only
        split
        · exact .done _
        · refine (itemsSteps_asks h).bind (fun items => ?_)
          cases items <;> exact .done _

theorem relationshipSteps_asks (henv : env.GivesOnly Asked) {nested : List Nat → GoMap Value → List (String × Relationship) → Asking (Res (GoMap Value))}
    (h : ∀ path data rs, AsksOnly Asked (nested path data rs)) {path : List Nat} {data : GoMap Value} : ∀ {r : Relationship}, AsksOnly Asked (relationshipSteps env nested path data r)
  | .mk inputName isArray limit sort matching relationships => by
    simp only [relationshipSteps]
    cases relationshipFilters data matching [] with
    | error e => exact .done _
    | ok filters =>
      simp only
      cases hin : mapGet env.inputs inputName with
      | none => exact .done _
      | some input =>
        simp only
        cases hf : filteredPositions env path input filters with
        | error e => exact .done _
        | ok its =>
          simp only
          refine (collectSteps_asks (joinIters_within (filteredPositions_within henv hin hf))).bind (fun records => ?_)
          cases records with
          | error e => exact .done _
          | ok records =>
            simp only
            generalize (if sort.length > 0 then sortRecords env.sort sort records else records) = records
            split
            · exact .done _
            · refine (itemsSteps_asks (fun i item => h _ _ _)).bind (fun items => ?_)
              cases items <;> exact .done _

theorem loopSteps_asks {load : Nat → GoMap Value → Relationship → Asking (Res Value)} (h : ∀ i data r, AsksOnly Asked (load i data r)) :
    ∀ {l : List (String × Relationship)} {i : Nat} {data : GoMap Value}, AsksOnly Asked (loopSteps load i data l)
  | [], _, _ => .done _
  | (name, r) :: rest, i, data => by
    refine (h i data r).bind (fun v => ?_)
    cases v with
    | error e => exact .done _
    | ok v => exact loopSteps_asks h

theorem relationshipsSteps_asks (henv : env.GivesOnly Asked) : ∀ {fuel : Nat} {path : List Nat} {data : GoMap Value} {rs : List (String × Relationship)},
    AsksOnly Asked (relationshipsSteps env fuel path data rs)
  | fuel, _, _, [] => by cases fuel <;> exact .done _
  | 0, _, _, _ :: _ => .done _
  | fuel + 1, path, data, r :: rs => by
    rw [relationshipsSteps]
    · exact loopSteps_asks (fun i d r => relationshipSteps_asks henv (fun _ _ _ => relationshipsSteps_asks henv))
    · exact fun h => by cases h

theorem dataSteps_asks (henv : env.GivesOnly Asked) {path : List Nat} {rootInput : String} {relationships : List (String × Relationship)} {position : Int}
    (h : ∀ input, mapGet env.inputs rootInput = some input → Asked input.name position) : AsksOnly Asked (dataSteps env path rootInput relationships position) := by
  simp only [dataSteps]
  cases hin : mapGet env.inputs rootInput with
  | none => exact .done _
  | some input =>
    refine .get (h _ hin) (fun record => ?_)
    cases record with
    | error e => exact .done _
    | ok record =>
      simp only
      cases record.all with
      | error e => exact .done _
      | ok data => exact relationshipsSteps_asks henv

theorem rowsSteps_asks {A : Int → Prop} {getData : Nat → Int → Asking (Res (GoMap Value))} (h : ∀ i p, A p → AsksOnly Asked (getData i p)) :
    ∀ {n i : Nat} {st : List PIter}, (∀ it ∈ st, Within A it) → AsksOnly Asked (rowsSteps getData n i st)
  | 0, _, _, _ => .done _
  | n + 1, i, st, hst => by
    obtain ⟨h1, h2⟩ := joinCall_within hst
    simp only [rowsSteps]
    generalize joinCall st = j at h1 h2 ⊢
    obtain ⟨res, st'⟩ := j
    match res with
    | .error e => exact .done _
    | .ok none => exact .done _
    | .ok (some p) =>
      refine (h i p (h1 p rfl)).bind (fun data => ?_)
      cases data with
      | error e => exact .done _
      | ok data =>
        refine (rowsSteps_asks h h2).bind (fun rows => ?_)
        cases rows <;> exact .done _

theorem arraySteps_asks (henv : env.GivesOnly Asked) (c : ArrayConfig) (params : GoMap Bytes) : AsksOnly Asked (arraySteps env c params) := by
  simp only [arraySteps]
  cases getLimit c.limit params with
  | error e => exact .done _
  | ok limit =>
    simp only
    cases getOffset c.offsetParameter params with
    | error e => exact .done _
    | ok offset =>
      simp only
      cases arrayFilters env params (env.visit [0] c.parameters) [] with
      | error e => exact .done _
      | ok filters =>
        simp only
        cases hin : mapGet env.inputs c.input with
        | none => exact .done _
        | some input =>
          simp only
          cases hf : filteredPositions env [] input filters with
          | error e => exact .done _
          | ok its =>
            simp only
            cases hs : skipRows offset its with
            | error e => exact .done _
            | ok st =>
              simp only
              refine (rowsSteps_asks (A := Asked input.name) (fun i p hp => dataSteps_asks henv (fun input' h' => ?_))
                (skipRows_within (filteredPositions_within henv hin hf) hs)).bind (fun rows => ?_)
              · rw [hin] at h'
                cases h'
                exact hp
              · cases rows <;> exact .done _

theorem objectSteps_asks (henv : env.GivesOnly Asked) (c : ObjectConfig) (params : GoMap Bytes) : AsksOnly Asked (objectSteps env c params) := by
  simp only [objectSteps]
  cases objectFilters env params (env.visit [0] c.parameters) [] with
  | error e => exact .done _
  | ok filters =>
    simp only
    cases hin : mapGet env.inputs c.input with
    | none => exact .done _
    | some input =>
      simp only
      cases hf : filteredPositions env [] input filters with
      | error e => exact .done _
      | ok its =>
        have hj := (joinCall_within (filteredPositions_within henv hin hf)).1
        simp only
        generalize joinCall its = j at hj ⊢
        obtain ⟨res, st'⟩ := j
        match res with
        | .error e => exact .done _
        | .ok none => exact .done _
        | .ok (some p) =>
          refine (dataSteps_asks henv (fun input' h' => ?_)).bind (fun data => ?_)
          · rw [hin] at h'
            cases h'
            exact hj p rfl
          · cases data <;> exact .done _

end Rodb
