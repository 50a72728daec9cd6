import Verif.Proofs.Retold
/-
  The same records at other positions: the outputs.
-/
namespace Rodb
open Spec

/-- Indexes that find corresponding positions in each of the inputs. -/
def IndexRel (R : String → Int → Int → Prop) (inputs inputs' : GoMap Input) (f f' : IndexFn) : Prop :=
  ∀ n i i', mapGet inputs n = some i → mapGet inputs' n = some i' → ∀ filters, SameResult (ItRel (R n)) (f i filters) (f' i' filters)

/-- Environments that differ in the positions of the records only. -/
structure EnvRetold (R : String → Int → Int → Prop) (env env' : OutputEnv) : Prop where
  inputs : ∀ n, OptRel (SameRecords (R n)) (mapGet env.inputs n) (mapGet env'.inputs n)
  indexes : ∀ n, OptRel (IndexRel R env.inputs env'.inputs) (mapGet env.indexes n) (mapGet env'.indexes n)
  defaultIndex : IndexRel R env.inputs env'.inputs env.defaultIndex env'.defaultIndex
  parsers : env'.parsers = env.parsers
  sort : env'.sort = env.sort
  compares : OnlyCompares env.sort
  visit : ∀ path (α : Type) (l : List α), env'.visit path l = env.visit path l

variable {R : String → Int → Int → Prop} {env env' : OutputEnv}

theorem filteredPositionsLoop_retold (h : EnvRetold R env env') (path : List Nat) {n : String} {i i' : Input} (hi : mapGet env.inputs n = some i) (hi' : mapGet env'.inputs n = some i') :
    ∀ (k : Nat) (filters : GoMap (GoMap Value)), SameResult (All2 (ItRel (R n))) (filteredPositionsLoop env path i k filters) (filteredPositionsLoop env' path i' k filters)
  | _, [] => .ok .nil
  | k, (x, f) :: rest => by
    simp only [filteredPositionsLoop, h.visit]
    have hx := h.indexes x
    revert hx
    generalize mapGet env.indexes x = a, mapGet env'.indexes x = a'
    intro hx
    cases hx with
    | none => exact .error _
    | @some a a' hx =>
      have hf := hx n i i' hi hi' (env.visit (2 :: k :: path) f)
      revert hf
      simp only
      generalize a i (env.visit (2 :: k :: path) f) = y, a' i' (env.visit (2 :: k :: path) f) = y'
      intro hf
      cases hf with
      | error e => exact .error e
      | ok hf =>
        have hr := filteredPositionsLoop_retold h path hi hi' (k + 1) rest
        revert hr
        simp only
        generalize filteredPositionsLoop env path i (k + 1) rest = z, filteredPositionsLoop env' path i' (k + 1) rest = z'
        intro hr
        cases hr with
        | error e => exact .error e
        | ok hr => exact .ok (.cons hf hr)

theorem filteredPositions_retold (h : EnvRetold R env env') (path : List Nat) {n : String} {i i' : Input} (hi : mapGet env.inputs n = some i) (hi' : mapGet env'.inputs n = some i')
    (filters : GoMap (GoMap Value)) : SameResult (All2 (ItRel (R n))) (filteredPositions env path i filters) (filteredPositions env' path i' filters) := by
  simp only [filteredPositions, h.visit]
  split
  · have hf := h.defaultIndex n i i' hi hi' []
    revert hf
    generalize env.defaultIndex i [] = y, env'.defaultIndex i' [] = y'
    intro hf
    cases hf with
    | error e => exact .error e
    | ok hf => exact .ok (.cons hf .nil)
  · exact filteredPositionsLoop_retold h path hi hi' 0 _

theorem collectRecords_retold {C : Int → Int → Prop} {i i' : Input} (h : SameRecords C i i') {it it' : PIter} (hi : ItRel C it it') :
    SameResult (All2 (SameRecord C)) (collectRecords i it) (collectRecords i' it') := by
  induction hi with
  | nil => exact .ok .nil
  | @cons _ _ rest rest' hp _ ih =>
    cases hp with
    | error e => exact .error e
    | @ok p p' hp =>
      simp only [collectRecords]
      revert ih
      generalize collectRecords i rest = y, collectRecords i' rest' = y'
      intro ih
      have hf := h.fetch p p' hp
      revert hf
      generalize i.fetch p = x, i'.fetch p' = x'
      intro hf
      cases hf with
      | error e => exact .error e
      | ok hf =>
        simp only
        cases ih with
        | error e => exact .error e
        | ok ih => exact .ok (.cons hf ih)

theorem recordLess_retold {C : Int → Int → Prop} {a a' b b' : Rec} (ha : SameRecord C a a') (hb : SameRecord C b b') : ∀ config : List SortConfig, recordLess config a' b' = recordLess config a b
  | [] => rfl
  | c :: rest => by simp only [recordLess, sortValue, ha.get, hb.get, recordLess_retold ha hb rest]

theorem loadItems_retold {C : Int → Int → Prop} {nested nested' : Nat → GoMap Value → Res (GoMap Value)} (hn : ∀ i data, nested' i data = nested i data) (count : Int) {l l' : List Rec}
    (h : All2 (SameRecord C) l l') : ∀ i : Nat, loadItems nested' count i l' = loadItems nested count i l := by
  induction h with
  | nil => intro i; rfl
  | cons h _ ih => intro i; simp only [loadItems, h.all, hn, ih]

theorem loadRelationship_retold (h : EnvRetold R env env') {nested nested' : List Nat → GoMap Value → List (String × Relationship) → Res (GoMap Value)}
    (hn : ∀ path data l, nested' path data l = nested path data l) (path : List Nat) (data : GoMap Value) (r : Relationship) :
    loadRelationship env' nested' path data r = loadRelationship env nested path data r := by
  cases r with
  | mk inputName isArray limit sort matching relationships =>
    simp only [loadRelationship]
    cases relationshipFilters data matching [] with
    | error e => rfl
    | ok filters =>
      have hin := h.inputs inputName
      cases hi : mapGet env.inputs inputName with
      | none =>
        cases hi' : mapGet env'.inputs inputName with
        | none => rfl
        | some i' => rw [hi, hi'] at hin; cases hin
      | some i =>
        cases hi' : mapGet env'.inputs inputName with
        | none => rw [hi, hi'] at hin; cases hin
        | some i' =>
          rw [hi, hi'] at hin
          cases hin with
          | some hin =>
            have hf := filteredPositions_retold h path hi hi' filters
            revert hf
            simp only
            generalize filteredPositions env path i filters = x, filteredPositions env' path i' filters = x'
            intro hf
            cases hf with
            | error e => rfl
            | @ok its its' hf =>
              have hc := collectRecords_retold hin (joinIters_rel hin.order hf)
              revert hc
              simp only
              generalize collectRecords i (joinIters its) = y, collectRecords i' (joinIters its') = y'
              intro hc
              cases hc with
              | error e => rfl
              | @ok l l' hc =>
                simp only [h.sort]
                have hs : All2 (SameRecord (R inputName)) (if sort.length > 0 then sortRecords env.sort sort l else l) (if sort.length > 0 then sortRecords env.sort sort l' else l') := by
                  split
                  · exact h.compares _ _ _ _ _ (fun _ _ _ _ ha hb => recordLess_retold ha hb sort) hc
                  · exact hc
                revert hs
                generalize (if sort.length > 0 then sortRecords env.sort sort l else l) = z, (if sort.length > 0 then sortRecords env.sort sort l' else l') = z'
                intro hs
                simp only [hs.length, loadItems_retold (nested := fun i item => nested (3 :: i :: path) item relationships) (fun i data => hn (3 :: i :: path) data relationships) _ hs]

theorem loadLoop_retold {load load' : Nat → GoMap Value → Relationship → Res Value} (h : ∀ i data r, load' i data r = load i data r) : ∀ (l : List (String × Relationship)) (i : Nat) (data : GoMap Value),
    loadLoop load' i data l = loadLoop load i data l
  | [], _, _ => rfl
  | (n, r) :: rest, i, data => by simp only [loadLoop, h, loadLoop_retold h rest]

theorem loadRelationships_retold (h : EnvRetold R env env') : ∀ (fuel : Nat) (path : List Nat) (data : GoMap Value) (l : List (String × Relationship)),
    loadRelationships env' fuel path data l = loadRelationships env fuel path data l
  | 0, _, _, [] => rfl
  | _+1, _, _, [] => rfl
  | 0, _, _, _ :: _ => rfl
  | fuel+1, path, data, x :: l => by
    simp only [loadRelationships, h.visit]
    exact loadLoop_retold (fun i data r => loadRelationship_retold h (fun path data l => loadRelationships_retold h fuel path data l) (i :: path) data r) _ _ _

theorem dataFromPosition_retold (h : EnvRetold R env env') (path : List Nat) (root : String) (l : List (String × Relationship)) {p p' : Int} (hp : R root p p') :
    dataFromPosition env' path root l p' = dataFromPosition env path root l p := by
  simp only [dataFromPosition]
  have hin := h.inputs root
  revert hin
  generalize mapGet env.inputs root = x, mapGet env'.inputs root = x'
  intro hin
  cases hin with
  | none => rfl
  | @some i i' hin =>
    have hf := hin.fetch p p' hp
    revert hf
    simp only
    generalize i.fetch p = y, i'.fetch p' = y'
    intro hf
    cases hf with
    | error e => rfl
    | ok hf => simp only [hf.all, loadRelationships_retold h]

theorem skipRows_retold {C : Int → Int → Prop} (ho : SameOrder C) : ∀ (n : Nat) {st st' : List PIter}, All2 (ItRel C) st st' → SameResult (All2 (ItRel C)) (skipRows n st) (skipRows n st')
  | 0, _, _, h => .ok h
  | n+1, st, st', h => by
    simp only [skipRows]
    have hc := joinCall_rel ho h
    revert hc
    generalize joinCall st = x, joinCall st' = x'
    intro hc
    cases hc with
    | mk h1 h2 =>
      cases h1 with
      | error e => exact .error e
      | ok h1 =>
        cases h1 with
        | none => exact .ok h2
        | some h1 => exact skipRows_retold ho n h2

theorem readRows_retold {C : Int → Int → Prop} (ho : SameOrder C) {getData getData' : Nat → Int → Res (GoMap Value)} (hg : ∀ i p p', C p p' → getData' i p' = getData i p) :
    ∀ (n i : Nat) {st st' : List PIter}, All2 (ItRel C) st st' → readRows getData' n i st' = readRows getData n i st
  | 0, _, _, _, _ => rfl
  | n+1, i, st, st', h => by
    simp only [readRows]
    have hc := joinCall_rel ho h
    revert hc
    generalize joinCall st = x, joinCall st' = x'
    intro hc
    cases hc with
    | mk h1 h2 =>
      cases h1 with
      | error e => rfl
      | ok h1 =>
        cases h1 with
        | none => rfl
        | some h1 => simp only [hg i _ _ h1, readRows_retold ho hg n (i + 1) h2]

theorem arrayFilters_retold (h : EnvRetold R env env') (params : GoMap Bytes) : ∀ (l : GoMap ParamConfig) (filters : GoMap (GoMap Value)),
    arrayFilters env' params l filters = arrayFilters env params l filters
  | [], _ => rfl
  | (n, p) :: rest, filters => by simp only [arrayFilters, h.parsers, arrayFilters_retold h params rest]

theorem objectFilters_retold (h : EnvRetold R env env') (params : GoMap Bytes) : ∀ (l : GoMap ParamConfig) (filters : GoMap (GoMap Value)),
    objectFilters env' params l filters = objectFilters env params l filters
  | [], _ => rfl
  | (n, p) :: rest, filters => by simp only [objectFilters, h.parsers, objectFilters_retold h params rest]

theorem handleArray_retold (h : EnvRetold R env env') (c : ArrayConfig) (params : GoMap Bytes) : handleArray env' c params = handleArray env c params := by
  simp only [handleArray, h.visit, arrayFilters_retold h params]
  cases getLimit c.limit params with
  | error e => rfl
  | ok limit =>
    cases getOffset c.offsetParameter params with
    | error e => rfl
    | ok offset =>
      simp only
      cases arrayFilters env params (env.visit [0] c.parameters) [] with
      | error e => rfl
      | ok filters =>
        have hin := h.inputs c.input
        cases hi : mapGet env.inputs c.input with
        | none =>
          cases hi' : mapGet env'.inputs c.input with
          | none => rfl
          | some i' => rw [hi, hi'] at hin; cases hin
        | some i =>
          cases hi' : mapGet env'.inputs c.input with
          | none => rw [hi, hi'] at hin; cases hin
          | some i' =>
            rw [hi, hi'] at hin
            cases hin with
            | some hin =>
              have hf := filteredPositions_retold h [] hi hi' filters
              revert hf
              simp only
              generalize filteredPositions env [] i filters = x, filteredPositions env' [] i' filters = x'
              intro hf
              cases hf with
              | error e => rfl
              | @ok its its' hf =>
                have hs := skipRows_retold hin.order offset hf
                revert hs
                simp only
                generalize skipRows offset its = y, skipRows offset its' = y'
                intro hs
                cases hs with
                | error e => rfl
                | @ok st st' hs =>
                  simp only
                  rw [readRows_retold hin.order (getData := fun i p => dataFromPosition env [4, i] c.input c.relationships p) (fun i p p' hp => dataFromPosition_retold h [4, i] c.input c.relationships hp) _ _ hs]

theorem handleObject_retold (h : EnvRetold R env env') (c : ObjectConfig) (params : GoMap Bytes) : handleObject env' c params = handleObject env c params := by
  simp only [handleObject, h.visit, objectFilters_retold h params]
  cases objectFilters env params (env.visit [0] c.parameters) [] with
  | error e => rfl
  | ok filters =>
    have hin := h.inputs c.input
    cases hi : mapGet env.inputs c.input with
    | none =>
      cases hi' : mapGet env'.inputs c.input with
      | none => rfl
      | some i' => rw [hi, hi'] at hin; cases hin
    | some i =>
      cases hi' : mapGet env'.inputs c.input with
      | none => rw [hi, hi'] at hin; cases hin
      | some i' =>
        rw [hi, hi'] at hin
        cases hin with
        | some hin =>
          have hf := filteredPositions_retold h [] hi hi' filters
          revert hf
          simp only
          generalize filteredPositions env [] i filters = x, filteredPositions env' [] i' filters = x'
          intro hf
          cases hf with
          | error e => rfl
          | @ok its its' hf =>
            have hc := joinCall_rel hin.order hf
            revert hc
            simp only
            generalize joinCall its = y, joinCall its' = y'
            intro hc
            cases hc with
            | mk h1 _ =>
              cases h1 with
              | error e => rfl
              | ok h1 =>
                cases h1 with
                | none => rfl
                | some h1 => simp only [dataFromPosition_retold h [4] c.input c.relationships h1]

end Rodb
