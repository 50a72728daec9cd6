import Verif.Spec.Relationship
import Verif.Spec.Service
import Verif.Proofs.Output
/-
  Lemmas about relationships.
-/
namespace Rodb
open Spec

/-- The conditions of the matches of a relationship. -/
def conditionsOf (data : GoMap Value) (ms : List MatchConfig) : List Condition :=
  ms.map (fun m => { index := m.childIndex, property := m.childProperty, value := (mapGet data m.parentProperty).getD .null })

theorem relationshipFilters_spec (data : GoMap Value) : ∀ (ms : List MatchConfig) (filters : GoMap (GoMap Value)),
    FiltersOk filters → (∀ m ∈ ms, ∃ v, mapGet data m.parentProperty = some v) →
    ((conditionsOf data ms ++ flatFilters filters).map (fun c => (c.index, c.property))).Nodup →
    ∃ filters', relationshipFilters data ms filters = .ok filters' ∧ FiltersOk filters' ∧
      (flatFilters filters').Perm (conditionsOf data ms ++ flatFilters filters) := by
  intro ms
  induction ms with
  | nil => intro filters hok _ _; exact ⟨filters, rfl, hok, List.Perm.refl _⟩
  | cons m ms ih =>
    intro filters hok hex hnd
    obtain ⟨v, hv⟩ := hex m List.mem_cons_self
    let c : Condition := { index := m.childIndex, property := m.childProperty, value := v }
    have hc : conditionsOf data (m :: ms) = c :: conditionsOf data ms := by simp [conditionsOf, hv, c]
    rw [hc] at hnd ⊢
    simp only [List.cons_append, List.map_cons, List.nodup_cons, List.map_append, List.mem_append, not_or] at hnd
    obtain ⟨hok', hperm⟩ := addFilter_spec hok c hnd.1.2
    simp only [relationshipFilters, hv]
    obtain ⟨f', i1, i2, i3⟩ := ih _ hok' (fun m hm => hex m (List.mem_cons_of_mem _ hm)) (by
      have hp2 : ((conditionsOf data ms ++ flatFilters (addFilter filters c.index c.property c.value)).map (fun c => (c.index, c.property))).Perm
          ((c :: (conditionsOf data ms ++ flatFilters filters)).map (fun c => (c.index, c.property))) :=
        List.Perm.map _ ((List.Perm.append_left _ hperm).trans List.perm_middle)
      rw [hp2.nodup_iff]
      simp only [List.map_cons, List.map_append, List.nodup_cons, List.mem_append, not_or]
      exact hnd)
    exact ⟨f', i1, i2, i3.trans ((List.Perm.append_left _ hperm).trans List.perm_middle)⟩

theorem relationshipFilters_congr {data data' : GoMap Value} : ∀ (ms : List MatchConfig) (filters : GoMap (GoMap Value)),
    (∀ m ∈ ms, mapGet data m.parentProperty = mapGet data' m.parentProperty) →
    relationshipFilters data ms filters = relationshipFilters data' ms filters := by
  intro ms
  induction ms with
  | nil => intros; rfl
  | cons m ms ih =>
    intro filters h
    simp only [relationshipFilters, h m List.mem_cons_self]
    cases mapGet data' m.parentProperty with
    | none => rfl
    | some v => exact ih _ (fun m hm => h m (List.mem_cons_of_mem _ hm))

theorem joinIters_gives {its : List PIter} {ps : List Int} (h : Gives its ps) : joinIters its = iterateList ps := by
  obtain ⟨ls, hne, rfl, hs, hinc, hx⟩ := h
  obtain ⟨out, h1, h2⟩ := joinIters_sorted ls hne hs
  have : out = ps := increasing_ext h2.1 hinc (fun x => by rw [← hx]; exact h2.2 x)
  subst this
  exact h1

theorem collect_ok {input : Input} : ∀ {l : List Rec}, (∀ r ∈ l, input.fetch r.position = .ok r) →
    collectRecords input (iterateList (l.map Rec.position)) = .ok l := by
  intro l
  induction l with
  | nil => intro _; rfl
  | cons r l ih =>
    intro h
    have := ih (fun r hr => h r (List.mem_cons_of_mem _ hr))
    simp only [iterateList, List.map_cons, collectRecords, h r List.mem_cons_self]
    simp only [iterateList] at this
    rw [this]

/-- The loop over the related records, when `count` is enough for the kept ones only. -/
theorem loadItems_spec (nested : Nat → GoMap Value → Res (GoMap Value)) (Q : GoMap Value → GoMap Value → Prop) :
    ∀ (l : List Rec) (i n : Nat), 0 < n → (∀ r ∈ l, ∃ d, r.all = .ok d ∧ ∀ j, ∃ out, nested j d = .ok out ∧ Q d out) →
    ∃ items, loadItems nested (i + n : Nat) i l = .ok items ∧ items.length = (l.take n).length ∧
      ∀ k (h : k < (l.take n).length) (h' : k < items.length), ∃ d, (l.take n)[k].all = .ok d ∧ Q d items[k] := by
  intro l
  induction l with
  | nil => intro i n _ _; exact ⟨[], rfl, by simp, by simp⟩
  | cons r l ih =>
    intro i n hn h
    obtain ⟨d, hd, hq⟩ := h r List.mem_cons_self
    obtain ⟨out, ho, hqo⟩ := hq i
    obtain ⟨n, rfl⟩ : ∃ n', n = n' + 1 := ⟨n - 1, by omega⟩
    simp only [loadItems, hd, ho]
    cases n with
    | zero =>
      have : (i : Int) + 1 ≥ ((i + 1 : Nat) : Int) := by omega
      simp only [Nat.zero_add, this, if_true]
      refine ⟨[out], rfl, by simp, ?_⟩
      intro k h h'
      have : k = 0 := by simp at h'; exact h'
      subst this
      exact ⟨d, by simpa using hd, hqo⟩
    | succ n =>
      have : ¬ (i : Int) + 1 ≥ ((i + (n + 1 + 1) : Nat) : Int) := by omega
      obtain ⟨items, g1, g2, g3⟩ := ih (i + 1) (n + 1) (by omega) (fun r hr => h r (List.mem_cons_of_mem _ hr))
      have e : i + (n + 1 + 1) = i + 1 + (n + 1) := by omega
      rw [e] at this ⊢
      simp only [this, if_false, g1]
      refine ⟨out :: items, rfl, by simpa using g2, ?_⟩
      intro k hk hk'
      cases k with
      | zero => exact ⟨d, by simpa using hd, hqo⟩
      | succ k =>
        have := g3 k (by simpa using hk) (by simpa using hk')
        simpa using this

section
variable {env : OutputEnv} {w : World}

/-- The value of one relationship. -/
theorem loadRelationship_spec (hw : w.Behind env) (hperm : ∀ less l, (env.sort less l).Perm l)
    {nested : List Nat → GoMap Value → List (String × Relationship) → Res (GoMap Value)}
    {Q : GoMap Value → List (String × Relationship) → GoMap Value → Prop}
    {path : List Nat} {data : GoMap Value} {input : String} {isArray : Bool} {limit : Nat} {sort : List SortConfig} {ms : List MatchConfig}
    {rels : List (String × Relationship)} (hin : ∃ i, mapGet env.inputs input = some i) (hlimit : limit < 2^63)
    (hindex : ∀ m ∈ ms, ∃ index, mapGet env.indexes m.childIndex = some index)
    (hnd : (ms.map (fun m => (m.childIndex, m.childProperty))).Nodup)
    (hval : ∀ m ∈ ms, ∃ v, mapGet data m.parentProperty = some v ∧ w.acceptable input m.childIndex m.childProperty v)
    (hnested : ∀ r ∈ w.records input, ∃ d, r.all = .ok d ∧ ∀ p, ∃ out, nested p d rels = .ok out ∧ Q d rels out) :
    ∃ v, loadRelationship env nested path data (.mk input isArray limit sort ms rels) = .ok v ∧
      HoldsRelated w (sortRecords env.sort) Q data (.mk input isArray limit sort ms rels) v := by
  obtain ⟨inp, hinp⟩ := hin
  have hdata := hw input inp hinp
  have hkeys : (conditionsOf data ms).map (fun c => (c.index, c.property)) = ms.map (fun m => (m.childIndex, m.childProperty)) := by
    simp [conditionsOf, Function.comp_def]
  obtain ⟨filters, f1, f2, f3⟩ := relationshipFilters_spec data ms [] ⟨by simp, by simp⟩
    (fun m hm => ⟨_, (hval m hm).choose_spec.1⟩) (by simpa [flatFilters, hkeys] using hnd)
  have hans : Answerable env (w.acceptable input) (conditionsOf data ms) := by
    refine ⟨?_, ?_, by rw [hkeys]; exact hnd⟩
    · intro c hc
      obtain ⟨m, hm, rfl⟩ := List.mem_map.mp hc
      exact hindex m hm
    · intro c hc
      obtain ⟨m, hm, rfl⟩ := List.mem_map.mp hc
      obtain ⟨v, h1, h2⟩ := hval m hm
      simpa [h1] using h2
  obtain ⟨its, i1, i2⟩ := filteredPositions_spec hdata path f2 (by simpa [flatFilters] using f3) hans
  have hrel : matching (w.records input) (w.sat input) (conditionsOf data ms) = relatedTo w data input ms := by
    unfold matching relatedTo
    apply List.filter_congr
    intro r _
    simp only [conditionsOf, List.all_map, Function.comp_def]
    rw [Bool.eq_iff_iff, List.all_eq_true, List.all_eq_true]
    constructor
    · intro h m hm
      obtain ⟨v, h1, _⟩ := hval m hm
      have := h m hm
      simpa [h1] using this
    · intro h m hm
      obtain ⟨v, h1, _⟩ := hval m hm
      have := h m hm
      simpa [h1] using this
  rw [hrel] at i2
  generalize hrl : relatedTo w data input ms = related at i2
  have hsub : ∀ r ∈ related, r ∈ w.records input := by
    intro r hr; rw [← hrl] at hr; exact (List.mem_filter.mp hr).1
  have hcol : collectRecords inp (joinIters its) = .ok related := by
    rw [joinIters_gives i2]
    exact collect_ok (fun r hr => hdata.fetch r (hsub r hr))
  generalize hsr : (if sort = [] then related else sortRecords env.sort sort related) = sorted
  have hsr' : (if sort.length > 0 then sortRecords env.sort sort related else related) = sorted := by
    rw [← hsr]
    cases sort <;> simp
  have hsub' : ∀ r ∈ sorted, r ∈ w.records input := by
    intro r hr
    rw [← hsr] at hr
    split at hr
    · exact hsub r hr
    · exact hsub r ((hperm _ _).mem_iff.mp hr)
  have hitems : ∀ n : Nat, 0 < n → ∃ items, loadItems (fun i item => nested (3 :: i :: path) item rels) (n : Nat) 0 sorted = .ok items ∧
      items.length = (sorted.take n).length ∧
      ∀ k (h : k < (sorted.take n).length) (h' : k < items.length), ∃ d, (sorted.take n)[k].all = .ok d ∧ Q d rels items[k] := by
    intro n hn
    have := loadItems_spec (fun i item => nested (3 :: i :: path) item rels) (fun d out => Q d rels out) sorted 0 n hn (by
      intro r hr
      obtain ⟨d, h1, h2⟩ := hnested r (hsub' r hr)
      exact ⟨d, h1, fun j => h2 (3 :: j :: path)⟩)
    simpa using this
  -- the count of the code, and the records it keeps
  have hcount : 0 ≤ relationshipCount isArray limit sorted.length ∧
      ∃ items, loadItems (fun i item => nested (3 :: i :: path) item rels) (relationshipCount isArray limit sorted.length) 0 sorted = .ok items ∧
        items.length = (kept isArray limit sorted).length ∧
        ∀ k (h : k < (kept isArray limit sorted).length) (h' : k < items.length), ∃ d, (kept isArray limit sorted)[k].all = .ok d ∧ Q d rels items[k] := by
    by_cases hempty : sorted = []
    · subst hempty
      have hk : kept isArray limit ([] : List Rec) = [] := by simp [kept]
      refine ⟨?_, [], rfl, by rw [hk]; rfl, by rw [hk]; simp⟩
      have : intOfUint limit = limit := by simp [intOfUint, hlimit]
      simp only [relationshipCount, this]
      split <;> split <;> (try split) <;> simp <;> omega
    · have hpos : 0 < sorted.length := List.length_pos_iff.mpr hempty
      have : ∃ n : Nat, 0 < n ∧ relationshipCount isArray limit sorted.length = n ∧ kept isArray limit sorted = sorted.take n := by
        have hi : intOfUint limit = limit := by simp [intOfUint, hlimit]
        cases isArray with
        | false =>
          refine ⟨1, by omega, ?_, by simp [kept]⟩
          have h1 : ¬ ((sorted.length : Int) < 1) := by omega
          simp only [relationshipCount, Bool.false_eq_true, if_false, if_neg h1]
          rfl
        | true =>
          simp only [relationshipCount, hi, if_true]
          by_cases hl : limit = 0
          · subst hl
            exact ⟨sorted.length, hpos, by simp, by simp [kept]⟩
          · by_cases hlt : sorted.length < limit
            · refine ⟨sorted.length, hpos, ?_, ?_⟩
              · rw [if_neg (by omega), if_pos (by omega)]
              · simp only [kept, if_true, if_neg hl]
                rw [List.take_of_length_le (by omega), List.take_of_length_le (by omega)]
            · refine ⟨limit, by omega, ?_, ?_⟩
              · rw [if_neg (by omega), if_neg (by omega)]
              · simp only [kept, if_true, if_neg hl]
      obtain ⟨n, n1, n2, n3⟩ := this
      obtain ⟨items, g1, g2, g3⟩ := hitems n n1
      rw [n2]
      refine ⟨by omega, items, g1, by rw [n3]; exact g2, ?_⟩
      intro k h h'
      obtain ⟨d, e1, e2⟩ := g3 k (by rw [← n3]; exact h) h'
      refine ⟨d, ?_, e2⟩
      rw [← e1]
      congr 1
      simp only [n3]
  obtain ⟨hc0, items, l1, l2, l3⟩ := hcount
  refine ⟨relationshipValue isArray items, ?_, ?_⟩
  · have hneg : ¬ relationshipCount isArray limit sorted.length < 0 := by omega
    simp only [loadRelationship, f1, hinp, i1, hcol, hsr', if_neg hneg, l1]
  · simp only [HoldsRelated, hrl, hsr]
    refine ⟨items, l2, l3, ?_⟩
    cases isArray with
    | true => exact .inl ⟨rfl, by simp [relationshipValue]⟩
    | false =>
      cases items with
      | nil => exact .inr (.inl ⟨rfl, rfl, by simp [relationshipValue]⟩)
      | cons x xs =>
        have : xs = [] := by
          have h1 : (kept false limit sorted).length ≤ 1 := by
            simp only [kept, Bool.false_eq_true, if_false]
            exact List.length_take_le _ _
          rw [← l2] at h1
          simp at h1
          exact h1
        subst this
        exact .inr (.inr ⟨rfl, x, rfl, by simp [relationshipValue]⟩)

/-- The loop over the relationships. -/
theorem loadLoop_spec {load : Nat → GoMap Value → Relationship → Res Value} {P : Relationship → Value → Prop} {I : GoMap Value → Prop}
    (hI : ∀ cur name rel v, I cur → P rel v → I (mapSet cur name v)) :
    ∀ (l : List (String × Relationship)) (i : Nat) (cur : GoMap Value), (l.map (·.1)).Nodup →
    (∀ name rel, (name, rel) ∈ l → ∀ i cur', (∀ k, k ∉ (l.map (·.1)).filter (· ≠ name) → mapGet cur' k = mapGet cur k) →
      ∃ v, load i cur' rel = .ok v ∧ P rel v) →
    ∃ out, loadLoop load i cur l = .ok out ∧ (∀ k, k ∉ l.map (·.1) → mapGet out k = mapGet cur k) ∧
      (∀ name rel, (name, rel) ∈ l → ∃ v, mapGet out name = some v ∧ P rel v) ∧ (I cur → I out) := by
  intro l
  induction l with
  | nil => intro i cur _ _; exact ⟨cur, rfl, fun _ _ => rfl, by simp, id⟩
  | cons x l ih =>
    obtain ⟨name, rel⟩ := x
    intro i cur hnd h
    simp only [List.map_cons, List.nodup_cons] at hnd
    obtain ⟨v, h1, h2⟩ := h name rel List.mem_cons_self i cur (fun _ _ => rfl)
    obtain ⟨out, g1, g2, g3, g4⟩ := ih (i + 1) (mapSet cur name v) hnd.2 (by
      intro name' rel' hm i' cur' hcur
      refine h name' rel' (List.mem_cons_of_mem _ hm) i' cur' ?_
      have hne : name ≠ name' := by
        intro e; subst e
        exact hnd.1 (List.mem_map.mpr ⟨_, hm, rfl⟩)
      intro k hk
      simp only [List.map_cons, ne_eq, hne, not_false_eq_true, decide_true, List.filter_cons_of_pos, List.mem_cons, not_or] at hk
      rw [hcur k hk.2, mapGet_mapSet, if_neg (fun e => hk.1 e.symm)])
    refine ⟨out, by simp only [loadLoop, h1, g1], ?_, ?_, fun hc => g4 (hI _ _ rel _ hc h2)⟩
    · intro k hk
      simp only [List.map_cons, List.mem_cons, not_or] at hk
      rw [g2 k hk.2, mapGet_mapSet, if_neg (fun e => hk.1 e.symm)]
    · intro name' rel' hm
      rcases List.mem_cons.mp hm with e | hm
      · cases e
        refine ⟨v, ?_, h2⟩
        rw [g2 name hnd.1, mapGet_mapSet, if_pos rfl]
      · exact g3 name' rel' hm

/-- All the records of all the inputs have only numbers that JSON can write. -/
def AllFinite (w : World) : Prop := ∀ name, ∀ r ∈ w.records name, ∀ d, r.all = .ok d → ¬ HasNonFinite (.obj d)

theorem mapSet_mem {α : Type} {m : GoMap α} {k n : String} {v x : α} (h : (n, x) ∈ mapSet m k v) : (n, x) ∈ m ∨ (n = k ∧ x = v) := by
  induction m with
  | nil => exact .inr (by simpa [mapSet] using h)
  | cons e m ih =>
    obtain ⟨k', y⟩ := e
    simp only [mapSet] at h
    split at h
    · rcases List.mem_cons.1 h with h | h
      · exact .inr (by simpa using h)
      · exact .inl (.tail _ h)
    · rcases List.mem_cons.1 h with h | h
      · exact .inl (h ▸ .head _)
      · exact (ih h).imp (.tail _) id

theorem finite_set {m : GoMap Value} {k : String} {v : Value} (hm : ¬ HasNonFinite (.obj m)) (hv : ¬ HasNonFinite v) : ¬ HasNonFinite (.obj (mapSet m k v)) := by
  intro h
  cases h with
  | obj hmem hbad =>
    rcases mapSet_mem hmem with h | ⟨_, rfl⟩
    · exact hm (.obj h hbad)
    · exact hv hbad

/-- The relationship, without and with what is known of the related records. -/
theorem HoldsRelated.imp {w : World} {order : List SortConfig → List Rec → List Rec} {Q R : GoMap Value → List (String × Relationship) → GoMap Value → Prop}
    (hQ : ∀ d rels out, Q d rels out → R d rels out) {data : GoMap Value} {rel : Relationship} {v : Value} (h : HoldsRelated w order Q data rel v) :
    HoldsRelated w order R data rel v := by
  cases rel with
  | mk input isArray limit sort ms nested =>
    obtain ⟨items, h1, h2, h3⟩ := h
    refine ⟨items, h1, fun k hk hk' => ?_, h3⟩
    obtain ⟨d, h4, h5⟩ := h2 k hk hk'
    exact ⟨d, h4, hQ _ _ _ h5⟩

theorem HoldsRelated.finite {w : World} {order : List SortConfig → List Rec → List Rec} {data : GoMap Value} {rel : Relationship} {v : Value}
    (h : HoldsRelated w order (fun _ _ out => ¬ HasNonFinite (.obj out)) data rel v) : ¬ HasNonFinite v := by
  cases rel with
  | mk input isArray limit sort ms nested =>
    obtain ⟨items, h1, h2, h3⟩ := h
    have hall : ∀ item ∈ items, ¬ HasNonFinite (.obj item) := by
      intro item hi
      obtain ⟨k, hk, rfl⟩ := List.getElem_of_mem hi
      obtain ⟨_, _, h⟩ := h2 k (h1 ▸ hk) hk
      exact h
    intro hbad
    rcases h3 with ⟨_, rfl⟩ | ⟨_, _, rfl⟩ | ⟨_, item, rfl, rfl⟩
    · cases hbad with
      | arr hm hb =>
        obtain ⟨item, hi, rfl⟩ := List.mem_map.1 hm
        exact hall item hi hb
    · cases hbad
    · exact hall item (.head _) hbad

/-- Loading suitable relationships succeeds and shows what it must; if no record has a number that JSON cannot write, what is shown has none. -/
theorem loadRelationships_spec (hw : w.Behind env) (hvisit : ∀ (path : List Nat) (α : Type) (l : List α), (env.visit path l).Perm l)
    (hperm : ∀ less l, (env.sort less l).Perm l) :
    ∀ (depth : Nat) (parent : String) (rels : List (String × Relationship)), Suitable w env depth parent rels →
    ∀ r ∈ w.records parent, ∀ data, r.all = .ok data → ∀ path,
      ∃ out, loadRelationships env depth path data rels = .ok out ∧ Loaded w (sortRecords env.sort) depth data rels out ∧
        (AllFinite w → ¬ HasNonFinite (.obj out)) := by
  intro depth
  induction depth with
  | zero =>
    intro parent rels hs r hr data hdata path
    simp only [Suitable] at hs
    subst hs
    exact ⟨data, by simp [loadRelationships], ⟨rfl, rfl⟩, fun h => h parent r hr data hdata⟩
  | succ depth ih =>
    intro parent rels hs r hr data hdata path
    cases hrels : rels with
    | nil => exact ⟨data, by simp [loadRelationships], ⟨fun _ _ => rfl, by simp⟩, fun h => h parent r hr data hdata⟩
    | cons x xs =>
      rw [← hrels]
      have hload : loadRelationships env (depth + 1) path data rels =
          loadLoop (fun i data relationship => loadRelationship env (loadRelationships env depth) (i :: path) data relationship) 0 data
            (env.visit (0 :: path) rels) := by
        rw [hrels]; rfl
      obtain ⟨hnd, hall⟩ := hs
      have hv := hvisit (0 :: path) _ rels
      obtain ⟨out, g1, g2, g3, g4⟩ := loadLoop_spec
        (load := fun i data relationship => loadRelationship env (loadRelationships env depth) (i :: path) data relationship)
        (P := fun rel v => HoldsRelated w (sortRecords env.sort) (fun d rels out => Loaded w (sortRecords env.sort) depth d rels out ∧
          (AllFinite w → ¬ HasNonFinite (.obj out))) data rel v)
        (I := fun cur => AllFinite w → ¬ HasNonFinite (.obj cur))
        (fun cur name rel v hI hP ha => finite_set (hI ha) (HoldsRelated.finite (HoldsRelated.imp (fun _ _ _ h => h.2 ha) hP)))
        (env.visit (0 :: path) rels) 0 data ((hv.map _).nodup_iff.mpr hnd) (by
          intro name rel hm i cur hcur
          cases rel with
          | mk input isArray limit sort ms nested =>
            obtain ⟨k1, k2, k3, k4, k5, k6, k7, k8⟩ := hall name input isArray limit sort ms nested (hv.mem_iff.mp hm)
            have heq : ∀ m ∈ ms, mapGet cur m.parentProperty = mapGet data m.parentProperty := by
              intro m hm'
              apply hcur
              intro hc
              obtain ⟨c1, c2⟩ := List.mem_filter.mp hc
              exact k5 m hm' m.parentProperty ((hv.map _).mem_iff.mp c1) (by simpa using c2) rfl
            obtain ⟨v, l1, l2⟩ := loadRelationship_spec hw hperm (nested := loadRelationships env depth)
              (Q := fun d rels out => Loaded w (sortRecords env.sort) depth d rels out ∧ (AllFinite w → ¬ HasNonFinite (.obj out))) (path := i :: path) (data := data) (sort := sort) (isArray := isArray)
              k1 k2 k3 k4 (k6 r hr data hdata)
              (by
                intro r' hr'
                obtain ⟨d, hd⟩ := k7 r' hr'
                exact ⟨d, hd, fun p => ih input nested k8 r' hr' d hd p⟩)
            refine ⟨v, ?_, l2⟩
            rw [← l1]
            simp only [loadRelationship, relationshipFilters_congr ms [] heq])
      refine ⟨out, by rw [hload]; exact g1, ⟨?_, ?_⟩, g4 (fun h => h parent r hr data hdata)⟩
      · intro k hk
        exact g2 k (fun hc => hk ((hv.map _).mem_iff.mp hc))
      · intro name rel hm
        obtain ⟨v, h1, h2⟩ := g3 name rel (hv.mem_iff.mpr hm)
        exact ⟨v, h1, HoldsRelated.imp (fun _ _ _ h => h.1) h2⟩

end

/-- What is loaded is determined by the data, up to the order of keys. -/
theorem loaded_same {w : World} {order : List SortConfig → List Rec → List Rec} :
    ∀ (path : List (String ⊕ Nat)) (depth : Nat) (data : GoMap Value) (rels : List (String × Relationship)) (a b : GoMap Value),
    Loaded w order depth data rels a → Loaded w order depth data rels b → look path (.obj a) = look path (.obj b) := by
  suffices ∀ n (path : List (String ⊕ Nat)), path.length < n → ∀ (depth : Nat) (data : GoMap Value) (rels : List (String × Relationship))
      (a b : GoMap Value), Loaded w order depth data rels a → Loaded w order depth data rels b → look path (.obj a) = look path (.obj b) from
    fun path => this (path.length + 1) path (by omega)
  intro n
  induction n with
  | zero => intro path h; omega
  | succ n ih =>
    intro path hpath depth data rels a b ha hb
    cases path with
    | nil => rfl
    | cons s path =>
      cases s with
      | inr i => rfl
      | inl key =>
        simp only [look]
        cases depth with
        | zero => rw [ha.2, hb.2]
        | succ depth =>
          by_cases hk : key ∈ rels.map (·.1)
          · obtain ⟨⟨name, rel⟩, hm, rfl⟩ := List.mem_map.mp hk
            obtain ⟨v, v1, v2⟩ := ha.2 name rel hm
            obtain ⟨u, u1, u2⟩ := hb.2 name rel hm
            simp only [v1, u1, Option.bind_some]
            cases rel with
            | mk input isArray limit sort ms nested =>
              obtain ⟨is, i1, i2, i3⟩ := v2
              obtain ⟨js, j1, j2, j3⟩ := u2
              have hlen : is.length = js.length := by rw [i1, j1]
              have hitem : ∀ k (h : k < is.length) (h' : k < js.length) p, p.length < n → look p (.obj is[k]) = look p (.obj js[k]) := by
                intro k h h' p hp
                obtain ⟨d, d1, d2⟩ := i2 k (by rw [← i1]; exact h) h
                obtain ⟨d', d1', d2'⟩ := j2 k (by rw [← i1]; exact h) h'
                rw [d1] at d1'
                cases d1'
                exact ih p hp depth d nested _ _ d2 d2'
              rcases i3 with ⟨e, rfl⟩ | ⟨e, rfl, rfl⟩ | ⟨e, x, rfl, rfl⟩
              · rcases j3 with ⟨_, rfl⟩ | ⟨e', _, _⟩ | ⟨e', _⟩
                · cases path with
                  | nil => simp [look, hlen]
                  | cons s path =>
                    cases s with
                    | inl _ => rfl
                    | inr k =>
                      simp only [look, List.getElem?_map]
                      by_cases hki : k < is.length
                      · rw [List.getElem?_eq_getElem hki, List.getElem?_eq_getElem (by omega)]
                        simp only [Option.map_some, Option.bind_some]
                        exact hitem k hki (by omega) path (by simp at hpath; omega)
                      · rw [List.getElem?_eq_none (by omega), List.getElem?_eq_none (by omega)]
                · rw [e] at e'; cases e'
                · rw [e] at e'; cases e'
              · rcases j3 with ⟨e', rfl⟩ | ⟨_, _, rfl⟩ | ⟨_, x, rfl, _⟩
                · rw [e] at e'; cases e'
                · rfl
                · simp at hlen
              · rcases j3 with ⟨e', rfl⟩ | ⟨_, rfl, rfl⟩ | ⟨_, y, rfl, rfl⟩
                · rw [e] at e'; cases e'
                · simp at hlen
                · exact hitem 0 (by simp) (by simp) path (by simp at hpath; omega)
          · rw [ha.1 key hk, hb.1 key hk]

end Rodb
