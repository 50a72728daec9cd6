import Verif.Spec.Retold
/-
  The same records at other positions: indexes and joins.
-/
namespace Rodb
open Spec

/-- Nothing twice, or two related values. -/
inductive OptRel {α β : Type} (R : α → β → Prop) : Option α → Option β → Prop
  | none : OptRel R none none
  | some {a : α} {b : β} : R a b → OptRel R (some a) (some b)

/-- Two pairs that are related component by component. -/
inductive PairRel {α β γ δ : Type} (R : α → β → Prop) (S : γ → δ → Prop) : α × γ → β × δ → Prop
  | mk {a : α} {b : β} {c : γ} {d : δ} : R a b → S c d → PairRel R S (a, c) (b, d)

/-- Iterators that give corresponding positions. -/
abbrev ItRel (R : Int → Int → Prop) : PIter → PIter → Prop := All2 (SameResult R)

variable {R : Int → Int → Prop}

theorem Spec.All2.length {α β : Type} {Q : α → β → Prop} {l : List α} {l' : List β} (h : All2 Q l l') : l'.length = l.length := by
  induction h with
  | nil => rfl
  | cons _ _ ih => simp [ih]

theorem Spec.All2.map {α β γ δ : Type} {Q : α → β → Prop} {S : γ → δ → Prop} {f : α → γ} {g : β → δ} (hf : ∀ a b, Q a b → S (f a) (g b)) {l : List α} {l' : List β} (h : All2 Q l l') :
    All2 S (l.map f) (l'.map g) := by
  induction h with
  | nil => exact .nil
  | cons h _ ih => exact .cons (hf _ _ h) ih

theorem Spec.All2.append {α β : Type} {Q : α → β → Prop} {l : List α} {l' : List β} {m : List α} {m' : List β} (h : All2 Q l l') (hm : All2 Q m m') : All2 Q (l ++ m) (l' ++ m') := by
  induction h with
  | nil => exact hm
  | cons h _ ih => exact .cons h ih

theorem Spec.SameOrder.eq (h : SameOrder R) {p p' q q' : Int} (hp : R p p') (hq : R q q') : p = q ↔ p' = q' := by
  have h1 := h _ _ _ _ hp hq
  have h2 := h _ _ _ _ hq hp
  omega

theorem call_rel {it it' : PIter} (h : ItRel R it it') : PairRel (SameResult (OptRel R)) (ItRel R) it.call it'.call := by
  cases h with
  | nil => exact .mk (.ok .none) .nil
  | cons h hr =>
    cases h with
    | ok h => exact .mk (.ok (.some h)) hr
    | error e => exact .mk (.error e) hr

theorem joinPrime_rel {its its' : List PIter} (h : All2 (ItRel R) its its') : PairRel (SameResult (OptRel (All2 R))) (All2 (ItRel R)) (joinPrime its) (joinPrime its') := by
  induction h with
  | nil => exact .mk (.ok (.some .nil)) .nil
  | @cons it it' rest rest' h hr ih =>
    simp only [joinPrime]
    have hc := call_rel h
    revert ih hc
    generalize it.call = x, it'.call = x', joinPrime rest = y, joinPrime rest' = y'
    intro ih hc
    cases hc with
    | mk h1 h2 =>
      cases h1 with
      | error e => exact .mk (.error e) (.cons h2 hr)
      | ok h1 =>
        cases h1 with
        | none => exact .mk (.ok .none) (.cons h2 hr)
        | some h1 =>
          cases ih with
          | mk h3 h4 =>
            cases h3 with
            | error e => exact .mk (.error e) (.cons h2 h4)
            | ok h3 =>
              cases h3 with
              | none => exact .mk (.ok .none) (.cons h2 h4)
              | some h3 => exact .mk (.ok (.some (.cons h1 h3))) (.cons h2 h4)

theorem joinAdvance_rel (ho : SameOrder R) {t t' : Int} (ht : R t t') {it it' : PIter} (h : ItRel R it it') : ∀ {c c' : Int}, R c c' →
    PairRel (SameResult (OptRel R)) (ItRel R) (joinAdvance t c it) (joinAdvance t' c' it') := by
  induction h with
  | nil =>
    intro c c' hc
    have := ho _ _ _ _ hc ht
    simp only [joinAdvance]
    by_cases hlt : c < t
    · rw [if_pos hlt, if_pos (this.1 hlt)]; exact .mk (.ok .none) .nil
    · rw [if_neg hlt, if_neg (fun x => hlt (this.2 x))]; exact .mk (.ok (.some hc)) .nil
  | cons h hr ih =>
    intro c c' hc
    have := ho _ _ _ _ hc ht
    simp only [joinAdvance]
    by_cases hlt : c < t
    · rw [if_pos hlt, if_pos (this.1 hlt)]
      cases h with
      | ok h => exact ih h
      | error e => exact .mk (.error e) hr
    · rw [if_neg hlt, if_neg (fun x => hlt (this.2 x))]; exact .mk (.ok (.some hc)) (.cons h hr)

theorem joinCheck_rel (ho : SameOrder R) {t t' : Int} (ht : R t t') {l l' : List (Int × PIter)} (h : All2 (PairRel R (ItRel R)) l l') :
    PairRel (· = ·) (All2 (PairRel R (ItRel R))) (joinCheck t l) (joinCheck t' l') := by
  induction h with
  | nil => exact .mk rfl .nil
  | @cons x x' rest rest' h hr ih =>
    cases h with
    | @mk cur cur' it it' h1 h2 =>
      simp only [joinCheck]
      have hc := joinAdvance_rel ho ht h2 h1
      revert ih hc
      generalize joinAdvance t cur it = x, joinAdvance t' cur' it' = x', joinCheck t rest = y, joinCheck t' rest' = y'
      intro ih hc
      cases hc with
      | mk h3 h4 =>
        cases h3 with
        | error e => exact .mk rfl (.cons (.mk h1 h4) hr)
        | ok h3 =>
          cases h3 with
          | none => exact .mk rfl (.cons (.mk h1 h4) hr)
          | @some a b h3 =>
            have he := ho.eq h3 ht
            by_cases hat : a = t
            · have hbt := he.1 hat
              simp only [hat, hbt, ne_eq, not_true_eq_false, if_false]
              subst hat hbt
              cases ih with
              | mk h5 h6 => exact .mk h5 (.cons (.mk h3 h4) h6)
            · have hbt : ¬ b = t' := fun x => hat (he.2 x)
              simp only [ne_eq, hat, hbt, not_false_eq_true, if_true]
              exact .mk rfl (.cons (.mk h3 h4) hr)

theorem pairs_second {l l' : List (Int × PIter)} (h : All2 (PairRel R (ItRel R)) l l') : All2 (ItRel R) (l.map (·.2)) (l'.map (·.2)) :=
  h.map (fun _ _ h => by cases h with | mk _ h => exact h)

theorem joinMain_rel (ho : SameOrder R) {it it' : PIter} (h : ItRel R it it') : ∀ {l l' : List (Int × PIter)}, All2 (PairRel R (ItRel R)) l l' →
    PairRel (SameResult (OptRel R)) (All2 (ItRel R)) (joinMain it l) (joinMain it' l') := by
  induction h with
  | nil => exact fun hl => .mk (.ok .none) (.cons .nil (pairs_second hl))
  | cons h hr ih =>
    intro l l' hl
    cases h with
    | error e => exact .mk (.error e) (.cons hr (pairs_second hl))
    | @ok p p' h =>
      simp only [joinMain]
      have hc := joinCheck_rel ho h hl
      revert hc
      generalize joinCheck p l = x, joinCheck p' l' = x'
      intro hc
      cases hc with
      | @mk a b _ _ h1 h2 =>
        subst h1
        cases a with
        | found => exact .mk (.ok (.some h)) (.cons hr (pairs_second h2))
        | ended => exact .mk (.ok .none) (.cons hr (pairs_second h2))
        | failed e => exact .mk (.error e) (.cons hr (pairs_second h2))
        | notFound => exact ih h2

theorem zip_rel {ps ps' : List Int} (h : All2 R ps ps') : ∀ {its its' : List PIter}, All2 (ItRel R) its its' → All2 (PairRel R (ItRel R)) (ps.zip its) (ps'.zip its') := by
  induction h with
  | nil => intro _ _ _; exact .nil
  | cons h _ ih =>
    intro its its' hi
    cases hi with
    | nil => exact .nil
    | cons h1 h2 => exact .cons (.mk h h1) (ih h2)

theorem joinCall_rel (ho : SameOrder R) {its its' : List PIter} (h : All2 (ItRel R) its its') : PairRel (SameResult (OptRel R)) (All2 (ItRel R)) (joinCall its) (joinCall its') := by
  cases h with
  | nil => exact .mk (.ok .none) .nil
  | @cons it it' rest rest' h hr =>
    cases hr with
    | nil =>
      simp only [joinCall]
      have hc := call_rel h
      revert hc
      generalize it.call = x, it'.call = x'
      intro hc
      cases hc with
      | mk h1 h2 => exact .mk h1 (.cons h2 .nil)
    | @cons a a' rest rest' h1 h2 =>
      simp only [joinCall]
      have hc := joinPrime_rel (All2.cons h1 h2)
      revert hc
      generalize joinPrime (a :: rest) = x, joinPrime (a' :: rest') = x'
      intro hc
      cases hc with
      | mk h3 h4 =>
        cases h3 with
        | error e => exact .mk (.error e) (.cons h h4)
        | ok h3 =>
          cases h3 with
          | none => exact .mk (.ok .none) (.cons h h4)
          | some h3 => exact joinMain_rel ho h (zip_rel h3 h4)

theorem outcomes_rel {σ σ' : Type} {S : σ → σ' → Prop} {call : σ → Res (Option Int) × σ} {call' : σ' → Res (Option Int) × σ'}
    (hc : ∀ s s', S s s' → PairRel (SameResult (OptRel R)) S (call s) (call' s')) : ∀ (fuel : Nat) {s : σ} {s' : σ'}, S s s' → ItRel R (outcomes call fuel s) (outcomes call' fuel s')
  | 0, _, _, _ => .cons (.error _) .nil
  | fuel+1, s, s', h => by
    simp only [outcomes]
    have hc' := hc s s' h
    revert hc'
    generalize call s = x, call' s' = x'
    intro hc'
    cases hc' with
    | mk h1 h2 =>
      cases h1 with
      | error e => exact .cons (.error e) .nil
      | ok h1 =>
        cases h1 with
        | none => exact .nil
        | some h1 => exact .cons (.ok h1) (outcomes_rel hc fuel h2)

theorem joinIters_rel (ho : SameOrder R) {its its' : List PIter} (h : All2 (ItRel R) its its') : ItRel R (joinIters its) (joinIters its') := by
  simp only [joinIters]
  have hl : (its'.headD []).length = (its.headD []).length := by
    cases h with
    | nil => rfl
    | cons h _ => exact h.length
  rw [hl]
  exact outcomes_rel (fun _ _ h => joinCall_rel ho h) _ h

/-! ### Full scans -/

theorem noopMatches_rel {r r' : Rec} (h : SameRecord R r r') : ∀ filters : GoMap Value, noopMatches r' filters = noopMatches r filters
  | [] => rfl
  | (q, f) :: rest => by simp only [noopMatches, h.get, noopMatches_rel h rest]

theorem noopSearch_rel (filters : GoMap Value) {l l' : List (Res Rec)} (h : All2 (SameResult (SameRecord R)) l l') :
    PairRel (SameResult (OptRel R)) (All2 (SameResult (SameRecord R))) (noopSearch filters l) (noopSearch filters l') := by
  induction h with
  | nil => exact .mk (.ok .none) .nil
  | cons h hr ih =>
    cases h with
    | error e => exact .mk (.error e) hr
    | @ok r r' h =>
      simp only [noopSearch, noopMatches_rel h]
      cases noopMatches r filters with
      | error e => exact .mk (.error e) hr
      | ok b =>
        cases b with
        | true => exact .mk (.ok (.some h.position)) hr
        | false => exact ih

/-- States of full scans over the same records. -/
inductive NoopRel (R : Int → Int → Prop) : NoopState → NoopState → Prop
  | mk {l l' : List (Res Rec)} (closed : Bool) : All2 (SameResult (SameRecord R)) l l' → NoopRel R ⟨l, closed⟩ ⟨l', closed⟩

theorem noopCall_rel (closing : Res Unit) (filters : GoMap Value) {s s' : NoopState} (h : NoopRel R s s') :
    PairRel (SameResult (OptRel R)) (NoopRel R) (noopCall closing filters s) (noopCall closing filters s') := by
  cases h with
  | @mk l l' closed h =>
    cases closed with
    | true => exact .mk (.ok .none) (.mk true h)
    | false =>
      simp only [noopCall]
      have hc := noopSearch_rel filters h
      revert hc
      generalize noopSearch filters l = x, noopSearch filters l' = x'
      intro hc
      cases hc with
      | mk h1 h2 =>
        cases h1 with
        | error e => exact .mk (.error e) (.mk false h2)
        | ok h1 =>
          cases h1 with
          | some h1 => exact .mk (.ok (.some h1)) (.mk false h2)
          | none =>
            cases closing with
            | error e => exact .mk (.error e) (.mk true h2)
            | ok u => exact .mk (.ok .none) (.mk true h2)

theorem noop_rel {i i' : Input} (h : SameRecords R i i') (filters : GoMap Value) : SameResult (ItRel R) (noopGetRecordPositions i filters) (noopGetRecordPositions i' filters) := by
  have hs := h.scan
  simp only [noopGetRecordPositions, noopStart]
  revert hs
  generalize i.scan = x, i'.scan = x'
  intro hs
  cases hs with
  | error e => exact .error e
  | @ok l l' hs =>
    show SameResult _ (.ok (outcomes _ (l.length + 1) _)) (.ok (outcomes _ (l'.length + 1) _))
    rw [hs.length]
    exact .ok (outcomes_rel (fun _ _ h => noopCall_rel _ filters h) _ (.mk false hs))

/-! ### Map indexes -/

/-- The same values at corresponding positions. -/
abbrev PropertyRel (R : Int → Int → Prop) : MapPropertyIndex → MapPropertyIndex → Prop := All2 (PairRel (· = ·) (All2 R))

/-- The same properties with the same values. -/
abbrev EntriesRel (R : Int → Int → Prop) : GoMap MapPropertyIndex → GoMap MapPropertyIndex → Prop := All2 (PairRel (· = ·) (PropertyRel R))

theorem vmapFind_rel {m m' : MapPropertyIndex} (h : PropertyRel R m m') (v : Value) : OptRel (All2 R) (vmapFind m v) (vmapFind m' v) := by
  induction h with
  | nil => exact .none
  | cons h hr ih =>
    cases h with
    | mk h1 h2 =>
      subst h1
      simp only [vmapFind]
      split
      · exact .some h2
      · exact ih

theorem vmapPut_rel {m m' : MapPropertyIndex} (h : PropertyRel R m m') (v : Value) {ps ps' : List Int} (hp : All2 R ps ps') : PropertyRel R (vmapPut m v ps) (vmapPut m' v ps') := by
  induction h with
  | nil => exact .cons (.mk rfl hp) .nil
  | cons h hr ih =>
    cases h with
    | mk h1 h2 =>
      subst h1
      simp only [vmapPut]
      split
      · exact .cons (.mk rfl hp) hr
      · exact .cons (.mk rfl h2) ih

theorem mapGet_rel {α β : Type} {Q : α → β → Prop} {m : GoMap α} {m' : GoMap β} (h : All2 (PairRel (· = ·) Q) m m') (k : String) : OptRel Q (mapGet m k) (mapGet m' k) := by
  induction h with
  | nil => exact .none
  | cons h hr ih =>
    cases h with
    | mk h1 h2 =>
      subst h1
      simp only [mapGet]
      split
      · exact .some h2
      · exact ih

theorem mapSet_rel {α β : Type} {Q : α → β → Prop} {m : GoMap α} {m' : GoMap β} (h : All2 (PairRel (· = ·) Q) m m') (k : String) {v : α} {v' : β} (hv : Q v v') :
    All2 (PairRel (· = ·) Q) (mapSet m k v) (mapSet m' k v') := by
  induction h with
  | nil => exact .cons (.mk rfl hv) .nil
  | cons h hr ih =>
    cases h with
    | mk h1 h2 =>
      subst h1
      simp only [mapSet]
      split
      · exact .cons (.mk rfl hv) hr
      · exact .cons (.mk rfl h2) ih

theorem mapAddScalar_rel {m m' : GoMap MapPropertyIndex} (h : EntriesRel R m m') (property : String) (v : Value) {p p' : Int} (hp : R p p') :
    SameResult (EntriesRel R) (mapAddScalar m property v p) (mapAddScalar m' property v p') := by
  simp only [mapAddScalar]
  split
  · exact .error _
  · have hg := mapGet_rel h property
    revert hg
    generalize mapGet m property = x, mapGet m' property = x'
    intro hg
    cases hg with
    | none => exact .error _
    | @some a b hg =>
      simp only
      have hf := vmapFind_rel hg v
      revert hf
      generalize vmapFind a v = y, vmapFind b v = y'
      intro hf
      cases hf with
      | none => exact .ok (mapSet_rel h property (vmapPut_rel hg v (.cons hp .nil)))
      | some hf => exact .ok (mapSet_rel h property (vmapPut_rel hg v (hf.append (.cons hp .nil))))

mutual
theorem mapAddValue_rel (property : String) {p p' : Int} (hp : R p p') : ∀ (v : Value) {m m' : GoMap MapPropertyIndex}, EntriesRel R m m' →
    SameResult (EntriesRel R) (mapAddValue m property v p) (mapAddValue m' property v p')
  | .arr l, m, m', h => by
    simp only [mapAddValue]
    have hv := mapAddValues_rel property hp l h
    revert hv
    generalize mapAddValues m property l p = x, mapAddValues m' property l p' = x'
    intro hv
    cases hv with
    | error e => exact .error e
    | ok hv => exact mapAddScalar_rel hv property (.arr l) hp
  | .obj _, m, m', h => by simp only [mapAddValue]; exact .error _
  | .null, m, m', h => by simp only [mapAddValue]; exact mapAddScalar_rel h property _ hp
  | .str _, m, m', h => by simp only [mapAddValue]; exact mapAddScalar_rel h property _ hp
  | .int _, m, m', h => by simp only [mapAddValue]; exact mapAddScalar_rel h property _ hp
  | .float _, m, m', h => by simp only [mapAddValue]; exact mapAddScalar_rel h property _ hp
  | .bool _, m, m', h => by simp only [mapAddValue]; exact mapAddScalar_rel h property _ hp
theorem mapAddValues_rel (property : String) {p p' : Int} (hp : R p p') : ∀ (l : List Value) {m m' : GoMap MapPropertyIndex}, EntriesRel R m m' →
    SameResult (EntriesRel R) (mapAddValues m property l p) (mapAddValues m' property l p')
  | [], m, m', h => by simp only [mapAddValues]; exact .ok h
  | v :: vs, m, m', h => by
    simp only [mapAddValues]
    have hv := mapAddValue_rel property hp v h
    revert hv
    generalize mapAddValue m property v p = x, mapAddValue m' property v p' = x'
    intro hv
    cases hv with
    | error e => exact .error e
    | ok hv => exact mapAddValues_rel property hp vs hv
end

theorem mapIndexProperties_rel {r r' : Rec} (hr : SameRecord R r r') : ∀ (l : List String) {m m' : GoMap MapPropertyIndex}, EntriesRel R m m' →
    SameResult (EntriesRel R) (mapIndexProperties r l m) (mapIndexProperties r' l m')
  | [], _, _, h => .ok h
  | q :: rest, m, m', h => by
    simp only [mapIndexProperties, hr.get]
    cases r.get q with
    | error e => exact .error e
    | ok v =>
      have hv := mapAddValue_rel q hr.position v h
      show SameResult _ (match mapAddValue m q v r.position with | .ok index => mapIndexProperties r rest index | .error (.err _) => .error (.err "Cannot index the property") | .error e => .error e)
        (match mapAddValue m' q v r'.position with | .ok index => mapIndexProperties r' rest index | .error (.err _) => .error (.err "Cannot index the property") | .error e => .error e)
      revert hv
      generalize mapAddValue m q v r.position = x, mapAddValue m' q v r'.position = x'
      intro hv
      cases hv with
      | error e => cases e <;> exact .error _
      | ok hv => exact mapIndexProperties_rel hr rest hv

theorem mapIndexRecords_rel (properties : List String) {l l' : List (Res Rec)} (h : All2 (SameResult (SameRecord R)) l l') : ∀ {m m' : GoMap MapPropertyIndex}, EntriesRel R m m' →
    SameResult (EntriesRel R) (mapIndexRecords properties l m) (mapIndexRecords properties l' m') := by
  induction h with
  | nil => exact fun h => .ok h
  | cons h _ ih =>
    intro m m' hm
    cases h with
    | error e => exact .error e
    | @ok r r' h =>
      have hv := mapIndexProperties_rel h properties hm
      show SameResult _ (mapIndexProperties r properties m >>= fun index => mapIndexRecords properties _ index) (mapIndexProperties r' properties m' >>= fun index => mapIndexRecords properties _ index)
      revert hv
      generalize mapIndexProperties r properties m = x, mapIndexProperties r' properties m' = x'
      intro hv
      cases hv with
      | error e => exact .error e
      | ok hv => exact ih hv

theorem mapEmpty_rel : ∀ (l : List String) {m m' : GoMap MapPropertyIndex}, EntriesRel R m m' → EntriesRel R (mapEmpty l m) (mapEmpty l m')
  | [], _, _, h => h
  | q :: rest, _, _, h => mapEmpty_rel rest (mapSet_rel h q .nil)

/-- Map indexes over the same records. -/
inductive MapIndexRel (R : Int → Int → Prop) (name : String) : MapIndex → MapIndex → Prop
  | mk (config : MapConfig) {m m' : GoMap MapPropertyIndex} : EntriesRel R m m' → MapIndexRel R name ⟨config, name, m⟩ ⟨config, name, m'⟩

theorem newMap_rel (config : MapConfig) {i i' : Input} (h : SameRecords R i i') : SameResult (MapIndexRel R i.name) (newMap config i) (newMap config i') := by
  have hs := h.scan
  simp only [newMap, h.name]
  revert hs
  generalize i.scan = x, i'.scan = x'
  intro hs
  cases hs with
  | error e => exact .error e
  | @ok l l' hs =>
    have hv := mapIndexRecords_rel config.properties hs (mapEmpty_rel config.properties .nil)
    show SameResult _ (mapIndexRecords config.properties l (mapEmpty config.properties []) >>= fun index => .ok (⟨config, i.name, index⟩ : MapIndex))
      (mapIndexRecords config.properties l' (mapEmpty config.properties []) >>= fun index => .ok (⟨config, i.name, index⟩ : MapIndex))
    revert hv
    generalize mapIndexRecords config.properties l (mapEmpty config.properties []) = x, mapIndexRecords config.properties l' (mapEmpty config.properties []) = x'
    intro hv
    cases hv with
    | error e => exact .error e
    | ok hv => exact .ok (.mk config hv)

theorem iterateList_rel {l l' : List Int} (h : All2 R l l') : ItRel R (iterateList l) (iterateList l') := h.map (fun _ _ h => .ok h)

theorem mapFilters_rel (config : MapConfig) (name : String) {m m' : GoMap MapPropertyIndex} (h : EntriesRel R m m') : ∀ filters : GoMap Value,
    SameResult (OptRel (All2 (ItRel R))) (mapFilters ⟨config, name, m⟩ filters) (mapFilters ⟨config, name, m'⟩ filters)
  | [] => .ok (.some .nil)
  | (q, f) :: rest => by
    simp only [mapFilters]
    split
    · exact .error _
    · have hg := mapGet_rel h q
      revert hg
      generalize mapGet m q = x, mapGet m' q = x'
      intro hg
      cases hg with
      | none => exact .ok .none
      | @some a b hg =>
        simp only
        split
        · exact .error _
        · have hf := vmapFind_rel hg f
          revert hf
          generalize vmapFind a f = y, vmapFind b f = y'
          intro hf
          cases hf with
          | none => exact .ok .none
          | some hf =>
            have hr := mapFilters_rel config name h rest
            revert hr
            simp only
            generalize mapFilters ⟨config, name, m⟩ rest = z, mapFilters ⟨config, name, m'⟩ rest = z'
            intro hr
            cases hr with
            | error e => exact .error e
            | ok hr =>
              cases hr with
              | none => exact .ok .none
              | some hr => exact .ok (.some (.cons (iterateList_rel hf) hr))

theorem getRecordPositions_rel (ho : SameOrder R) {name : String} {m m' : MapIndex} (h : MapIndexRel R name m m') (filters : GoMap Value) :
    SameResult (ItRel R) (m.getRecordPositions name filters) (m'.getRecordPositions name filters) := by
  cases h with
  | @mk config m m' h =>
    simp only [MapIndex.getRecordPositions, ne_eq, not_true_eq_false, if_false]
    split
    · exact .error _
    · have hr := mapFilters_rel config name h filters
      revert hr
      generalize mapFilters ⟨config, name, m⟩ filters = z, mapFilters ⟨config, name, m'⟩ filters = z'
      intro hr
      cases hr with
      | error e => exact .error e
      | ok hr =>
        cases hr with
        | none => exact .ok .nil
        | some hr => exact .ok (joinIters_rel ho hr)

end Rodb
