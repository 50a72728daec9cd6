import Verif.Spec.AnyOrder
import Verif.Proofs.SameFilter
/-
  The join of position iterators on lists in any order: what it hands out is in all the lists.
-/
namespace Rodb
open Spec

theorem joinCheck_any (t : Int) (o : Others) :
    (∃ o' : Others, joinCheck t o.enc = (.found, o'.enc) ∧ InAll o.lists t ∧ ∀ x, InAll (o'.map (·.2)) x → InAll o.lists x) ∨
    (∃ o' : Others, joinCheck t o.enc = (.notFound, o'.enc) ∧ ∀ x, InAll o'.lists x → InAll o.lists x) ∨
    (∃ o' : Others, joinCheck t o.enc = (.ended, o'.enc) ∧ [] ∈ o'.map (·.2)) := by
  induction o with
  | nil => exact .inl ⟨[], rfl, by simp [InAll, Others.lists], by simp [InAll, Others.lists]⟩
  | cons x o ih =>
    obtain ⟨cur, l⟩ := x
    have he : Others.enc ((cur, l) :: o) = (cur, iterateList l) :: Others.enc o := rfl
    have hl : Others.lists ((cur, l) :: o) = (cur :: l) :: Others.lists o := rfl
    rw [he, hl]
    simp only [joinCheck, inAll_cons]
    rcases joinAdvance_spec t cur l with ⟨h1, _⟩ | ⟨cur', l', h1, _, h3⟩
    · refine .inr (.inr ⟨(cur, []) :: o, ?_, by simp⟩)
      simp only [h1]
      rfl
    · simp only [h1]
      by_cases hc : cur' = t
      · subst hc
        simp only [ne_eq, not_true_eq_false, if_false]
        rcases ih with ⟨o', e1, e2, e3⟩ | ⟨o', e1, e2⟩ | ⟨o', e1, e2⟩
        · refine .inl ⟨(cur', l') :: o', by rw [e1]; rfl, ⟨h3.sub (.head _), e2⟩, ?_⟩
          intro x hx
          rw [List.map_cons, inAll_cons] at hx
          exact ⟨h3.sub (.tail _ hx.1), e3 x hx.2⟩
        · refine .inr (.inl ⟨(cur', l') :: o', by rw [e1]; rfl, ?_⟩)
          intro x hx
          have hx' : InAll ((cur' :: l') :: Others.lists o') x := hx
          rw [inAll_cons] at hx'
          exact ⟨h3.sub hx'.1, e2 x hx'.2⟩
        · exact .inr (.inr ⟨(cur', l') :: o', by rw [e1]; rfl, by rw [List.map_cons]; exact .tail _ e2⟩)
      · rw [if_pos hc]
        refine .inr (.inl ⟨(cur', l') :: o, rfl, ?_⟩)
        intro x hx
        have hx' : InAll ((cur' :: l') :: Others.lists o) x := hx
        rw [inAll_cons] at hx'
        exact ⟨h3.sub hx'.1, hx'.2⟩

theorem joinMain_any : ∀ (l : List Int) (o : Others),
    (∃ p l' ls', joinMain (iterateList l) o.enc = (.ok (some p), encAll (l' :: ls')) ∧ (p :: l') <:+ l ∧ InAll o.lists p ∧ ∀ x, InAll ls' x → InAll o.lists x) ∨
    (∃ ls', joinMain (iterateList l) o.enc = (.ok none, encAll ls') ∧ [] ∈ ls') := by
  intro l
  induction l with
  | nil =>
    intro o
    refine .inr ⟨[] :: o.map (·.2), ?_, by simp⟩
    have h : joinMain (iterateList []) o.enc = (.ok none, [] :: o.enc.map (·.2)) := rfl
    rw [h, Others.enc_snd]
    rfl
  | cons p l ih =>
    intro o
    have he : joinMain (iterateList (p :: l)) o.enc = match joinCheck p o.enc with
      | (.found, others') => (.ok (some p), iterateList l :: others'.map (·.2))
      | (.ended, others') => (.ok none, iterateList l :: others'.map (·.2))
      | (.failed e, others') => (.error e, iterateList l :: others'.map (·.2))
      | (.notFound, others') => joinMain (iterateList l) others' := rfl
    rw [he]
    rcases joinCheck_any p o with ⟨o', e1, e2, e3⟩ | ⟨o', e1, e2⟩ | ⟨o', e1, e2⟩
    · exact .inl ⟨p, l, o'.map (·.2), by rw [e1]; simp only [Others.enc_snd]; rfl, List.suffix_refl _, e2, e3⟩
    · rw [e1]
      rcases ih o' with ⟨q, l', ls', h1, h2, h3, h4⟩ | h
      · exact .inl ⟨q, l', ls', h1, h2.trans (List.suffix_cons _ _), e2 _ h3, fun x hx => e2 x (h4 x hx)⟩
      · exact .inr h
    · exact .inr ⟨l :: o'.map (·.2), by rw [e1]; simp only [Others.enc_snd]; rfl, .tail _ e2⟩

theorem joinPrime_any (ls : List (List Int)) :
    (∃ o : Others, o.lists = ls ∧ ∃ ps rest, joinPrime (encAll ls) = (.ok (some ps), rest) ∧ ps.zip rest = o.enc) ∨
    (∃ ls', joinPrime (encAll ls) = (.ok none, encAll ls') ∧ [] ∈ ls') := by
  induction ls with
  | nil => exact .inl ⟨[], rfl, [], [], rfl, rfl⟩
  | cons l ls ih =>
    cases l with
    | nil => exact .inr ⟨[] :: ls, by simp [encAll, joinPrime, PIter.call, iterateList], by simp⟩
    | cons p l =>
      rcases ih with ⟨o, rfl, ps, rest, h1, h2⟩ | ⟨ls', h1, h2⟩
      · refine .inl ⟨(p, l) :: o, rfl, p :: ps, iterateList l :: rest, ?_, by simp [h2, Others.enc]⟩
        have h1' : joinPrime (List.map iterateList o.lists) = (Except.ok (some ps), rest) := h1
        simp [encAll, joinPrime, PIter.call, iterateList] at h1' ⊢
        rw [h1']
      · refine .inr ⟨l :: ls', ?_, .tail _ h2⟩
        have h1' : joinPrime (List.map iterateList ls) = (Except.ok none, encAll ls') := h1
        simp [encAll, joinPrime, PIter.call, iterateList] at h1' ⊢
        rw [h1']

/-- One call of the join, on lists in any order. -/
theorem joinCall_any (ls : List (List Int)) (hne : ls ≠ []) :
    (∃ p l' ls', joinCall (encAll ls) = (.ok (some p), encAll (l' :: ls')) ∧ (p :: l') <:+ ls.headD [] ∧ InAll ls p ∧ ∀ x, InAll (l' :: ls') x → InAll ls x) ∨
    (∃ ls', joinCall (encAll ls) = (.ok none, encAll ls') ∧ [] ∈ ls') := by
  match ls, hne with
  | [[]], _ => exact .inr ⟨[[]], rfl, by simp⟩
  | [p :: l], _ =>
    refine .inl ⟨p, l, [], rfl, List.suffix_refl _, by simp [InAll], ?_⟩
    intro x hx
    rw [inAll_cons] at hx ⊢
    exact ⟨.tail _ hx.1, hx.2⟩
  | l :: m :: ms, _ =>
    have he : joinCall (encAll (l :: m :: ms)) = match joinPrime (encAll (m :: ms)) with
      | (.error e, rest') => (.error e, iterateList l :: rest')
      | (.ok none, rest') => (.ok none, iterateList l :: rest')
      | (.ok (some ps), rest') => joinMain (iterateList l) (ps.zip rest') := rfl
    rw [he]
    rcases joinPrime_any (m :: ms) with ⟨o, ho, ps, rest, h1, h2⟩ | ⟨ls', h1, h2⟩
    · rw [h1]
      simp only [h2]
      rcases joinMain_any l o with ⟨p, l', ls', g1, g2, g3, g4⟩ | h
      · rw [ho] at g3 g4
        refine .inl ⟨p, l', ls', g1, g2, inAll_cons.mpr ⟨g2.subset (.head _), g3⟩, ?_⟩
        intro x hx
        rw [inAll_cons] at hx ⊢
        exact ⟨g2.subset (.tail _ hx.1), g4 x hx.2⟩
      · exact .inr h
    · exact .inr ⟨l :: ls', by rw [h1]; rfl, .tail _ h2⟩

/-- The joined iterator in this state will hand out exactly these positions, in this order, and then nothing any more. -/
inductive Drains : List PIter → List Int → Prop
  | last {st : List PIter} {ls : List (List Int)} (h : joinCall st = (.ok none, encAll ls)) (hls : [] ∈ ls) : Drains st []
  | more {st st' : List PIter} {p : Int} {ps : List Int} (h : joinCall st = (.ok (some p), st')) (hps : Drains st' ps) : Drains st (p :: ps)

theorem drains_done {ls : List (List Int)} (h : [] ∈ ls) : Drains (encAll ls) [] := by
  rcases joinCall_any ls (by intro e; subst e; cases h) with ⟨p, l', ls', _, _, h3, _⟩ | ⟨ls', h1, h2⟩
  · exact absurd (h3 [] h) (by simp)
  · exact .last h1 h2

theorem Drains.nil {st : List PIter} (h : Drains st []) : ∃ st', joinCall st = (.ok none, st') ∧ Drains st' [] := by
  cases h with
  | last h hls => exact ⟨_, h, drains_done hls⟩

theorem Drains.cons {st : List PIter} {p : Int} {ps : List Int} (h : Drains st (p :: ps)) : ∃ st', joinCall st = (.ok (some p), st') ∧ Drains st' ps := by
  cases h with
  | more h hps => exact ⟨_, h, hps⟩

theorem skipRows_drains : ∀ (n : Nat) (st : List PIter) (ps : List Int), Drains st ps → ∃ st', skipRows n st = .ok st' ∧ Drains st' (ps.drop n) := by
  intro n
  induction n with
  | zero => intro st ps h; exact ⟨st, rfl, h⟩
  | succ n ih =>
    intro st ps h
    cases ps with
    | nil =>
      obtain ⟨st', h1, h2⟩ := h.nil
      exact ⟨st', by simp [skipRows, h1], by simpa using h2⟩
    | cons p ps =>
      obtain ⟨st', h1, h2⟩ := h.cons
      obtain ⟨st'', h3, h4⟩ := ih st' ps h2
      exact ⟨st'', by simp [skipRows, h1, h3], by simpa using h4⟩

theorem readRows_drains (getData : Nat → Int → Res (GoMap Value)) : ∀ (n i : Nat) (st : List PIter) (ps : List Int), Drains st ps →
    readRows getData n i st = rowsOf getData i (ps.take n) := by
  intro n
  induction n with
  | zero => intro i st ps _; simp [readRows, rowsOf]
  | succ n ih =>
    intro i st ps h
    cases ps with
    | nil =>
      obtain ⟨st', h1, _⟩ := h.nil
      simp [readRows, h1, rowsOf]
    | cons p ps =>
      obtain ⟨st', h1, h2⟩ := h.cons
      simp only [readRows, h1, List.take_succ_cons, rowsOf]
      cases getData i p with
      | error e => rfl
      | ok d =>
        simp only [ih (i + 1) st' ps h2]
        cases rowsOf getData (i + 1) (List.take n ps) <;> rfl

/-- Whatever the order of the lists, the join hands out elements of the first list that are in all the others, in the order of the first list. -/
theorem drains_any : ∀ (n : Nat) (ls : List (List Int)), ls ≠ [] → (ls.headD []).length ≤ n →
    ∃ ps, Drains (encAll ls) ps ∧ ps.Sublist (ls.headD []) ∧ ∀ p ∈ ps, InAll ls p := by
  intro n
  induction n with
  | zero =>
    intro ls hne hn
    cases ls with
    | nil => exact absurd rfl hne
    | cons l ls =>
      cases l with
      | nil => exact ⟨[], drains_done (.head _), List.Sublist.slnil, by simp⟩
      | cons p l => simp at hn
  | succ n ih =>
    intro ls hne hn
    rcases joinCall_any ls hne with ⟨p, l', ls', h1, h2, h3, h4⟩ | ⟨ls', h1, h2⟩
    · have hlen : (p :: l').length ≤ (ls.headD []).length := h2.sublist.length_le
      obtain ⟨ps, g1, g2, g3⟩ := ih (l' :: ls') (by simp) (by simp only [List.headD_cons]; simp only [List.length_cons] at hlen; omega)
      refine ⟨p :: ps, .more h1 g1, (List.Sublist.cons_cons p g2).trans h2.sublist, ?_⟩
      intro q hq
      rcases List.mem_cons.mp hq with rfl | hq
      · exact h3
      · exact h4 q (g3 q hq)
    · exact ⟨[], .last h1 h2, List.nil_sublist _, by simp⟩

/-- One list is handed out as it is. -/
theorem drains_one : ∀ l : List Int, Drains [iterateList l] l := by
  intro l
  induction l with
  | nil => exact .last (ls := [[]]) rfl (by simp)
  | cons p l ih => exact .more (st' := [iterateList l]) rfl ih

/-- Pointwise permutations. -/
def PermEach : List (List Int) → List (List Int) → Prop
  | [], [] => True
  | l :: ls, m :: ms => l.Perm m ∧ PermEach ls ms
  | _, _ => False

theorem PermEach.inAll : ∀ {ls ms : List (List Int)}, PermEach ls ms → ∀ {x}, InAll ls x → InAll ms x := by
  intro ls
  induction ls with
  | nil =>
    intro ms h x _
    cases ms with
    | nil => simp [InAll]
    | cons => exact h.elim
  | cons l ls ih =>
    intro ms h x hx
    cases ms with
    | nil => exact h.elim
    | cons m ms =>
      rw [inAll_cons] at hx ⊢
      exact ⟨h.1.mem_iff.mp hx.1, ih h.2 hx.2⟩

theorem perm_of_map {α β : Type} (f : α → β) {a b : List β} (h : a.Perm b) : ∀ l : List α, a = l.map f → ∃ l', b = l'.map f ∧ l.Perm l' := by
  induction h with
  | nil =>
    intro l e
    cases l with
    | nil => exact ⟨[], rfl, .nil⟩
    | cons => simp at e
  | cons x _ ih =>
    intro l e
    cases l with
    | nil => simp at e
    | cons y l =>
      rw [List.map_cons] at e
      injection e with e1 e2
      obtain ⟨l', h1, h2⟩ := ih l e2
      exact ⟨y :: l', by rw [List.map_cons, ← e1, ← h1], h2.cons y⟩
  | swap x y rest =>
    intro l e
    match l, e with
    | a :: b :: l, e =>
      simp only [List.map_cons, List.cons.injEq] at e
      obtain ⟨e1, e2, e3⟩ := e
      exact ⟨b :: a :: l, by simp [e1, e2, e3], .swap _ _ _⟩
  | trans _ _ ih1 ih2 =>
    intro l e
    obtain ⟨l1, h1, h2⟩ := ih1 l e
    obtain ⟨l2, h3, h4⟩ := ih2 l1 h1
    exact ⟨l2, h3, h2.trans h4⟩

theorem records_of_positions {records : List Rec} : ∀ (ps : List Int), (∀ p ∈ ps, ∃ r ∈ records, r.position = p) →
    ∃ found : List Rec, found.map Rec.position = ps ∧ ∀ r ∈ found, r ∈ records := by
  intro ps
  induction ps with
  | nil => intro _; exact ⟨[], rfl, by simp⟩
  | cons p ps ih =>
    intro h
    obtain ⟨r, h1, h2⟩ := h p (.head _)
    obtain ⟨found, h3, h4⟩ := ih (fun q hq => h q (.tail _ hq))
    refine ⟨r :: found, by simp [h2, h3], ?_⟩
    intro s hs
    rcases List.mem_cons.mp hs with rfl | hs
    · exact h1
    · exact h4 s hs

section
variable {env : OutputEnv} {input : Input} {records : List Rec} {sat : String → String → Value → Rec → Bool} {acceptable : String → String → Value → Prop}

theorem filteredLoop_any (hdata : AnyOrderData env input records sat acceptable) (path : List Nat) :
    ∀ (filters : GoMap (GoMap Value)) (i : Nat), (∀ f ∈ filters, (f.2.map (·.1)).Nodup ∧ f.2 ≠ []) →
    (∀ c ∈ flatFilters filters, (∃ index, mapGet env.indexes c.index = some index) ∧ acceptable c.index c.property c.value) →
    ∃ ls, filteredPositionsLoop env path input i filters = .ok (encAll ls) ∧
      PermEach ls (filters.map (fun f => positionsOf records (fun r => f.2.all (fun pv => sat f.1 pv.1 pv.2 r)))) := by
  intro filters
  induction filters with
  | nil => intro i _ _; exact ⟨[], rfl, trivial⟩
  | cons f filters ih =>
    obtain ⟨name, fs⟩ := f
    intro i hin hc
    have hf := hin (name, fs) List.mem_cons_self
    have hmem : ∀ pv ∈ fs, ({ index := name, property := pv.1, value := pv.2 } : Condition) ∈ flatFilters ((name, fs) :: filters) := by
      intro pv hpv
      exact List.mem_flatMap.mpr ⟨(name, fs), List.mem_cons_self, List.mem_map.mpr ⟨pv, hpv, rfl⟩⟩
    obtain ⟨index, hindex⟩ : ∃ index, mapGet env.indexes name = some index := by
      cases fs with
      | nil => exact absurd rfl hf.2
      | cons pv _ => exact (hc _ (hmem pv List.mem_cons_self)).1
    have hv := hdata.visit (2 :: i :: path) _ fs
    obtain ⟨positions, hp, hq⟩ := hdata.serves name index hindex (env.visit (2 :: i :: path) fs)
      (by intro e; rw [e] at hv; exact hf.2 hv.symm.eq_nil)
      ((hv.map _).nodup_iff.mpr hf.1)
      (fun pv hpv => (hc _ (hmem pv (hv.mem_iff.mp hpv))).2)
    obtain ⟨ls, hrest, hls⟩ := ih (i + 1) (fun f hf => hin f (List.mem_cons_of_mem _ hf)) (fun c hcm => hc c (by
      simp only [flatFilters, List.flatMap_cons, List.mem_append] at hcm ⊢
      exact .inr hcm))
    refine ⟨positions :: ls, ?_, ?_, hls⟩
    · simp only [filteredPositionsLoop, hindex, hq, hrest]
      rfl
    · have : (fun r => (env.visit (2 :: i :: path) fs).all (fun f => sat name f.1 f.2 r)) = fun r => fs.all (fun pv => sat name pv.1 pv.2 r) := by
        funext r
        exact all_perm hv _
      rw [this] at hp
      exact hp

theorem positionsOf_nodup (h : (records.map Rec.position).Pairwise (· < ·)) (cond : Rec → Bool) : (positionsOf records cond).Nodup :=
  (positionsOf_increasing h cond).imp (fun h => by omega)

/-- What the joined iterator hands out for the filters. -/
theorem filteredPositions_any (hdata : AnyOrderData env input records sat acceptable) (path : List Nat) {filters : GoMap (GoMap Value)} (hok : FiltersOk filters)
    (hindex : ∀ c ∈ flatFilters filters, ∃ index, mapGet env.indexes c.index = some index) (hacc : ∀ c ∈ flatFilters filters, acceptable c.index c.property c.value) :
    ∃ its found, filteredPositions env path input filters = .ok its ∧ Drains its (found.map Rec.position) ∧ Found records sat (flatFilters filters) found := by
  unfold filteredPositions
  cases hfil : filters with
  | nil =>
    simp only [List.length_nil, if_true, hdata.everything]
    refine ⟨_, records, rfl, drains_one _, ?_, ?_, fun _ r hr _ => hr⟩
    · intro r hr
      exact ⟨hr, by simp [flatFilters]⟩
    · exact hdata.increasing.imp (fun h => by omega)
  | cons f0 fs0 =>
    rw [← hfil]
    have hlen : ¬ filters.length = 0 := by rw [hfil]; simp
    rw [if_neg hlen]
    have hv := hdata.visit (1 :: path) _ filters
    have hflat : (flatFilters (env.visit (1 :: path) filters)).Perm (flatFilters filters) := hv.flatMap_right _
    obtain ⟨ls, h1, h2⟩ := filteredLoop_any hdata path (env.visit (1 :: path) filters) 0 (fun f hf => hok.inner f (hv.mem_iff.mp hf))
      (fun c hc => ⟨hindex c (hflat.mem_iff.mp hc), hacc c (hflat.mem_iff.mp hc)⟩)
    have hne : env.visit (1 :: path) filters ≠ [] := by
      intro e
      rw [e] at hv
      rw [hv.symm.eq_nil] at hfil
      cases hfil
    let conds : List (Rec → Bool) := (env.visit (1 :: path) filters).map (fun f r => f.2.all (fun pv => sat f.1 pv.1 pv.2 r))
    have hconds : (env.visit (1 :: path) filters).map (fun f => positionsOf records (fun r => f.2.all (fun pv => sat f.1 pv.1 pv.2 r))) = conds.map (positionsOf records) := by
      simp [conds, List.map_map, Function.comp_def]
    have hsat : ∀ r, conds.all (fun c => c r) = true ↔ ∀ c ∈ flatFilters filters, sat c.index c.property c.value r = true := by
      intro r
      rw [← List.all_eq_true, flat_all]
      simp only [conds, List.all_map, Function.comp_def]
      rw [all_perm hv]
    rw [hconds] at h2
    have hlne : ls ≠ [] := by
      intro e
      subst e
      match hc : conds, h2 with
      | [], _ =>
        simp only [conds, List.map_eq_nil_iff] at hc
        exact hne hc
    have hin : ∀ x, InAll ls x → ∃ r ∈ records, (∀ c ∈ flatFilters filters, sat c.index c.property c.value r = true) ∧ r.position = x := by
      intro x hx
      have := (positionsOf_all hdata.increasing (by simpa [conds] using hne) x).mp (h2.inAll hx)
      obtain ⟨r, g1, g2, g3⟩ := mem_positionsOf.mp this
      exact ⟨r, g1, (hsat r).mp g2, g3⟩
    by_cases hone : OneIndex (flatFilters filters)
    · -- a single group of filters
      obtain ⟨l, c0, hl, hc0, hperm⟩ : ∃ l c0, ls = [l] ∧ conds = [c0] ∧ l.Perm (positionsOf records c0) := by
        have hlen1 : filters.length = 1 := by
          cases fs0 with
          | nil => rw [hfil]; rfl
          | cons f1 fs1 =>
            exfalso
            subst hfil
            have a0 := hok.inner f0 (.head _)
            have a1 := hok.inner f1 (.tail _ (.head _))
            obtain ⟨pv0, q0, e0⟩ := List.exists_cons_of_ne_nil a0.2
            obtain ⟨pv1, q1, e1⟩ := List.exists_cons_of_ne_nil a1.2
            have b0 : ({ index := f0.1, property := pv0.1, value := pv0.2 } : Condition) ∈ flatFilters (f0 :: f1 :: fs1) :=
              List.mem_flatMap.mpr ⟨f0, .head _, List.mem_map.mpr ⟨pv0, by rw [e0]; exact .head _, rfl⟩⟩
            have b1 : ({ index := f1.1, property := pv1.1, value := pv1.2 } : Condition) ∈ flatFilters (f0 :: f1 :: fs1) :=
              List.mem_flatMap.mpr ⟨f1, .tail _ (.head _), List.mem_map.mpr ⟨pv1, by rw [e1]; exact .head _, rfl⟩⟩
            have : f0.1 = f1.1 := hone _ b0 _ b1
            have ho := hok.outer
            simp only [List.map_cons, List.nodup_cons, List.mem_cons, not_or] at ho
            exact ho.1.1 this
        have hlen2 : conds.length = 1 := by simp only [conds, List.length_map, hv.length_eq, hlen1]
        match hcc : conds, hlen2, ls, h2 with
        | [c0], _, [l], h2 => exact ⟨l, c0, rfl, rfl, h2.1⟩
      subst hl
      obtain ⟨found, g1, g2⟩ := perm_of_map Rec.position hperm.symm (records.filter c0) rfl
      have hmem : ∀ r, r ∈ found ↔ r ∈ records ∧ ∀ c ∈ flatFilters filters, sat c.index c.property c.value r = true := by
        intro r
        rw [← g2.mem_iff, List.mem_filter, ← hsat r, hc0]
        simp
      refine ⟨_, found, h1, ?_, fun r hr => (hmem r).mp hr, ?_, fun _ r hr hs => (hmem r).mpr ⟨hr, hs⟩⟩
      · rw [← g1]; exact drains_one l
      · rw [← g1]; exact hperm.nodup_iff.mpr (positionsOf_nodup hdata.increasing _)
    · obtain ⟨ps, g1, g2, g3⟩ := drains_any _ ls hlne (Nat.le_refl _)
      obtain ⟨found, k1, k2⟩ := records_of_positions (records := records.filter (fun r => conds.all (fun c => c r))) ps (fun p hp => by
        obtain ⟨r, r1, r2, r3⟩ := hin p (g3 p hp)
        exact ⟨r, List.mem_filter.mpr ⟨r1, (hsat r).mpr r2⟩, r3⟩)
      refine ⟨_, found, h1, by rw [k1]; exact g1, ?_, ?_, fun h => absurd h hone⟩
      · intro r hr
        obtain ⟨a, b⟩ := List.mem_filter.mp (k2 r hr)
        exact ⟨a, (hsat r).mp b⟩
      · rw [k1]
        refine List.Nodup.sublist g2 ?_
        match ls, hlne, hcc : conds, h2 with
        | l :: _, _, c0 :: _, h2 => exact h2.1.nodup_iff.mpr (positionsOf_nodup hdata.increasing _)

theorem dataFromPosition_shows_any (hdata : AnyOrderData env input records sat acceptable) {name : String} (hin : mapGet env.inputs name = some input)
    (path : List Nat) (relationships : List (String × Relationship)) {r : Rec} (hr : r ∈ records) :
    ShowsRecord env relationships r (dataFromPosition env path name relationships r.position) := by
  simp only [dataFromPosition, hin, hdata.fetch r hr]
  cases h : r.all with
  | error e => exact .inl ⟨e, h, rfl⟩
  | ok data => exact .inr ⟨data, path, h, rfl⟩

theorem rows_list_any (hdata : AnyOrderData env input records sat acceptable) {name : String} (hin : mapGet env.inputs name = some input)
    (relationships : List (String × Relationship)) {window : List Rec} (hw : ∀ r ∈ window, r ∈ records) :
    ListsRecords env relationships window
      (match rowsOf (fun i p => dataFromPosition env [4, i] name relationships p) 0 (window.map Rec.position) with
        | .error e => .error e
        | .ok rows => .data (.arr rows)) := by
  rcases rowsOf_cases (fun i p => dataFromPosition env [4, i] name relationships p) (window.map Rec.position) 0 with
    ⟨rows, h1, h2, h3⟩ | ⟨e, k, hk, h1, h2⟩
  · refine .inl ⟨rows, by rw [h1], by simpa using h2, ?_⟩
    intro k h h'
    have := h3 k (by simpa using h) h'
    rw [← this, List.getElem_map]
    exact dataFromPosition_shows_any hdata hin _ _ (hw _ (List.getElem_mem _))
  · have hk' : k < window.length := by simpa using hk
    refine .inr ⟨e, window[k], List.getElem_mem _, by rw [h1], ?_⟩
    rw [← h2, List.getElem_map]
    exact dataFromPosition_shows_any hdata hin _ _ (hw _ (List.getElem_mem _))

end

end Rodb
