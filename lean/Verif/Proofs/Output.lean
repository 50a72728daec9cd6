import Verif.Spec.Output
import Verif.Proofs.Conj
import Verif.Proofs.Text
/-
  Lemmas about the outputs.
-/
namespace Rodb
open Spec

/-! ### The joined iterator as a state -/

/-- The joined iterator in this state will hand out exactly these positions. -/
def Gives (st : List PIter) (ps : List Int) : Prop :=
  ∃ ls : List (List Int), ls ≠ [] ∧ st = encAll ls ∧ (∀ l ∈ ls, Increasing l) ∧ Increasing ps ∧ ∀ x, InAll ls x ↔ x ∈ ps

theorem Gives.nil {st : List PIter} (h : Gives st []) : ∃ st', joinCall st = (.ok none, st') ∧ Gives st' [] := by
  obtain ⟨ls, hne, rfl, hs, _, hx⟩ := h
  rcases joinCall_spec ls hne hs with ⟨p, ls', _, _, _, h4, _⟩ | ⟨ls', h1, h2, h3, h4, h5⟩
  · exact absurd ((hx p).mp h4) (by simp)
  · refine ⟨_, h1, ls', ?_, rfl, h3, List.Pairwise.nil, ?_⟩
    · intro e; subst e; exact hne (List.length_eq_zero_iff.mp h2.symm)
    · intro x; exact ⟨fun h => absurd (h5 x h) (h4 x), by simp⟩

theorem Gives.cons {st : List PIter} {p : Int} {ps : List Int} (h : Gives st (p :: ps)) :
    ∃ st', joinCall st = (.ok (some p), st') ∧ Gives st' ps := by
  obtain ⟨ls, hne, rfl, hs, hinc, hx⟩ := h
  have hinc' := List.pairwise_cons.mp hinc
  rcases joinCall_spec ls hne hs with ⟨q, ls', h1, h2, h3, h4, h5, h6, _⟩ | ⟨ls', _, _, _, h4, _⟩
  · have hq : q = p := by
      have a := h5 p ((hx p).mpr List.mem_cons_self)
      rcases List.mem_cons.mp ((hx q).mp h4) with e | e
      · exact e
      · have := hinc'.1 q e; omega
    subst hq
    refine ⟨_, h1, ls', ?_, rfl, h3, hinc'.2, ?_⟩
    · intro e; subst e; exact hne (List.length_eq_zero_iff.mp h2.symm)
    · intro x
      rw [h6, hx]
      constructor
      · rintro ⟨h, h'⟩
        rcases List.mem_cons.mp h with e | e
        · omega
        · exact e
      · intro h; exact ⟨List.mem_cons_of_mem _ h, hinc'.1 x h⟩
  · exact absurd ((hx p).mpr List.mem_cons_self) (h4 p)

theorem skipRows_gives : ∀ (n : Nat) (st : List PIter) (ps : List Int), Gives st ps → ∃ st', skipRows n st = .ok st' ∧ Gives st' (ps.drop n) := by
  intro n
  induction n with
  | zero => intro st ps h; exact ⟨st, rfl, h⟩
  | succ n ih =>
    intro st ps h
    cases ps with
    | nil =>
      obtain ⟨st', h1, h2⟩ := h.nil
      exact ⟨st', by simp [skipRows, h1], by simpa using h2⟩
    | cons p ps =>
      obtain ⟨st', h1, h2⟩ := h.cons
      obtain ⟨st'', h3, h4⟩ := ih st' ps h2
      exact ⟨st'', by simp [skipRows, h1, h3], by simpa using h4⟩

/-- The rows for the positions, numbered from `i`: the data of each, or the first error. -/
def rowsOf (getData : Nat → Int → Res (GoMap Value)) : Nat → List Int → Res (List Value)
  | _, [] => .ok []
  | i, p :: ps =>
    match getData i p with
    | .error e => .error e
    | .ok d =>
      match rowsOf getData (i + 1) ps with
      | .error e => .error e
      | .ok rows => .ok (.obj d :: rows)

theorem readRows_gives (getData : Nat → Int → Res (GoMap Value)) : ∀ (n i : Nat) (st : List PIter) (ps : List Int), Gives st ps →
    readRows getData n i st = rowsOf getData i (ps.take n) := by
  intro n
  induction n with
  | zero => intro i st ps _; simp [readRows, rowsOf]
  | succ n ih =>
    intro i st ps h
    cases ps with
    | nil =>
      obtain ⟨st', h1, _⟩ := h.nil
      simp [readRows, h1, rowsOf]
    | cons p ps =>
      obtain ⟨st', h1, h2⟩ := h.cons
      simp only [readRows, h1, List.take_succ_cons, rowsOf]
      cases getData i p with
      | error e => rfl
      | ok d =>
        simp only [ih (i + 1) st' ps h2]
        cases rowsOf getData (i + 1) (List.take n ps) <;> rfl

theorem rowsOf_cases (getData : Nat → Int → Res (GoMap Value)) : ∀ (ps : List Int) (i : Nat),
    (∃ rows : List (GoMap Value), rowsOf getData i ps = .ok (rows.map .obj) ∧ rows.length = ps.length ∧
      ∀ k (h : k < ps.length) (h' : k < rows.length), getData (i + k) ps[k] = .ok rows[k]) ∨
    (∃ e k, ∃ h : k < ps.length, rowsOf getData i ps = .error e ∧ getData (i + k) ps[k] = .error e) := by
  intro ps
  induction ps with
  | nil => intro i; exact .inl ⟨[], rfl, rfl, by simp⟩
  | cons p ps ih =>
    intro i
    cases hd : getData i p with
    | error e => exact .inr ⟨e, 0, by simp, by simp [rowsOf, hd], by simpa using hd⟩
    | ok d =>
      rcases ih (i + 1) with ⟨rows, h1, h2, h3⟩ | ⟨e, k, hk, h1, h2⟩
      · refine .inl ⟨d :: rows, by simp [rowsOf, hd, h1], by simp [h2], ?_⟩
        intro k hk hk'
        cases k with
        | zero => simpa using hd
        | succ k =>
          have := h3 k (by simpa using hk) (by simpa using hk')
          simpa [Nat.add_assoc, Nat.add_comm 1 k] using this
      · refine .inr ⟨e, k + 1, by simpa using hk, by simp [rowsOf, hd, h1], ?_⟩
        simpa [Nat.add_assoc, Nat.add_comm 1 k] using h2

/-! ### Filters -/

/-- All the filters, as conditions. -/
def flatFilters (filters : GoMap (GoMap Value)) : List Condition :=
  filters.flatMap (fun f => f.2.map (fun pv => { index := f.1, property := pv.1, value := pv.2 }))

/-- The shape of the filters collected from conditions on different properties. -/
structure FiltersOk (filters : GoMap (GoMap Value)) : Prop where
  outer : (filters.map (·.1)).Nodup
  inner : ∀ f ∈ filters, (f.2.map (·.1)).Nodup ∧ f.2 ≠ []

theorem mapSet_absent {α : Type} {m : GoMap α} {k : String} (v : α) (h : k ∉ m.map (·.1)) : mapSet m k v = m ++ [(k, v)] := by
  induction m with
  | nil => rfl
  | cons x m ih =>
    obtain ⟨a, b⟩ := x
    simp only [List.map_cons, List.mem_cons, not_or] at h
    simp only [mapSet, if_neg (fun e => h.1 (Eq.symm e)), ih h.2, List.cons_append]

theorem mapSet_split {α : Type} : ∀ {m : GoMap α} {k : String} {old : α}, mapGet m k = some old →
    ∃ a b, m = a ++ (k, old) :: b ∧ ∀ v, mapSet m k v = a ++ (k, v) :: b := by
  intro m
  induction m with
  | nil => intro k old h; cases h
  | cons x m ih =>
    obtain ⟨a, b⟩ := x
    intro k old h
    by_cases e : a = k
    · subst e
      simp only [mapGet, if_true, Option.some.injEq] at h
      subst h
      exact ⟨[], m, rfl, fun v => by simp [mapSet]⟩
    · simp only [mapGet, if_neg e] at h
      obtain ⟨p, q, h1, h2⟩ := ih h
      exact ⟨(a, b) :: p, q, by simp [h1], fun v => by simp [mapSet, if_neg e, h2]⟩

theorem mapGet_none_keys {α : Type} : ∀ {m : GoMap α} {k : String}, mapGet m k = none → k ∉ m.map (·.1) := by
  intro m
  induction m with
  | nil => intro k _; simp
  | cons x m ih =>
    obtain ⟨a, b⟩ := x
    intro k h
    simp only [mapGet] at h
    split at h
    · cases h
    · rename_i e
      simp only [List.map_cons, List.mem_cons, not_or]
      exact ⟨fun e' => e e'.symm, ih h⟩

theorem addFilter_spec {filters : GoMap (GoMap Value)} (hok : FiltersOk filters) (c : Condition)
    (hnew : (c.index, c.property) ∉ (flatFilters filters).map (fun c => (c.index, c.property))) :
    FiltersOk (addFilter filters c.index c.property c.value) ∧
    (flatFilters (addFilter filters c.index c.property c.value)).Perm (c :: flatFilters filters) := by
  unfold addFilter
  cases hg : mapGet filters c.index with
  | none =>
    have hk := mapGet_none_keys hg
    simp only [mapSet, mapSet_absent _ hk]
    refine ⟨⟨?_, ?_⟩, ?_⟩
    · rw [List.map_append, List.nodup_append]
      refine ⟨hok.outer, by simp, ?_⟩
      intro a ha b hb
      simp only [List.map_cons, List.map_nil, List.mem_singleton] at hb
      subst hb
      intro e; subst e; exact hk ha
    · intro f hf
      rcases List.mem_append.mp hf with h | h
      · exact hok.inner f h
      · rw [List.mem_singleton.mp h]; simp
    · simp only [flatFilters, List.flatMap_append, List.flatMap_cons, List.flatMap_nil, List.append_nil, List.map_cons, List.map_nil]
      exact List.perm_append_singleton _ _
  | some old =>
    obtain ⟨a, b, h1, h2⟩ := mapSet_split hg
    simp only [h2]
    have hmem : (c.index, old) ∈ filters := by rw [h1]; simp
    have hk : c.property ∉ old.map (·.1) := by
      intro hp
      obtain ⟨pv, hpv, e⟩ := List.mem_map.mp hp
      apply hnew
      refine List.mem_map.mpr ⟨{ index := c.index, property := pv.1, value := pv.2 }, ?_, by simp [e]⟩
      exact List.mem_flatMap.mpr ⟨(c.index, old), hmem, List.mem_map.mpr ⟨pv, hpv, rfl⟩⟩
    rw [mapSet_absent _ hk]
    refine ⟨⟨?_, ?_⟩, ?_⟩
    · have := hok.outer
      rw [h1] at this
      simpa using this
    · intro f hf
      rcases List.mem_append.mp hf with h | h
      · exact hok.inner f (by rw [h1]; simp [h])
      · rcases List.mem_cons.mp h with rfl | h
        · refine ⟨?_, by simp⟩
          rw [List.map_append, List.nodup_append]
          refine ⟨(hok.inner _ hmem).1, by simp, ?_⟩
          intro x hx y hy
          simp only [List.map_cons, List.map_nil, List.mem_singleton] at hy
          subst hy
          intro e; subst e; exact hk hx
        · exact hok.inner f (by rw [h1]; simp [h])
    · have h3 : flatFilters filters = flatFilters (a ++ (c.index, old) :: b) := by rw [← h1]
      rw [h3]
      simp only [flatFilters, List.flatMap_append, List.flatMap_cons, List.map_append, List.map_cons, List.map_nil]
      refine List.Perm.trans ?_ List.perm_middle
      apply List.Perm.append_left
      rw [List.append_assoc]
      exact List.perm_middle

/-- The given parameters, once read, are collected as filters, in any order of visit. -/
theorem arrayFilters_spec (env : OutputEnv) (params : GoMap Bytes) : ∀ (parameters : GoMap ParamConfig) (filters : GoMap (GoMap Value))
    (conditions : List Condition), FiltersOk filters → Reads env (givenParameters parameters params) conditions →
    ((conditions ++ flatFilters filters).map (fun c => (c.index, c.property))).Nodup →
    ∃ filters', arrayFilters env params parameters filters = .ok filters' ∧ FiltersOk filters' ∧
      (flatFilters filters').Perm (conditions ++ flatFilters filters) := by
  intro parameters
  induction parameters with
  | nil =>
    intro filters conditions hok hr _
    cases conditions with
    | nil => exact ⟨filters, rfl, hok, List.Perm.refl _⟩
    | cons c cs => simp [givenParameters, Reads] at hr
  | cons x parameters ih =>
    obtain ⟨name, p⟩ := x
    intro filters conditions hok hr hnd
    cases hg : mapGet params name with
    | none =>
      have hgp : givenParameters ((name, p) :: parameters) params = givenParameters parameters params := by
        simp [givenParameters, hg]
      rw [hgp] at hr
      simpa only [arrayFilters, hg] using ih filters conditions hok hr hnd
    | some text =>
      have hgp : givenParameters ((name, p) :: parameters) params = (p, text) :: givenParameters parameters params := by
        simp [givenParameters, hg]
      rw [hgp] at hr
      cases conditions with
      | nil => simp [Reads] at hr
      | cons c cs =>
        obtain ⟨e1, e2, ⟨parse, h1, h2⟩, hr⟩ := hr
        simp only [List.cons_append, List.map_cons, List.nodup_cons, List.map_append, List.mem_append, not_or] at hnd
        obtain ⟨hok', hperm⟩ := addFilter_spec hok c hnd.1.2
        simp only [arrayFilters, hg, h1, h2]
        rw [← e1, ← e2]
        obtain ⟨f', i1, i2, i3⟩ := ih _ cs hok' hr (by
          have hp2 : ((cs ++ flatFilters (addFilter filters c.index c.property c.value)).map (fun c => (c.index, c.property))).Perm
              ((c :: (cs ++ flatFilters filters)).map (fun c => (c.index, c.property))) :=
            List.Perm.map _ ((List.Perm.append_left cs hperm).trans List.perm_middle)
          rw [hp2.nodup_iff]
          simp only [List.map_cons, List.map_append, List.nodup_cons, List.mem_append, not_or]
          exact hnd)
        exact ⟨f', i1, i2, i3.trans ((List.Perm.append_left cs hperm).trans List.perm_middle)⟩

theorem objectFilters_spec (env : OutputEnv) (params : GoMap Bytes) : ∀ (parameters : GoMap ParamConfig) (filters : GoMap (GoMap Value))
    (conditions : List Condition), FiltersOk filters → Reads env (allParameters parameters params) conditions →
    ((conditions ++ flatFilters filters).map (fun c => (c.index, c.property))).Nodup →
    ∃ filters', objectFilters env params parameters filters = .ok filters' ∧ FiltersOk filters' ∧
      (flatFilters filters').Perm (conditions ++ flatFilters filters) := by
  intro parameters
  induction parameters with
  | nil =>
    intro filters conditions hok hr _
    cases conditions with
    | nil => exact ⟨filters, rfl, hok, List.Perm.refl _⟩
    | cons c cs => simp [allParameters, Reads] at hr
  | cons x parameters ih =>
    obtain ⟨name, p⟩ := x
    intro filters conditions hok hr hnd
    have hgp : allParameters ((name, p) :: parameters) params = (p, (mapGet params name).getD []) :: allParameters parameters params := rfl
    rw [hgp] at hr
    cases conditions with
    | nil => simp [Reads] at hr
    | cons c cs =>
      obtain ⟨e1, e2, ⟨parse, h1, h2⟩, hr⟩ := hr
      simp only [List.cons_append, List.map_cons, List.nodup_cons, List.map_append, List.mem_append, not_or] at hnd
      obtain ⟨hok', hperm⟩ := addFilter_spec hok c hnd.1.2
      simp only [objectFilters, h1, h2]
      rw [← e1, ← e2]
      obtain ⟨f', i1, i2, i3⟩ := ih _ cs hok' hr (by
        have hp2 : ((cs ++ flatFilters (addFilter filters c.index c.property c.value)).map (fun c => (c.index, c.property))).Perm
            ((c :: (cs ++ flatFilters filters)).map (fun c => (c.index, c.property))) :=
          List.Perm.map _ ((List.Perm.append_left cs hperm).trans List.perm_middle)
        rw [hp2.nodup_iff]
        simp only [List.map_cons, List.map_append, List.nodup_cons, List.mem_append, not_or]
        exact hnd)
      exact ⟨f', i1, i2, i3.trans ((List.Perm.append_left cs hperm).trans List.perm_middle)⟩

theorem reads_perm {env : OutputEnv} {l l' : List (ParamConfig × Bytes)} (hp : l.Perm l') : ∀ {cs : List Condition}, Reads env l cs →
    ∃ cs', Reads env l' cs' ∧ cs'.Perm cs := by
  induction hp with
  | nil => intro cs h; exact ⟨cs, h, List.Perm.refl _⟩
  | cons x _ ih =>
    intro cs h
    cases cs with
    | nil => simp [Reads] at h
    | cons c cs =>
      obtain ⟨h1, h2, h3, h4⟩ := h
      obtain ⟨cs', i1, i2⟩ := ih h4
      exact ⟨c :: cs', ⟨h1, h2, h3, i1⟩, i2.cons c⟩
  | swap x y l =>
    intro cs h
    match cs, h with
    | [], h => simp [Reads] at h
    | [c], h => simp [Reads] at h
    | c :: d :: cs, h =>
      obtain ⟨h1, h2, h3, h4, h5, h6, h7⟩ := h
      exact ⟨d :: c :: cs, ⟨h4, h5, h6, h1, h2, h3, h7⟩, List.Perm.swap _ _ _⟩
  | trans _ _ ih1 ih2 =>
    intro cs h
    obtain ⟨c1, i1, i2⟩ := ih1 h
    obtain ⟨c2, j1, j2⟩ := ih2 i1
    exact ⟨c2, j1, j2.trans i2⟩

theorem all_perm {α : Type} {l l' : List α} (h : l.Perm l') (f : α → Bool) : l.all f = l'.all f := by
  rw [Bool.eq_iff_iff, List.all_eq_true, List.all_eq_true]
  exact ⟨fun a x hx => a x (h.mem_iff.mpr hx), fun a x hx => a x (h.mem_iff.mp hx)⟩

/-! ### Positions -/

section
variable {env : OutputEnv} {input : Input} {records : List Rec} {sat : String → String → Value → Rec → Bool}
  {acceptable : String → String → Value → Prop}

theorem filteredLoop_spec (hdata : OutputData env input records sat acceptable) (path : List Nat) :
    ∀ (filters : GoMap (GoMap Value)) (i : Nat), (∀ f ∈ filters, (f.2.map (·.1)).Nodup ∧ f.2 ≠ []) →
    (∀ c ∈ flatFilters filters, (∃ index, mapGet env.indexes c.index = some index) ∧ acceptable c.index c.property c.value) →
    filteredPositionsLoop env path input i filters =
      .ok (filters.map (fun f => iterateList (positionsOf records (fun r => f.2.all (fun pv => sat f.1 pv.1 pv.2 r))))) := by
  intro filters
  induction filters with
  | nil => intro i _ _; rfl
  | cons f filters ih =>
    obtain ⟨name, fs⟩ := f
    intro i hin hc
    have hf := hin (name, fs) List.mem_cons_self
    have hmem : ∀ pv ∈ fs, ({ index := name, property := pv.1, value := pv.2 } : Condition) ∈ flatFilters ((name, fs) :: filters) := by
      intro pv hpv
      exact List.mem_flatMap.mpr ⟨(name, fs), List.mem_cons_self, List.mem_map.mpr ⟨pv, hpv, rfl⟩⟩
    obtain ⟨index, hindex⟩ : ∃ index, mapGet env.indexes name = some index := by
      cases fs with
      | nil => exact absurd rfl hf.2
      | cons pv _ => exact (hc _ (hmem pv List.mem_cons_self)).1
    have hv := hdata.visit (2 :: i :: path) _ fs
    have hq := hdata.serves name index hindex (env.visit (2 :: i :: path) fs)
      (by intro e; rw [e] at hv; exact hf.2 hv.symm.eq_nil)
      ((hv.map _).nodup_iff.mpr hf.1)
      (fun pv hpv => (hc _ (hmem pv (hv.mem_iff.mp hpv))).2)
    have hrest := ih (i + 1) (fun f hf => hin f (List.mem_cons_of_mem _ hf)) (fun c hcm => hc c (by
      simp only [flatFilters, List.flatMap_cons, List.mem_append] at hcm ⊢
      exact .inr hcm))
    simp only [filteredPositionsLoop, hindex, hq, hrest, List.map_cons]
    congr 3
    congr 1
    funext r
    exact all_perm hv _

theorem flat_all (filters : GoMap (GoMap Value)) (r : Rec) :
    (flatFilters filters).all (fun c => sat c.index c.property c.value r) =
      filters.all (fun f => f.2.all (fun pv => sat f.1 pv.1 pv.2 r)) := by
  induction filters with
  | nil => rfl
  | cons f filters ih =>
    have : flatFilters (f :: filters) = f.2.map (fun pv => { index := f.1, property := pv.1, value := pv.2 }) ++ flatFilters filters := rfl
    rw [this, List.all_append, ih, List.all_map, List.all_cons]
    rfl

/-- The positions obtained for the filters are those of the matching records. -/
theorem filteredPositions_spec (hdata : OutputData env input records sat acceptable) (path : List Nat)
    {filters : GoMap (GoMap Value)} (hok : FiltersOk filters) {conditions : List Condition} (hperm : (flatFilters filters).Perm conditions)
    (hans : Answerable env acceptable conditions) :
    ∃ its, filteredPositions env path input filters = .ok its ∧ Gives its ((matching records sat conditions).map Rec.position) := by
  unfold filteredPositions
  cases hfil : filters with
  | nil =>
    subst hfil
    have hc : conditions = [] := by
      have : flatFilters ([] : GoMap (GoMap Value)) = [] := rfl
      rw [this] at hperm
      exact hperm.symm.eq_nil
    subst hc
    simp only [List.length_nil, if_true, hdata.everything]
    refine ⟨_, rfl, [records.map Rec.position], by simp, rfl, ?_, ?_, ?_⟩
    · intro l hl; rw [List.mem_singleton.mp hl]; exact hdata.increasing
    · have : records.filter (fun _ => true) = records := List.filter_eq_self.mpr (by simp)
      simp only [matching, List.all_nil, this]
      exact hdata.increasing
    · intro x; simp [InAll, matching]
  | cons f0 fs0 =>
    rw [← hfil]
    have hlen : ¬ filters.length = 0 := by rw [hfil]; simp
    rw [if_neg hlen]
    have hv := hdata.visit (1 :: path) _ filters
    have hflat : (flatFilters (env.visit (1 :: path) filters)).Perm conditions := (hv.flatMap_right _).trans hperm
    have hloop := filteredLoop_spec hdata path (env.visit (1 :: path) filters) 0
      (fun f hf => hok.inner f (hv.mem_iff.mp hf))
      (fun c hc => ⟨hans.index c (hflat.mem_iff.mp hc), hans.acceptable c (hflat.mem_iff.mp hc)⟩)
    refine ⟨_, hloop, ?_⟩
    let conds : List (Rec → Bool) := (env.visit (1 :: path) filters).map (fun f r => f.2.all (fun pv => sat f.1 pv.1 pv.2 r))
    have hcne : conds ≠ [] := by
      intro e
      have : env.visit (1 :: path) filters = [] := by simpa [conds] using e
      rw [this] at hv
      have := hv.symm.eq_nil
      rw [this] at hlen
      exact hlen rfl
    refine ⟨conds.map (positionsOf records), by simpa using hcne, ?_, ?_, ?_, ?_⟩
    · simp [encAll, conds, List.map_map, Function.comp_def]
    · intro l hl
      obtain ⟨c, _, rfl⟩ := List.mem_map.mp hl
      exact positionsOf_increasing hdata.increasing c
    · exact positionsOf_increasing hdata.increasing _
    · intro x
      rw [positionsOf_all hdata.increasing hcne]
      have : (fun r => conds.all (fun c => c r)) = fun r => conditions.all (fun c => sat c.index c.property c.value r) := by
        funext r
        rw [← all_perm hflat, flat_all, List.all_map]
        rfl
      rw [this]
      rfl

theorem answerable_perm {cs cs' : List Condition} (hp : cs'.Perm cs) (h : Answerable env acceptable cs) : Answerable env acceptable cs' :=
  ⟨fun c hc => h.index c (hp.mem_iff.mp hc), fun c hc => h.acceptable c (hp.mem_iff.mp hc), (hp.map _).nodup_iff.mpr h.distinct⟩

theorem matching_perm {cs cs' : List Condition} (hp : cs'.Perm cs) : matching records sat cs' = matching records sat cs := by
  unfold matching
  congr 1
  funext r
  exact all_perm hp _

/-- The state of the joined iterator of a list request. -/
theorem array_positions (hdata : OutputData env input records sat acceptable) {parameters : GoMap ParamConfig} {params : GoMap Bytes}
    {conditions : List Condition} (hreads : Reads env (givenParameters parameters params) conditions)
    (hans : Answerable env acceptable conditions) :
    ∃ filters its, arrayFilters env params (env.visit [0] parameters) [] = .ok filters ∧
      filteredPositions env [] input filters = .ok its ∧ Gives its ((matching records sat conditions).map Rec.position) := by
  have hp : (givenParameters parameters params).Perm (givenParameters (env.visit [0] parameters) params) :=
    ((hdata.visit [0] _ parameters).filterMap _).symm
  obtain ⟨cs, h1, h2⟩ := reads_perm hp hreads
  have hans' := answerable_perm h2 hans
  obtain ⟨filters, g1, g2, g3⟩ := arrayFilters_spec env params (env.visit [0] parameters) [] cs ⟨by simp, by simp⟩ h1
    (by simpa [flatFilters] using hans'.distinct)
  obtain ⟨its, k1, k2⟩ := filteredPositions_spec hdata [] g2 (by simpa [flatFilters] using g3) hans'
  rw [matching_perm h2] at k2
  exact ⟨filters, its, g1, k1, k2⟩

/-- The state of the joined iterator of an object request. -/
theorem object_positions (hdata : OutputData env input records sat acceptable) {parameters : GoMap ParamConfig} {params : GoMap Bytes}
    {conditions : List Condition} (hreads : Reads env (allParameters parameters params) conditions)
    (hans : Answerable env acceptable conditions) :
    ∃ filters its, objectFilters env params (env.visit [0] parameters) [] = .ok filters ∧
      filteredPositions env [] input filters = .ok its ∧ Gives its ((matching records sat conditions).map Rec.position) := by
  have hp : (allParameters parameters params).Perm (allParameters (env.visit [0] parameters) params) :=
    ((hdata.visit [0] _ parameters).map _).symm
  obtain ⟨cs, h1, h2⟩ := reads_perm hp hreads
  have hans' := answerable_perm h2 hans
  obtain ⟨filters, g1, g2, g3⟩ := objectFilters_spec env params (env.visit [0] parameters) [] cs ⟨by simp, by simp⟩ h1
    (by simpa [flatFilters] using hans'.distinct)
  obtain ⟨its, k1, k2⟩ := filteredPositions_spec hdata [] g2 (by simpa [flatFilters] using g3) hans'
  rw [matching_perm h2] at k2
  exact ⟨filters, its, g1, k1, k2⟩

/-- The data at the position of a record. -/
theorem dataFromPosition_shows (hdata : OutputData env input records sat acceptable) {name : String} (hin : mapGet env.inputs name = some input)
    (path : List Nat) (relationships : List (String × Relationship)) {r : Rec} (hr : r ∈ records) :
    ShowsRecord env relationships r (dataFromPosition env path name relationships r.position) := by
  simp only [dataFromPosition, hin, hdata.fetch r hr]
  cases h : r.all with
  | error e => exact .inl ⟨e, h, rfl⟩
  | ok data => exact .inr ⟨data, path, h, rfl⟩

theorem rows_list (hdata : OutputData env input records sat acceptable) {name : String} (hin : mapGet env.inputs name = some input)
    (relationships : List (String × Relationship)) {window : List Rec} (hw : ∀ r ∈ window, r ∈ records) :
    ListsRecords env relationships window
      (match rowsOf (fun i p => dataFromPosition env [4, i] name relationships p) 0 (window.map Rec.position) with
        | .error e => .error e
        | .ok rows => .data (.arr rows)) := by
  rcases rowsOf_cases (fun i p => dataFromPosition env [4, i] name relationships p) (window.map Rec.position) 0 with
    ⟨rows, h1, h2, h3⟩ | ⟨e, k, hk, h1, h2⟩
  · refine .inl ⟨rows, by rw [h1], by simpa using h2, ?_⟩
    intro k h h'
    have := h3 k (by simpa using h) h'
    rw [← this, List.getElem_map]
    exact dataFromPosition_shows hdata hin _ _ (hw _ (List.getElem_mem _))
  · have hk' : k < window.length := by simpa using hk
    refine .inr ⟨e, window[k], List.getElem_mem _, by rw [h1], ?_⟩
    rw [← h2, List.getElem_map]
    exact dataFromPosition_shows hdata hin _ _ (hw _ (List.getElem_mem _))

end

/-! ### Limit and offset -/

theorem intText_nonneg {text : Bytes} {n : Nat} (h : IntegerText text n) : atoi text = some (n : Int) := (atoi_iff text n).mpr h

theorem getLimit_spec {c : LimitConfig} {params : GoMap Bytes} {n : Nat} (h : AskedLimit c params n) :
    getLimit c params = .ok (min n c.max) := by
  have hm : ∀ n : Nat, (if n > c.max then c.max else n) = min n c.max := by intro n; split <;> omega
  rcases h with ⟨h1, rfl⟩ | ⟨text, h1, h2, h3⟩
  · simp [getLimit, h1, hm]
  · have : ¬ ((n : Int) ≤ 0) := by omega
    simp only [getLimit, h1, intText_nonneg h2, if_neg this, Int.toNat_natCast, hm]

theorem getOffset_spec {parameter : String} {params : GoMap Bytes} {n : Nat} (h : AskedOffset parameter params n) :
    getOffset parameter params = .ok n := by
  rcases h with ⟨h1, rfl⟩ | ⟨text, h1, h2⟩
  · simp [getOffset, h1]
  · have : ¬ ((n : Int) < 0) := by omega
    simp [getOffset, h1, intText_nonneg h2, this]

end Rodb
