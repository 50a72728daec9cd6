import Verif.Proofs.Output
import Verif.Proofs.Config
import Verif.Spec.SameFilter
/-
  Several parameters on one property of one index.
-/
namespace Rodb
open Spec

/-- If no two conditions are on the same property of the same index, all of them are kept. -/
theorem Spec.OneForEach.all_eq {conditions kept : List Condition} (h : OneForEach conditions kept) (hnd : (conditions.map (fun c => (c.index, c.property))).Nodup)
    (f : Condition → Bool) : kept.all f = conditions.all f := by
  have hinj : ∀ c ∈ conditions, ∀ k ∈ conditions, (c.index, c.property) = (k.index, k.property) → c = k := by
    clear h
    induction conditions with
    | nil => intro c hc; cases hc
    | cons a l ih =>
      rw [List.map_cons, List.nodup_cons] at hnd
      intro c hc k hk e
      rcases List.mem_cons.1 hc with rfl | hc1 <;> rcases List.mem_cons.1 hk with rfl | hk1
      · rfl
      · exact absurd (List.mem_map.2 ⟨k, hk1, e.symm⟩) hnd.1
      · exact absurd (List.mem_map.2 ⟨c, hc1, e⟩) hnd.1
      · exact ih hnd.2 c hc1 k hk1 e
  rw [Bool.eq_iff_iff, List.all_eq_true, List.all_eq_true]
  constructor
  · intro ha c hc
    obtain ⟨k, hk, e1, e2⟩ := h.asked c hc
    rw [hinj c hc k (h.chosen k hk) (by rw [e1, e2])]
    exact ha k hk
  · exact fun ha k hk => ha k (h.chosen k hk)

/-- Conditions that were collected as filters: each of them is one of the given ones, and everything that is asked is asked by one of them. -/
structure KeptFrom (conditions kept : List Condition) : Prop where
  chosen : ∀ k ∈ kept, k ∈ conditions
  asked : ∀ c ∈ conditions, ∃ k ∈ kept, k.index = c.index ∧ k.property = c.property

theorem KeptFrom.refl (l : List Condition) : KeptFrom l l := ⟨fun _ h => h, fun c h => ⟨c, h, rfl, rfl⟩⟩

theorem KeptFrom.trans {a b c : List Condition} (h : KeptFrom a b) (h' : KeptFrom b c) : KeptFrom a c := by
  refine ⟨fun k hk => h.chosen k (h'.chosen k hk), fun x hx => ?_⟩
  obtain ⟨k, hk, e⟩ := h.asked x hx
  obtain ⟨k', hk', e'⟩ := h'.asked k hk
  exact ⟨k', hk', e'.1.trans e.1, e'.2.trans e.2⟩

theorem KeptFrom.of_perm {a b : List Condition} (h : b.Perm a) : KeptFrom a b := ⟨fun _ hk => h.mem_iff.1 hk, fun c hc => ⟨c, h.mem_iff.2 hc, rfl, rfl⟩⟩

theorem KeptFrom.append_left (l : List Condition) {a b : List Condition} (h : KeptFrom a b) : KeptFrom (l ++ a) (l ++ b) := by
  refine ⟨fun k hk => ?_, fun c hc => ?_⟩
  · rcases List.mem_append.1 hk with hk | hk
    · exact List.mem_append_left _ hk
    · exact List.mem_append_right _ (h.chosen k hk)
  · rcases List.mem_append.1 hc with hc | hc
    · exact ⟨c, List.mem_append_left _ hc, rfl, rfl⟩
    · obtain ⟨k, hk, e⟩ := h.asked c hc
      exact ⟨k, List.mem_append_right _ hk, e⟩

/-- A filter on something that already has one replaces it. -/
theorem addFilter_kept {filters : GoMap (GoMap Value)} (hok : FiltersOk filters) (c : Condition) :
    FiltersOk (addFilter filters c.index c.property c.value) ∧ KeptFrom (c :: flatFilters filters) (flatFilters (addFilter filters c.index c.property c.value)) := by
  by_cases hnew : (c.index, c.property) ∈ (flatFilters filters).map (fun c => (c.index, c.property))
  · obtain ⟨d, hd, hkey⟩ := List.mem_map.1 hnew
    obtain ⟨f, hf, hd⟩ := List.mem_flatMap.1 hd
    obtain ⟨pv, hpv, rfl⟩ := List.mem_map.1 hd
    simp only [Prod.mk.injEq] at hkey
    obtain ⟨e1, e2⟩ := hkey
    obtain ⟨fname, fs⟩ := f
    obtain ⟨property, old⟩ := pv
    dsimp only at e1 e2 hpv
    subst e1 e2
    have hget : mapGet filters c.index = some fs := mapGet_nodup_mem hok.outer hf
    have hget' : mapGet fs c.property = some old := mapGet_nodup_mem (hok.inner _ hf).1 hpv
    obtain ⟨a, b, h1, h2⟩ := mapSet_split hget
    obtain ⟨x, y, h3, h4⟩ := mapSet_split hget'
    have hadd : addFilter filters c.index c.property c.value = a ++ (c.index, x ++ (c.property, c.value) :: y) :: b := by
      unfold addFilter
      rw [hget]
      simp only
      rw [h2, h4]
    rw [hadd]
    refine ⟨⟨?_, fun g hg => ?_⟩, ⟨fun k hk => ?_, fun k hk => ?_⟩⟩
    · have := hok.outer
      rw [h1] at this
      simpa using this
    · rcases List.mem_append.1 hg with hg | hg
      · exact hok.inner g (by rw [h1]; exact List.mem_append_left _ hg)
      · rcases List.mem_cons.1 hg with rfl | hg
        · refine ⟨?_, by simp⟩
          have := (hok.inner _ hf).1
          rw [h3] at this
          simpa using this
        · exact hok.inner g (by rw [h1]; exact List.mem_append_right _ (.tail _ hg))
    · rw [h1, h3]
      simp only [flatFilters, List.flatMap_append, List.flatMap_cons, List.map_append, List.map_cons, List.mem_append, List.mem_cons] at hk ⊢
      rcases hk with hk | (hk | hk | hk) | hk
      · exact .inr (.inl hk)
      · exact .inr (.inr (.inl (.inl hk)))
      · exact .inl hk
      · exact .inr (.inr (.inl (.inr (.inr hk))))
      · exact .inr (.inr (.inr hk))
    · rw [h1, h3] at hk
      have hc : c ∈ flatFilters (a ++ (c.index, x ++ (c.property, c.value) :: y) :: b) := by
        simp [flatFilters]
      simp only [flatFilters, List.flatMap_append, List.flatMap_cons, List.map_append, List.map_cons, List.mem_append, List.mem_cons] at hk
      rcases hk with rfl | hk | (hk | rfl | hk) | hk
      · exact ⟨_, hc, rfl, rfl⟩
      · exact ⟨k, by simp only [flatFilters, List.flatMap_append, List.mem_append]; exact .inl hk, rfl, rfl⟩
      · exact ⟨k, by simp only [flatFilters, List.flatMap_append, List.flatMap_cons, List.map_append, List.mem_append]; exact .inr (.inl (.inl hk)), rfl, rfl⟩
      · exact ⟨c, hc, rfl, rfl⟩
      · exact ⟨k, by simp only [flatFilters, List.flatMap_append, List.flatMap_cons, List.map_append, List.map_cons, List.mem_append, List.mem_cons]; exact .inr (.inl (.inr (.inr hk))), rfl, rfl⟩
      · exact ⟨k, by simp only [flatFilters, List.flatMap_append, List.flatMap_cons, List.mem_append]; exact .inr (.inr hk), rfl, rfl⟩
  · obtain ⟨h1, h2⟩ := addFilter_spec hok c hnew
    exact ⟨h1, .of_perm h2⟩

/-- The filters are on different properties of different indexes. -/
theorem FiltersOk.distinct {filters : GoMap (GoMap Value)} (hok : FiltersOk filters) : ((flatFilters filters).map (fun c => (c.index, c.property))).Nodup := by
  obtain ⟨h1, h2⟩ := hok
  induction filters with
  | nil => exact List.nodup_nil
  | cons f filters ih =>
    rw [List.map_cons, List.nodup_cons] at h1
    simp only [flatFilters, List.flatMap_cons, List.map_append, List.map_map, Function.comp_def]
    rw [List.nodup_append]
    refine ⟨?_, ih h1.2 (fun g hg => h2 g (.tail _ hg)), ?_⟩
    · have := (h2 f (.head _)).1
      rw [List.nodup_iff_pairwise_ne, List.pairwise_map] at this ⊢
      exact this.imp (fun hne e => hne (by simpa using e))
    · intro k hk k' hk' e
      subst e
      obtain ⟨pv, _, rfl⟩ := List.mem_map.1 hk
      obtain ⟨d, hd, e⟩ := List.mem_map.1 hk'
      obtain ⟨g, hg, hd⟩ := List.mem_flatMap.1 hd
      obtain ⟨pv', _, rfl⟩ := List.mem_map.1 hd
      simp only [Prod.mk.injEq] at e
      exact h1.1 (e.1 ▸ List.mem_map_of_mem hg)

/-- The given parameters, once read, are collected as filters; of two on one property of one index the one visited last is kept. -/
theorem arrayFilters_kept (env : OutputEnv) (params : GoMap Bytes) : ∀ (parameters : GoMap ParamConfig) (filters : GoMap (GoMap Value)) (conditions : List Condition), FiltersOk filters →
    Reads env (givenParameters parameters params) conditions →
    ∃ filters', arrayFilters env params parameters filters = .ok filters' ∧ FiltersOk filters' ∧ KeptFrom (conditions ++ flatFilters filters) (flatFilters filters') := by
  intro parameters
  induction parameters with
  | nil =>
    intro filters conditions hok hr
    cases conditions with
    | nil => exact ⟨filters, rfl, hok, .refl _⟩
    | cons c cs => simp [givenParameters, Reads] at hr
  | cons x parameters ih =>
    obtain ⟨name, p⟩ := x
    intro filters conditions hok hr
    cases hg : mapGet params name with
    | none =>
      have hgp : givenParameters ((name, p) :: parameters) params = givenParameters parameters params := by
        simp [givenParameters, hg]
      rw [hgp] at hr
      simpa only [arrayFilters, hg] using ih filters conditions hok hr
    | some text =>
      have hgp : givenParameters ((name, p) :: parameters) params = (p, text) :: givenParameters parameters params := by
        simp [givenParameters, hg]
      rw [hgp] at hr
      cases conditions with
      | nil => simp [Reads] at hr
      | cons c cs =>
        obtain ⟨e1, e2, ⟨parse, h1, h2⟩, hr⟩ := hr
        obtain ⟨hok', hkept⟩ := addFilter_kept hok c
        simp only [arrayFilters, hg, h1, h2]
        rw [← e1, ← e2]
        obtain ⟨f', i1, i2, i3⟩ := ih _ cs hok' hr
        exact ⟨f', i1, i2, ((KeptFrom.of_perm List.perm_middle).trans (hkept.append_left cs)).trans i3⟩

/-- All the parameters of an object, likewise. -/
theorem objectFilters_kept (env : OutputEnv) (params : GoMap Bytes) : ∀ (parameters : GoMap ParamConfig) (filters : GoMap (GoMap Value)) (conditions : List Condition), FiltersOk filters →
    Reads env (allParameters parameters params) conditions →
    ∃ filters', objectFilters env params parameters filters = .ok filters' ∧ FiltersOk filters' ∧ KeptFrom (conditions ++ flatFilters filters) (flatFilters filters') := by
  intro parameters
  induction parameters with
  | nil =>
    intro filters conditions hok hr
    cases conditions with
    | nil => exact ⟨filters, rfl, hok, .refl _⟩
    | cons c cs => simp [allParameters, Reads] at hr
  | cons x parameters ih =>
    obtain ⟨name, p⟩ := x
    intro filters conditions hok hr
    have hgp : allParameters ((name, p) :: parameters) params = (p, (mapGet params name).getD []) :: allParameters parameters params := rfl
    rw [hgp] at hr
    cases conditions with
    | nil => simp [Reads] at hr
    | cons c cs =>
      obtain ⟨e1, e2, ⟨parse, h1, h2⟩, hr⟩ := hr
      obtain ⟨hok', hkept⟩ := addFilter_kept hok c
      simp only [objectFilters, h1, h2]
      rw [← e1, ← e2]
      obtain ⟨f', i1, i2, i3⟩ := ih _ cs hok' hr
      exact ⟨f', i1, i2, ((KeptFrom.of_perm List.perm_middle).trans (hkept.append_left cs)).trans i3⟩

section
variable {env : OutputEnv} {input : Input} {records : List Rec} {sat : String → String → Value → Rec → Bool} {acceptable : String → String → Value → Prop}

/-- The state of the joined iterator of a list request, whatever parameters it gives. -/
theorem array_positions_kept (hdata : OutputData env input records sat acceptable) {parameters : GoMap ParamConfig} {params : GoMap Bytes} {conditions : List Condition}
    (hreads : Reads env (givenParameters parameters params) conditions) (hindex : ∀ c ∈ conditions, ∃ index, mapGet env.indexes c.index = some index)
    (hacc : ∀ c ∈ conditions, acceptable c.index c.property c.value) :
    ∃ kept filters its, OneForEach conditions kept ∧ arrayFilters env params (env.visit [0] parameters) [] = .ok filters ∧
      filteredPositions env [] input filters = .ok its ∧ Gives its ((matching records sat kept).map Rec.position) := by
  have hp : (givenParameters parameters params).Perm (givenParameters (env.visit [0] parameters) params) := ((hdata.visit [0] _ parameters).filterMap _).symm
  obtain ⟨cs, h1, h2⟩ := reads_perm hp hreads
  obtain ⟨filters, g1, g2, g3⟩ := arrayFilters_kept env params (env.visit [0] parameters) [] cs ⟨by simp, by simp⟩ h1
  have hk : KeptFrom conditions (flatFilters filters) := by
    have : KeptFrom cs (flatFilters filters) := by simpa [flatFilters] using g3
    exact (KeptFrom.of_perm h2).trans this
  obtain ⟨its, k1, k2⟩ := filteredPositions_spec hdata [] g2 (List.Perm.refl _) ⟨fun c hc => hindex c (hk.chosen c hc), fun c hc => hacc c (hk.chosen c hc), g2.distinct⟩
  exact ⟨_, filters, its, ⟨hk.chosen, hk.asked, g2.distinct⟩, g1, k1, k2⟩

/-- The state of the joined iterator of an object request, whatever its parameters are on. -/
theorem object_positions_kept (hdata : OutputData env input records sat acceptable) {parameters : GoMap ParamConfig} {params : GoMap Bytes} {conditions : List Condition}
    (hreads : Reads env (allParameters parameters params) conditions) (hindex : ∀ c ∈ conditions, ∃ index, mapGet env.indexes c.index = some index)
    (hacc : ∀ c ∈ conditions, acceptable c.index c.property c.value) :
    ∃ kept filters its, OneForEach conditions kept ∧ objectFilters env params (env.visit [0] parameters) [] = .ok filters ∧
      filteredPositions env [] input filters = .ok its ∧ Gives its ((matching records sat kept).map Rec.position) := by
  have hp : (allParameters parameters params).Perm (allParameters (env.visit [0] parameters) params) := ((hdata.visit [0] _ parameters).map _).symm
  obtain ⟨cs, h1, h2⟩ := reads_perm hp hreads
  obtain ⟨filters, g1, g2, g3⟩ := objectFilters_kept env params (env.visit [0] parameters) [] cs ⟨by simp, by simp⟩ h1
  have hk : KeptFrom conditions (flatFilters filters) := by
    have : KeptFrom cs (flatFilters filters) := by simpa [flatFilters] using g3
    exact (KeptFrom.of_perm h2).trans this
  obtain ⟨its, k1, k2⟩ := filteredPositions_spec hdata [] g2 (List.Perm.refl _) ⟨fun c hc => hindex c (hk.chosen c hc), fun c hc => hacc c (hk.chosen c hc), g2.distinct⟩
  exact ⟨_, filters, its, ⟨hk.chosen, hk.asked, g2.distinct⟩, g1, k1, k2⟩

end

end Rodb
