import Verif.Proofs.Relationship
import Verif.Props.OutputProps
import Verif.Props.SameFilterProps
import Verif.Props.SortProps
/-
  Properties of relationships.
-/
namespace Rodb
open Spec

/-- **C48** Loading relationships that fit the data (`Suitable`), nested to any depth, for any record of the parent input, whatever
the order in which Go visits the maps: it succeeds, every relationship holds the first related record or null, or the array of the first `limit` (all if 0) related records in the
order of the sort criteria, each with its own relationships loaded, and the other properties are unchanged.
Missing: limits from 2^63 on (`C48_false`), and relationships matched by what a sibling overwrites (`C49_false`). -/
theorem C48_relationships_partial (env : OutputEnv) (w : World) (hw : w.Behind env)
    (hvisit : ∀ (path : List Nat) (α : Type) (l : List α), (env.visit path l).Perm l) (hsort : SortContract env.sort)
    (parent : String) (relationships : List (String × Relationship)) (hfit : Suitable w env (depthOf relationships) parent relationships)
    (r : Rec) (hr : r ∈ w.records parent) (data : GoMap Value) (hall : r.all = .ok data) (path : List Nat) :
    ∃ shown, loadRelationships env (depthOf relationships) path data relationships = .ok shown ∧
      Loaded w (sortRecords env.sort) (depthOf relationships) data relationships shown := by
  obtain ⟨shown, h1, h2, _⟩ := loadRelationships_spec hw hvisit hsort.perm _ parent relationships hfit r hr data hall path
  exact ⟨shown, h1, h2⟩

/-- **C48** The order of the related records by the sort criteria: a rearrangement in which no record comes after one that it
must precede. -/
theorem C48_related_sorted (env : OutputEnv) (hsort : SortContract env.sort) (w : World) (parent : GoMap Value) (input : String)
    (matches' : List MatchConfig) (sort : List SortConfig)
    (h : ∀ c ∈ sort, OneType (w.records input) c.property) :
    (sortRecords env.sort sort (relatedTo w parent input matches')).Perm (relatedTo w parent input matches') ∧
    (sortRecords env.sort sort (relatedTo w parent input matches')).Pairwise
      (fun r s => ¬ mustPrecede (sort.map (fun c => (c.property, c.ascending != some false))) s r) := by
  refine C24_sorted env.sort hsort sort _ ?_
  intro c hc r hr s hs
  exact h c hc r (List.mem_filter.mp hr).1 s (List.mem_filter.mp hs).1

/-- **C48** A relationship matched by a property that the parent does not have is an error, not an empty result. -/
theorem C48_missing_parent_property (env : OutputEnv) (nested) (path : List Nat) (data : GoMap Value) (input : String) (isArray : Bool)
    (limit : Nat) (sort : List SortConfig) (matches' : List MatchConfig) (relationships : List (String × Relationship))
    (h : ∃ m ∈ matches', mapGet data m.parentProperty = none) :
    ∃ e, loadRelationship env nested path data (.mk input isArray limit sort matches' relationships) = .error e ∧ IsError e := by
  have : ∀ (ms : List MatchConfig) (filters : GoMap (GoMap Value)), (∃ m ∈ ms, mapGet data m.parentProperty = none) →
      ∃ e, relationshipFilters data ms filters = .error e ∧ IsError e := by
    intro ms
    induction ms with
    | nil => rintro _ ⟨m, hm, _⟩; cases hm
    | cons m ms ih =>
      intro filters ⟨m', hm', hn⟩
      simp only [relationshipFilters]
      cases hg : mapGet data m.parentProperty with
      | none => exact ⟨_, rfl, _, rfl⟩
      | some v =>
        rcases List.mem_cons.mp hm' with rfl | hm'
        · rw [hn] at hg; cases hg
        · exact ih _ ⟨m', hm', hn⟩
  obtain ⟨e, h1, h2⟩ := this matches' [] h
  exact ⟨e, by simp only [loadRelationship, h1], h2⟩

/-- A record shown with suitable relationships. -/
theorem shows_loaded {env : OutputEnv} {w : World} (hw : w.Behind env)
    (hvisit : ∀ (path : List Nat) (α : Type) (l : List α), (env.visit path l).Perm l) (hsort : SortContract env.sort)
    {parent : String} {relationships : List (String × Relationship)} (hfit : Suitable w env (depthOf relationships) parent relationships)
    {r : Rec} (hr : r ∈ w.records parent) {data : GoMap Value} (hall : r.all = .ok data) {item : Res (GoMap Value)}
    (hs : ShowsRecord env relationships r item) :
    ∃ shown, item = .ok shown ∧ Loaded w (sortRecords env.sort) (depthOf relationships) data relationships shown ∧
      (AllFinite w → ¬ HasNonFinite (.obj shown)) := by
  rcases hs with ⟨e, h1, _⟩ | ⟨d, path, h1, h2⟩
  · rw [hall] at h1; cases h1
  · rw [hall] at h1
    cases h1
    rw [h2]
    exact loadRelationships_spec hw hvisit hsort.perm _ parent relationships hfit r hr _ hall path

/-- The window of a list request together with its relationships, whatever parameters it gives. -/
theorem handleArray_kept (env : OutputEnv) (w : World) (hw : w.Behind env) (hsort : SortContract env.sort)
    (c : ArrayConfig) (params : GoMap Bytes) (input : Input) (hin : mapGet env.inputs c.input = some input)
    (hfit : Suitable w env (depthOf c.relationships) c.input c.relationships)
    (hread : ∀ r ∈ w.records c.input, ∃ d, r.all = .ok d)
    (conditions : List Condition) (hreads : Reads env (givenParameters c.parameters params) conditions)
    (hindex : ∀ c ∈ conditions, ∃ index, mapGet env.indexes c.index = some index) (hacc : ∀ k ∈ conditions, w.acceptable c.input k.index k.property k.value)
    (limit offset : Nat) (hlimit : AskedLimit c.limit params limit)
    (hoffset : AskedOffset c.offsetParameter params offset) (hsmall : min limit c.limit.max < 2^63) :
    ∃ kept, OneForEach conditions kept ∧
    let window := ((matching (w.records c.input) (w.sat c.input) kept).drop offset).take (min limit c.limit.max)
    ∃ rows : List (GoMap Value), handleArray env c params = .data (.arr (rows.map .obj)) ∧ rows.length = window.length ∧
      ∀ k (h : k < window.length) (h' : k < rows.length), ∃ data, window[k].all = .ok data ∧
        Loaded w (sortRecords env.sort) (depthOf c.relationships) data c.relationships rows[k] ∧ (AllFinite w → ¬ HasNonFinite (.obj rows[k])) := by
  obtain ⟨kept, hkept, h⟩ := C45_one_for_each env c params input (w.records c.input) (w.sat c.input) (w.acceptable c.input) hin (hw _ _ hin) conditions hreads
    hindex hacc limit offset hlimit hoffset hsmall
  refine ⟨kept, hkept, ?_⟩
  intro window
  have hsub : ∀ r ∈ window, r ∈ w.records c.input := fun r hr =>
    (List.mem_filter.mp (List.mem_of_mem_drop (List.mem_of_mem_take hr))).1
  have hvisit := (hw c.input input hin).visit
  rcases h with ⟨rows, h1, h2, h3⟩ | ⟨e, r, hr, _, h2⟩
  · refine ⟨rows, h1, h2, fun k hk hk' => ?_⟩
    have hkr := hsub _ (List.getElem_mem hk)
    obtain ⟨d, hd⟩ := hread _ hkr
    obtain ⟨shown, g1, g2⟩ := shows_loaded hw hvisit hsort hfit hkr hd (h3 k hk hk')
    cases g1
    exact ⟨d, hd, g2⟩
  · obtain ⟨d, hd⟩ := hread _ (hsub r hr)
    obtain ⟨shown, g1, _⟩ := shows_loaded hw hvisit hsort hfit (hsub r hr) hd h2
    cases g1

/-- The window of a list request together with its relationships. -/
theorem handleArray_related (env : OutputEnv) (w : World) (hw : w.Behind env) (hsort : SortContract env.sort)
    (c : ArrayConfig) (params : GoMap Bytes) (input : Input) (hin : mapGet env.inputs c.input = some input)
    (hfit : Suitable w env (depthOf c.relationships) c.input c.relationships)
    (hread : ∀ r ∈ w.records c.input, ∃ d, r.all = .ok d)
    (conditions : List Condition) (hreads : Reads env (givenParameters c.parameters params) conditions)
    (hans : Answerable env (w.acceptable c.input) conditions) (limit offset : Nat) (hlimit : AskedLimit c.limit params limit)
    (hoffset : AskedOffset c.offsetParameter params offset) (hsmall : min limit c.limit.max < 2^63) :
    let window := ((matching (w.records c.input) (w.sat c.input) conditions).drop offset).take (min limit c.limit.max)
    ∃ rows : List (GoMap Value), handleArray env c params = .data (.arr (rows.map .obj)) ∧ rows.length = window.length ∧
      ∀ k (h : k < window.length) (h' : k < rows.length), ∃ data, window[k].all = .ok data ∧
        Loaded w (sortRecords env.sort) (depthOf c.relationships) data c.relationships rows[k] ∧ (AllFinite w → ¬ HasNonFinite (.obj rows[k])) := by
  obtain ⟨kept, hkept, h⟩ := handleArray_kept env w hw hsort c params input hin hfit hread conditions hreads hans.index hans.acceptable limit offset hlimit hoffset hsmall
  simp only [matching, hkept.all_eq hans.distinct] at h
  exact h

/-- **C42, C48** The window of a list request together with its relationships: the answer is an array with one object for each
record of the window, in order: its properties with the relationships loaded. -/
theorem C48_list_with_relationships (env : OutputEnv) (w : World) (hw : w.Behind env) (hsort : SortContract env.sort)
    (c : ArrayConfig) (params : GoMap Bytes) (input : Input) (hin : mapGet env.inputs c.input = some input)
    (hfit : Suitable w env (depthOf c.relationships) c.input c.relationships)
    (hread : ∀ r ∈ w.records c.input, ∃ d, r.all = .ok d)
    (conditions : List Condition) (hreads : Reads env (givenParameters c.parameters params) conditions)
    (hans : Answerable env (w.acceptable c.input) conditions) (limit offset : Nat) (hlimit : AskedLimit c.limit params limit)
    (hoffset : AskedOffset c.offsetParameter params offset) (hsmall : min limit c.limit.max < 2^63) :
    let window := ((matching (w.records c.input) (w.sat c.input) conditions).drop offset).take (min limit c.limit.max)
    ∃ rows : List (GoMap Value), handleArray env c params = .data (.arr (rows.map .obj)) ∧ rows.length = window.length ∧
      ∀ k (h : k < window.length) (h' : k < rows.length), ∃ data, window[k].all = .ok data ∧
        Loaded w (sortRecords env.sort) (depthOf c.relationships) data c.relationships rows[k] := by
  intro window
  obtain ⟨rows, h1, h2, h3⟩ := handleArray_related env w hw hsort c params input hin hfit hread conditions hreads hans limit offset hlimit hoffset hsmall
  refine ⟨rows, h1, h2, fun k h h' => ?_⟩
  obtain ⟨data, g1, g2, _⟩ := h3 k h h'
  exact ⟨data, g1, g2⟩

/-- The first record of an object request together with its relationships, whatever its parameters are on. -/
theorem handleObject_kept (env : OutputEnv) (w : World) (hw : w.Behind env) (hsort : SortContract env.sort)
    (c : ObjectConfig) (params : GoMap Bytes) (input : Input) (hin : mapGet env.inputs c.input = some input)
    (hfit : Suitable w env (depthOf c.relationships) c.input c.relationships)
    (hread : ∀ r ∈ w.records c.input, ∃ d, r.all = .ok d)
    (conditions : List Condition) (hreads : Reads env (allParameters c.parameters params) conditions)
    (hindex : ∀ c ∈ conditions, ∃ index, mapGet env.indexes c.index = some index) (hacc : ∀ k ∈ conditions, w.acceptable c.input k.index k.property k.value) :
    ∃ kept, OneForEach conditions kept ∧
    match (w.records c.input).find? (fun r => kept.all (fun k => w.sat c.input k.index k.property k.value r)) with
    | none => handleObject env c params = .notFound
    | some r => ∃ data shown, r.all = .ok data ∧ handleObject env c params = .data (.obj shown) ∧
        Loaded w (sortRecords env.sort) (depthOf c.relationships) data c.relationships shown ∧ (AllFinite w → ¬ HasNonFinite (.obj shown)) := by
  obtain ⟨kept, hkept, h⟩ := C45_object_one_for_each env c params input (w.records c.input) (w.sat c.input) (w.acceptable c.input) hin (hw _ _ hin) conditions hreads hindex hacc
  refine ⟨kept, hkept, ?_⟩
  have hvisit := (hw c.input input hin).visit
  cases hfind : (w.records c.input).find? (fun r => kept.all (fun k => w.sat c.input k.index k.property k.value r)) with
  | none =>
    rw [hfind] at h
    exact h
  | some r =>
    rw [hfind] at h
    have hr := List.mem_of_find?_eq_some hfind
    obtain ⟨d, hd⟩ := hread r hr
    rcases h with ⟨item, h1, h2⟩ | ⟨e, _, h2⟩
    · obtain ⟨shown, g1, g2, g3⟩ := shows_loaded hw hvisit hsort hfit hr hd h2
      cases g1
      exact ⟨d, _, hd, h1, g2, g3⟩
    · obtain ⟨shown, g1, _⟩ := shows_loaded hw hvisit hsort hfit hr hd h2
      cases g1

/-- The first record of an object request together with its relationships. -/
theorem handleObject_related (env : OutputEnv) (w : World) (hw : w.Behind env) (hsort : SortContract env.sort)
    (c : ObjectConfig) (params : GoMap Bytes) (input : Input) (hin : mapGet env.inputs c.input = some input)
    (hfit : Suitable w env (depthOf c.relationships) c.input c.relationships)
    (hread : ∀ r ∈ w.records c.input, ∃ d, r.all = .ok d)
    (conditions : List Condition) (hreads : Reads env (allParameters c.parameters params) conditions)
    (hans : Answerable env (w.acceptable c.input) conditions) :
    match (w.records c.input).find? (fun r => conditions.all (fun k => w.sat c.input k.index k.property k.value r)) with
    | none => handleObject env c params = .notFound
    | some r => ∃ data shown, r.all = .ok data ∧ handleObject env c params = .data (.obj shown) ∧
        Loaded w (sortRecords env.sort) (depthOf c.relationships) data c.relationships shown ∧ (AllFinite w → ¬ HasNonFinite (.obj shown)) := by
  obtain ⟨kept, hkept, h⟩ := handleObject_kept env w hw hsort c params input hin hfit hread conditions hreads hans.index hans.acceptable
  simp only [hkept.all_eq hans.distinct] at h
  exact h

/-- **C47, C48** The record of an object request together with its relationships: the first record that satisfies the conditions, with its relationships
loaded, or "not found" if there is none. -/
theorem C48_object_with_relationships (env : OutputEnv) (w : World) (hw : w.Behind env) (hsort : SortContract env.sort)
    (c : ObjectConfig) (params : GoMap Bytes) (input : Input) (hin : mapGet env.inputs c.input = some input)
    (hfit : Suitable w env (depthOf c.relationships) c.input c.relationships)
    (hread : ∀ r ∈ w.records c.input, ∃ d, r.all = .ok d)
    (conditions : List Condition) (hreads : Reads env (allParameters c.parameters params) conditions)
    (hans : Answerable env (w.acceptable c.input) conditions) :
    match (w.records c.input).find? (fun r => conditions.all (fun k => w.sat c.input k.index k.property k.value r)) with
    | none => handleObject env c params = .notFound
    | some r => ∃ data shown, r.all = .ok data ∧ handleObject env c params = .data (.obj shown) ∧
        Loaded w (sortRecords env.sort) (depthOf c.relationships) data c.relationships shown := by
  have h := handleObject_related env w hw hsort c params input hin hfit hread conditions hreads hans
  cases hfind : (w.records c.input).find? (fun r => conditions.all (fun k => w.sat c.input k.index k.property k.value r)) with
  | none =>
    rw [hfind] at h
    exact h
  | some r =>
    rw [hfind] at h
    obtain ⟨data, shown, h1, h2, h3, _⟩ := h
    exact ⟨data, shown, h1, h2, h3⟩

/-- **C49** Two runs of the same list request that visit the maps in different orders send the same JSON (up to the order of the
keys of objects). Missing: relationships matched by what a sibling overwrites (`C49_false`). -/
theorem C49_same_answer_partial (env env' : OutputEnv) (w : World) (hw : w.Behind env) (hw' : w.Behind env') (hsort : SortContract env.sort)
    (hsame : env'.sort = env.sort ∧ (∀ n, mapGet env'.inputs n = mapGet env.inputs n) ∧ (∀ n, mapGet env'.indexes n = mapGet env.indexes n) ∧ ∀ n, mapGet env'.parsers n = mapGet env.parsers n)
    (c : ArrayConfig) (params : GoMap Bytes) (input : Input) (hin : mapGet env.inputs c.input = some input)
    (hfit : Suitable w env (depthOf c.relationships) c.input c.relationships)
    (hread : ∀ r ∈ w.records c.input, ∃ d, r.all = .ok d)
    (conditions : List Condition) (hreads : Reads env (givenParameters c.parameters params) conditions)
    (hans : Answerable env (w.acceptable c.input) conditions) (limit offset : Nat) (hlimit : AskedLimit c.limit params limit)
    (hoffset : AskedOffset c.offsetParameter params offset) (hsmall : min limit c.limit.max < 2^63) :
    ∃ a b, handleArray env c params = .data a ∧ handleArray env' c params = .data b ∧ SameJson a b := by
  obtain ⟨e1, e2, e3, e4⟩ := hsame
  have hfit' : ∀ depth parent rels, Suitable w env depth parent rels → Suitable w env' depth parent rels := by
    intro depth
    induction depth with
    | zero => intro _ _ h; exact h
    | succ depth ih =>
      rintro parent rels ⟨h1, h2⟩
      refine ⟨h1, ?_⟩
      intro name input isArray limit sort ms nested hm
      obtain ⟨k1, k2, k3, k4, k5, k6, k7, k8⟩ := h2 name input isArray limit sort ms nested hm
      exact ⟨by simp only [e2]; exact k1, k2, by simp only [e3]; exact k3, k4, k5, k6, k7, ih _ _ k8⟩
  have hreads' : ∀ (l : List (ParamConfig × Bytes)) cs, Reads env l cs → Reads env' l cs := by
    intro l
    induction l with
    | nil => intro cs h; cases cs <;> exact h
    | cons x l ih =>
      intro cs h
      cases cs with
      | nil => exact h
      | cons c cs =>
        obtain ⟨h1, h2, h3, h4⟩ := h
        exact ⟨h1, h2, by simp only [e4]; exact h3, ih cs h4⟩
  obtain ⟨rows, r1, r2, r3⟩ := C48_list_with_relationships env w hw hsort c params input hin hfit hread conditions hreads hans limit offset
    hlimit hoffset hsmall
  obtain ⟨rows', s1, s2, s3⟩ := C48_list_with_relationships env' w hw' (by rw [e1]; exact hsort) c params input (by simp only [e2]; exact hin)
    (hfit' _ _ _ hfit) hread conditions (hreads' _ _ hreads) ⟨by simp only [e3]; exact hans.index, hans.acceptable, hans.distinct⟩ limit offset
    hlimit hoffset hsmall
  refine ⟨_, _, r1, s1, ?_⟩
  intro path
  match path with
  | [] => simp [look, r2, s2]
  | .inl _ :: _ => rfl
  | .inr k :: path =>
    simp only [look, List.getElem?_map]
    by_cases hk : k < rows.length
    · have hk' : k < rows'.length := by omega
      rw [List.getElem?_eq_getElem hk, List.getElem?_eq_getElem hk']
      simp only [Option.map_some, Option.bind_some]
      obtain ⟨d, d1, d2⟩ := r3 k (by rw [← r2]; exact hk) hk
      obtain ⟨d', d1', d2'⟩ := s3 k (by rw [← r2]; exact hk) hk'
      rw [d1] at d1'
      cases d1'
      rw [e1] at d2'
      exact loaded_same path _ _ _ _ _ d2 d2'
    · rw [List.getElem?_eq_none (by omega), List.getElem?_eq_none (by omega)]

namespace RelExample
/-- A record given by its position and properties. -/
def mkRec (position : Int) (props : GoMap Value) : Rec :=
  { position := position, all := .ok props, get := fun p => match mapGet props p with | some v => .ok v | none => .ok .null }
def mkInput (name : String) (recs : List Rec) : Input :=
  { name := name, size := .ok 12, modTimeNs := .ok 5, scan := .ok (recs.map .ok),
    fetch := fun p => match recs.find? (fun r => r.position == p) with | some r => .ok r | none => .error (.err "none") }
/-- Two authors: 1 "a" and 2 "b". -/
def authors : List Rec := [mkRec 0 [("id", .int 1), ("name", .str [97])], mkRec 5 [("id", .int 2), ("name", .str [98])]]
/-- Four books: "x" and "y" and "z" by author 1, "w" by author 2. -/
def books : List Rec := [mkRec 0 [("author", .int 1), ("title", .str [120])], mkRec 5 [("author", .int 2), ("title", .str [119])],
  mkRec 9 [("author", .int 1), ("title", .str [121])], mkRec 14 [("author", .int 1), ("title", .str [122])]]
def env (visit : List Nat → {α : Type} → List α → List α) : OutputEnv :=
  { inputs := [("authors", mkInput "authors" authors), ("books", mkInput "books" books)], defaultIndex := noopGetRecordPositions,
    indexes := [("default", noopGetRecordPositions)], parsers := [], sort := goInsertionSort, visit := visit }
def world : World :=
  { records := fun name => if name = "authors" then authors else books, sat := fun _ _ p v r => propEquals r p v,
    acceptable := fun _ _ _ v => Scalar v }
/-- The author of a book. -/
def ofBook : List (String × Relationship) :=
  [("by", .mk "authors" false 0 [] [{ parentProperty := "author", childProperty := "id", childIndex := "default" }] [])]
/-- The two last books of an author by title, each with its author. -/
def ofAuthor : List (String × Relationship) :=
  [("books", .mk "books" true 2 [{ property := "title", ascending := some false }]
    [{ parentProperty := "id", childProperty := "author", childIndex := "default" }] ofBook)]
theorem behind (visit : List Nat → {α : Type} → List α → List α) (hv : ∀ path α (l : List α), (visit path l).Perm l) : world.Behind (env visit) := by
  have key : ∀ name (recs : List Rec), (recs.map Rec.position).Pairwise (· < ·) → (∀ r ∈ recs, (mkInput name recs).fetch r.position = .ok r) →
      (∀ r ∈ recs, ∀ p, ∃ v, r.get p = .ok v) →
      OutputData (env visit) (mkInput name recs) recs (fun _ p v r => propEquals r p v) (fun _ _ v => Scalar v) := by
    intro name recs h1 h2 h3
    have ht : RecordTable (mkInput name recs) recs := ⟨rfl, h1⟩
    refine ⟨hv, h1, h2, C44_noop_everything _ _ ht, ?_⟩
    intro index i hi
    simp only [env, mapGet] at hi
    split at hi
    · cases hi
      intro filters a b c
      exact C44_noop_serves _ _ ht filters a b (fun f hf => ⟨c f hf, fun r hr => h3 r hr f.1⟩)
    · cases hi
  have hget : ∀ pos props p, ∃ v, (mkRec pos props).get p = .ok v := by
    intro pos props p
    simp only [mkRec]
    split <;> exact ⟨_, rfl⟩
  intro name input h
  simp only [env, mapGet] at h
  split at h
  · rename_i e
    subst e
    cases h
    refine key "authors" authors (by decide) ?_ ?_
    · intro r hr
      simp only [authors, List.mem_cons, List.not_mem_nil, or_false] at hr
      rcases hr with rfl | rfl <;> rfl
    · intro r hr
      simp only [authors, List.mem_cons, List.not_mem_nil, or_false] at hr
      rcases hr with rfl | rfl <;> exact hget _ _
  · split at h
    · rename_i e
      subst e
      cases h
      refine key "books" books (by decide) ?_ ?_
      · intro r hr
        simp only [books, List.mem_cons, List.not_mem_nil, or_false] at hr
        rcases hr with rfl | rfl | rfl | rfl <;> rfl
      · intro r hr
        simp only [books, List.mem_cons, List.not_mem_nil, or_false] at hr
        rcases hr with rfl | rfl | rfl | rfl <;> exact hget _ _
    · cases h
theorem authors_all : ∀ r ∈ authors, ∃ i s, r.all = .ok [("id", .int i), ("name", .str s)] := by
  intro r hr
  simp only [authors, List.mem_cons, List.not_mem_nil, or_false] at hr
  rcases hr with rfl | rfl <;> exact ⟨_, _, rfl⟩
theorem books_all : ∀ r ∈ books, ∃ i s, r.all = .ok [("author", .int i), ("title", .str s)] := by
  intro r hr
  simp only [books, List.mem_cons, List.not_mem_nil, or_false] at hr
  rcases hr with rfl | rfl | rfl | rfl <;> exact ⟨_, _, rfl⟩
theorem suitable (visit : List Nat → {α : Type} → List α → List α) : Suitable world (env visit) (depthOf ofAuthor) "authors" ofAuthor := by
  have hd : depthOf ofAuthor = 2 := by simp [depthOf, Relationship.depth, ofAuthor, ofBook]
  rw [hd]
  refine ⟨by simp [ofAuthor], ?_⟩
  intro name input isArray limit sort ms nested hm
  simp only [ofAuthor, List.mem_singleton, Prod.mk.injEq, Relationship.mk.injEq] at hm
  obtain ⟨rfl, rfl, rfl, rfl, rfl, rfl, rfl⟩ := hm
  refine ⟨⟨_, rfl⟩, by decide, ?_, by simp, ?_, ?_, ?_, by simp [ofBook], ?_⟩
  · intro m hm; rw [List.mem_singleton.mp hm]; exact ⟨_, rfl⟩
  · intro m hm other ho hne
    simp only [ofAuthor, List.map_cons, List.map_nil, List.mem_singleton] at ho
    exact absurd ho hne
  · intro r hr d hd m hm
    obtain ⟨i, s, h⟩ := authors_all r hr
    rw [h] at hd
    cases hd
    rw [List.mem_singleton.mp hm]
    exact ⟨.int i, rfl, trivial⟩
  · intro r hr
    obtain ⟨i, s, h⟩ := books_all r hr
    exact ⟨_, h⟩
  · intro name input isArray limit sort ms nested hm
    simp only [ofBook, List.mem_singleton, Prod.mk.injEq, Relationship.mk.injEq] at hm
    obtain ⟨rfl, rfl, rfl, rfl, rfl, rfl, rfl⟩ := hm
    refine ⟨⟨_, rfl⟩, by decide, ?_, by simp, ?_, ?_, ?_, rfl⟩
    · intro m hm; rw [List.mem_singleton.mp hm]; exact ⟨_, rfl⟩
    · intro m hm other ho hne
      simp only [ofBook, List.map_cons, List.map_nil, List.mem_singleton] at ho
      exact absurd ho hne
    · intro r hr d hd m hm
      obtain ⟨i, s, h⟩ := books_all r hr
      rw [h] at hd
      cases hd
      rw [List.mem_singleton.mp hm]
      exact ⟨.int i, rfl, trivial⟩
    · intro r hr
      obtain ⟨i, s, h⟩ := authors_all r hr
      exact ⟨_, h⟩
end RelExample

/-- Author 1 is shown with the books "z" and "y", each with its author. -/
example : SortContract (RelExample.env (fun _ _ l => l)).sort ∧
    RelExample.world.Behind (RelExample.env (fun _ _ l => l)) ∧
    Suitable RelExample.world (RelExample.env (fun _ _ l => l)) (depthOf RelExample.ofAuthor) "authors" RelExample.ofAuthor ∧
    loadRelationships (RelExample.env (fun _ _ l => l)) (depthOf RelExample.ofAuthor) [] [("id", .int 1), ("name", .str [97])] RelExample.ofAuthor =
      .ok [("id", .int 1), ("name", .str [97]), ("books", .arr [
        .obj [("author", .int 1), ("title", .str [122]), ("by", .obj [("id", .int 1), ("name", .str [97])])],
        .obj [("author", .int 1), ("title", .str [121]), ("by", .obj [("id", .int 1), ("name", .str [97])])]])] :=
  ⟨goInsertionSort_contract, RelExample.behind _ (fun _ _ l => List.Perm.refl l), RelExample.suitable _, rfl⟩

namespace RelExample
def array : ArrayConfig :=
  { input := "authors", limit := { default := 100, max := 1000, parameter := "limit" }, offsetParameter := "offset",
    parameters := [], relationships := ofAuthor }
end RelExample

/-- The list of the authors, for any order of visit. -/
example (visit : List Nat → {α : Type} → List α → List α) (hv : ∀ path α (l : List α), (visit path l).Perm l) :
    ∃ a b, handleArray (RelExample.env (fun _ _ l => l)) RelExample.array [] = .data a ∧
      handleArray (RelExample.env visit) RelExample.array [] = .data b ∧ SameJson a b ∧
      look [.inr 1, .inl "books", .inr 0, .inl "title"] b = some (.scalar (.str [119])) := by
  obtain ⟨a, b, h1, h2, h3⟩ := C49_same_answer_partial (RelExample.env (fun _ _ l => l)) (RelExample.env visit) RelExample.world
    (RelExample.behind _ (fun _ _ l => List.Perm.refl l)) (RelExample.behind visit hv) goInsertionSort_contract ⟨rfl, fun _ => rfl, fun _ => rfl, fun _ => rfl⟩
    RelExample.array [] _ rfl (RelExample.suitable _)
    (fun r hr => let ⟨_, _, h⟩ := RelExample.authors_all r hr; ⟨_, h⟩) [] trivial ⟨by simp, by simp, by simp⟩ 100 0
    (.inl ⟨rfl, rfl⟩) (.inl ⟨rfl, rfl⟩) (by decide)
  refine ⟨a, b, h1, h2, h3, ?_⟩
  rw [← h3]
  cases h1
  rfl

/-- **C48** is false of the code for huge limits: a limit of 2^63 makes the request panic. -/
theorem C48_false : ∃ (relationships : List (String × Relationship)) (data : GoMap Value) (e : String),
    relationships = [("books", .mk "books" true (2^63) [] [{ parentProperty := "id", childProperty := "author", childIndex := "default" }] [])] ∧
    data = [("id", .int 1), ("name", .str [97])] ∧
    loadRelationships (RelExample.env (fun _ _ l => l)) (depthOf relationships) [] data relationships = .error (.panic e) :=
  ⟨_, _, _, rfl, rfl, rfl⟩

/-- **C49** is false of the code: here the relationship "copy" is matched by the property "id", which the relationship named
"id" overwrites. One order of visit shows the related book, the other one shows null. -/
theorem C49_false : ∃ (relationships : List (String × Relationship)) (data : GoMap Value), (relationships.map (·.1)).Nodup ∧
    (∃ r ∈ RelExample.world.records "authors", r.all = .ok data) ∧
    ∃ a b, loadRelationships (RelExample.env (fun _ _ l => l)) (depthOf relationships) [] data relationships = .ok a ∧
      loadRelationships (RelExample.env (fun _ _ l => l.reverse)) (depthOf relationships) [] data relationships = .ok b ∧
      ¬ SameJson (.obj a) (.obj b) := by
  refine ⟨[("copy", .mk "books" false 0 [] [{ parentProperty := "id", childProperty := "author", childIndex := "default" }] []),
    ("id", .mk "books" false 0 [] [{ parentProperty := "name", childProperty := "title", childIndex := "default" }] [])],
    [("id", .int 1), ("name", .str [97])], by simp, ⟨_, List.mem_cons_self, rfl⟩, _, _, rfl, rfl, ?_⟩
  intro h
  have : some Shape.object = some (Shape.scalar .null) := h [.inl "copy"]
  cases this

end Rodb
