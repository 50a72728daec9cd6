import Verif.Props.UnambiguousProps
import Verif.Props.RelationshipProps
/-
  Property C131: the same request gets the same bytes, in whatever order Go visits the maps.
-/
namespace Rodb
open Spec

theorem suitable_same {w : World} {env env' : OutputEnv} (hinputs : ∀ n, mapGet env'.inputs n = mapGet env.inputs n) (hindexes : ∀ n, mapGet env'.indexes n = mapGet env.indexes n) :
    ∀ {depth : Nat} {parent : String} {rels : List (String × Relationship)}, Suitable w env depth parent rels → Suitable w env' depth parent rels
  | 0, _, _, h => h
  | depth + 1, _, _, ⟨h1, h2⟩ => by
    refine ⟨h1, ?_⟩
    intro name input isArray limit sort ms nested hm
    obtain ⟨k1, k2, k3, k4, k5, k6, k7, k8⟩ := h2 name input isArray limit sort ms nested hm
    exact ⟨by simp only [hinputs]; exact k1, k2, by simp only [hindexes]; exact k3, k4, k5, k6, k7, suitable_same hinputs hindexes k8⟩

theorem reads_same {env env' : OutputEnv} (hparsers : ∀ n, mapGet env'.parsers n = mapGet env.parsers n) : ∀ {l : List (ParamConfig × Bytes)} {cs : List Condition}, Reads env l cs → Reads env' l cs
  | [], [], _ => trivial
  | [], _ :: _, h => h
  | _ :: _, [], h => h
  | _ :: _, _ :: _, ⟨h1, h2, h3, h4⟩ => ⟨h1, h2, by simp only [hparsers]; exact h3, reads_same hparsers h4⟩

/-- The object of C48 is the same for both orders. -/
theorem handleObject_anyOrder (env env' : OutputEnv) (w : World) (hw : w.Behind env) (hw' : w.Behind env') (hsort : SortContract env.sort)
    (hsame : env'.sort = env.sort ∧ (∀ n, mapGet env'.inputs n = mapGet env.inputs n) ∧ (∀ n, mapGet env'.indexes n = mapGet env.indexes n) ∧ ∀ n, mapGet env'.parsers n = mapGet env.parsers n)
    (c : ObjectConfig) (params : GoMap Bytes) (input : Input) (hin : mapGet env.inputs c.input = some input)
    (hfit : Suitable w env (depthOf c.relationships) c.input c.relationships)
    (hread : ∀ r ∈ w.records c.input, ∃ d, r.all = .ok d)
    (conditions : List Condition) (hreads : Reads env (allParameters c.parameters params) conditions)
    (hans : Answerable env (w.acceptable c.input) conditions) :
    (handleObject env c params = .notFound ∧ handleObject env' c params = .notFound) ∨
    ∃ a b, handleObject env c params = .data a ∧ handleObject env' c params = .data b ∧ SameJson a b := by
  obtain ⟨e1, e2, e3, e4⟩ := hsame
  have h := C48_object_with_relationships env w hw hsort c params input hin hfit hread conditions hreads hans
  have h' := C48_object_with_relationships env' w hw' (by rw [e1]; exact hsort) c params input (by simp only [e2]; exact hin) (suitable_same e2 e3 hfit) hread conditions (reads_same e4 hreads)
    ⟨by simp only [e3]; exact hans.index, hans.acceptable, hans.distinct⟩
  cases hfind : (w.records c.input).find? (fun r => conditions.all (fun k => w.sat c.input k.index k.property k.value r)) with
  | none =>
    rw [hfind] at h h'
    exact .inl ⟨h, h'⟩
  | some r =>
    rw [hfind] at h h'
    obtain ⟨d, shown, h1, h2, h3⟩ := h
    obtain ⟨d', shown', h1', h2', h3'⟩ := h'
    rw [h1] at h1'
    cases h1'
    rw [e1] at h3'
    exact .inr ⟨_, _, h2, h2', fun path => loaded_same path _ _ _ _ _ h3 h3'⟩

/-- **C131** The same list request, in two runs that visit the maps in different orders (the parameters, the filters, the relationships): both send the same bytes. Missing: several parameters on
the same property of the same index (`C131_false`), and relationships that are matched by what a sibling overwrites (`C49_false`). -/
theorem C131_same_list_partial (env env' : OutputEnv) (w : World) (hw : w.Behind env) (hw' : w.Behind env') (hsort : SortContract env.sort)
    (hsame : env'.sort = env.sort ∧ (∀ n, mapGet env'.inputs n = mapGet env.inputs n) ∧ (∀ n, mapGet env'.indexes n = mapGet env.indexes n) ∧ ∀ n, mapGet env'.parsers n = mapGet env.parsers n)
    (hnames : ∀ name input, mapGet env.inputs name = some input → ∀ position r d, input.fetch position = .ok r → r.all = .ok d → DistinctKeys (.obj d))
    (c : ArrayConfig) (params : GoMap Bytes) (input : Input) (hin : mapGet env.inputs c.input = some input)
    (hfit : Suitable w env (depthOf c.relationships) c.input c.relationships)
    (hread : ∀ r ∈ w.records c.input, ∃ d, r.all = .ok d)
    (conditions : List Condition) (hreads : Reads env (givenParameters c.parameters params) conditions)
    (hans : Answerable env (w.acceptable c.input) conditions) (limit offset : Nat) (hlimit : AskedLimit c.limit params limit)
    (hoffset : AskedOffset c.offsetParameter params offset) (hsmall : min limit c.limit.max < 2^63) (formatFloat : Int → Bytes) :
    ∃ a b, handleArray env c params = .data a ∧ handleArray env' c params = .data b ∧ encodeJson formatFloat a = encodeJson formatFloat b := by
  obtain ⟨a, b, ha, hb, h⟩ := C49_same_answer_partial env env' w hw hw' hsort hsame c params input hin hfit hread conditions hreads hans limit offset hlimit hoffset hsmall
  exact ⟨a, b, ha, hb, C84_same_data_same_bytes formatFloat a b h (handleArray_distinct hnames hsort.perm ha)
    (handleArray_distinct (by simp only [hsame.2.1]; exact hnames) (by rw [hsame.1]; exact hsort.perm) hb)⟩

/-- **C131** The same request for one object, in two runs that visit the maps in different orders: both say that there is no such record, or both send the same bytes. Missing: what is missing in
`C131_same_list_partial`. -/
theorem C131_same_object_partial (env env' : OutputEnv) (w : World) (hw : w.Behind env) (hw' : w.Behind env') (hsort : SortContract env.sort)
    (hsame : env'.sort = env.sort ∧ (∀ n, mapGet env'.inputs n = mapGet env.inputs n) ∧ (∀ n, mapGet env'.indexes n = mapGet env.indexes n) ∧ ∀ n, mapGet env'.parsers n = mapGet env.parsers n)
    (hnames : ∀ name input, mapGet env.inputs name = some input → ∀ position r d, input.fetch position = .ok r → r.all = .ok d → DistinctKeys (.obj d))
    (c : ObjectConfig) (params : GoMap Bytes) (input : Input) (hin : mapGet env.inputs c.input = some input)
    (hfit : Suitable w env (depthOf c.relationships) c.input c.relationships)
    (hread : ∀ r ∈ w.records c.input, ∃ d, r.all = .ok d)
    (conditions : List Condition) (hreads : Reads env (allParameters c.parameters params) conditions)
    (hans : Answerable env (w.acceptable c.input) conditions) (formatFloat : Int → Bytes) :
    (handleObject env c params = .notFound ∧ handleObject env' c params = .notFound) ∨
    ∃ a b, handleObject env c params = .data a ∧ handleObject env' c params = .data b ∧ encodeJson formatFloat a = encodeJson formatFloat b := by
  rcases handleObject_anyOrder env env' w hw hw' hsort hsame c params input hin hfit hread conditions hreads hans with h | ⟨a, b, ha, hb, h⟩
  · exact .inl h
  · exact .inr ⟨a, b, ha, hb, C84_same_data_same_bytes formatFloat a b h (handleObject_distinct hnames hsort.perm ha)
      (handleObject_distinct (by simp only [hsame.2.1]; exact hnames) (by rw [hsame.1]; exact hsort.perm) hb)⟩

/-- **C131** is false when two parameters of an output are on the same property of the same index and both are given: the last one that Go visits counts, so that the same request is answered with one
record or with two. -/
theorem C131_false (m : MapIndex) (formatFloat : Int → Bytes) : ∃ (c : ArrayConfig) (params : GoMap Bytes) (a b : Value),
    handleArray (OutputExample.env m (fun _ _ l => l)) c params = .data a ∧ handleArray (OutputExample.env m (fun _ _ l => l.reverse)) c params = .data b ∧
    encodeJson formatFloat a = .ok (utf8 "[{\"n\":2,\"s\":\"a\"}]\n".toList) ∧
    encodeJson formatFloat b = .ok (utf8 "[{\"n\":1,\"s\":\"a\"},{\"n\":1,\"s\":\"b\"}]\n".toList) :=
  ⟨_, _, _, _, (C45_order_dependent m).1, (C45_order_dependent m).2, by rfl, by rfl⟩

theorem RelExample.fetch_all (visit : List Nat → {α : Type} → List α → List α) : ∀ name input, mapGet (RelExample.env visit).inputs name = some input →
    ∀ position r d, input.fetch position = .ok r → r.all = .ok d → DistinctKeys (.obj d) := by
  intro name input hin position r d hr hd
  have hrec : (∃ i s, r.all = .ok [("id", .int i), ("name", .str s)]) ∨ ∃ i s, r.all = .ok [("author", .int i), ("title", .str s)] := by
    have hmem : ∀ records : List Rec, (mkInput name records).fetch position = .ok r → r ∈ records := by
      intro records h
      simp only [mkInput] at h
      split at h
      · rename_i x hx
        cases h
        exact List.mem_of_find?_eq_some hx
      · cases h
    simp only [RelExample.env, mapGet] at hin
    split at hin
    · cases hin; exact .inl (RelExample.authors_all r (hmem _ hr))
    · split at hin
      · cases hin; exact .inr (RelExample.books_all r (hmem _ hr))
      · cases hin
  rcases hrec with ⟨i, s, h⟩ | ⟨i, s, h⟩
  all_goals
    rw [h] at hd
    cases hd
    refine .obj (by simp) (fun k v hm => ?_)
    simp only [List.mem_cons, Prod.mk.injEq, List.not_mem_nil, or_false] at hm
    rcases hm with ⟨_, rfl⟩ | ⟨_, rfl⟩
    · exact .int
    · exact .str

/-- The list of the authors with their books has the same bytes for any order of visit. -/
example (visit : List Nat → {α : Type} → List α → List α) (hv : ∀ path α (l : List α), (visit path l).Perm l) (formatFloat : Int → Bytes) :
    ∃ a b, handleArray (RelExample.env (fun _ _ l => l)) RelExample.array [] = .data a ∧
      handleArray (RelExample.env visit) RelExample.array [] = .data b ∧ encodeJson formatFloat a = encodeJson formatFloat b :=
  C131_same_list_partial (RelExample.env (fun _ _ l => l)) (RelExample.env visit) RelExample.world
    (RelExample.behind _ (fun _ _ l => List.Perm.refl l)) (RelExample.behind visit hv) goInsertionSort_contract ⟨rfl, fun _ => rfl, fun _ => rfl, fun _ => rfl⟩ (RelExample.fetch_all _)
    RelExample.array [] _ rfl (RelExample.suitable _)
    (fun r hr => let ⟨_, _, h⟩ := RelExample.authors_all r hr; ⟨_, h⟩) [] trivial ⟨by simp, by simp, by simp⟩ 100 0
    (.inl ⟨rfl, rfl⟩) (.inl ⟨rfl, rfl⟩) (by decide) formatFloat

end Rodb
