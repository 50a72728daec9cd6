import Verif.Props.OutputProps
import Verif.Proofs.SameFilter
/-
  C45: several parameters on one property of one index.
-/
namespace Rodb
open Spec

/-- **C45** What the code does with any parameters, also with several on one property of one index: the answer to a list request shows the records that satisfy one of the given
conditions for each property and index, the same one for all the records. (Which one it is depends on the order in which Go visits the parameters: `C45_order_dependent`.) -/
theorem C45_one_for_each (env : OutputEnv) (c : ArrayConfig) (params : GoMap Bytes) (input : Input) (records : List Rec)
    (sat : String → String → Value → Rec → Bool) (acceptable : String → String → Value → Prop)
    (hin : mapGet env.inputs c.input = some input) (hdata : OutputData env input records sat acceptable)
    (conditions : List Condition) (hreads : Reads env (givenParameters c.parameters params) conditions)
    (hindex : ∀ c ∈ conditions, ∃ index, mapGet env.indexes c.index = some index) (hacc : ∀ c ∈ conditions, acceptable c.index c.property c.value)
    (limit offset : Nat) (hlimit : AskedLimit c.limit params limit) (hoffset : AskedOffset c.offsetParameter params offset) (hsmall : min limit c.limit.max < 2^63) :
    ∃ kept, OneForEach conditions kept ∧ ListsRecords env c.relationships (((matching records sat kept).drop offset).take (min limit c.limit.max)) (handleArray env c params) := by
  obtain ⟨kept, filters, its, h0, h1, h2, h3⟩ := array_positions_kept hdata hreads hindex hacc
  refine ⟨kept, h0, ?_⟩
  obtain ⟨st, h4, h5⟩ := skipRows_gives offset its _ h3
  have h6 : (intOfUint (min limit c.limit.max)).toNat = min limit c.limit.max := by
    simp only [intOfUint, if_pos hsmall, Int.toNat_natCast]
  simp only [handleArray, getLimit_spec hlimit, getOffset_spec hoffset, h1, hin, h2, h4, h6]
  rw [readRows_gives _ _ _ _ _ h5, ← List.map_drop, ← List.map_take]
  exact rows_list hdata hin c.relationships (fun r hr => (List.mem_filter.mp (List.mem_of_mem_drop (List.mem_of_mem_take hr))).1)

/-- **C45** Likewise for an object request: the answer is the first record that satisfies one of the conditions for each property and index. -/
theorem C45_object_one_for_each (env : OutputEnv) (c : ObjectConfig) (params : GoMap Bytes) (input : Input) (records : List Rec)
    (sat : String → String → Value → Rec → Bool) (acceptable : String → String → Value → Prop)
    (hin : mapGet env.inputs c.input = some input) (hdata : OutputData env input records sat acceptable)
    (conditions : List Condition) (hreads : Reads env (allParameters c.parameters params) conditions)
    (hindex : ∀ c ∈ conditions, ∃ index, mapGet env.indexes c.index = some index) (hacc : ∀ c ∈ conditions, acceptable c.index c.property c.value) :
    ∃ kept, OneForEach conditions kept ∧
      match records.find? (fun r => kept.all (fun c => sat c.index c.property c.value r)) with
      | none => handleObject env c params = .notFound
      | some r => (∃ item, handleObject env c params = .data (.obj item) ∧ ShowsRecord env c.relationships r (.ok item)) ∨
          ∃ e, handleObject env c params = .error e ∧ ShowsRecord env c.relationships r (.error e) := by
  obtain ⟨kept, filters, its, h0, h1, h2, h3⟩ := object_positions_kept hdata hreads hindex hacc
  refine ⟨kept, h0, ?_⟩
  have hfind : records.find? (fun r => kept.all (fun c => sat c.index c.property c.value r)) = (matching records sat kept).head? := by
    unfold matching
    rw [List.head?_filter]
  rw [hfind]
  cases hm : matching records sat kept with
  | nil =>
    rw [hm] at h3
    obtain ⟨st, g1, _⟩ := Gives.nil h3
    simp only [List.head?_nil, handleObject, h1, hin, h2, g1]
  | cons r rest =>
    rw [hm] at h3
    obtain ⟨st, g1, _⟩ := Gives.cons h3
    simp only [List.head?_cons, handleObject, h1, hin, h2, g1]
    have hr : r ∈ records := (List.mem_filter.mp (show r ∈ matching records sat kept by rw [hm]; exact List.mem_cons_self)).1
    have hs := dataFromPosition_shows hdata hin [4] c.relationships hr
    cases hd : dataFromPosition env [4] c.input c.relationships r.position with
    | error e => rw [hd] at hs; exact .inr ⟨e, rfl, hs⟩
    | ok d => rw [hd] at hs; exact .inl ⟨d, rfl, hs⟩

namespace SameFilterExample
open OutputExample

/-- Two parameters on the number, both for the scan. -/
def parameters : GoMap ParamConfig := [("a", { property := "n", index := "scan", parser := "digit" }), ("b", { property := "n", index := "scan", parser := "digit" })]
def conditions : List Condition := [{ index := "scan", property := "n", value := .int 1 }, { index := "scan", property := "n", value := .int 2 }]

theorem reads (m : MapIndex) (visit : List Nat → {α : Type} → List α → List α) : Reads (env m visit) (givenParameters parameters [("a", [49]), ("b", [50])]) conditions :=
  ⟨rfl, rfl, ⟨_, rfl, rfl⟩, rfl, rfl, ⟨_, rfl, rfl⟩, trivial⟩

theorem all_read (m : MapIndex) (visit : List Nat → {α : Type} → List α → List α) : Reads (env m visit) (allParameters parameters [("a", [49]), ("b", [50])]) conditions :=
  ⟨rfl, rfl, ⟨_, rfl, rfl⟩, rfl, rfl, ⟨_, rfl, rfl⟩, trivial⟩

theorem indexed (m : MapIndex) (visit : List Nat → {α : Type} → List α → List α) : ∀ c ∈ conditions, ∃ index, mapGet (env m visit).indexes c.index = some index := by
  intro c hc
  simp only [conditions, List.mem_cons, List.not_mem_nil, or_false] at hc
  rcases hc with rfl | rfl <;> exact ⟨_, rfl⟩

theorem accepted : ∀ c ∈ conditions, acceptable c.index c.property c.value := by
  intro c hc
  simp only [conditions, List.mem_cons, List.not_mem_nil, or_false] at hc
  rcases hc with rfl | rfl <;> exact ⟨trivial, fun h => absurd h (show ¬ "scan" = "map" by decide)⟩

/-- One of the two is kept. -/
theorem kept_one {kept : List Condition} (h : OneForEach conditions kept) : kept = [{ index := "scan", property := "n", value := .int 1 }] ∨ kept = [{ index := "scan", property := "n", value := .int 2 }] := by
  obtain ⟨h1, h2, h3⟩ := h
  have hmem : ∀ k ∈ kept, k = { index := "scan", property := "n", value := .int 1 } ∨ k = { index := "scan", property := "n", value := .int 2 } := fun k hk => by
    have := h1 k hk
    simpa only [conditions, List.mem_cons, List.not_mem_nil, or_false] using this
  match kept, h2, h3, hmem with
  | [], h2, _, _ =>
    obtain ⟨k, hk, _⟩ := h2 _ (.head _)
    cases hk
  | [k], _, _, hmem =>
    rcases hmem k (.head _) with rfl | rfl
    · exact .inl rfl
    · exact .inr rfl
  | k :: k' :: rest, _, h3, hmem =>
    exfalso
    have : (k.index, k.property) = (k'.index, k'.property) := by
      rcases hmem k (.head _) with rfl | rfl <;> rcases hmem k' (.tail _ (.head _)) with rfl | rfl <;> rfl
    simp only [List.map_cons, List.nodup_cons, List.mem_cons, not_or] at h3
    exact h3.1.1 this

end SameFilterExample

/-- a=1&b=2, both on the number: the answer is that to a=1 or that to b=2, in any order of the parameters. -/
example : ∃ m, newMap OutputExample.cfg OutputExample.input = .ok m ∧
    ∀ visit : List Nat → {α : Type} → List α → List α, (∀ path α (l : List α), (visit path l).Perm l) →
      handleArray (OutputExample.env m visit) { OutputExample.array with parameters := SameFilterExample.parameters } [("a", [49]), ("b", [50])] =
          .data (.arr [.obj [("n", .int 1), ("s", .str [97])], .obj [("n", .int 1), ("s", .str [98])]]) ∨
        handleArray (OutputExample.env m visit) { OutputExample.array with parameters := SameFilterExample.parameters } [("a", [49]), ("b", [50])] =
          .data (.arr [.obj [("n", .int 2), ("s", .str [97])]]) := by
  obtain ⟨m, h1, h2⟩ := OutputExample.data
  refine ⟨m, h1, fun visit hv => ?_⟩
  obtain ⟨kept, hk, hl⟩ := C45_one_for_each (OutputExample.env m visit) { OutputExample.array with parameters := SameFilterExample.parameters } [("a", [49]), ("b", [50])] _ _ _ _
    (show _ = some OutputExample.input from rfl) (h2 visit hv) SameFilterExample.conditions (SameFilterExample.reads m visit) (SameFilterExample.indexed m visit) SameFilterExample.accepted
    _ 0 (.inl ⟨rfl, rfl⟩) (.inl ⟨rfl, rfl⟩) (by decide)
  rcases SameFilterExample.kept_one hk with rfl | rfl
  · exact .inl (lists_plain hl OutputExample.shown (fun r hr => OutputExample.shown_all r (List.mem_filter.1 (List.mem_of_mem_drop (List.mem_of_mem_take hr))).1))
  · exact .inr (lists_plain hl OutputExample.shown (fun r hr => OutputExample.shown_all r (List.mem_filter.1 (List.mem_of_mem_drop (List.mem_of_mem_take hr))).1))

/-- Likewise for the object. -/
example : ∃ m, newMap OutputExample.cfg OutputExample.input = .ok m ∧
    ∀ visit : List Nat → {α : Type} → List α → List α, (∀ path α (l : List α), (visit path l).Perm l) →
      handleObject (OutputExample.env m visit) { OutputExample.object with parameters := SameFilterExample.parameters } [("a", [49]), ("b", [50])] ≠ .notFound := by
  obtain ⟨m, h1, h2⟩ := OutputExample.data
  refine ⟨m, h1, fun visit hv => ?_⟩
  obtain ⟨kept, hk, hl⟩ := C45_object_one_for_each (OutputExample.env m visit) { OutputExample.object with parameters := SameFilterExample.parameters } [("a", [49]), ("b", [50])] _ _ _ _
    (show _ = some OutputExample.input from rfl) (h2 visit hv) SameFilterExample.conditions (SameFilterExample.all_read m visit) (SameFilterExample.indexed m visit) SameFilterExample.accepted
  rcases SameFilterExample.kept_one hk with rfl | rfl
  · rcases hl with ⟨_, e, _⟩ | ⟨_, e, _⟩ <;> rw [e] <;> exact fun h => by cases h
  · rcases hl with ⟨_, e, _⟩ | ⟨_, e, _⟩ <;> rw [e] <;> exact fun h => by cases h

end Rodb
