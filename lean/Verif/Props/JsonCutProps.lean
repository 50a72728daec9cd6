import Verif.Proofs.JsonCut
import Verif.Props.JsonTextProps
/-
  C104: a JSON file that ends too early is not read as if it were complete.
-/
namespace Rodb
open Spec

/-- **C104** A JSON file of objects that is cut anywhere. A scan gives the records of the `k` objects that are complete, the same as a scan of the whole file begins with; then it ends, if the file is
cut between two objects (what is left is the file of the first `k` objects), and gives an error if it is cut inside of an object. -/
theorem C104_json_cut (parseFloat : Bytes → Res GoFloat) (docs : List (GoMap Value)) (part rest : Bytes)
    (hfile : JsonFile JsonChar (ReadNumber parseFloat) (docs.map .obj) (part ++ rest)) (hnested : ∀ m ∈ docs, Nested 10000 (.obj m)) :
    ∃ (k : Nat) (records : List Rec), k ≤ docs.length ∧ records.length = k ∧ (∃ others, jsonScan (jsonDecoder parseFloat) (part ++ rest) = .ok (records.map .ok ++ others)) ∧
      ((JsonFile JsonChar (ReadNumber parseFloat) ((docs.take k).map .obj) part ∧ jsonScan (jsonDecoder parseFloat) part = .ok (records.map .ok)) ∨
       (∃ before p q m, part = before ++ p ∧ p ≠ [] ∧ q ≠ [] ∧ JsonFile JsonChar (ReadNumber parseFloat) ((docs.take k).map .obj) before ∧ docs[k]? = some m ∧
          JsonText JsonChar (ReadNumber parseFloat) (.obj m) (p ++ q)) ∧
        jsonScan (jsonDecoder parseFloat) part = .ok (records.map .ok ++ [.error (.err "Cannot read json data")])) := by
  obtain ⟨k, hk, h⟩ := jsonFile_cut hfile part rest rfl
  rw [List.length_map] at hk
  have hn : ∀ m ∈ docs.take k, Nested 10000 (.obj m) := fun m hm => hnested m (List.mem_of_mem_take hm)
  have scanned : ∀ {L : List (Nat × GoMap Value)} {content tail : Bytes}, JsonDocs (jsonDecoder parseFloat) 0 content L tail →
      ∃ others, jsonScan (jsonDecoder parseFloat) content = .ok ((L.map (fun x => jsonRecord x.2 x.1)).map .ok ++ others) := by
    intro L content tail hL
    obtain ⟨q, fuel, _, _, e3⟩ := jsonRecords_docs hL rfl (content.length + 1) (by omega)
    exact ⟨_, by rw [jsonScan, e3, List.map_map]; rfl⟩
  rw [← List.map_take] at h
  rcases h with h | ⟨before, p, q, v, rfl, h1, h2, h3, h4, h5⟩
  · obtain ⟨L, blank, g1, g2, g3⟩ := jsonFile_docs_then h hn 0
    refine ⟨k, L.map (fun x => jsonRecord x.2 x.1), hk, by simp [g1, Nat.min_eq_left hk], scanned (g3 rest), .inl ⟨h, ?_⟩⟩
    have := (C40_json_scan_all_documents _ _ L blank (by simpa using g3 []) g2).1
    rw [this, List.map_map]
    rfl
  · obtain ⟨L, blank, g1, g2, g3⟩ := jsonFile_docs_then h3 hn 0
    rw [List.getElem?_map] at h4
    cases hm : docs[k]? with
    | none => rw [hm] at h4; cases h4
    | some m =>
      rw [hm] at h4
      cases h4
      refine ⟨k, L.map (fun x => jsonRecord x.2 x.1), hk, by simp [g1, Nat.min_eq_left hk], scanned (by rw [List.append_assoc]; exact g3 _), .inr ⟨⟨before, p, q, m, rfl, h1, h2, h3, hm, h5⟩, ?_⟩⟩
      obtain ⟨n, hb⟩ := jsonDecoder_cut h5 h1 h2
      obtain ⟨b, p, rfl⟩ := List.exists_cons_of_ne_nil h1
      obtain ⟨r, hr⟩ := obj_head h5
      simp only [List.cons_append, List.cons.injEq] at hr
      obtain ⟨rfl, rfl⟩ := hr
      have := C40_json_malformed_reported _ _ L _ (g3 (123 :: p)) ⟨blank, 123, p, rfl, g2, by decide, by decide, by decide, by rw [hb]⟩
      rw [this, List.map_map]
      rfl

/-! ### Examples -/

namespace JsonCutExample
open JsonExample

/-- The file `{"a":"}"} {"a":[7]}`. -/
def first : Bytes := [123, 34, 97, 34, 58, 34, 125, 34, 125]
def second : Bytes := [123, 34, 97, 34, 58, 91, 55, 93, 125]

theorem first_text : JsonText JsonChar (ReadNumber JsonExample.parse) (.obj [("a", .str (utf8 ['}']))]) first := by
  have a : JsonString JsonChar ("a" : String).toList [34, 97, 34] := ⟨[97], .cons (t := [97]) (.plain (c := 'a') (by decide) (by decide) (by decide)) .nil, rfl⟩
  have b : JsonString JsonChar ['}'] [34, 125, 34] := ⟨[125], .cons (t := [125]) (.plain (c := '}') (by decide) (by decide) (by decide)) .nil, rfl⟩
  exact .members (.last (s := []) (s' := []) (s'' := []) (s''' := []) no_spaces a no_spaces no_spaces (.string b) no_spaces)

theorem second_text : JsonText JsonChar (ReadNumber JsonExample.parse) (.obj [("a", .arr [.float (.fin 7)])]) second := by
  have a : JsonString JsonChar ("a" : String).toList [34, 97, 34] := ⟨[97], .cons (t := [97]) (.plain (c := 'a') (by decide) (by decide) (by decide)) .nil, rfl⟩
  have n : JsonNumber [55] := ⟨[], [55], [], [], rfl, .inl rfl, .inr ⟨⟨by simp, by decide⟩, by simp⟩, .inl rfl, .inl rfl⟩
  exact .members (.last (s := []) (s' := []) (s'' := []) (s''' := []) no_spaces a no_spaces no_spaces
    (.elements (.last (s := []) (t := [55]) (s' := []) no_spaces (.number n ⟨_, rfl, rfl⟩) no_spaces)) no_spaces)

theorem file : JsonFile JsonChar (ReadNumber JsonExample.parse) ([[("a", .str (utf8 ['}']))], [("a", .arr [.float (.fin 7)])]].map .obj) (first ++ 32 :: second) := by
  have := JsonFile.doc (s := []) no_spaces first_text (.doc (s := [32]) (by intro b hb; simp at hb; simp [hb]) second_text (.done no_spaces))
  simpa using this

end JsonCutExample

open JsonCutExample JsonExample in
/-- Cut after the first brace in the string: an error, and no record. Cut in the second object: the first record and an error. Cut between the objects: the first record. -/
example : jsonScan (jsonDecoder JsonExample.parse) (first.take 7) = .ok [.error (.err "Cannot read json data")] ∧
    jsonScan (jsonDecoder JsonExample.parse) (first ++ 32 :: second.take 8) = .ok [.ok (jsonRecord [("a", .str [125])] 0), .error (.err "Cannot read json data")] ∧
    jsonScan (jsonDecoder JsonExample.parse) (first ++ [32]) = .ok [.ok (jsonRecord [("a", .str [125])] 0)] := ⟨by rfl, by rfl, by rfl⟩

open JsonCutExample JsonExample in
/-- The hypotheses hold of this file, cut in its second object. -/
example : JsonFile JsonChar (ReadNumber JsonExample.parse) ([[("a", .str (utf8 ['}']))], [("a", .arr [.float (.fin 7)])]].map .obj) ((first ++ 32 :: second.take 8) ++ second.drop 8) ∧
    ∀ m ∈ ([[("a", .str (utf8 ['}']))], [("a", .arr [.float (.fin 7)])]] : List (GoMap Value)), Nested 10000 (.obj m) := by
  refine ⟨file, fun m hm => ?_⟩
  simp only [List.mem_cons, List.not_mem_nil, or_false] at hm
  rcases hm with rfl | rfl
  · refine .obj fun k v h => ?_
    simp only [List.mem_cons, Prod.mk.injEq, List.not_mem_nil, or_false] at h
    rw [h.2]; exact .str
  · refine .obj fun k v h => ?_
    simp only [List.mem_cons, Prod.mk.injEq, List.not_mem_nil, or_false] at h
    rw [h.2]
    refine .arr fun v h => ?_
    rw [List.mem_singleton.1 h]; exact .float

end Rodb
