import Verif.Proofs.JsonSound
import Verif.Proofs.JsonSame
import Verif.Props.InputProps
/-
  From JSON texts to the documents of an input, and back.
-/
namespace Rodb
open Spec

/-! ### Writing, then reading -/

theorem readBack_number {fmt : Int → Bytes} {parse : Bytes → Res GoFloat} {v : Value} {t : Bytes} (h : WrittenNumber fmt v t) (hn : AllNumbers (Rereadable fmt parse) v) : ∃ w, ReadBack parse v w ∧ ReadNumber parse w t ∧ ∀ depth, Nested depth w := by
  rcases h with ⟨i, rfl, rfl⟩ | ⟨k, rfl, rfl⟩
  · cases hn with
    | int hn =>
    obtain ⟨f, hf⟩ := hn.1 i rfl
    exact ⟨_, .int hf, ⟨f, rfl, hf⟩, fun _ => .float⟩
  · cases hn with | float hn => exact ⟨_, .float, ⟨_, rfl, hn.2 k rfl⟩, fun _ => .float⟩

mutual
theorem readBack_text {fmt : Int → Bytes} {parse : Bytes → Res GoFloat}
    {v : Value} {t : Bytes} : JsonText JsonChar (WrittenNumber fmt) v t → AllNumbers (Rereadable fmt parse) v →
    ∃ w, ReadBack parse v w ∧ JsonText JsonChar (ReadNumber parse) w t ∧ (∀ depth, Nested depth v → Nested depth w) ∧ (DistinctKeys v → DistinctKeys w)
  | .null, _ => ⟨_, .null, .null, fun _ => id, id⟩
  | .true, _ => ⟨_, .bool, .true, fun _ => id, id⟩
  | .false, _ => ⟨_, .bool, .false, fun _ => id, id⟩
  | .number h1 h2, ha => by
    obtain ⟨w, g1, g2, g3⟩ := readBack_number h2 ha
    refine ⟨w, g1, .number h1 g2, fun depth _ => g3 depth, fun _ => ?_⟩
    obtain ⟨f, rfl, _⟩ := g2
    exact .float
  | .string h, _ => ⟨_, .str, .string h, fun _ => id, id⟩
  | .noElement h, _ => ⟨_, .arr (l := []) (by simp), .noElement h, fun _ => id, id⟩
  | .elements h, ha => by
    cases ha with
    | arr ha =>
    obtain ⟨L, rfl, h1, h2⟩ := readBack_elements h ha
    refine ⟨_, .arr (fun x hx => (h2 x hx).1), .elements h1, ?_, ?_⟩
    · intro depth hn
      cases hn with
      | arr hn =>
      refine .arr fun w hw => ?_
      obtain ⟨x, hx, rfl⟩ := List.mem_map.mp hw
      exact (h2 x hx).2.1 _ (hn _ (List.mem_map_of_mem hx))
    · intro hd
      cases hd with
      | arr hd =>
      refine .arr fun w hw => ?_
      obtain ⟨x, hx, rfl⟩ := List.mem_map.mp hw
      exact (h2 x hx).2.2 (hd _ (List.mem_map_of_mem hx))
  | .noMember h, _ => ⟨_, .obj (m := []) (by simp), .noMember h, fun _ => id, id⟩
  | .members h, ha => by
    cases ha with
    | obj ha =>
    obtain ⟨L, rfl, h1, h2⟩ := readBack_members h ha
    refine ⟨_, .obj (fun x hx => (h2 x hx).1), .members h1, ?_, ?_⟩
    · intro depth hn
      cases hn with
      | obj hn =>
      refine .obj fun k w hw => ?_
      obtain ⟨x, hx, he⟩ := List.mem_map.mp hw
      cases he
      exact (h2 x hx).2.1 _ (hn _ _ (List.mem_map.mpr ⟨x, hx, rfl⟩))
    · intro hd
      cases hd with
      | obj hk hd =>
      refine .obj (by simpa [Function.comp_def] using hk) fun k w hw => ?_
      obtain ⟨x, hx, he⟩ := List.mem_map.mp hw
      cases he
      exact (h2 x hx).2.2 (hd _ _ (List.mem_map.mpr ⟨x, hx, rfl⟩))

theorem readBack_elements {fmt : Int → Bytes} {parse : Bytes → Res GoFloat}
    {l : List Value} {t : Bytes} : JsonElements JsonChar (WrittenNumber fmt) l t → (∀ v ∈ l, AllNumbers (Rereadable fmt parse) v) →
    ∃ L : List (Value × Value), l = L.map (·.1) ∧ JsonElements JsonChar (ReadNumber parse) (L.map (·.2)) t ∧
      ∀ x ∈ L, ReadBack parse x.1 x.2 ∧ (∀ depth, Nested depth x.1 → Nested depth x.2) ∧ (DistinctKeys x.1 → DistinctKeys x.2)
  | .last (v := v) h1 h2 h3, ha => by
    obtain ⟨w, g1, g2, g3⟩ := readBack_text h2 (ha v (by simp))
    exact ⟨[(v, w)], rfl, .last h1 g2 h3, fun x hx => by rw [List.mem_singleton.mp hx]; exact ⟨g1, g3⟩⟩
  | .cons (v := v) h1 h2 h3 h4, ha => by
    obtain ⟨w, g1, g2, g3⟩ := readBack_text h2 (ha v (by simp))
    obtain ⟨L, rfl, k1, k2⟩ := readBack_elements h4 (fun v hv => ha v (.tail _ hv))
    refine ⟨(v, w) :: L, rfl, .cons h1 g2 h3 k1, fun x hx => ?_⟩
    rcases List.mem_cons.mp hx with rfl | hx
    · exact ⟨g1, g3⟩
    · exact k2 x hx

theorem readBack_members {fmt : Int → Bytes} {parse : Bytes → Res GoFloat}
    {m : GoMap Value} {t : Bytes} : JsonMembers JsonChar (WrittenNumber fmt) m t → (∀ k v, (k, v) ∈ m → AllNumbers (Rereadable fmt parse) v) →
    ∃ L : List (String × Value × Value), m = L.map (fun x => (x.1, x.2.1)) ∧ JsonMembers JsonChar (ReadNumber parse) (L.map (fun x => (x.1, x.2.2))) t ∧
      ∀ x ∈ L, ReadBack parse x.2.1 x.2.2 ∧ (∀ depth, Nested depth x.2.1 → Nested depth x.2.2) ∧ (DistinctKeys x.2.1 → DistinctKeys x.2.2)
  | .last (key := key) (v := v) h1 h2 h3 h4 h5 h6, ha => by
    obtain ⟨w, g1, g2, g3⟩ := readBack_text h5 (ha key v (by simp))
    exact ⟨[(key, v, w)], rfl, .last h1 h2 h3 h4 g2 h6, fun x hx => by rw [List.mem_singleton.mp hx]; exact ⟨g1, g3⟩⟩
  | .cons (key := key) (v := v) h1 h2 h3 h4 h5 h6 h7, ha => by
    obtain ⟨w, g1, g2, g3⟩ := readBack_text h5 (ha key v (by simp))
    obtain ⟨L, rfl, k1, k2⟩ := readBack_members h7 (fun k v hv => ha k v (.tail _ hv))
    refine ⟨(key, v, w) :: L, rfl, .cons h1 h2 h3 h4 g2 h6 k1, fun x hx => ?_⟩
    rcases List.mem_cons.mp hx with rfl | hx
    · exact ⟨g1, g3⟩
    · exact k2 x hx
end

/-! ### Whole texts -/

theorem spaces_isJsonSpace {s : Bytes} (h : Spaces s) : ∀ b ∈ s, isJsonSpace b = true := by
  intro b hb
  rcases h b hb with rfl | rfl | rfl | rfl <;> rfl

theorem isJsonSpace_spaces {s : Bytes} (h : ∀ b ∈ s, isJsonSpace b = true) : Spaces s := by
  intro b hb
  have := h b hb
  simp only [isJsonSpace, Bool.or_eq_true, decide_eq_true_eq] at this
  rcases this with ((h | h) | h) | h
  · exact .inl h
  · exact .inr (.inl h)
  · exact .inr (.inr (.inr h))
  · exact .inr (.inr (.inl h))

theorem spaces_stop {s : Bytes} (h : Spaces s) : Rodb.Stops s := by
  rintro b t rfl
  rcases h b (.head _) with rfl | rfl | rfl | rfl <;> decide

theorem unmarshal_text {parse : Bytes → Res GoFloat} {v : Value} {s t s' : Bytes} (h : JsonText JsonChar (ReadNumber parse) v t) (hn : Nested 10000 v)
    (hs : Spaces s) (hs' : Spaces s') : ∃ w, ReadAs v w ∧ unmarshalJson parse (s ++ t ++ s') = .ok w := by
  obtain ⟨w, h1, h2⟩ := (reads_texts parse (2 * (s ++ t ++ s').length + 1)).1 h hn hs (rest := s') (fun _ => spaces_stop hs') (by simp; omega)
  · refine ⟨w, h1, ?_⟩
    unfold unmarshalJson
    rw [h2]
    simp only
    rw [if_pos (List.all_eq_true.mpr (spaces_isJsonSpace hs'))]

theorem unmarshal_sound {parse : Bytes → Res GoFloat} {s : Bytes} {w : Value} (h : unmarshalJson parse s = .ok w) :
    ∃ sp t v sp', s = sp ++ t ++ sp' ∧ Spaces sp ∧ Spaces sp' ∧ JsonText LenientChar (ReadNumber parse) v t ∧ Nested 10000 v ∧ ReadAs v w := by
  unfold unmarshalJson at h
  split at h
  · rename_i v rest hv
    split at h
    · rename_i hr
      cases h
      obtain ⟨sp, t, v, rfl, h1, h2, h3, h4⟩ := (reads_only_texts parse _).1 hv
      exact ⟨sp, t, v, rest, rfl, h1, isJsonSpace_spaces (List.all_eq_true.mp hr), h2, h3, h4⟩
    · cases h
  · cases h

/-! ### Documents -/

theorem jsonDecoder_text {parse : Bytes → Res GoFloat} {m : GoMap Value} {t : Bytes} (h : JsonText JsonChar (ReadNumber parse) (.obj m) t) (hn : Nested 10000 (.obj m)) (rest : Bytes) :
    ∃ w, ReadAs (.obj m) (.obj w) ∧ jsonDecoder parse (t ++ rest) = (.doc w, t.length) := by
  obtain ⟨w, h1, h2⟩ := (reads_texts parse (2 * (t ++ rest).length + 1)).1 h hn no_spaces (rest := rest) (fun h => by obtain ⟨f, h⟩ := h; cases h) (by simp; omega)
  rw [List.nil_append] at h2
  cases h1.1 with
  | @obj _ m' _ _ _ =>
    refine ⟨m', h1, ?_⟩
    unfold jsonDecoder
    rw [h2]
    simp

theorem obj_head {char : Char → Bytes → Prop} {parse : Bytes → Res GoFloat} {m : GoMap Value} {t : Bytes} (h : JsonText char (ReadNumber parse) (.obj m) t) : ∃ r, t = 123 :: r := by
  generalize hv : Value.obj m = v at h
  cases h with
  | noMember _ => exact ⟨_, rfl⟩
  | members _ => exact ⟨_, rfl⟩
  | number _ hnum =>
    obtain ⟨f, rfl, _⟩ := hnum
    cases hv
  | _ => cases hv

theorem jsonFile_docs {parse : Bytes → Res GoFloat} : ∀ {docs : List (GoMap Value)} {content : Bytes}, JsonFile JsonChar (ReadNumber parse) (docs.map .obj) content →
    (∀ m ∈ docs, Nested 10000 (.obj m)) → ∀ p : Nat, ∃ (L : List (GoMap Value × Nat × GoMap Value)) (tail : Bytes), docs = L.map (·.1) ∧
      (∀ x ∈ L, ReadAs (.obj x.1) (.obj x.2.2)) ∧ JsonDocs (jsonDecoder parse) p content (L.map (·.2)) tail ∧ Blank tail
  | [], _, .done hs, _, p => ⟨[], _, rfl, by simp, .done, spaces_isJsonSpace hs⟩
  | m :: docs, _, .doc (s := s) (t := t) (rest := rest) hs ht hr, hn, p => by
    obtain ⟨w, h1, h2⟩ := jsonDecoder_text ht (hn m (.head _)) rest
    obtain ⟨L, tail, rfl, g1, g2, g3⟩ := jsonFile_docs hr (fun m hm => hn m (.tail _ hm)) (p + s.length + t.length)
    obtain ⟨r, rfl⟩ := obj_head ht
    refine ⟨(m, p + s.length, w) :: L, tail, rfl, ?_, .doc (spaces_isJsonSpace hs) ⟨_, _, rfl, by decide, by decide, by decide⟩ h2 g2, g3⟩
    intro x hx
    rcases List.mem_cons.mp hx with rfl | hx
    · exact h1
    · exact g1 x hx

theorem jsonDecoder_sound {parse : Bytes → Res GoFloat} {s : Bytes} {data : GoMap Value} {n : Nat} (h : jsonDecoder parse s = (.doc data, n)) :
    ∃ sp t v rest, s = sp ++ t ++ rest ∧ n = (sp ++ t).length ∧ Spaces sp ∧ JsonText LenientChar (ReadNumber parse) v t ∧ Nested 10000 v ∧
      (ReadAs v (.obj data) ∨ v = .null ∧ data = []) := by
  unfold jsonDecoder at h
  split at h
  · rename_i m rest hv
    simp only [Prod.mk.injEq, JsonRead.doc.injEq] at h
    obtain ⟨rfl, rfl⟩ := h
    obtain ⟨sp, t, v, rfl, h1, h2, h3, h4⟩ := (reads_only_texts parse _).1 hv
    exact ⟨sp, t, v, rest, rfl, by simp; omega, h1, h2, h3, .inl h4⟩
  · rename_i rest hv
    simp only [Prod.mk.injEq, JsonRead.doc.injEq] at h
    obtain ⟨rfl, rfl⟩ := h
    obtain ⟨sp, t, v, rfl, h1, h2, h3, h4⟩ := (reads_only_texts parse _).1 hv
    refine ⟨sp, t, v, rest, rfl, by simp; omega, h1, h2, h3, .inr ⟨?_, rfl⟩⟩
    cases h4.1
    rfl
  · cases h

theorem jsonDecoder_progress {parse : Bytes → Res GoFloat} (bytes : Bytes) (data : GoMap Value) (n : Nat) (h : jsonDecoder parse bytes = (.doc data, n)) :
    1 ≤ n ∧ n ≤ bytes.length := by
  obtain ⟨sp, t, v, rest, rfl, rfl, _, ht, _⟩ := jsonDecoder_sound h
  obtain ⟨b, t', rfl, _⟩ := jsonText_head ht
  simp
  omega

theorem jsonDocs_file {parse : Bytes → Res GoFloat} {p : Nat} {content tail : Bytes} {docs : List (Nat × GoMap Value)} (h : JsonDocs (jsonDecoder parse) p content docs tail) :
    ∃ (L : List (Value × Nat × GoMap Value)) (text : Bytes), docs = L.map (·.2) ∧ content = text ++ tail ∧ JsonFile LenientChar (ReadNumber parse) (L.map (·.1)) text ∧
      ∀ x ∈ L, Nested 10000 x.1 ∧ (ReadAs x.1 (.obj x.2.2) ∨ x.1 = .null ∧ x.2.2 = []) := by
  induction h with
  | done => exact ⟨[], [], rfl, rfl, .done no_spaces, by simp⟩
  | @doc p spaces text rest tail data docs hs _ hd _ ih =>
    obtain ⟨L, u, rfl, hu, g1, g2⟩ := ih
    obtain ⟨sp, t, v, rest', h1, h2, h3, h4, h5, h6⟩ := jsonDecoder_sound hd
    obtain ⟨h7, h8⟩ := List.append_inj h1 h2
    subst h7 hu
    refine ⟨(v, _, data) :: L, (spaces ++ sp) ++ t ++ u, rfl, by simp, .doc ?_ h4 g1, ?_⟩
    · intro b hb
      rcases List.mem_append.mp hb with hb | hb
      · exact isJsonSpace_spaces hs b hb
      · exact h3 b hb
    · intro x hx
      rcases List.mem_cons.mp hx with rfl | hx
      · exact ⟨h5, h6⟩
      · exact g2 x hx

end Rodb
