import Verif.Proofs.JsonWrite
import Verif.Spec.Service
/-
  What is written depends only on what a client can see in the value, and which values can be written.
-/
namespace Rodb
open Spec

/-- The only error of the encoder. -/
abbrev unsupported {α : Type} : Res α := .error (.err "json: unsupported value")

def encodes (fmt : Int → Bytes) (v : Value) : Bool :=
  match encodeValue fmt v with
  | .ok _ => true
  | .error _ => false

def textOf (fmt : Int → Bytes) (v : Value) : Bytes :=
  match encodeValue fmt v with
  | .ok t => t
  | .error _ => []

mutual
theorem encodeValue_cases (fmt : Int → Bytes) : ∀ v, (HasNonFinite v ∧ encodeValue fmt v = unsupported) ∨ (¬ HasNonFinite v ∧ ∃ t, encodeValue fmt v = .ok t)
  | .null => .inr ⟨fun h => (nomatch h), _, rfl⟩
  | .bool true => .inr ⟨fun h => (nomatch h), _, rfl⟩
  | .bool false => .inr ⟨fun h => (nomatch h), _, rfl⟩
  | .int _ => .inr ⟨fun h => (nomatch h), _, rfl⟩
  | .float (.fin _) => .inr ⟨fun h => (nomatch h), _, rfl⟩
  | .float .nan => .inl ⟨.nan, rfl⟩
  | .float .ninf => .inl ⟨.ninf, rfl⟩
  | .float .pinf => .inl ⟨.pinf, rfl⟩
  | .str _ => .inr ⟨fun h => (nomatch h), _, rfl⟩
  | .arr l => by
    rcases encodeElements_cases fmt l with ⟨⟨v, hv, hn⟩, h⟩ | ⟨hn, t, h⟩
    · exact .inl ⟨.arr hv hn, by rw [encodeValue, h]; rfl⟩
    · refine .inr ⟨?_, _, by rw [encodeValue, h]; rfl⟩
      intro hb
      cases hb with
      | arr hv hb => exact hn _ hv hb
  | .obj m => by
    rcases encodeMembers_cases fmt m with ⟨⟨e, he, hn⟩, h⟩ | ⟨hn, t, h⟩
    · exact .inl ⟨.obj (k := e.1) (v := e.2) he hn, by rw [encodeValue, h]; rfl⟩
    · refine .inr ⟨?_, _, by rw [encodeValue, h]; rfl⟩
      intro hb
      cases hb with
      | obj hv hb => exact hn _ hv hb

theorem encodeElements_cases (fmt : Int → Bytes) : ∀ l, ((∃ v ∈ l, HasNonFinite v) ∧ encodeElements fmt l = unsupported) ∨
    ((∀ v ∈ l, ¬ HasNonFinite v) ∧ ∃ ts, encodeElements fmt l = .ok ts)
  | [] => .inr ⟨by simp, _, rfl⟩
  | v :: l => by
    rcases encodeValue_cases fmt v with ⟨hn, h⟩ | ⟨hn, t, h⟩
    · exact .inl ⟨⟨v, by simp, hn⟩, by rw [encodeElements, h]; rfl⟩
    · rcases encodeElements_cases fmt l with ⟨⟨w, hw, hnw⟩, h'⟩ | ⟨hn', t', h'⟩
      · exact .inl ⟨⟨w, by simp [hw], hnw⟩, by rw [encodeElements, h, h']; rfl⟩
      · refine .inr ⟨?_, _, by rw [encodeElements, h, h']; rfl⟩
        intro w hw
        rcases List.mem_cons.mp hw with rfl | hw
        · exact hn
        · exact hn' w hw

theorem encodeMembers_cases (fmt : Int → Bytes) : ∀ m : List (String × Value), ((∃ e ∈ m, HasNonFinite e.2) ∧ encodeMembers fmt m = unsupported) ∨
    ((∀ e ∈ m, ¬ HasNonFinite e.2) ∧ ∃ ts, encodeMembers fmt m = .ok ts)
  | [] => .inr ⟨by simp, _, rfl⟩
  | (k, v) :: m => by
    rcases encodeValue_cases fmt v with ⟨hn, h⟩ | ⟨hn, t, h⟩
    · exact .inl ⟨⟨(k, v), by simp, hn⟩, by rw [encodeMembers, h]; rfl⟩
    · rcases encodeMembers_cases fmt m with ⟨⟨w, hw, hnw⟩, h'⟩ | ⟨hn', t', h'⟩
      · exact .inl ⟨⟨w, by simp [hw], hnw⟩, by rw [encodeMembers, h, h']; rfl⟩
      · refine .inr ⟨?_, _, by rw [encodeMembers, h, h']; rfl⟩
        intro w hw
        rcases List.mem_cons.mp hw with rfl | hw
        · exact hn
        · exact hn' w hw
end

theorem encodeElements_eq (fmt : Int → Bytes) : ∀ l, encodeElements fmt l = if l.all (encodes fmt) then .ok (l.map (textOf fmt)) else unsupported
  | [] => rfl
  | v :: l => by
    rw [encodeElements, encodeElements_eq fmt l]
    simp only [List.all_cons, List.map_cons]
    rcases encodeValue_cases fmt v with ⟨_, h⟩ | ⟨_, t, h⟩
    · have h1 : encodes fmt v = false := by rw [encodes, h]
      rw [h, h1]
      rfl
    · have h1 : encodes fmt v = true := by rw [encodes, h]
      have h2 : textOf fmt v = t := by rw [textOf, h]
      rw [h, h1, h2, Bool.true_and]
      cases hall : l.all (encodes fmt)
      · rfl
      · rfl

theorem encodeMembers_eq (fmt : Int → Bytes) : ∀ m : List (String × Value),
    encodeMembers fmt m = if m.all (fun e => encodes fmt e.2) then .ok (m.map (fun e => (utf8 e.1.toList, textOf fmt e.2))) else unsupported
  | [] => rfl
  | (k, v) :: m => by
    rw [encodeMembers, encodeMembers_eq fmt m]
    simp only [List.all_cons, List.map_cons]
    rcases encodeValue_cases fmt v with ⟨_, h⟩ | ⟨_, t, h⟩
    · have h1 : encodes fmt v = false := by rw [encodes, h]
      rw [h, h1]
      rfl
    · have h1 : encodes fmt v = true := by rw [encodes, h]
      have h2 : textOf fmt v = t := by rw [textOf, h]
      rw [h, h1, h2, Bool.true_and]
      cases hall : m.all (fun e => encodes fmt e.2)
      · rfl
      · rfl

/-! ### Sorting -/

theorem insertMember_comm {a b : Bytes × Bytes} (h : a.1 ≠ b.1) : ∀ l, insertMember a (insertMember b l) = insertMember b (insertMember a l) := by
  have total : a.1 < b.1 ∨ b.1 < a.1 := by
    by_cases h1 : a.1 < b.1
    · exact .inl h1
    · by_cases h2 : b.1 < a.1
      · exact .inr h2
      · exact absurd (List.le_antisymm (List.not_lt.mp h2) (List.not_lt.mp h1)) h
  intro l
  induction l with
  | nil =>
    simp only [insertMember]
    rcases total with h | h
    · rw [if_neg (List.lt_asymm h), if_pos h]
    · rw [if_pos h, if_neg (List.lt_asymm h)]
  | cons e l ih =>
    simp only [insertMember]
    by_cases ha : e.1 < a.1
    · by_cases hb : e.1 < b.1
      · simp only [if_pos ha, if_pos hb, insertMember, ih]
      · have hab : ¬ a.1 < b.1 := fun hab => hb (List.lt_trans ha hab)
        have hba : b.1 < a.1 := total.resolve_left hab
        simp only [if_pos ha, if_neg hb, insertMember, if_pos hba]
    · by_cases hb : e.1 < b.1
      · have hba : ¬ b.1 < a.1 := fun hba => ha (List.lt_trans hb hba)
        have hab : a.1 < b.1 := total.resolve_right hba
        simp only [if_neg ha, if_pos hb, insertMember, if_pos hab]
      · simp only [if_neg ha, if_neg hb, insertMember]
        rcases total with h | h
        · rw [if_neg (List.lt_asymm h), if_pos h]
        · rw [if_pos h, if_neg (List.lt_asymm h)]

theorem sortMembers_eq {l m : List (Bytes × Bytes)} (h : l.Perm m) : (l.map (·.1)).Nodup → sortMembers l = sortMembers m := by
  induction h with
  | nil => intro _; rfl
  | cons x _ ih =>
    intro hn
    simp only [sortMembers, ih (List.nodup_cons.mp hn).2]
  | swap x y l =>
    intro hn
    simp only [sortMembers]
    apply insertMember_comm
    intro he
    simp only [List.map_cons, List.nodup_cons, List.mem_cons, not_or] at hn
    exact hn.1.1 he
  | trans h1 _ ih1 ih2 =>
    intro hn
    rw [ih1 hn, ih2 ((h1.map _).nodup_iff.mp hn)]

/-! ### The same texts -/

theorem look_nil_some (v : Value) : ∃ s, look [] v = some s := by
  cases v <;> exact ⟨_, rfl⟩

theorem same_element {l l' : List Value} (h : SameJson (.arr l) (.arr l')) {i : Nat} (hi : i < l.length) (hi' : i < l'.length) : SameJson l[i] l'[i] := by
  intro path
  have := h (.inr i :: path)
  simpa [look, List.getElem?_eq_getElem hi, List.getElem?_eq_getElem hi'] using this

theorem same_member {m n : GoMap Value} (h : SameJson (.obj m) (.obj n)) {k : String} {v : Value} (hk : mapGet m k = some v) :
    ∃ w, mapGet n k = some w ∧ SameJson v w := by
  cases hn : mapGet n k with
  | none =>
    have := h [.inl k]
    simp only [look, hk, hn, Option.bind_some, Option.bind_none] at this
    obtain ⟨s, hs⟩ := look_nil_some v
    rw [hs] at this
    cases this
  | some w =>
    refine ⟨w, rfl, fun path => ?_⟩
    have := h (.inl k :: path)
    simpa only [look, hk, hn, Option.bind_some] using this

theorem SameJson_symm {v w : Value} (h : SameJson v w) : SameJson w v := fun path => (h path).symm

theorem members_perm {fmt : Int → Bytes} {m n : GoMap Value} (hm : (m.map (·.1)).Nodup) (hn : (n.map (·.1)).Nodup) (h : SameJson (.obj m) (.obj n))
    (ih : ∀ k v w, (k, v) ∈ m → (k, w) ∈ n → SameJson v w → encodeValue fmt v = encodeValue fmt w) :
    (m.map (fun e => (utf8 e.1.toList, textOf fmt e.2))).Perm (n.map (fun e => (utf8 e.1.toList, textOf fmt e.2))) ∧
    ((m.map (fun e => (utf8 e.1.toList, textOf fmt e.2))).map (·.1)).Nodup ∧
    m.all (fun e => encodes fmt e.2) = n.all (fun e => encodes fmt e.2) := by
  have keys : ∀ m : GoMap Value, (m.map (·.1)).Nodup → ((m.map (fun e => (utf8 e.1.toList, textOf fmt e.2))).map (·.1)).Nodup := by
    intro m hm
    rw [List.map_map, List.Nodup, List.pairwise_map]
    rw [List.Nodup, List.pairwise_map] at hm
    exact hm.imp fun hne he => hne (String.toList_inj.mp (utf8_inj he))
  have nodup : ∀ {l : List (Bytes × Bytes)}, (l.map (·.1)).Nodup → l.Nodup := by
    intro l hl
    rw [List.Nodup, List.pairwise_map] at hl
    exact hl.imp fun hne he => hne (by rw [he])
  have fwd : ∀ k v, (k, v) ∈ m → ∃ w, (k, w) ∈ n ∧ encodeValue fmt v = encodeValue fmt w := by
    intro k v hv
    obtain ⟨w, hw, hs⟩ := same_member h (mapGet_nodup_mem hm hv)
    exact ⟨w, mapGet_mem hw, ih k v w hv (mapGet_mem hw) hs⟩
  have bwd : ∀ k w, (k, w) ∈ n → ∃ v, (k, v) ∈ m ∧ encodeValue fmt v = encodeValue fmt w := by
    intro k w hw
    obtain ⟨v, hv, hs⟩ := same_member (SameJson_symm h) (mapGet_nodup_mem hn hw)
    exact ⟨v, mapGet_mem hv, ih k v w (mapGet_mem hv) hw (SameJson_symm hs)⟩
  refine ⟨?_, keys m hm, ?_⟩
  · rw [List.perm_ext_iff_of_nodup (nodup (keys m hm)) (nodup (keys n hn))]
    intro e
    simp only [List.mem_map]
    constructor
    · rintro ⟨⟨k, v⟩, hv, rfl⟩
      obtain ⟨w, hw, he⟩ := fwd k v hv
      exact ⟨(k, w), hw, by simp only [textOf, he]⟩
    · rintro ⟨⟨k, w⟩, hw, rfl⟩
      obtain ⟨v, hv, he⟩ := bwd k w hw
      exact ⟨(k, v), hv, by simp only [textOf, he]⟩
  · rw [Bool.eq_iff_iff, List.all_eq_true, List.all_eq_true]
    constructor
    · rintro ha ⟨k, w⟩ hw
      obtain ⟨v, hv, he⟩ := bwd k w hw
      have := ha (k, v) hv
      simpa only [encodes, he] using this
    · rintro ha ⟨k, v⟩ hv
      obtain ⟨w, hw, he⟩ := fwd k v hv
      have := ha (k, w) hw
      simpa only [encodes, he] using this

theorem encodeValue_same (fmt : Int → Bytes) : ∀ (v w : Value), SameJson v w → DistinctKeys v → DistinctKeys w → encodeValue fmt v = encodeValue fmt w
  | .arr l, w, h, hv, hw => by
    cases w with
    | arr l' =>
      cases hv with
      | arr hv =>
      cases hw with
      | arr hw =>
      have hlen : l.length = l'.length := by
        have := h []
        simpa [look] using this
      have heq : ∀ i (hi : i < l.length) (hi' : i < l'.length), encodeValue fmt l[i] = encodeValue fmt l'[i] := by
        intro i hi hi'
        exact encodeValue_same fmt l[i] l'[i] (same_element h hi hi') (hv _ (List.getElem_mem hi)) (hw _ (List.getElem_mem hi'))
      have h1 : l.map (textOf fmt) = l'.map (textOf fmt) := by
        apply List.ext_getElem (by simpa using hlen)
        intro i hi hi'
        simp only [List.length_map] at hi hi'
        simp only [List.getElem_map, textOf, heq i hi hi']
      have h2 : l.map (encodes fmt) = l'.map (encodes fmt) := by
        apply List.ext_getElem (by simpa using hlen)
        intro i hi hi'
        simp only [List.length_map] at hi hi'
        simp only [List.getElem_map, encodes, heq i hi hi']
      have h3 : l.all (encodes fmt) = l'.all (encodes fmt) := by
        have := congrArg (fun bs => bs.all id) h2
        simpa [List.all_map, Function.comp_def] using this
      rw [encodeValue, encodeValue, encodeElements_eq, encodeElements_eq, h1, h3]
    | null => have := h []; simp [look] at this
    | bool => have := h []; simp [look] at this
    | int => have := h []; simp [look] at this
    | float => have := h []; simp [look] at this
    | str => have := h []; simp [look] at this
    | obj => have := h []; simp [look] at this
  | .obj m, w, h, hv, hw => by
    cases w with
    | obj n =>
      cases hv with
      | obj hmk hv =>
      cases hw with
      | obj hnk hw =>
      obtain ⟨hp, hk, ha⟩ := members_perm (fmt := fmt) hmk hnk h (fun k v w hkv hkw hs => encodeValue_same fmt v w hs (hv k v hkv) (hw k w hkw))
      rw [encodeValue, encodeValue, encodeMembers_eq, encodeMembers_eq, ha]
      split
      · simp only [bind, Except.bind]
        rw [sortMembers_eq hp hk]
      · rfl
    | null => have := h []; simp [look] at this
    | bool => have := h []; simp [look] at this
    | int => have := h []; simp [look] at this
    | float => have := h []; simp [look] at this
    | str => have := h []; simp [look] at this
    | arr => have := h []; simp [look] at this
  | .null, w, h, _, _ => by
    have := h []
    cases w <;> simp [look] at this
    rfl
  | .bool _, w, h, _, _ => by
    have := h []
    cases w <;> simp [look] at this
    rw [this]
  | .int _, w, h, _, _ => by
    have := h []
    cases w <;> simp [look] at this
    rw [this]
  | .float _, w, h, _, _ => by
    have := h []
    cases w <;> simp [look] at this
    rw [this]
  | .str _, w, h, _, _ => by
    have := h []
    cases w <;> simp [look] at this
    rw [this]
termination_by v => sizeOf v
decreasing_by
  · have := List.sizeOf_lt_of_mem (List.getElem_mem hi)
    simp only [Value.arr.sizeOf_spec]
    omega
  · have := List.sizeOf_lt_of_mem hkv
    simp only [Value.obj.sizeOf_spec]
    simp only [Prod.mk.sizeOf_spec] at this
    omega

end Rodb
