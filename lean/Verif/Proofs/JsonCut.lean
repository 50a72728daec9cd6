import Verif.Proofs.JsonFiles
import Verif.Proofs.XmlWritten
/-
  The start of a JSON text of an object is not a JSON text.
-/
namespace Rodb
open Spec

/-! ### Brackets -/

/-- Where a byte of a JSON text is: outside of the strings, in a string, or in a string after a backslash. -/
inductive JsonPlace where
  | outside
  | string
  | escaped
  deriving DecidableEq

/-- How a byte changes the place and the number of the open brackets and braces. -/
def bracketStep : JsonPlace × Nat → UInt8 → JsonPlace × Nat
  | (.outside, d), b =>
    if b = 34 then (.string, d)
    else if b = 123 ∨ b = 91 then (.outside, d + 1)
    else if b = 125 ∨ b = 93 then (.outside, d - 1)
    else (.outside, d)
  | (.string, d), b => if b = 34 then (.outside, d) else if b = 92 then (.escaped, d) else (.string, d)
  | (.escaped, d), _ => (.string, d)

/-- The same for all the bytes of a text. -/
def brackets : JsonPlace × Nat → Bytes → JsonPlace × Nat
  | s, [] => s
  | s, b :: t => brackets (bracketStep s b) t

theorem brackets_append : ∀ (s : JsonPlace × Nat) (t u : Bytes), brackets s (t ++ u) = brackets (brackets s t) u
  | _, [], _ => rfl
  | s, b :: t, u => brackets_append (bracketStep s b) t u

/-- All the brackets of the text are closed in it, and no others. -/
def Balanced (t : Bytes) : Prop := ∀ d, brackets (.outside, d) t = (.outside, d) ∧ ∀ p q, t = p ++ q → d ≤ (brackets (.outside, d) p).2

theorem prefix_append {α : Type} {t u p q : List α} (h : t ++ u = p ++ q) : (∃ r, t = p ++ r ∧ q = r ++ u) ∨ ∃ r, p = t ++ r ∧ u = r ++ q := by
  rcases List.append_eq_append_iff.1 h with ⟨r, h1, h2⟩ | ⟨r, h1, h2⟩
  · exact .inr ⟨r, h1, h2⟩
  · exact .inl ⟨r, h1, h2⟩

theorem Balanced.nil : Balanced [] := fun d => ⟨rfl, fun p q h => by simp [show p = [] from by simpa using (List.append_eq_nil_iff.1 h.symm).1, brackets]⟩

theorem Balanced.append {t u : Bytes} (ht : Balanced t) (hu : Balanced u) : Balanced (t ++ u) := by
  intro d
  refine ⟨by rw [brackets_append, (ht d).1, (hu d).1], ?_⟩
  intro p q h
  rcases prefix_append h with ⟨r, h1, _⟩ | ⟨r, rfl, h2⟩
  · exact (ht d).2 p r h1
  · rw [brackets_append, (ht d).1]
    exact (hu d).2 r q h2

theorem Balanced.plain {t : Bytes} (h : ∀ b ∈ t, b ≠ 34 ∧ b ≠ 123 ∧ b ≠ 91 ∧ b ≠ 125 ∧ b ≠ 93) : Balanced t := by
  have key : ∀ {p : Bytes}, (∀ b ∈ p, b ≠ 34 ∧ b ≠ 123 ∧ b ≠ 91 ∧ b ≠ 125 ∧ b ≠ 93) → ∀ d, brackets (.outside, d) p = (.outside, d) := by
    intro p hp d
    induction p with
    | nil => rfl
    | cons b p ih =>
      have := hp b (.head _)
      have hs : bracketStep (.outside, d) b = (.outside, d) := by
        simp only [bracketStep]
        rw [if_neg this.1, if_neg (by simp [this]), if_neg (by simp [this])]
      rw [brackets, hs]
      exact ih (fun b hb => hp b (.tail _ hb))
  intro d
  refine ⟨key h d, ?_⟩
  rintro p q rfl
  rw [key (fun b hb => h b (List.mem_append_left _ hb)) d]
  exact Nat.le_refl _

theorem Balanced.spaces {t : Bytes} (h : Spaces t) : Balanced t := .plain fun b hb => by
  rcases h b hb with rfl | rfl | rfl | rfl <;> decide

/-- A bracket around a text: it is closed by its last byte only. -/
theorem brackets_around {t : Bytes} (h : Balanced t) {o c : UInt8} (ho : o = 123 ∨ o = 91) (hc : c = 125 ∨ c = 93) (d : Nat) :
    brackets (.outside, d) ([o] ++ t ++ [c]) = (.outside, d) ∧ ∀ p q, [o] ++ t ++ [c] = p ++ q → p ≠ [] → q ≠ [] → d + 1 ≤ (brackets (.outside, d) p).2 := by
  have ho' : bracketStep (.outside, d) o = (.outside, d + 1) := by rcases ho with rfl | rfl <;> rfl
  have hc' : bracketStep (.outside, d + 1) c = (.outside, d) := by rcases hc with rfl | rfl <;> rfl
  constructor
  · have h1 : brackets (.outside, d) [o] = (.outside, d + 1) := ho'
    rw [brackets_append, brackets_append, h1, (h (d + 1)).1]
    exact hc'
  · intro p q hpq hp hq
    cases p with
    | nil => exact absurd rfl hp
    | cons b p =>
      simp only [List.cons_append, List.nil_append, List.cons.injEq] at hpq
      obtain ⟨rfl, hpq⟩ := hpq
      rw [brackets, ho']
      rcases prefix_append hpq with ⟨r, h1, _⟩ | ⟨r, rfl, h2⟩
      · exact (h (d + 1)).2 p r h1
      · cases r with
        | nil => rw [List.append_nil]; exact (h (d + 1)).2 t [] (by simp)
        | cons x r =>
          simp only [List.cons_append, List.cons.injEq] at h2
          exact absurd (List.append_eq_nil_iff.1 h2.2.symm).2 hq

theorem Balanced.around {t : Bytes} (h : Balanced t) {o c : UInt8} (ho : o = 123 ∨ o = 91) (hc : c = 125 ∨ c = 93) : Balanced ([o] ++ t ++ [c]) := by
  intro d
  obtain ⟨h1, h2⟩ := brackets_around h ho hc d
  refine ⟨h1, fun p q hpq => ?_⟩
  by_cases hp : p = []
  · subst hp; exact Nat.le_refl _
  · by_cases hq : q = []
    · subst hq
      rw [List.append_nil] at hpq
      rw [← hpq, h1]
      exact Nat.le_refl _
    · have := h2 p q hpq hp hq
      omega

/-! ### Strings -/

/-- A text inside of a string: neither its end nor a bracket that counts. -/
def Inside (t : Bytes) : Prop := ∀ d, brackets (.string, d) t = (.string, d) ∧ ∀ p q, t = p ++ q → d ≤ (brackets (.string, d) p).2

theorem Inside.nil : Inside [] := fun d => ⟨rfl, fun p q h => by simp [show p = [] from by simpa using (List.append_eq_nil_iff.1 h.symm).1, brackets]⟩

theorem Inside.append {t u : Bytes} (ht : Inside t) (hu : Inside u) : Inside (t ++ u) := by
  intro d
  refine ⟨by rw [brackets_append, (ht d).1, (hu d).1], ?_⟩
  intro p q h
  rcases prefix_append h with ⟨r, h1, _⟩ | ⟨r, rfl, h2⟩
  · exact (ht d).2 p r h1
  · rw [brackets_append, (ht d).1]
    exact (hu d).2 r q h2

theorem Inside.plain {t : Bytes} (h : ∀ b ∈ t, b ≠ 34 ∧ b ≠ 92) : Inside t := by
  have key : ∀ {p : Bytes}, (∀ b ∈ p, b ≠ 34 ∧ b ≠ 92) → ∀ d, brackets (.string, d) p = (.string, d) := by
    intro p hp d
    induction p with
    | nil => rfl
    | cons b p ih =>
      have := hp b (.head _)
      have hs : bracketStep (.string, d) b = (.string, d) := by
        simp only [bracketStep]
        rw [if_neg this.1, if_neg this.2]
      rw [brackets, hs]
      exact ih (fun b hb => hp b (.tail _ hb))
  intro d
  refine ⟨key h d, ?_⟩
  rintro p q rfl
  rw [key (fun b hb => h b (List.mem_append_left _ hb)) d]
  exact Nat.le_refl _

theorem Inside.escape (b : UInt8) : Inside [92, b] := by
  intro d
  refine ⟨rfl, ?_⟩
  intro p q h
  cases p with
  | nil => exact Nat.le_refl _
  | cons x p =>
    simp only [List.cons_append, List.cons.injEq] at h
    obtain ⟨rfl, h⟩ := h
    cases p with
    | nil => exact Nat.le_refl _
    | cons y p =>
      simp only [List.cons_append, List.cons.injEq] at h
      obtain ⟨rfl, h⟩ := h
      rw [(List.append_eq_nil_iff.1 h.symm).1]
      exact Nat.le_refl _

theorem isHex_plain {b : UInt8} {n : Nat} (h : IsHex b n) : b ≠ 34 ∧ b ≠ 92 := by
  constructor <;> rintro rfl <;> rcases h with h | h | h <;> simp at h

theorem Inside.hex {s : Bytes} {n : Nat} (h : IsHex4 s n) : Inside s := by
  obtain ⟨a, b, c, d, x, y, z, t, rfl, ha, hb, hc, hd, _⟩ := h
  refine .plain fun e he => ?_
  simp only [List.mem_cons, List.not_mem_nil, or_false] at he
  rcases he with rfl | rfl | rfl | rfl
  · exact isHex_plain ha
  · exact isHex_plain hb
  · exact isHex_plain hc
  · exact isHex_plain hd

theorem Inside.char {c : Char} {t : Bytes} (h : LenientChar c t) : Inside t := by
  cases h with
  | byte hb =>
    refine .plain fun b' hb' => ?_
    rw [List.mem_singleton.1 hb']
    constructor <;> rintro rfl <;> revert hb <;> decide
  | half hs _ _ => exact (Inside.escape 117).append (.hex hs)
  | valid h =>
    cases h with
    | plain h1 h2 h3 =>
      refine .plain fun b hb => ?_
      by_cases hc : 128 ≤ c.toNat
      · have := utf8EncodeChar_all_high hc b hb
        constructor <;> rintro rfl <;> revert this <;> decide
      · rw [utf8EncodeChar_ascii (by omega), List.mem_singleton] at hb
        have hb' : b.toNat = c.toNat := by rw [hb, UInt8.toNat_ofNat']; omega
        constructor
        · rintro rfl
          exact h2 (Char.ext (UInt32.toNat_inj.1 hb'.symm))
        · rintro rfl
          exact h3 (Char.ext (UInt32.toNat_inj.1 hb'.symm))
    | number h => exact (Inside.escape 117).append (.hex h)
    | pair h1 h2 =>
      have := (((Inside.escape 117).append (.hex h1)).append (Inside.escape 117)).append (.hex h2)
      exact this
    | _ => exact Inside.escape _

theorem Inside.chars {cs : List Char} {t : Bytes} (h : JsonChars LenientChar cs t) : Inside t := by
  induction h with
  | nil => exact .nil
  | cons h _ ih => exact (Inside.char h).append ih

theorem Balanced.string {cs : List Char} {t : Bytes} (h : JsonString LenientChar cs t) : Balanced t := by
  obtain ⟨u, hu, rfl⟩ := h
  have hi := Inside.chars hu
  intro d
  constructor
  · rw [brackets_append, brackets_append, show brackets (.outside, d) [34] = (.string, d) from rfl, (hi d).1]
    rfl
  · intro p q hpq
    cases p with
    | nil => exact Nat.le_refl _
    | cons b p =>
      simp only [List.cons_append, List.nil_append, List.cons.injEq] at hpq
      obtain ⟨rfl, hpq⟩ := hpq
      rw [brackets, show bracketStep (JsonPlace.outside, d) 34 = (.string, d) from rfl]
      rcases prefix_append hpq with ⟨r, h1, _⟩ | ⟨r, rfl, h2⟩
      · exact (hi d).2 p r h1
      · rw [brackets_append, (hi d).1]
        cases r with
        | nil => exact Nat.le_refl _
        | cons x r =>
          simp only [List.cons_append, List.cons.injEq] at h2
          rw [← h2.1, (List.append_eq_nil_iff.1 h2.2.symm).1]
          exact Nat.le_refl _

theorem Balanced.digits {t : Bytes} (h : IsDigits t) : Balanced t := .plain fun b hb => by
  have := h.2 b hb
  refine ⟨?_, ?_, ?_, ?_, ?_⟩ <;> rintro rfl <;> revert this <;> decide

theorem Balanced.number {t : Bytes} (h : JsonNumber t) : Balanced t := by
  obtain ⟨sign, int, fraction, exponent, rfl, hs, hi, hf, he⟩ := h
  refine Balanced.append (.append (.append ?_ ?_) ?_) ?_
  · rcases hs with rfl | rfl
    · exact .nil
    · exact .plain (by decide)
  · rcases hi with rfl | ⟨h, _⟩
    · exact .plain (by decide)
    · exact .digits h
  · rcases hf with rfl | ⟨ds, h, rfl⟩
    · exact .nil
    · exact Balanced.append (t := [46]) (.plain (by decide)) (.digits h)
  · rcases he with rfl | ⟨e, sign, ds, he, hs, h, rfl⟩
    · exact .nil
    · refine Balanced.append (t := e :: sign) (.plain ?_) (.digits h)
      rcases he with rfl | rfl <;> rcases hs with rfl | rfl | rfl <;> decide

mutual
theorem Balanced.text {num : Value → Bytes → Prop} {v : Value} {t : Bytes} : JsonText LenientChar num v t → Balanced t
  | .null => .plain (by decide)
  | .true => .plain (by decide)
  | .false => .plain (by decide)
  | .number h _ => .number h
  | .string h => .string h
  | .noElement h => (Balanced.spaces h).around (.inr rfl) (.inr rfl)
  | .elements h => (Balanced.elements h).around (.inr rfl) (.inr rfl)
  | .noMember h => (Balanced.spaces h).around (.inl rfl) (.inl rfl)
  | .members h => (Balanced.members h).around (.inl rfl) (.inl rfl)

theorem Balanced.elements {num : Value → Bytes → Prop} {l : List Value} {t : Bytes} : JsonElements LenientChar num l t → Balanced t
  | .last h1 h2 h3 => ((Balanced.spaces h1).append (.text h2)).append (.spaces h3)
  | .cons h1 h2 h3 h4 => ((((Balanced.spaces h1).append (.text h2)).append (.spaces h3)).append (.plain (by decide))).append (.elements h4)

theorem Balanced.members {num : Value → Bytes → Prop} {m : GoMap Value} {t : Bytes} : JsonMembers LenientChar num m t → Balanced t
  | .last h1 h2 h3 h4 h5 h6 => ((((((Balanced.spaces h1).append (.string h2)).append (.spaces h3)).append (.plain (by decide))).append (.spaces h4)).append (.text h5)).append (.spaces h6)
  | .cons h1 h2 h3 h4 h5 h6 h7 =>
    ((((((((Balanced.spaces h1).append (.string h2)).append (.spaces h3)).append (.plain (by decide))).append (.spaces h4)).append (.text h5)).append (.spaces h6)).append
      (.plain (by decide))).append (.members h7)
end

/-! ### Objects -/

/-- What is read of an object begins with a brace. -/
theorem object_around {char : Char → Bytes → Prop} {parse : Bytes → Res GoFloat} {v : Value} {t : Bytes} (h : JsonText char (ReadNumber parse) v (123 :: t)) :
    ∃ u, 123 :: t = [123] ++ u ++ [125] ∧ (Spaces u ∨ ∃ m, v = .obj m ∧ JsonMembers char (ReadNumber parse) m u) := by
  generalize hu : 123 :: t = u at h
  cases h with
  | noMember h => exact ⟨_, rfl, .inl h⟩
  | members h => exact ⟨_, rfl, .inr ⟨_, rfl, h⟩⟩
  | number h _ =>
    obtain ⟨b, s, rfl, hb⟩ := number_head h
    simp only [List.cons.injEq] at hu
    rw [← hu.1] at hb
    exact absurd hb (by decide)
  | string h =>
    obtain ⟨s, _, rfl⟩ := h
    simp at hu
  | _ => simp at hu

theorem lenientString {cs : List Char} {t : Bytes} (h : JsonString JsonChar cs t) : JsonString LenientChar cs t := by
  obtain ⟨u, hu, rfl⟩ := h
  refine ⟨u, ?_, rfl⟩
  induction hu with
  | nil => exact .nil
  | cons h _ ih => exact .cons (.valid h) ih

mutual
theorem lenientText {num : Value → Bytes → Prop} {v : Value} {t : Bytes} : JsonText JsonChar num v t → JsonText LenientChar num v t
  | .null => .null
  | .true => .true
  | .false => .false
  | .number h1 h2 => .number h1 h2
  | .string h => .string (lenientString h)
  | .noElement h => .noElement h
  | .elements h => .elements (lenientElements h)
  | .noMember h => .noMember h
  | .members h => .members (lenientMembers h)

theorem lenientElements {num : Value → Bytes → Prop} {l : List Value} {t : Bytes} : JsonElements JsonChar num l t → JsonElements LenientChar num l t
  | .last h1 h2 h3 => .last h1 (lenientText h2) h3
  | .cons h1 h2 h3 h4 => .cons h1 (lenientText h2) h3 (lenientElements h4)

theorem lenientMembers {num : Value → Bytes → Prop} {m : GoMap Value} {t : Bytes} : JsonMembers JsonChar num m t → JsonMembers LenientChar num m t
  | .last h1 h2 h3 h4 h5 h6 => .last h1 (lenientString h2) h3 h4 (lenientText h5) h6
  | .cons h1 h2 h3 h4 h5 h6 h7 => .cons h1 (lenientString h2) h3 h4 (lenientText h5) h6 (lenientMembers h7)
end

/-- The start of the text of an object is not read. -/
theorem jsonDecoder_cut {parse : Bytes → Res GoFloat} {m : GoMap Value} {p q : Bytes} (h : JsonText JsonChar (ReadNumber parse) (.obj m) (p ++ q)) (hp : p ≠ []) (hq : q ≠ []) :
    ∃ n, jsonDecoder parse p = (.bad, n) := by
  obtain ⟨b, p, rfl⟩ := List.exists_cons_of_ne_nil hp
  obtain ⟨r, hr⟩ := obj_head h
  simp only [List.cons_append, List.cons.injEq] at hr
  obtain ⟨rfl, rfl⟩ := hr
  cases hd : jsonDecoder parse (123 :: p) with
  | mk a n =>
    cases a with
    | bad => exact ⟨n, rfl⟩
    | doc data =>
      obtain ⟨sp, t, v, rest, h1, _, h2, h3, _⟩ := jsonDecoder_sound hd
      cases sp with
      | cons c sp =>
        simp only [List.cons_append, List.cons.injEq] at h1
        rw [← h1.1] at h2
        exact absurd (h2 123 (.head _)) (by decide)
      | nil =>
        obtain ⟨c, t, rfl, _⟩ := jsonText_head h3
        simp only [List.nil_append, List.cons_append, List.cons.injEq] at h1
        obtain ⟨rfl, rfl⟩ := h1
        obtain ⟨u, h4, h5⟩ := object_around (by simpa using h)
        have hu : Balanced u := by
          rcases h5 with h5 | ⟨_, _, h5⟩
          · exact .spaces h5
          · exact .members (lenientMembers h5)
        have h6 := (brackets_around hu (.inl rfl) (.inl rfl) 0).2 (123 :: t) (rest ++ q) (by rw [← h4]; simp) (by simp) (by simp [hq])
        rw [(Balanced.text h3 0).1] at h6
        simp at h6

/-! ### Files -/

/-- A file that is cut: between two documents or inside of one. -/
theorem jsonFile_cut {char : Char → Bytes → Prop} {num : Value → Bytes → Prop} {docs : List Value} {content : Bytes} (h : JsonFile char num docs content) : ∀ part rest : Bytes,
    content = part ++ rest → ∃ k, k ≤ docs.length ∧ ((JsonFile char num (docs.take k) part) ∨
      ∃ before p q v, part = before ++ p ∧ p ≠ [] ∧ q ≠ [] ∧ JsonFile char num (docs.take k) before ∧ docs[k]? = some v ∧ JsonText char num v (p ++ q)) := by
  induction h with
  | done hs =>
    rintro part rest rfl
    exact ⟨0, Nat.le_refl _, .inl (.done fun b hb => hs b (List.mem_append_left _ hb))⟩
  | @doc v docs s t tail hs ht hr ih =>
    intro part rest hc0
    rw [List.append_assoc] at hc0
    rcases prefix_append hc0 with ⟨r, rfl, _⟩ | ⟨r, rfl, hc⟩
    · exact ⟨0, Nat.zero_le _, .inl (.done fun b hb => hs b (List.mem_append_left _ hb))⟩
    · rcases prefix_append hc with ⟨r', rfl, _⟩ | ⟨r', rfl, hc'⟩
      · by_cases h1 : r = []
        · subst h1
          exact ⟨0, Nat.zero_le _, .inl (by simpa using JsonFile.done hs)⟩
        · by_cases h2 : r' = []
          · subst h2
            rw [List.append_nil] at ht
            refine ⟨1, by simp, .inl ?_⟩
            have := JsonFile.doc hs ht (.done no_spaces)
            simpa using this
          · exact ⟨0, Nat.zero_le _, .inr ⟨s, r, r', v, rfl, h1, h2, .done hs, rfl, ht⟩⟩
      · obtain ⟨k, hk, h⟩ := ih r' rest hc'
        refine ⟨k + 1, by simpa using hk, ?_⟩
        rcases h with h | ⟨before, p, q, w, rfl, h1, h2, h3, h4, h5⟩
        · exact .inl (by simpa using JsonFile.doc hs ht h)
        · exact .inr ⟨s ++ t ++ before, p, q, w, by simp, h1, h2, .doc hs ht h3, by simpa using h4, h5⟩

/-- The documents of a file are read in the same way whatever follows. -/
theorem jsonFile_docs_then {parse : Bytes → Res GoFloat} : ∀ {docs : List (GoMap Value)} {content : Bytes}, JsonFile JsonChar (ReadNumber parse) (docs.map .obj) content →
    (∀ m ∈ docs, Nested 10000 (.obj m)) → ∀ p : Nat, ∃ (L : List (Nat × GoMap Value)) (blank : Bytes), L.length = docs.length ∧ Blank blank ∧
      ∀ more, JsonDocs (jsonDecoder parse) p (content ++ more) L (blank ++ more)
  | [], _, .done hs, _, p => ⟨[], _, rfl, spaces_isJsonSpace hs, fun _ => .done⟩
  | m :: docs, _, .doc (s := s) (t := t) (rest := rest) hs ht hr, hn, p => by
    obtain ⟨w, h1, h2⟩ := jsonDecoder_text ht (hn m (.head _)) rest
    obtain ⟨L, blank, g1, g2, g3⟩ := jsonFile_docs_then hr (fun m hm => hn m (.tail _ hm)) (p + s.length + t.length)
    refine ⟨(p + s.length, w) :: L, blank, by simp [g1], g2, fun more => ?_⟩
    obtain ⟨w', k1, k2⟩ := jsonDecoder_text ht (hn m (.head _)) (rest ++ more)
    have : w' = w := by
      have := k1.2.2.trans h1.2.2.symm
      injection this
    subst this
    obtain ⟨r, rfl⟩ := obj_head ht
    rw [List.append_assoc]
    exact .doc (spaces_isJsonSpace hs) ⟨_, _, rfl, by decide, by decide, by decide⟩ k2 (g3 more)

end Rodb
