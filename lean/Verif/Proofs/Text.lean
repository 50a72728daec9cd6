import Verif.Model.Parser
import Verif.Spec.Text
namespace Rodb
open Spec

theorem utf8_nil : utf8 [] = [] := rfl
theorem utf8_cons (c : Char) (t : List Char) : utf8 (c :: t) = String.utf8EncodeChar c ++ utf8 t := rfl
theorem utf8_append (a b : List Char) : utf8 (a ++ b) = utf8 a ++ utf8 b := by simp [utf8]

/-! ### UTF-8 -/

theorem enc_prefix {c d : Char} {s : Bytes} (h : String.utf8EncodeChar c <+: String.utf8EncodeChar d ++ s) : c = d := by
  obtain ⟨t, ht⟩ := h
  have h1 := ByteArray.utf8DecodeChar?_utf8EncodeChar_append (b := t.toByteArray) (c := c)
  have h2 := ByteArray.utf8DecodeChar?_utf8EncodeChar_append (b := s.toByteArray) (c := d)
  rw [← List.toByteArray_append] at h1 h2
  rw [ht, h2] at h1
  cases h1
  rfl

theorem enc_cons (c : Char) : ∃ b bs, String.utf8EncodeChar c = b :: bs ∧ b.IsUTF8FirstByte ∧ ∀ x ∈ bs, ¬ x.IsUTF8FirstByte := by
  cases h : String.utf8EncodeChar c with
  | nil => exact absurd h String.utf8EncodeChar_ne_nil
  | cons b bs =>
    refine ⟨b, bs, rfl, ?_, ?_⟩
    · have := (UInt8.isUTF8FirstByte_getElem_utf8EncodeChar (c := c) (i := 0) (hi := by simp [h])).mpr rfl
      simpa [h] using this
    · intro x hx hf
      obtain ⟨i, hi, rfl⟩ := List.getElem_of_mem hx
      have := (UInt8.isUTF8FirstByte_getElem_utf8EncodeChar (c := c) (i := i + 1) (hi := by simp [h]; omega)).mp (by simpa [h] using hf)
      omega

theorem utf8_inj : ∀ {a b : List Char}, utf8 a = utf8 b → a = b := by
  intro a
  induction a with
  | nil =>
    intro b h
    cases b with
    | nil => rfl
    | cons d b =>
      obtain ⟨x, xs, h1, _⟩ := enc_cons d
      rw [utf8_cons, h1] at h
      cases h
  | cons c a ih =>
    intro b h
    cases b with
    | nil =>
      obtain ⟨x, xs, h1, _⟩ := enc_cons c
      rw [utf8_cons, h1] at h
      cases h
    | cons d b =>
      rw [utf8_cons, utf8_cons] at h
      have := enc_prefix (c := c) (d := d) (s := utf8 b) ⟨utf8 a, h⟩
      subst this
      rw [ih (List.append_cancel_left h)]

/-! ### ReplaceAll -/

theorem replaceAux_skip (old new : Bytes) : ∀ (k : Nat) (s : Bytes), replaceAux old new k s = replaceAux old new 0 (s.drop k) := by
  intro k
  induction k with
  | zero => intro s; rfl
  | succ k ih =>
    intro s
    cases s with
    | nil => simp [replaceAux]
    | cons b s => simp only [replaceAux, List.drop_succ_cons]; exact ih s

theorem replaceAux_hit {old new s : Bytes} (hold : old ≠ []) : replaceAux old new 0 (old ++ s) = new ++ replaceAux old new 0 s := by
  cases old with
  | nil => exact absurd rfl hold
  | cons b old =>
    simp only [List.cons_append, replaceAux]
    rw [if_pos (by rw [List.isPrefixOf_iff_prefix]; exact ⟨s, rfl⟩), replaceAux_skip]
    simp

theorem replaceAux_miss {old new s : Bytes} {b : UInt8} (h : ¬ old <+: b :: s) : replaceAux old new 0 (b :: s) = b :: replaceAux old new 0 s := by
  simp only [replaceAux]
  rw [if_neg (by rw [List.isPrefixOf_iff_prefix]; exact h)]

theorem replaceAux_cont {o : UInt8} {old new s : Bytes} : ∀ {l : Bytes}, (∀ x ∈ l, x ≠ o) →
    replaceAux (o :: old) new 0 (l ++ s) = l ++ replaceAux (o :: old) new 0 s := by
  intro l
  induction l with
  | nil => intro _; rfl
  | cons b l ih =>
    intro h
    rw [List.cons_append, replaceAux_miss, ih (fun x hx => h x (List.mem_cons_of_mem _ hx))]
    · rfl
    · rintro ⟨t, ht⟩
      simp only [List.cons_append, List.cons.injEq] at ht
      exact h b List.mem_cons_self ht.1.symm

theorem replaceAll_utf8 (c : Char) (new : List Char) (text : List Char) :
    replaceAll (utf8 text) (String.utf8EncodeChar c) (utf8 new) = utf8 (text.flatMap (fun d => if d = c then new else [d])) := by
  unfold replaceAll
  induction text with
  | nil => simp [utf8, replaceAux]
  | cons d text ih =>
    rw [utf8_cons, List.flatMap_cons, utf8_append]
    by_cases h : d = c
    · subst h
      rw [replaceAux_hit String.utf8EncodeChar_ne_nil, ih, if_pos rfl]
    · rw [if_neg h]
      obtain ⟨b, bs, h1, h2, h3⟩ := enc_cons d
      obtain ⟨o, os, g1, g2, g3⟩ := enc_cons c
      have hp : ¬ String.utf8EncodeChar c <+: b :: (bs ++ utf8 text) := by
        intro hp
        have : String.utf8EncodeChar c <+: String.utf8EncodeChar d ++ utf8 text := by rw [h1]; exact hp
        exact h (enc_prefix this).symm
      rw [h1, List.cons_append, replaceAux_miss hp, g1, replaceAux_cont, ← g1, ih]
      · simp [utf8_cons, utf8_nil, h1]
      · rintro x hx rfl
        exact h3 x hx g2

theorem removeCharacters_utf8 : ∀ (chars text : List Char),
    removeCharacters (utf8 text) chars = utf8 (text.filter (fun c => !chars.contains c)) := by
  intro chars
  induction chars with
  | nil =>
    intro text
    have : text.filter (fun c => !([] : List Char).contains c) = text := by simp
    rw [this]
    rfl
  | cons c chars ih =>
    intro text
    have := replaceAll_utf8 c [] text
    simp only [utf8_nil] at this
    simp only [removeCharacters, this, ih]
    congr 1
    have hf : text.flatMap (fun d => if d = c then [] else [d]) = text.filter (fun d => d ≠ c) := by
      induction text with
      | nil => rfl
      | cons d text ih =>
        rw [List.flatMap_cons, List.filter_cons, ih (replaceAll_utf8 c [] text)]
        by_cases h : d = c <;> simp [h]
    rw [hf, List.filter_filter]
    apply List.filter_congr
    intro x _
    by_cases h : x = c <;> simp [h]

theorem replaceAux_single (o : UInt8) : ∀ s : Bytes, replaceAux [o] [] 0 s = s.filter (fun b => b ≠ o) := by
  intro s
  induction s with
  | nil => rfl
  | cons b s ih =>
    by_cases h : b = o
    · subst h
      have := replaceAux_hit (old := [b]) (new := []) (s := s) (by simp)
      simp only [List.singleton_append, List.nil_append] at this
      rw [this, ih]
      simp
    · rw [replaceAux_miss, ih]
      · simp [h]
      · rintro ⟨t, ht⟩
        simp only [List.singleton_append, List.cons.injEq] at ht
        exact h ht.1.symm

theorem removeCharacters_ascii : ∀ (chars : List Char) (s : Bytes), (∀ c ∈ chars, c.toNat < 128) →
    removeCharacters s chars = s.filter (fun b => !chars.any (fun c => c.toNat == b.toNat)) := by
  intro chars
  induction chars with
  | nil => intro s _; exact (List.filter_eq_self.mpr (by simp)).symm
  | cons c chars ih =>
    intro s h
    have hc : c.toNat < 128 := h c List.mem_cons_self
    have he : String.utf8EncodeChar c = [UInt8.ofNat c.toNat] := by
      have : c.val.toNat ≤ 127 := by have : c.val.toNat = c.toNat := rfl; omega
      unfold String.utf8EncodeChar
      simp only [this, if_true]
      rfl
    simp only [removeCharacters]
    rw [ih _ (fun c' h' => h c' (List.mem_cons_of_mem _ h')), he]
    unfold replaceAll
    rw [replaceAux_single, List.filter_filter]
    apply List.filter_congr
    intro x _
    have hx : (x ≠ UInt8.ofNat c.toNat) ↔ c.toNat ≠ x.toNat := by
      constructor
      · intro h1 h2
        apply h1
        rw [h2]
        simp
      · rintro h1 rfl
        apply h1
        simp only [UInt8.toNat_ofNat']
        omega
    by_cases hh : c.toNat = x.toNat
    · have hx' : x = UInt8.ofNat c.toNat := Classical.byContradiction (fun hne => (hx.mp hne) hh)
      have : decide (x ≠ UInt8.ofNat c.toNat) = false := by simpa using hx'
      rw [this]
      simp [hh]
    · have : decide (x ≠ UInt8.ofNat c.toNat) = true := by simpa using hx.mpr hh
      rw [this]
      simp [hh]

/-! ### Split -/

theorem splitAux_skip (sep : Bytes) : ∀ (k : Nat) (cur s : Bytes), splitAux sep k cur s = splitAux sep 0 cur (s.drop k) := by
  intro k
  induction k with
  | zero => intro _ s; rfl
  | succ k ih =>
    intro cur s
    cases s with
    | nil => simp [splitAux]
    | cons b s => simp only [splitAux, List.drop_succ_cons]; exact ih cur s

theorem splitAux_ne_nil (sep : Bytes) : ∀ (s : Bytes) (k : Nat) (cur : Bytes), splitAux sep k cur s ≠ [] := by
  intro s
  induction s with
  | nil => intro k cur; simp [splitAux]
  | cons b s ih =>
    intro k cur
    cases k with
    | succ k => simp only [splitAux]; exact ih k cur
    | zero =>
      simp only [splitAux]
      split
      · simp
      · exact ih 0 _

theorem intercalate_cons {α : Type} (sep a : List α) {l : List (List α)} (h : l ≠ []) : sep.intercalate (a :: l) = a ++ sep ++ sep.intercalate l := by
  cases l with
  | nil => exact absurd rfl h
  | cons b l => simp [List.intercalate, List.intersperse]

theorem splitAux_isSplit {sep : Bytes} (hsep : sep ≠ []) : ∀ (n : Nat) (s cur : Bytes), s.length ≤ n →
    (∀ i, i < cur.length → ¬ sep <+: (cur.reverse ++ s).drop i) → IsSplit sep (cur.reverse ++ s) (splitAux sep 0 cur s) := by
  have hpos : 0 < sep.length := List.length_pos_iff.mpr hsep
  have hend : ∀ (cur : Bytes), (∀ i, i < cur.length → ¬ sep <+: (cur.reverse ++ []).drop i) → IsSplit sep (cur.reverse ++ []) [cur.reverse] := by
    intro cur h
    rw [List.append_nil] at h ⊢
    refine .last ?_
    rintro ⟨a, b, hab⟩
    have hlen : a.length < cur.length := by
      have := congrArg List.length hab
      simp at this
      omega
    apply h a.length hlen
    refine ⟨b, ?_⟩
    rw [← hab]
    simp
  intro n
  induction n with
  | zero =>
    intro s cur hs h
    have : s = [] := List.length_eq_zero_iff.mp (by omega)
    subst this
    simp only [splitAux]
    exact hend cur h
  | succ n ih =>
    intro s cur hs h
    cases s with
    | nil =>
      simp only [splitAux]
      exact hend cur h
    | cons b s =>
      simp only [splitAux]
      split
      · rename_i hp
        rw [List.isPrefixOf_iff_prefix] at hp
        obtain ⟨t, ht⟩ := hp
        have hdrop : s.drop (sep.length - 1) = t := by
          cases sep with
          | nil => exact absurd rfl hsep
          | cons x sep =>
            simp only [List.cons_append, List.cons.injEq] at ht
            rw [← ht.2]
            simp
        rw [splitAux_skip, hdrop]
        have hlt : t.length ≤ n := by
          have := congrArg List.length ht
          simp at this hs
          omega
        have i1 := ih t [] hlt (by simp)
        rw [← ht, ← List.append_assoc] at h ⊢
        refine .cut ?_ i1
        intro before after he
        rw [List.length_reverse]
        apply Nat.le_of_not_lt
        intro hlt'
        apply h before.length hlt'
        rw [he]
        exact ⟨after, by simp⟩
      · rename_i hp
        rw [List.isPrefixOf_iff_prefix] at hp
        have := ih s (b :: cur) (by simp at hs; omega) (by
          intro i hi
          simp only [List.reverse_cons, List.append_assoc, List.singleton_append]
          by_cases he : i < cur.length
          · exact h i he
          · have : i = cur.length := by simp at hi; omega
            subst this
            rw [List.drop_append_of_le_length (by simp)]
            rw [List.drop_of_length_le (by simp)]
            simpa using hp)
        simpa using this

theorem IsSplit.ne_nil {sep text : Bytes} {pieces : List Bytes} (h : IsSplit sep text pieces) : pieces ≠ [] := by
  cases h <;> simp

theorem IsSplit.join {sep text : Bytes} {pieces : List Bytes} (h : IsSplit sep text pieces) : sep.intercalate pieces = text := by
  induction h with
  | last _ => simp [List.intercalate]
  | cut _ h1 ih => rw [intercalate_cons _ _ (IsSplit.ne_nil h1), ih]

theorem IsSplit.free {sep text : Bytes} {pieces : List Bytes} (hsep : sep ≠ []) (h : IsSplit sep text pieces) :
    ∀ piece ∈ pieces, ¬ sep <:+: piece := by
  have hpos : 0 < sep.length := List.length_pos_iff.mpr hsep
  induction h with
  | last h1 => intro piece hp; rw [List.mem_singleton] at hp; rw [hp]; exact h1
  | @cut p rest ps h1 h2 ih =>
    intro piece hp
    rcases List.mem_cons.mp hp with rfl | hp
    · rintro ⟨a, b, rfl⟩
      have := h1 a (b ++ sep ++ rest) (by simp)
      simp at this
      omega
    · exact ih piece hp

theorem IsSplit.unique {sep text : Bytes} {pieces : List Bytes} (h : IsSplit sep text pieces) :
    ∀ {pieces'}, IsSplit sep text pieces' → pieces = pieces' := by
  induction h with
  | @last text h1 =>
    intro ps h'
    generalize htx : text = t' at h'
    cases h' with
    | last _ => rfl
    | @cut p rest ps' h2 h3 => exact absurd ⟨p, rest, by rw [htx]⟩ h1
  | @cut p rest ps h1 h2 ih =>
    intro ps' h'
    generalize htx : p ++ sep ++ rest = t' at h'
    cases h' with
    | last h3 => exact absurd ⟨p, rest, htx⟩ h3
    | @cut p' rest' ps'' h3 h4 =>
      have l1 := h1 p' rest' htx
      have l2 := h3 p rest htx.symm
      rw [List.append_assoc, List.append_assoc] at htx
      obtain ⟨e1, e2⟩ := List.append_inj htx (by omega)
      rw [List.append_cancel_left_eq] at e2
      subst e1 e2
      rw [ih h4]

/-! ### Numbers -/

theorem decimalValue_snoc (ds : Bytes) (d : UInt8) : decimalValue (ds ++ [d]) = decimalValue ds * 10 + (d.toNat - 48) := by
  simp only [decimalValue, List.reverse_append, List.reverse_cons, List.reverse_nil, List.nil_append, List.foldr_cons,
    List.singleton_append]
  omega

theorem digitsValue_eq (ds : Bytes) : digitsValue ds = decimalValue ds := by
  unfold digitsValue
  have h : ∀ l : Bytes, l.reverse.foldl (fun n d => n * 10 + (d.toNat - 48)) 0 = decimalValue l.reverse := by
    intro l
    induction l with
    | nil => rfl
    | cons d l ih => rw [List.reverse_cons, List.foldl_append, decimalValue_snoc, ih]; rfl
  have := h ds.reverse
  simpa using this

theorem all_digits_iff (ds : Bytes) : ds.all isDigit = true ↔ ∀ d ∈ ds, 48 ≤ d.toNat ∧ d.toNat ≤ 57 := by
  simp [List.all_eq_true, isDigit]

theorem atoi_iff (s : Bytes) (i : Int) : atoi s = some i ↔ IntegerText s i := by
  have hcore : ∀ (ds : Bytes) (neg : Bool), ((if ds = [] then none
      else if !ds.all isDigit then none
      else if neg then (if digitsValue ds ≤ 2^63 then some (-(digitsValue ds : Int)) else none)
      else (if digitsValue ds < 2^63 then some (digitsValue ds : Int) else none)) = some i) ↔
      (IsDigits ds ∧ Int64Range i ∧ i = if neg then -(decimalValue ds : Int) else decimalValue ds) := by
    intro ds neg
    rw [digitsValue_eq]
    unfold IsDigits
    rw [← all_digits_iff]
    by_cases h1 : ds = []
    · simp [h1]
    · rw [if_neg h1]
      by_cases h2 : ds.all isDigit = true
      · simp only [h2, Bool.not_true, Bool.false_eq_true, if_false, ne_eq, h1, not_false_eq_true, and_self, true_and]
        cases neg with
        | true =>
          simp only [if_true]
          unfold Int64Range
          split
          · simp only [Option.some.injEq]; omega
          · simp only [reduceCtorEq, false_iff]; omega
        | false =>
          simp only [Bool.false_eq_true, if_false]
          unfold Int64Range
          split
          · simp only [Option.some.injEq]; omega
          · simp only [reduceCtorEq, false_iff]; omega
      · simp [h2]
  have hd : ∀ {x : UInt8} {ds : Bytes}, IsDigits (x :: ds) → x ≠ 43 ∧ x ≠ 45 := by
    intro x ds h
    have := h.2 x List.mem_cons_self
    constructor <;> (rintro rfl; simp at this)
  unfold atoi
  cases s with
  | nil =>
    simp only [List.head?_nil, IntegerText]
    constructor
    · intro h; simp at h
    · rintro ⟨_, ds, h1, ⟨rfl | h2, _⟩ | ⟨h2, _⟩⟩
      · exact absurd rfl h1.1
      · cases h2
      · cases h2
  | cons x s =>
    simp only [List.head?_cons, List.tail_cons]
    by_cases h45 : x = 45
    · subst h45
      have e1 : (some (45 : UInt8) == some 45) = true := by decide
      simp only [e1, Bool.true_or, if_true]
      have := hcore s true
      simp only [if_true] at this
      rw [this]
      unfold IntegerText
      constructor
      · rintro ⟨g1, g2, g3⟩
        exact ⟨g2, s, g1, Or.inr ⟨rfl, g3⟩⟩
      · rintro ⟨g2, ds, g1, ⟨rfl | h2, _⟩ | ⟨h2, g3⟩⟩
        · exact absurd rfl (hd g1).2
        · cases h2
        · cases h2; exact ⟨g1, g2, g3⟩
    · by_cases h43 : x = 43
      · subst h43
        have e1 : (some (43 : UInt8) == some 45) = false := by decide
        have e2 : (some (43 : UInt8) == some 43) = true := by decide
        simp only [e1, e2, Bool.or_true, if_true]
        have := hcore s false
        simp only [Bool.false_eq_true, if_false] at this ⊢
        rw [this]
        unfold IntegerText
        constructor
        · rintro ⟨g1, g2, g3⟩
          exact ⟨g2, s, g1, Or.inl ⟨Or.inr rfl, g3⟩⟩
        · rintro ⟨g2, ds, g1, ⟨rfl | h2, g3⟩ | ⟨h2, g3⟩⟩
          · exact absurd rfl (hd g1).1
          · cases h2; exact ⟨g1, g2, g3⟩
          · cases h2
      · have e1 : (some x == some (45 : UInt8)) = false := by simpa using h45
        have e2 : (some x == some (43 : UInt8)) = false := by simpa using h43
        simp only [e1, e2, Bool.or_false, Bool.false_eq_true, if_false]
        have := hcore (x :: s) false
        simp only [Bool.false_eq_true, if_false] at this
        rw [this]
        unfold IntegerText
        constructor
        · rintro ⟨g1, g2, g3⟩
          exact ⟨g2, x :: s, g1, Or.inl ⟨Or.inl rfl, g3⟩⟩
        · rintro ⟨g2, ds, g1, ⟨rfl | h2, g3⟩ | ⟨h2, g3⟩⟩
          · exact ⟨g1, g2, g3⟩
          · cases h2; exact absurd rfl h43
          · cases h2; exact absurd rfl h45

theorem natText_spec (n : Nat) : IsDigits (natText n) ∧ decimalValue (natText n) = n := by
  induction n using Nat.strongRecOn with
  | ind n ih =>
    unfold natText
    by_cases h : n < 10
    · rw [dif_pos h]
      have : (UInt8.ofNat (48 + n)).toNat = 48 + n := by simp; omega
      refine ⟨⟨by simp, ?_⟩, ?_⟩
      · intro d hd
        simp only [List.mem_singleton] at hd
        rw [hd, this]; omega
      · simp [decimalValue]; omega
    · rw [dif_neg h]
      obtain ⟨h1, h2⟩ := ih (n / 10) (by omega)
      have : (UInt8.ofNat (48 + n % 10)).toNat = 48 + n % 10 := by simp; omega
      refine ⟨⟨by simp, ?_⟩, ?_⟩
      · intro d hd
        rcases List.mem_append.mp hd with hd | hd
        · exact h1.2 d hd
        · simp only [List.mem_singleton] at hd
          rw [hd, this]; omega
      · rw [decimalValue_snoc, h2, this]; omega

theorem intText_spec (i : Int) (h : Int64Range i) : IntegerText (intText i) i := by
  refine ⟨h, natText i.natAbs, (natText_spec _).1, ?_⟩
  unfold intText
  by_cases hi : i < 0
  · rw [if_pos hi]
    refine Or.inr ⟨rfl, ?_⟩
    rw [(natText_spec _).2]; omega
  · rw [if_neg hi]
    refine Or.inl ⟨Or.inl rfl, ?_⟩
    rw [(natText_spec _).2]; omega

theorem isInArray_iff (v : Bytes) : ∀ l, isInArray v l = true ↔ v ∈ l := by
  intro l
  induction l with
  | nil => simp [isInArray]
  | cons e l ih =>
    simp only [isInArray]
    by_cases h : e = v
    · simp [h]
    · simp only [h, if_false, ih, List.mem_cons]
      constructor
      · exact Or.inr
      · rintro (h1 | h1)
        · exact absurd h1.symm h
        · exact h1

end Rodb
