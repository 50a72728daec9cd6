import Verif.Proofs.XmlText
import Verif.Proofs.JsonRead
import Verif.Proofs.Files
import Verif.Spec.XmlText
import Verif.Proofs.XmlInput
/-
  The lexer of XML files reads what is written.
-/
namespace Rodb
open Spec

/-! ### Bytes of characters -/

theorem utf8EncodeChar_all_high {c : Char} (h : 128 ≤ c.toNat) : ∀ b ∈ String.utf8EncodeChar c, 128 ≤ b.toNat := by
  have hv : ¬ c.val.toNat ≤ 0x7f := by simp only [Char.toNat] at h; omega
  have hc : c.val.toNat < 1114112 := by
    have := c.valid
    simp only [UInt32.isValidChar, Nat.isValidChar] at this
    omega
  simp only [String.utf8EncodeChar, hv, if_false]
  intro b hb
  split at hb
  · simp only [List.mem_cons, List.not_mem_nil, or_false] at hb
    rcases hb with rfl | rfl <;> (simp only [UInt8.toNat_ofNat']; omega)
  · split at hb
    · simp only [List.mem_cons, List.not_mem_nil, or_false] at hb
      rcases hb with rfl | rfl | rfl <;> (simp only [UInt8.toNat_ofNat']; omega)
    · simp only [List.mem_cons, List.not_mem_nil, or_false] at hb
      rcases hb with rfl | rfl | rfl | rfl <;> (simp only [UInt8.toNat_ofNat']; omega)

theorem utf8_single (c : Char) : utf8 [c] = String.utf8EncodeChar c := by simp [utf8]

theorem utf8_asciiChars : ∀ {cs : List Char}, (∀ c ∈ cs, c.toNat < 128) → utf8 cs = cs.map (fun c => UInt8.ofNat c.toNat)
  | [], _ => rfl
  | c :: cs, h => by
    rw [utf8_cons, utf8EncodeChar_ascii (h c (.head _)), utf8_asciiChars (fun d hd => h d (.tail _ hd))]
    rfl

theorem asciiText_utf8 {s : String} (h : ∀ c ∈ s.toList, c.toNat < 128) : asciiText (utf8 s.toList) = s := by
  rw [asciiText, utf8_asciiChars h, List.map_map]
  have : s.toList.map ((fun b : UInt8 => Char.ofNat b.toNat) ∘ (fun c => UInt8.ofNat c.toNat)) = s.toList.map id := by
    refine List.map_congr_left (fun c hc => ?_)
    have := h c hc
    simp only [Function.comp, UInt8.toNat_ofNat', id]
    rw [Nat.mod_eq_of_lt (by omega), Char.ofNat_toNat]
  rw [this]; simp

/-! ### Names -/

theorem isAlpha_bounds {c : Char} (h : c.isAlpha = true) : (65 ≤ c.toNat ∧ c.toNat ≤ 90) ∨ (97 ≤ c.toNat ∧ c.toNat ≤ 122) := by
  simp only [Char.isAlpha, Char.isUpper, Char.isLower, Bool.or_eq_true, Bool.and_eq_true, decide_eq_true_eq, ge_iff_le, UInt32.le_iff_toNat_le] at h
  simp only [Char.toNat]
  simpa using h

theorem isAlphanum_bounds {c : Char} (h : c.isAlphanum = true) : ((65 ≤ c.toNat ∧ c.toNat ≤ 90) ∨ (97 ≤ c.toNat ∧ c.toNat ≤ 122)) ∨ (48 ≤ c.toNat ∧ c.toNat ≤ 57) := by
  simp only [Char.isAlphanum, Bool.or_eq_true] at h
  rcases h with h | h
  · exact .inl (isAlpha_bounds h)
  · simp only [Char.isDigit, Bool.and_eq_true, decide_eq_true_eq, ge_iff_le, UInt32.le_iff_toNat_le] at h
    right; simp only [Char.toNat]; simpa using h

/-- The bytes of a name. -/
theorem Spec.XmlName.bytes {name : String} (h : XmlName name) :
    asciiText (xmlBytes name) = name ∧ isPlainName (xmlBytes name) = true ∧ (∀ b ∈ xmlBytes name, isNameByte b = true) ∧
      ∃ b rest, xmlBytes name = b :: rest ∧ (isXmlLetter b = true ∨ b = 95) := by
  obtain ⟨c, rest, h1, h2, h3⟩ := h
  have hc : c.toNat < 128 ∧ (isXmlLetter (UInt8.ofNat c.toNat) = true ∨ UInt8.ofNat c.toNat = 95) := by
    rcases h2 with h2 | rfl
    · have := isAlpha_bounds h2
      refine ⟨by omega, .inl ?_⟩
      simp only [isXmlLetter, UInt8.toNat_ofNat', Bool.or_eq_true, Bool.and_eq_true, decide_eq_true_eq]
      omega
    · exact ⟨by decide, .inr rfl⟩
  have hd : ∀ d ∈ rest, d.toNat < 128 ∧ (isXmlLetter (UInt8.ofNat d.toNat) || isXmlDigit (UInt8.ofNat d.toNat) || UInt8.ofNat d.toNat = 95 || UInt8.ofNat d.toNat = 46 || UInt8.ofNat d.toNat = 45) = true := by
    intro d hd
    rcases h3 d hd with h3 | rfl | rfl | rfl
    · have := isAlphanum_bounds h3
      refine ⟨by omega, ?_⟩
      have : isXmlLetter (UInt8.ofNat d.toNat) = true ∨ isXmlDigit (UInt8.ofNat d.toNat) = true := by
        simp only [isXmlLetter, isXmlDigit, UInt8.toNat_ofNat', Bool.or_eq_true, Bool.and_eq_true, decide_eq_true_eq]
        omega
      rcases this with h | h <;> simp [h]
    · exact ⟨by decide, rfl⟩
    · exact ⟨by decide, rfl⟩
    · exact ⟨by decide, rfl⟩
  have hall : ∀ c ∈ name.toList, c.toNat < 128 := by
    intro d hm
    rw [h1] at hm
    rcases List.mem_cons.1 hm with rfl | hm
    · exact hc.1
    · exact (hd d hm).1
  have hb : xmlBytes name = UInt8.ofNat c.toNat :: rest.map (fun c => UInt8.ofNat c.toNat) := by
    rw [xmlBytes, utf8_asciiChars hall, h1]; rfl
  refine ⟨asciiText_utf8 hall, ?_, ?_, _, _, hb, hc.2⟩
  · rw [hb, isPlainName, Bool.and_eq_true, List.all_eq_true]
    refine ⟨?_, ?_⟩
    · rcases hc.2 with h | h <;> simp [h]
    · intro b hb
      obtain ⟨d, hd', rfl⟩ := List.mem_map.1 hb
      exact (hd d hd').2
  · rw [hb]
    intro b hb
    rcases List.mem_cons.1 hb with rfl | hb
    · rcases hc.2 with h | h <;> simp [isNameByte, h]
    · obtain ⟨d, hd', rfl⟩ := List.mem_map.1 hb
      have := (hd d hd').2
      simp only [isNameByte, Bool.or_eq_true, decide_eq_true_eq] at this ⊢
      rcases this with (((h | h) | h) | h) | h <;> simp [h]

theorem takeWhile_stop {p : UInt8 → Bool} {l : Bytes} {b : UInt8} {t : Bytes} (h : ∀ x ∈ l, p x = true) (hb : p b = false) :
    (l ++ b :: t).takeWhile p = l ∧ (l ++ b :: t).dropWhile p = b :: t := by
  induction l with
  | nil => simp [hb]
  | cons x l ih =>
    have := ih (fun y hy => h y (.tail _ hy))
    simp only [List.cons_append, List.takeWhile_cons, List.dropWhile_cons, h x (.head _), if_true, this, and_self]

theorem xmlName_written {name : String} (h : XmlName name) {b : UInt8} (hb : isNameByte b = false) (t : Bytes) :
    xmlName (xmlBytes name ++ b :: t) = some (name, b :: t) := by
  obtain ⟨h1, h2, h3, _⟩ := h.bytes
  obtain ⟨e1, e2⟩ := takeWhile_stop (t := t) h3 hb
  unfold xmlName
  rw [e2]
  simp only [e1, h2, if_true, h1]

theorem skipXmlSpace_written {s : Bytes} (h : Blanks s) {b : UInt8} (hb : isXmlSpace b = false) (t : Bytes) : skipXmlSpace (s ++ b :: t) = b :: t :=
  (takeWhile_stop (fun x hx => by rcases h x hx with rfl | rfl | rfl | rfl <;> rfl) hb).2

/-! ### Marks -/

theorem upTo_written {mark : Bytes} (hm : mark ≠ []) : ∀ {data : Bytes} (tail : Bytes), ¬ mark <:+: data ++ mark.dropLast → upTo mark (data ++ mark ++ tail) = some (data, tail)
  | [], tail, _ => by
    cases mark with
    | nil => exact absurd rfl hm
    | cons m mark =>
      have : (m :: mark).isPrefixOf (m :: (mark ++ tail)) = true := by
        rw [List.isPrefixOf_iff_prefix]; exact ⟨tail, rfl⟩
      simp only [List.nil_append, List.cons_append, upTo, this, if_true]
      simp
  | b :: data, tail, h => by
    have hno : (mark.isPrefixOf (b :: (data ++ mark ++ tail))) = false := by
      rw [Bool.eq_false_iff, ne_eq, List.isPrefixOf_iff_prefix]
      rintro ⟨t, ht⟩
      refine h ?_
      have e : mark ++ t = (b :: data ++ mark.dropLast) ++ (mark.getLast hm :: tail) := by
        rw [ht]
        conv => lhs; rw [← List.dropLast_concat_getLast hm]
        simp
      have hp : mark <+: b :: data ++ mark.dropLast := by
        refine List.prefix_of_prefix_length_le (l₃ := mark ++ t) ⟨t, rfl⟩ ⟨_, e.symm⟩ ?_
        simp only [List.cons_append, List.length_cons, List.length_append, List.length_dropLast]
        omega
      exact hp.isInfix
    have ih := upTo_written hm (data := data) tail (fun hi => h (hi.trans ⟨[b], [], by simp⟩))
    simp only [List.cons_append, upTo]
    rw [if_neg (by rw [hno]; simp), ih]
    rfl

/-- A mark with a last byte that is nowhere else in it cannot end inside of itself. -/
theorem infix_dropLast {mark data : Bytes} {x : UInt8} : ∀ {more : Bytes}, x ∉ more → mark ++ [x] <:+: data ++ more → mark ++ [x] <:+: data := by
  intro more
  generalize hn : more.length = n
  induction n generalizing more with
  | zero => intro _ h; rw [List.length_eq_zero_iff.1 hn, List.append_nil] at h; exact h
  | succ n ih =>
    intro hx h
    have hne : more ≠ [] := by intro e; rw [e] at hn; cases hn
    obtain ⟨a, b, hab⟩ := h
    rw [← List.dropLast_concat_getLast hne] at hab
    have hx' : x ∉ more.dropLast := fun hm => hx (List.dropLast_subset _ hm)
    rcases List.eq_nil_or_concat b with rfl | ⟨b', y, rfl⟩
    · rw [List.append_nil, ← List.append_assoc, ← List.append_assoc] at hab
      have := (List.append_inj' hab rfl).2
      simp only [List.cons.injEq, and_true] at this
      exact absurd (this ▸ List.getLast_mem hne) hx
    · rw [List.concat_eq_append, ← List.append_assoc, ← List.append_assoc data] at hab
      exact ih (more := more.dropLast) (by simp [hn]) hx' ⟨a, b', (List.append_inj' hab rfl).1⟩

/-! ### Texts -/

/-- The pieces of a text, with what they are read as. -/
inductive Pieces (quote : Option UInt8) : Bytes → Bytes → Prop where
  | nil : Pieces quote [] []
  | byte {b : UInt8} {data w : Bytes} : b ≠ 60 → b ≠ 38 → b ≠ 13 → quote ≠ some b → Pieces quote data w → Pieces quote (b :: data) (b :: w)
  | line {data w : Bytes} : Pieces quote data w → Pieces quote (10 :: data) (13 :: 10 :: w)
  | escape {text e data w : Bytes} : (∀ tail, xmlEscape (e ++ tail) = some (text, tail)) → Pieces quote data w → Pieces quote (text ++ data) (38 :: (e ++ w))

/-- What ends a text: the quote, `<`, or the end of the file. -/
def EndsText (quote : Option UInt8) (left rest : Bytes) : Prop :=
  match quote with
  | some q => (q = 34 ∨ q = 39) ∧ left = q :: rest
  | none => left = rest ∧ (rest = [] ∨ ∃ t, rest = 60 :: t)

theorem Spec.NoSectionEnd.tail {b : UInt8} {w : Bytes} (h : NoSectionEnd (b :: w)) : NoSectionEnd w := fun hi => h (hi.trans ⟨[b], [], by simp⟩)

theorem xmlBytes_sectionEnd : xmlBytes "]]>" = [93, 93, 62] := rfl

theorem Spec.NoSectionEnd.head {a b c : UInt8} {w : Bytes} (h : NoSectionEnd (a :: b :: c :: w)) : ¬ (a = 93 ∧ b = 93 ∧ c = 62) := by
  rintro ⟨rfl, rfl, rfl⟩
  exact h ⟨[], w, by rw [xmlBytes_sectionEnd]; rfl⟩

theorem Spec.NoSectionEnd.append {a w : Bytes} (h : NoSectionEnd (a ++ w)) : NoSectionEnd w := fun hi => h (hi.trans (List.suffix_append a w).isInfix)

theorem Spec.NoSectionEnd.cons {b : UInt8} {w : Bytes} (hb : b ≠ 93) (h : NoSectionEnd w) : NoSectionEnd (b :: w) := by
  intro hi
  rw [xmlBytes_sectionEnd] at hi
  rw [List.infix_cons_iff] at hi
  rcases hi with hi | hi
  · obtain ⟨t, ht⟩ := hi
    simp only [List.cons_append, List.cons.injEq] at ht
    exact hb ht.1.symm
  · exact h hi

theorem Pieces.read {quote : Option UInt8} {data w : Bytes} (h : Pieces quote data w) : ∀ {fuel b0 b1 left rest}, (w ++ left).length < fuel → b1 ≠ 13 →
    NoSectionEnd (b0 :: b1 :: w) → EndsText quote left rest → textLoop quote fuel b0 b1 (w ++ left) = some (data, rest) := by
  induction h with
  | nil =>
    intro fuel b0 b1 left rest hf _ _ he
    cases fuel with
    | zero => simp at hf
    | succ fuel =>
      rw [List.nil_append]
      cases quote with
      | some q =>
        obtain ⟨hq, rfl⟩ := he
        unfold textLoop
        rw [if_neg (by rintro ⟨_, _, h⟩; rcases hq with rfl | rfl <;> cases h), if_neg (by rcases hq with rfl | rfl <;> decide), if_pos rfl]
      | none =>
        obtain ⟨rfl, rfl | ⟨t, rfl⟩⟩ := he
        · rfl
        · unfold textLoop
          rw [if_neg (by rintro ⟨_, _, h⟩; cases h), if_pos rfl]
          rfl
  | @byte b data w h1 h2 h3 h4 _ ih =>
    intro fuel b0 b1 left rest hf hb hs he
    cases fuel with
    | zero => simp at hf
    | succ fuel =>
      rw [List.cons_append]
      unfold textLoop
      rw [if_neg hs.head, if_neg h1, if_neg h4, if_neg h2, if_neg h3, if_neg (by rintro ⟨h, _⟩; exact hb h),
        ih (by simp only [List.cons_append, List.length_cons] at hf; omega) h3 hs.tail he]
      rfl
  | @line data w _ ih =>
    intro fuel b0 b1 left rest hf hb hs he
    simp only [List.cons_append, List.length_cons] at hf
    obtain ⟨fuel, rfl⟩ : ∃ f, fuel = f + 2 := ⟨fuel - 2, by omega⟩
    rw [List.cons_append, List.cons_append]
    have e : textLoop quote (fuel + 1) b1 13 (10 :: (w ++ left)) = textLoop quote fuel 13 10 (w ++ left) := by
      conv => lhs; unfold textLoop
      rw [if_neg hs.tail.head, if_neg (by decide), if_neg, if_neg (by decide), if_neg (by decide), if_pos ⟨rfl, rfl⟩]
      intro hq
      subst hq
      obtain ⟨hq, _⟩ := he
      rcases hq with hq | hq <;> cases hq
    unfold textLoop
    rw [if_neg hs.head, if_neg (by decide), if_neg, if_neg (by decide), if_pos rfl, e, ih (by omega) (by decide) hs.tail.tail he]
    · rfl
    · intro hq
      subst hq
      obtain ⟨hq, _⟩ := he
      rcases hq with hq | hq <;> cases hq
  | @escape text e data w h1 _ ih =>
    intro fuel b0 b1 left rest hf hb hs he
    cases fuel with
    | zero => simp at hf
    | succ fuel =>
      rw [List.cons_append, List.append_assoc]
      unfold textLoop
      rw [if_neg hs.head, if_neg (by decide), if_neg, if_pos rfl, h1]
      · simp only
        rw [ih (by simp only [List.cons_append, List.length_cons, List.length_append] at hf ⊢; omega) (by decide) (.cons (by decide) (.cons (by decide) hs.tail.tail.tail.append)) he]
        rfl
      · intro hq
        subst hq
        obtain ⟨hq, _⟩ := he
        rcases hq with hq | hq <;> cases hq

theorem Pieces.bytes {quote : Option UInt8} {data w : Bytes} : ∀ {bs : Bytes}, (∀ b ∈ bs, b ≠ 60 ∧ b ≠ 38 ∧ b ≠ 13 ∧ quote ≠ some b) → Pieces quote data w → Pieces quote (bs ++ data) (bs ++ w)
  | [], _, h => h
  | b :: bs, hb, h => by
    obtain ⟨h1, h2, h3, h4⟩ := hb b (.head _)
    exact .byte h1 h2 h3 h4 (Pieces.bytes (fun x hx => hb x (.tail _ hx)) h)

theorem foldl_concat_number {base n : Nat} {w : Bytes} (hb : base = 10 ∨ base = 16) (h : XmlNumber base n w) :
    digitsNumber base w = n ∧ w ≠ [] ∧ ∀ b ∈ w, isDigitOf base b = true := by
  have digit : ∀ {d : Nat} {b : UInt8}, DigitByte base d b →
      (if b.toNat ≤ 57 then b.toNat - 48 else if b.toNat ≤ 70 then b.toNat - 55 else b.toNat - 87) = d ∧ isDigitOf base b = true := by
    intro d b ⟨h1, h2⟩
    simp only [isDigitOf, isXmlDigit, Bool.or_eq_true, Bool.and_eq_true, decide_eq_true_eq]
    refine ⟨?_, by omega⟩
    split
    · omega
    · split <;> omega
  induction h with
  | one hd =>
    obtain ⟨h1, h2⟩ := digit hd
    refine ⟨?_, by simp, ?_⟩
    · simp only [digitsNumber, List.foldl_cons, List.foldl_nil, h1]; omega
    · intro x hx; rw [List.mem_singleton.1 hx]; exact h2
  | more _ hd ih =>
    obtain ⟨h1, h2⟩ := digit hd
    obtain ⟨i1, i2, i3⟩ := ih
    refine ⟨?_, by simp, ?_⟩
    · rw [digitsNumber, List.foldl_append, ← digitsNumber, i1]
      simp only [List.foldl_cons, List.foldl_nil, h1]
    · intro x hx
      rcases List.mem_append.1 hx with hx | hx
      · exact i3 x hx
      · rw [List.mem_singleton.1 hx]; exact h2

theorem xmlCharRef_written {base : Nat} (hb : base = 10 ∨ base = 16) {c : Char} {w : Bytes} (h : XmlNumber base c.toNat w) (before tail : Bytes) :
    xmlCharRef base before (w ++ 59 :: tail) = some (utf8 [c], tail) := by
  obtain ⟨h1, h2, h3⟩ := foldl_concat_number hb h
  obtain ⟨e1, e2⟩ := takeWhile_stop (p := isDigitOf base) (b := 59) (t := tail) h3 (by rcases hb with rfl | rfl <;> decide)
  have hv := c.valid
  have hv' : c.toNat.isValidChar := hv
  unfold xmlCharRef
  simp only [e1, e2, h1]
  rw [if_neg (by simp), if_pos, utf8_single, runeText, if_pos hv', Char.ofNat_toNat]
  refine ⟨h2, ?_⟩
  simp only [UInt32.isValidChar, Nat.isValidChar] at hv
  simp only [Char.toNat]
  omega

theorem Spec.WrittenChar.pieces {quote : Option Char} {c : Char} {w : Bytes} (hq : ∀ q ∈ quote, q = '"' ∨ q = '\'') (h : WrittenChar quote c w) {data w' : Bytes}
    (hp : Pieces (quote.map (fun q => UInt8.ofNat q.toNat)) data w') : XmlChar c ∧ Pieces (quote.map (fun q => UInt8.ofNat q.toNat)) (utf8 [c] ++ data) (w ++ w') := by
  cases h with
  | plain h1 h2 h3 h4 h5 =>
    refine ⟨h1, .bytes ?_ hp⟩
    rw [utf8_single]
    intro b hb
    by_cases h : c.toNat < 128
    · rw [utf8EncodeChar_ascii h, List.mem_singleton] at hb
      subst hb
      have inj : ∀ d : Char, d.toNat < 128 → UInt8.ofNat c.toNat = UInt8.ofNat d.toNat → c = d := by
        intro d hd he
        have := congrArg UInt8.toNat he
        simp only [UInt8.toNat_ofNat'] at this
        rw [Nat.mod_eq_of_lt (by omega), Nat.mod_eq_of_lt (by omega)] at this
        exact Char.toNat_inj.1 this
      refine ⟨fun e => h2 (inj '<' (by decide) e), fun e => h3 (inj '&' (by decide) e), fun e => h4 (inj '\r' (by decide) e), fun e => ?_⟩
      cases quote with
      | none => cases e
      | some q =>
        simp only [Option.map_some, Option.some.injEq] at e
        have hq' : q.toNat < 128 := by rcases hq q rfl with rfl | rfl <;> decide
        exact h5 (by rw [inj q hq' e.symm])
    · have hh := utf8EncodeChar_all_high (by omega) b hb
      refine ⟨?_, ?_, ?_, ?_⟩
      · rintro rfl; revert hh; decide
      · rintro rfl; revert hh; decide
      · rintro rfl; revert hh; decide
      · intro e
        cases quote with
        | none => cases e
        | some q =>
          simp only [Option.map_some, Option.some.injEq] at e
          subst e
          rcases hq q rfl with rfl | rfl <;> (revert hh; decide)
  | line => exact ⟨.inr (.inl rfl), .line hp⟩
  | lt => exact ⟨.inr (.inr (.inr (by decide))), .escape (e := [108, 116, 59]) (text := [60]) (fun _ => rfl) hp⟩
  | gt => exact ⟨.inr (.inr (.inr (by decide))), .escape (e := [103, 116, 59]) (text := [62]) (fun _ => rfl) hp⟩
  | amp => exact ⟨.inr (.inr (.inr (by decide))), .escape (e := [97, 109, 112, 59]) (text := [38]) (fun _ => rfl) hp⟩
  | apos => exact ⟨.inr (.inr (.inr (by decide))), .escape (e := [97, 112, 111, 115, 59]) (text := [39]) (fun _ => rfl) hp⟩
  | quot => exact ⟨.inr (.inr (.inr (by decide))), .escape (e := [113, 117, 111, 116, 59]) (text := [34]) (fun _ => rfl) hp⟩
  | decimal h1 h2 =>
    rename_i w
    refine ⟨h1, ?_⟩
    have := Pieces.escape (e := 35 :: (w ++ [59])) (text := utf8 [c]) (quote := quote.map (fun q => UInt8.ofNat q.toNat)) (fun tail => ?_) hp
    · have e : xmlBytes "&#" ++ w ++ xmlBytes ";" = 38 :: 35 :: (w ++ [59]) := by
        rw [show xmlBytes "&#" = [38, 35] from rfl, show xmlBytes ";" = [59] from rfl]; simp
      rw [e]; exact this
    · have hc := xmlCharRef_written (.inl rfl) h2 [38, 35] tail
      obtain ⟨_, h3, h4⟩ := foldl_concat_number (.inl rfl) h2
      cases w with
      | nil => exact absurd rfl h3
      | cons b w =>
        have hb := h4 b (.head _)
        simp only [List.cons_append, List.append_assoc, List.nil_append] at hc ⊢
        unfold xmlEscape
        split
        · rename_i heq; cases heq
        · rename_i heq
          simp only [List.cons.injEq] at heq
          rw [heq.2.1] at hb; exact absurd hb (by decide)
        · rename_i heq
          simp only [List.cons.injEq, true_and] at heq
          rw [← heq]; exact hc
        · rename_i hn; exact absurd rfl (hn _)
  | hexadecimal h1 h2 =>
    rename_i w
    refine ⟨h1, ?_⟩
    have := Pieces.escape (e := 35 :: 120 :: (w ++ [59])) (text := utf8 [c]) (quote := quote.map (fun q => UInt8.ofNat q.toNat)) (fun tail => ?_) hp
    · have e : xmlBytes "&#x" ++ w ++ xmlBytes ";" = 38 :: 35 :: 120 :: (w ++ [59]) := by
        rw [show xmlBytes "&#x" = [38, 35, 120] from rfl, show xmlBytes ";" = [59] from rfl]; simp
      rw [e]; exact this
    · have hc := xmlCharRef_written (.inr rfl) h2 [38, 35, 120] tail
      simp only [List.cons_append, List.append_assoc, List.nil_append]
      exact hc

theorem Spec.WrittenChars.pieces {quote : Option Char} {cs : List Char} {w : Bytes} (hq : ∀ q ∈ quote, q = '"' ∨ q = '\'') (h : WrittenChars quote cs w) :
    (∀ c ∈ cs, XmlChar c) ∧ Pieces (quote.map (fun q => UInt8.ofNat q.toNat)) (utf8 cs) w := by
  induction h with
  | nil => exact ⟨by simp, .nil⟩
  | @cons c cs w w' hc _ ih =>
    obtain ⟨h1, h2⟩ := hc.pieces hq ih.2
    refine ⟨?_, ?_⟩
    · intro d hd
      rcases List.mem_cons.1 hd with rfl | hd
      · exact h1
      · exact ih.1 d hd
    · rw [utf8_cons, ← utf8_single]; exact h2

theorem xmlCharsOk_written {cs : List Char} (h : ∀ c ∈ cs, XmlChar c) : xmlCharsOk (utf8 cs) = true := by
  have := decodeUtf8_utf8 (String.ofList cs)
  rw [String.toList_ofList] at this
  rw [xmlCharsOk, this]
  simp only [String.toList_ofList, List.all_eq_true]
  intro c hc
  have hv := c.valid
  simp only [UInt32.isValidChar, Nat.isValidChar] at hv
  have ht : c.toNat = c.val.toNat := rfl
  simp only [isXmlChar, Bool.or_eq_true, Bool.and_eq_true, decide_eq_true_eq]
  rcases h c hc with rfl | rfl | rfl | h
  · decide
  · decide
  · decide
  · omega

theorem xmlText_written {quote : Option Char} {cs : List Char} {w left rest : Bytes} (hq : ∀ q ∈ quote, q = '"' ∨ q = '\'') (h : WrittenChars quote cs w) (hs : NoSectionEnd w)
    (he : EndsText (quote.map (fun q => UInt8.ofNat q.toNat)) left rest) : xmlText (quote.map (fun q => UInt8.ofNat q.toNat)) (w ++ left) = some (utf8 cs, rest) := by
  obtain ⟨h1, h2⟩ := h.pieces hq
  rw [xmlText, h2.read (Nat.lt_succ_self _) (by decide) (.cons (by decide) (.cons (by decide) hs)) he]
  simp only [xmlCharsOk_written h1, if_true]

/-! ### Tags -/

theorem Spec.WrittenAttributes.begin {attr : List (String × Bytes)} {w : Bytes} (h : WrittenAttributes attr w) {b : UInt8} (hb : b = 47 ∨ b = 62) (t : Bytes) :
    ∃ x y, w ++ b :: t = x :: y ∧ isNameByte x = false := by
  have blank : ∀ {s : Bytes}, Blanks s → ∀ x, x ∈ s → isNameByte x = false := fun hs x hx => by rcases hs x hx with rfl | rfl | rfl | rfl <;> rfl
  cases h with
  | nil hs =>
    cases w with
    | nil => exact ⟨b, t, rfl, by rcases hb with rfl | rfl <;> rfl⟩
    | cons x s => exact ⟨x, s ++ b :: t, rfl, blank hs x (.head _)⟩
  | @cons _ _ _ _ s _ _ _ _ hs hne =>
    cases s with
    | nil => exact absurd rfl hne
    | cons x s =>
      refine ⟨x, _, by simp only [List.append_assoc, List.cons_append]; rfl, blank hs x (.head _)⟩

theorem Spec.WrittenAttributes.read {attr : List (String × Bytes)} {w : Bytes} (h : WrittenAttributes attr w) : attr.length ≤ w.length ∧
    ∀ {fuel : Nat} (t : Bytes), attr.length < fuel →
      xmlAttributes fuel (w ++ 62 :: t) = some (attr, false, t) ∧ xmlAttributes fuel (w ++ 47 :: 62 :: t) = some (attr, true, t) := by
  induction h with
  | nil hs =>
    refine ⟨Nat.zero_le _, fun {fuel} t hf => ?_⟩
    cases fuel with
    | zero => cases hf
    | succ fuel =>
      unfold xmlAttributes
      rw [skipXmlSpace_written hs (by rfl), skipXmlSpace_written hs (by rfl)]
      exact ⟨rfl, rfl⟩
  | @cons name value attr q s s' s'' w w' h1 h2 h3 h4 h5 h6 h7 h8 _ ih =>
    refine ⟨?_, fun {fuel} t hf => ?_⟩
    · have := List.length_pos_iff.2 h2
      simp only [List.length_cons, List.length_append]
      omega
    · cases fuel with
      | zero => cases hf
      | succ fuel =>
        obtain ⟨_, _, _, b, nm, hb, hb'⟩ := h3.bytes
        have hq : utf8 [q] = [UInt8.ofNat q.toNat] := by rcases h6 with rfl | rfl <;> rfl
        have hqb : UInt8.ofNat q.toNat = 34 ∨ UInt8.ofNat q.toNat = 39 := by rcases h6 with rfl | rfl <;> decide
        have hbs : isXmlSpace b = false ∧ b ≠ 47 ∧ b ≠ 62 := by
          rcases hb' with hb' | rfl
          · simp only [isXmlLetter, Bool.or_eq_true, Bool.and_eq_true, decide_eq_true_eq] at hb'
            refine ⟨?_, ?_, ?_⟩
            · rw [Bool.eq_false_iff]
              intro he
              simp only [isXmlSpace, Bool.or_eq_true, decide_eq_true_eq] at he
              rcases he with ((rfl | rfl) | rfl) | rfl <;> revert hb' <;> decide
            · rintro rfl; revert hb'; decide
            · rintro rfl; revert hb'; decide
          · decide
        have key : ∀ left r, xmlAttributes fuel (w' ++ left) = some r →
            xmlAttributes (fuel + 1) (s ++ xmlBytes name ++ s' ++ xmlBytes "=" ++ s'' ++ utf8 [q] ++ w ++ utf8 [q] ++ w' ++ left) = some ((name, utf8 value) :: r.1, r.2) := by
          intro left r hr
          have e1 : skipXmlSpace (s ++ xmlBytes name ++ s' ++ xmlBytes "=" ++ s'' ++ utf8 [q] ++ w ++ utf8 [q] ++ w' ++ left) =
              xmlBytes name ++ (s' ++ 61 :: (s'' ++ UInt8.ofNat q.toNat :: (w ++ UInt8.ofNat q.toNat :: (w' ++ left)))) := by
            rw [hq, hb, show xmlBytes "=" = [61] from rfl]
            simp only [List.append_assoc, List.cons_append, List.nil_append]
            exact skipXmlSpace_written h1 hbs.1 _
          have e2 : xmlName (xmlBytes name ++ (s' ++ 61 :: (s'' ++ UInt8.ofNat q.toNat :: (w ++ UInt8.ofNat q.toNat :: (w' ++ left))))) =
              some (name, s' ++ 61 :: (s'' ++ UInt8.ofNat q.toNat :: (w ++ UInt8.ofNat q.toNat :: (w' ++ left)))) := by
            cases s' with
            | nil => exact xmlName_written h3 (by rfl) _
            | cons x s' => exact xmlName_written h3 (by rcases h4 x (.head _) with rfl | rfl | rfl | rfl <;> rfl) _
          have e3 := skipXmlSpace_written h4 (b := 61) (by rfl) (s'' ++ UInt8.ofNat q.toNat :: (w ++ UInt8.ofNat q.toNat :: (w' ++ left)))
          have e4 := skipXmlSpace_written h5 (b := UInt8.ofNat q.toNat) (by rcases hqb with h | h <;> rw [h] <;> rfl) (w ++ UInt8.ofNat q.toNat :: (w' ++ left))
          have e5 : xmlAttrVal (UInt8.ofNat q.toNat :: (w ++ UInt8.ofNat q.toNat :: (w' ++ left))) = some (utf8 value, w' ++ left) := by
            unfold xmlAttrVal
            simp only [hqb, if_true]
            exact xmlText_written (quote := some q) (fun q' hq' => by cases hq'; exact h6) h7 h8 ⟨hqb, rfl⟩
          rw [hb] at e1 e2 ⊢
          unfold xmlAttributes
          split
          · rename_i heq; rw [e1] at heq; simp at heq
          · rename_i heq; rw [e1] at heq; simp only [List.cons_append, List.cons.injEq] at heq; exact absurd heq.1 hbs.2.1
          · rename_i heq; rw [e1] at heq; simp only [List.cons_append, List.cons.injEq] at heq; exact absurd heq.1 hbs.2.2
          · rename_i heq
            rw [e1] at heq
            simp only [List.cons_append, List.cons.injEq] at heq
            obtain ⟨rfl, rfl⟩ := heq
            rw [if_neg hbs.2.1]
            simp only [List.cons_append] at e2
            rw [e2]
            simp only
            split
            · rename_i heq; rw [e3] at heq; simp at heq
            · rename_i heq
              rw [e3] at heq
              simp only [List.cons.injEq, true_and] at heq
              subst heq
              rw [e4, e5]
              simp only [hr]
              rfl
            · rename_i hn heq
              rw [e3] at heq
              simp only [List.cons.injEq] at heq
              exact absurd heq.1.symm (by intro e; exact hn e)
        obtain ⟨i1, i2⟩ := ih.2 (fuel := fuel) t (by simpa using hf)
        exact ⟨key _ _ i1, key _ _ i2⟩

theorem xmlToken_start {name : String} {attr : List (String × Bytes)} {w : Bytes} (hn : XmlName name) (hw : WrittenAttributes attr w) (t : Bytes) :
    xmlToken (xmlBytes "<" ++ xmlBytes name ++ w ++ xmlBytes ">" ++ t) = some (.start name attr false, t) ∧
      xmlToken (xmlBytes "<" ++ xmlBytes name ++ w ++ xmlBytes "/>" ++ t) = some (.start name attr true, t) := by
  obtain ⟨_, _, _, b, nm, hb, hb'⟩ := hn.bytes
  have hbs : b ≠ 47 ∧ b ≠ 63 ∧ b ≠ 33 := by
    rcases hb' with hb' | rfl
    · simp only [isXmlLetter, Bool.or_eq_true, Bool.and_eq_true, decide_eq_true_eq] at hb'
      refine ⟨?_, ?_, ?_⟩ <;> (rintro rfl; revert hb'; decide)
    · decide
  obtain ⟨hlen, hread⟩ := hw.read
  have key : ∀ b' t' r, (b' = 47 ∨ b' = 62) → (∀ fuel, attr.length < fuel → xmlAttributes fuel (w ++ b' :: t') = some r) →
      xmlToken (60 :: (xmlBytes name ++ (w ++ b' :: t'))) = some (.start name r.1 r.2.1, r.2.2) := by
    intro b' t' r hb' hr
    have h1 : xmlStartTag (xmlBytes name ++ (w ++ b' :: t')) = some (.start name r.1 r.2.1, r.2.2) := by
      have e : xmlName (xmlBytes name ++ (w ++ b' :: t')) = some (name, w ++ b' :: t') := by
        obtain ⟨x, y, hx, hx'⟩ := hw.begin hb' t'
        rw [hx]
        exact xmlName_written hn hx' _
      rw [xmlStartTag, e]
      simp only
      rw [hr _ (by rw [List.length_append]; omega)]
      rfl
    rw [hb] at h1 ⊢
    unfold xmlToken
    simp only [List.cons_append, ne_eq, not_true_eq_false, if_false]
    split
    · rename_i heq; simp only [List.cons.injEq] at heq; exact absurd heq.1 hbs.1
    · rename_i heq; simp only [List.cons.injEq] at heq; exact absurd heq.1 hbs.2.1
    · rename_i heq; simp only [List.cons.injEq] at heq; exact absurd heq.1 hbs.2.2
    · exact h1
  have e1 := key 62 t (attr, false, t) (.inr rfl) (fun fuel hf => (hread t hf).1)
  have e2 := key 47 (62 :: t) (attr, true, t) (.inl rfl) (fun fuel hf => (hread t hf).2)
  rw [show xmlBytes "<" = [60] from rfl, show xmlBytes ">" = [62] from rfl, show xmlBytes "/>" = [47, 62] from rfl]
  simp only [List.append_assoc, List.cons_append, List.nil_append]
  exact ⟨e1, e2⟩

theorem xmlToken_stop {name : String} {s : Bytes} (hn : XmlName name) (hs : Blanks s) (t : Bytes) :
    xmlToken (xmlBytes "</" ++ xmlBytes name ++ s ++ xmlBytes ">" ++ t) = some (.stop name, t) := by
  rw [show xmlBytes "</" = [60, 47] from rfl, show xmlBytes ">" = [62] from rfl]
  simp only [List.append_assoc, List.cons_append, List.nil_append]
  have e : xmlName (xmlBytes name ++ (s ++ 62 :: t)) = some (name, s ++ 62 :: t) := by
    cases s with
    | nil => exact xmlName_written hn (by rfl) _
    | cons x s => exact xmlName_written hn (by rcases hs x (.head _) with rfl | rfl | rfl | rfl <;> rfl) _
  have : xmlToken (60 :: 47 :: (xmlBytes name ++ (s ++ 62 :: t))) = xmlEndTag (xmlBytes name ++ (s ++ 62 :: t)) := rfl
  rw [this, xmlEndTag, e]
  simp only
  rw [skipXmlSpace_written hs (by rfl)]
  rfl

/-! ### The other tokens -/

theorem xmlToken_text {c : Char} {cs : List Char} {w t : Bytes} (h : WrittenChars none (c :: cs) w) (hs : NoSectionEnd w) (ht : t = [] ∨ ∃ t', t = 60 :: t') :
    xmlToken (w ++ t) = some (.other .text (utf8 (c :: cs)), t) := by
  have e := xmlText_written (quote := none) (by simp) h hs (left := t) (rest := t) ⟨rfl, ht⟩
  have hp := (h.pieces (by simp)).2
  have : ∃ b w', w = b :: w' ∧ b ≠ 60 := by
    revert hp
    generalize hd : utf8 (c :: cs) = d
    intro hp
    cases hp with
    | nil =>
      have : 0 < (utf8 (c :: cs)).length := by
        rw [utf8_cons, List.length_append]
        have := String.length_utf8EncodeChar c
        have := c.utf8Size_pos
        omega
      rw [hd] at this; cases this
    | byte h1 => exact ⟨_, _, rfl, h1⟩
    | line => exact ⟨_, _, rfl, by decide⟩
    | escape => exact ⟨_, _, rfl, by decide⟩
  obtain ⟨b, w', rfl, hb⟩ := this
  simp only [List.cons_append] at e ⊢
  unfold xmlToken
  simp only [ne_eq, hb, not_false_eq_true, if_true]
  simp only [Option.map_none] at e
  rw [e]
  rfl

theorem Spec.WrittenSection.lines {cs : List Char} {w : Bytes} (h : WrittenSection cs w) : (∀ c ∈ cs, XmlChar c) ∧ xmlLines w = utf8 cs := by
  have plain : ∀ {bs w : Bytes}, (∀ b ∈ bs, b ≠ 13) → xmlLines (bs ++ w) = bs ++ xmlLines w := by
    intro bs w hb
    induction bs with
    | nil => rfl
    | cons b bs ih =>
      have h13 := hb b (.head _)
      rw [List.cons_append]
      conv => lhs; unfold xmlLines
      split
      · rename_i heq; simp only [List.cons.injEq] at heq; exact absurd heq.1 h13
      · rename_i heq
        simp only [List.cons.injEq] at heq
        obtain ⟨rfl, rfl⟩ := heq
        rw [if_neg h13, ih (fun x hx => hb x (.tail _ hx))]
        rfl
      · rename_i heq; simp at heq
  induction h with
  | nil => exact ⟨by simp, rfl⟩
  | @plain c cs w h1 h2 _ ih =>
    refine ⟨?_, ?_⟩
    · intro d hd
      rcases List.mem_cons.1 hd with rfl | hd
      · exact h1
      · exact ih.1 d hd
    · rw [utf8_single, utf8_cons, plain, ih.2]
      intro b hb
      by_cases h : c.toNat < 128
      · rw [utf8EncodeChar_ascii h, List.mem_singleton] at hb
        rintro rfl
        have := congrArg UInt8.toNat hb
        simp only [UInt8.toNat_ofNat'] at this
        rw [Nat.mod_eq_of_lt (by omega)] at this
        exact h2 (Char.toNat_inj.1 (by rw [← this]; rfl))
      · have hh := utf8EncodeChar_all_high (by omega) b hb
        rintro rfl; revert hh; decide
  | @line cs w _ ih =>
    refine ⟨?_, ?_⟩
    · intro d hd
      rcases List.mem_cons.1 hd with rfl | hd
      · exact .inr (.inl rfl)
      · exact ih.1 d hd
    · rw [show xmlBytes "\r\n" = [13, 10] from rfl]
      simp only [List.cons_append, List.nil_append, xmlLines, ih.2]
      rfl

theorem xmlToken_cdata {cs : List Char} {w : Bytes} (h : WrittenSection cs w) (hs : NoSectionEnd w) (t : Bytes) :
    xmlToken (xmlBytes "<![CDATA[" ++ w ++ xmlBytes "]]>" ++ t) = some (.other .cdata (utf8 cs), t) := by
  obtain ⟨h1, h2⟩ := h.lines
  have e : upTo [93, 93, 62] (w ++ [93, 93, 62] ++ t) = some (w, t) := by
    refine upTo_written (by simp) t (fun hi => hs ?_)
    exact infix_dropLast (mark := [93, 93]) (x := 62) (more := [93, 93]) (by decide) hi
  rw [List.append_assoc] at e
  have : xmlToken (xmlBytes "<![CDATA[" ++ w ++ xmlBytes "]]>" ++ t) =
      match upTo [93, 93, 62] (w ++ ([93, 93, 62] ++ t)) with
      | none => none
      | some (data, rest) => if xmlCharsOk (xmlLines data) then some (.other .cdata (xmlLines data), rest) else none := by
    rw [show xmlBytes "<![CDATA[" = [60, 33, 91, 67, 68, 65, 84, 65, 91] from rfl, show xmlBytes "]]>" = [93, 93, 62] from rfl]
    simp only [List.append_assoc, List.cons_append, List.nil_append]
    rfl
  rw [this, e]
  simp only [h2, xmlCharsOk_written h1, if_true]

theorem xmlToken_comment {data : Bytes} (h : ¬ xmlBytes "--" <:+: data ++ xmlBytes "-") (t : Bytes) :
    xmlToken (xmlBytes "<!--" ++ data ++ xmlBytes "-->" ++ t) = some (.other .comment data, t) := by
  have e : upTo [45, 45] (data ++ [45, 45] ++ (62 :: t)) = some (data, 62 :: t) := upTo_written (by simp) _ h
  rw [List.append_assoc] at e
  have : xmlToken (xmlBytes "<!--" ++ data ++ xmlBytes "-->" ++ t) =
      match upTo [45, 45] (data ++ ([45, 45] ++ 62 :: t)) with
      | some (data, 62 :: rest) => some (.other .comment data, rest)
      | _ => none := by
    rw [show xmlBytes "<!--" = [60, 33, 45, 45] from rfl, show xmlBytes "-->" = [45, 45, 62] from rfl]
    simp only [List.append_assoc, List.cons_append, List.nil_append]
    rfl
  rw [this, e]
  rfl

theorem skipXmlSpace_data {s data : Bytes} (hs : Blanks s) (hd : ∀ b ∈ data.head?, ¬ Blanks [b]) (t : Bytes) (ht : ∀ b ∈ t.head?, isXmlSpace b = false) : skipXmlSpace (s ++ (data ++ t)) = data ++ t := by
  have key : ∀ l : Bytes, (∀ b ∈ l.head?, isXmlSpace b = false) → skipXmlSpace (s ++ l) = l := by
    intro l hl
    cases l with
    | nil =>
      have : skipXmlSpace (s ++ []) = [] := by
        rw [List.append_nil]
        have all : ∀ x ∈ s, isXmlSpace x = true := fun x hx => by rcases hs x hx with rfl | rfl | rfl | rfl <;> rfl
        clear hs
        induction s with
        | nil => rfl
        | cons x s ih =>
          simp only [skipXmlSpace, List.dropWhile_cons, all x (.head _), if_true]
          exact ih (fun y hy => all y (.tail _ hy))
      exact this
    | cons b l => exact skipXmlSpace_written hs (hl b rfl) l
  refine key _ ?_
  cases data with
  | nil => exact ht
  | cons b data =>
    intro x hx
    cases hx
    have := hd b rfl
    rw [Bool.eq_false_iff]
    intro he
    simp only [isXmlSpace, Bool.or_eq_true, decide_eq_true_eq] at he
    refine this (fun y hy => ?_)
    rw [List.mem_singleton.1 hy]
    rcases he with ((h | h) | h) | h <;> simp [h]

theorem xmlToken_instruction {target : String} {data s : Bytes} (hn : XmlName target) (hx : target = "xml" → xmlDeclarationOk data = true) (hs : Blanks s) (hne : s ≠ [] ∨ data = [])
    (hd : ∀ b ∈ data.head?, ¬ Blanks [b]) (hm : ¬ xmlBytes "?>" <:+: data) (t : Bytes) :
    xmlToken (xmlBytes "<?" ++ xmlBytes target ++ s ++ data ++ xmlBytes "?>" ++ t) = some (.other (.instruction target) data, t) := by
  rw [show xmlBytes "<?" = [60, 63] from rfl, show xmlBytes "?>" = [63, 62] from rfl]
  have e1 : xmlName (xmlBytes target ++ (s ++ (data ++ ([63, 62] ++ t)))) = some (target, s ++ (data ++ ([63, 62] ++ t))) := by
    cases s with
    | nil =>
      rcases hne with hne | rfl
      · exact absurd rfl hne
      · exact xmlName_written hn (by rfl) _
    | cons x s => exact xmlName_written hn (by rcases hs x (.head _) with rfl | rfl | rfl | rfl <;> rfl) _
  have e2 := skipXmlSpace_data hs hd ([63, 62] ++ t) (by simp; rfl)
  have e3 : upTo [63, 62] (data ++ [63, 62] ++ t) = some (data, t) :=
    upTo_written (by simp) t (fun hi => hm (infix_dropLast (mark := [63]) (x := 62) (more := [63]) (by decide) hi))
  rw [List.append_assoc] at e3
  simp only [List.append_assoc]
  have : xmlToken ([60, 63] ++ (xmlBytes target ++ (s ++ (data ++ ([63, 62] ++ t))))) = xmlInstruction (xmlBytes target ++ (s ++ (data ++ ([63, 62] ++ t)))) := rfl
  rw [this, xmlInstruction, e1]
  simp only
  rw [e2, e3]
  simp only
  rw [if_neg]
  rintro ⟨h1, h2⟩
  rw [hx h1] at h2
  cases h2

theorem Spec.DeclarationText.ok {data : Bytes} (h : DeclarationText data) : xmlDeclarationOk data = true ∧ (∀ b ∈ data.head?, ¬ Blanks [b]) ∧ ¬ xmlBytes "?>" <:+: data := by
  have fixed : ∀ {data : Bytes}, (xmlDeclarationOk data && data.head? == some 118 && data.all (· != 63)) = true →
      xmlDeclarationOk data = true ∧ (∀ b ∈ data.head?, ¬ Blanks [b]) ∧ ¬ xmlBytes "?>" <:+: data := by
    intro data h
    simp only [Bool.and_eq_true, beq_iff_eq, List.all_eq_true, bne_iff_ne] at h
    refine ⟨h.1.1, ?_, ?_⟩
    · rw [h.1.2]
      intro b hb
      cases hb
      intro hbl
      have := hbl 118 (.head _)
      revert this; decide
    · rintro ⟨a, b, hab⟩
      exact h.2 63 (by rw [← hab]; simp [show xmlBytes "?>" = [63, 62] from rfl]) rfl
  obtain ⟨v, hv, e, he, s, hs, rfl⟩ := h
  revert s e v
  have : ∀ v ∈ ["version=\"1.0\"", "version='1.0'"], ∀ e ∈ ["", " encoding=\"UTF-8\"", " encoding='UTF-8'", " encoding=\"utf-8\"", " encoding='utf-8'"],
      ∀ s ∈ ["", " standalone=\"yes\"", " standalone='yes'", " standalone=\"no\"", " standalone='no'"],
      (xmlDeclarationOk (xmlBytes (v ++ e ++ s)) && (xmlBytes (v ++ e ++ s)).head? == some 118 && (xmlBytes (v ++ e ++ s)).all (· != 63)) = true := by decide +kernel
  exact fun v hv e he s hs => fixed (this v hv e he s hs)

theorem Spec.DoctypeText.read {data : Bytes} (h : DoctypeText data) : ∀ {fuel : Nat} (t : Bytes), data.length < fuel → directiveLoop fuel none 0 (data ++ 62 :: t) = some (data, t) := by
  have inside : ∀ {q : UInt8} {s : Bytes}, q ∉ s → ∀ {fuel : Nat} {left d r}, directiveLoop fuel none 0 left = some (d, r) →
      directiveLoop (fuel + s.length + 1) (some q) 0 (s ++ q :: left) = some (s ++ q :: d, r) := by
    intro q s hq
    induction s with
    | nil =>
      intro fuel left d r h
      simp only [List.nil_append, List.length_nil, Nat.add_zero]
      unfold directiveLoop
      rw [if_pos rfl, h]
      rfl
    | cons x s ih =>
      intro fuel left d r h
      have hx : x ≠ q := fun e => hq (e ▸ .head _)
      have := ih (fun hm => hq (.tail _ hm)) h
      rw [List.cons_append, List.length_cons, ← Nat.add_assoc]
      unfold directiveLoop
      rw [if_neg hx, this]
      rfl
  induction h with
  | nil =>
    intro fuel t hf
    cases fuel with
    | zero => cases hf
    | succ fuel => rfl
  | @plain b w hb _ ih =>
    intro fuel t hf
    cases fuel with
    | zero => cases hf
    | succ fuel =>
      rw [show xmlBytes "\"'<>" = [34, 39, 60, 62] from rfl] at hb
      simp only [List.mem_cons, List.not_mem_nil, or_false, not_or] at hb
      rw [List.cons_append]
      unfold directiveLoop
      rw [if_neg hb.2.2.2, if_neg (by rintro (h | h); exact hb.1 h; exact hb.2.1 h), if_neg hb.2.2.1, ih t (by simpa using hf)]
      rfl
  | @quoted q s w hq hs _ ih =>
    intro fuel t hf
    simp only [List.length_cons, List.length_append] at hf
    obtain ⟨f, rfl⟩ : ∃ f, fuel = f + s.length + 1 + 1 := ⟨fuel - s.length - 2, by omega⟩
    rw [show xmlBytes "\"'" = [34, 39] from rfl] at hq
    simp only [List.mem_cons, List.not_mem_nil, or_false] at hq
    have := inside hs (ih (fuel := f) t (by omega))
    rw [List.cons_append, List.append_assoc, List.cons_append]
    unfold directiveLoop
    rw [if_neg (by rcases hq with rfl | rfl <;> decide), if_pos hq, this]
    rfl

theorem xmlToken_doctype {data : Bytes} (h : DoctypeText data) (t : Bytes) :
    xmlToken (xmlBytes "<!DOCTYPE" ++ data ++ xmlBytes ">" ++ t) = some (.other .directive (xmlBytes "DOCTYPE" ++ data), t) := by
  have h' : DoctypeText ([79, 67, 84, 89, 80, 69] ++ data) := by
    refine .plain (by decide) (.plain (by decide) (.plain (by decide) (.plain (by decide) (.plain (by decide) (.plain (by decide) h)))))
  have e := h'.read (fuel := ([79, 67, 84, 89, 80, 69] ++ data ++ 62 :: t).length + 1) t (by simp only [List.length_append]; omega)
  rw [show xmlBytes "<!DOCTYPE" = [60, 33, 68, 79, 67, 84, 89, 80, 69] from rfl, show xmlBytes ">" = [62] from rfl, show xmlBytes "DOCTYPE" = [68, 79, 67, 84, 89, 80, 69] from rfl]
  have : xmlToken ([60, 33, 68, 79, 67, 84, 89, 80, 69] ++ data ++ [62] ++ t) =
      (directiveLoop (([79, 67, 84, 89, 80, 69] ++ data ++ 62 :: t).length + 1) none 0 ([79, 67, 84, 89, 80, 69] ++ data ++ 62 :: t)).map (fun r => (.other .directive (68 :: r.1), r.2)) := by
    simp only [List.append_assoc, List.cons_append, List.nil_append]
    rfl
  rw [this, e]
  rfl

/-! ### Documents -/

theorem Spec.XmlWritten.begin {nodes : List XmlNode} {w : Bytes} (h : XmlWritten nodes w) (hn : ¬ BeginsWithText nodes) : w = [] ∨ ∃ t, w = 60 :: t := by
  cases h with
  | nil => exact .inl rfl
  | text => exact absurd trivial hn
  | _ => exact .inr ⟨_, by simp only [List.append_assoc]; rfl⟩

theorem sizeOfTokens_cons (t : XmlRaw) (size : Nat) (l : List (XmlRaw × Nat)) : sizeOfTokens ((t, size) :: l) = size + sizeOfTokens l := by simp [sizeOfTokens]

theorem Spec.XmlWritten.lexed {nodes : List XmlNode} {w : Bytes} (h : XmlWritten nodes w) : ∃ tokens, XmlContent tokens nodes ∧ sizeOfTokens tokens = w.length ∧
    ∀ tail : Bytes, (tail = [] ∨ ∃ t, tail = 60 :: t) → xmlLexer (w ++ tail) = (tokens ++ (xmlLexer tail).1, (xmlLexer tail).2) := by
  have one : ∀ {kind data w w' nodes}, (∀ tail : Bytes, (tail = [] ∨ ∃ t, tail = 60 :: t) → xmlToken (w ++ (w' ++ tail)) = some (.other kind data, w' ++ tail)) →
      (∃ tokens, XmlContent tokens nodes ∧ sizeOfTokens tokens = w'.length ∧
        ∀ tail : Bytes, (tail = [] ∨ ∃ t, tail = 60 :: t) → xmlLexer (w' ++ tail) = (tokens ++ (xmlLexer tail).1, (xmlLexer tail).2)) →
      ∃ tokens, XmlContent tokens (.other kind data :: nodes) ∧ sizeOfTokens tokens = (w ++ w').length ∧
        ∀ tail : Bytes, (tail = [] ∨ ∃ t, tail = 60 :: t) → xmlLexer (w ++ w' ++ tail) = (tokens ++ (xmlLexer tail).1, (xmlLexer tail).2) := by
    intro kind data w w' nodes ht ⟨tokens, h1, hs, h2⟩
    refine ⟨(.other kind data, w.length) :: tokens, .other h1, by rw [sizeOfTokens_cons, hs, List.length_append], fun tail hb => ?_⟩
    rw [List.append_assoc, xmlLexer_append (ht tail hb), h2 tail hb]
    rfl
  induction h with
  | nil => exact ⟨[], .nil, rfl, by simp⟩
  | @text c cs nodes w w' h1 h2 h3 h4 ih =>
    refine one (fun tail ht => xmlToken_text h1 h2 ?_) ih
    rcases h3.begin h4 with rfl | ⟨t, rfl⟩
    · exact ht
    · exact .inr ⟨_, rfl⟩
  | cdata h1 h2 _ ih => exact one (fun tail _ => xmlToken_cdata h1 h2 _) ih
  | comment h1 _ ih => exact one (fun tail _ => xmlToken_comment h1 _) ih
  | instruction h1 h2 h3 h4 h5 h6 _ ih => exact one (fun tail _ => xmlToken_instruction h1 (fun e => absurd e h2) h3 h4 h5 h6 _) ih
  | @declaration data nodes w' h1 _ ih =>
    obtain ⟨g1, g2, g3⟩ := h1.ok
    have hx : XmlName "xml" := ⟨'x', ['m', 'l'], rfl, .inl rfl, by decide⟩
    have := fun tail => xmlToken_instruction hx (fun _ => g1) (s := [32]) (by intro b hb; rw [List.mem_singleton.1 hb]; exact .inl rfl) (.inl (by simp)) g2 g3 (w' ++ tail)
    have e : xmlBytes "<?xml " ++ data ++ xmlBytes "?>" = xmlBytes "<?" ++ xmlBytes "xml" ++ [32] ++ data ++ xmlBytes "?>" := by
      rw [show xmlBytes "<?xml " = xmlBytes "<?" ++ xmlBytes "xml" ++ [32] from rfl]
    rw [e]
    exact one (fun tail _ => this tail) ih
  | doctype h1 _ ih => exact one (fun tail _ => xmlToken_doctype h1 _) ih
  | @closed name attr nodes w w' h1 h2 _ ih =>
    obtain ⟨tokens, g1, gs, g2⟩ := ih
    refine ⟨_ :: tokens, .closed (size := (xmlBytes "<" ++ xmlBytes name ++ w ++ xmlBytes "/>").length) g1, ?_, fun tail ht => ?_⟩
    · rw [sizeOfTokens_cons, gs]
      simp only [List.length_append]
    · rw [List.append_assoc, xmlLexer_append (xmlToken_start h1 h2 _).2, g2 tail ht]
      rfl
  | @element name attr children nodes w s inner w' h1 h2 _ h4 _ ih1 ih2 =>
    obtain ⟨tokens, g1, gs, g2⟩ := ih2
    have hb : xmlBytes "</" = 60 :: [47] := rfl
    obtain ⟨inside, k1, ks, k2⟩ := ih1
    refine ⟨_, .element (size := (xmlBytes "<" ++ xmlBytes name ++ w ++ xmlBytes ">").length) (size' := (xmlBytes "</" ++ xmlBytes name ++ s ++ xmlBytes ">").length) k1 g1, ?_, fun tail ht => ?_⟩
    · rw [sizeOfTokens_cons, sizeOfTokens_append, sizeOfTokens_cons, gs, ks]
      simp only [List.length_append]
      omega
    · have k3 := k2 (xmlBytes "</" ++ xmlBytes name ++ s ++ xmlBytes ">" ++ (w' ++ tail)) (.inr ⟨_, by rw [hb]; simp only [List.append_assoc, List.cons_append]; rfl⟩)
      have e : xmlBytes "<" ++ xmlBytes name ++ w ++ xmlBytes ">" ++ inner ++ xmlBytes "</" ++ xmlBytes name ++ s ++ xmlBytes ">" ++ w' ++ tail =
          (xmlBytes "<" ++ xmlBytes name ++ w ++ xmlBytes ">") ++ (inner ++ (xmlBytes "</" ++ xmlBytes name ++ s ++ xmlBytes ">" ++ (w' ++ tail))) := by
        simp only [List.append_assoc]
      rw [e, xmlLexer_append (xmlToken_start h1 h2 _).1, k3, xmlLexer_append (xmlToken_stop h1 h4 _), g2 tail ht]
      simp only [List.append_assoc, List.cons_append]

/-- What is written is read. -/
theorem Spec.XmlWritten.document {nodes : List XmlNode} {w : Bytes} (h : XmlWritten nodes w) : IsDocument xmlLexer w nodes := by
  obtain ⟨tokens, h1, _, h2⟩ := h.lexed
  have h2 := h2 [] (.inl rfl)
  rw [List.append_nil, xmlLexer_nil] at h2
  exact ⟨tokens, by rw [h2]; simp, h1⟩

end Rodb
