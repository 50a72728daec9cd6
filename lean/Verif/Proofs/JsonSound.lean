import Verif.Proofs.JsonRead
import Verif.Proofs.JsonWrite
/-
  Only JSON texts are read.
-/
namespace Rodb
open Spec

/-! ### Characters -/

theorem hexValue_sound {b : UInt8} {n : Nat} (h : hexValue b = some n) : IsHex b n ∧ n < 16 := by
  unfold hexValue at h
  by_cases h1 : 48 ≤ b.toNat ∧ b.toNat ≤ 57
  · rw [if_pos h1] at h
    cases h
    exact ⟨.inl ⟨h1.1, h1.2, rfl⟩, by omega⟩
  rw [if_neg h1] at h
  by_cases h2 : 97 ≤ b.toNat ∧ b.toNat ≤ 102
  · rw [if_pos h2] at h
    cases h
    exact ⟨.inr (.inl ⟨h2.1, h2.2, by omega⟩), by omega⟩
  rw [if_neg h2] at h
  by_cases h3 : 65 ≤ b.toNat ∧ b.toNat ≤ 70
  · rw [if_pos h3] at h
    cases h
    exact ⟨.inr (.inr ⟨h3.1, h3.2, by omega⟩), by omega⟩
  · rw [if_neg h3] at h
    cases h

theorem readHex4_sound {s rest : Bytes} {n : Nat} (h : readHex4 s = some (n, rest)) : ∃ t, s = t ++ rest ∧ IsHex4 t n ∧ n < 65536 := by
  unfold readHex4 at h
  split at h
  · rename_i a b c d rest'
    split at h
    · rename_i x y z u hx hy hz hu
      simp only [Option.some.injEq, Prod.mk.injEq] at h
      obtain ⟨rfl, rfl⟩ := h
      obtain ⟨ha, hxl⟩ := hexValue_sound hx
      obtain ⟨hb, hyl⟩ := hexValue_sound hy
      obtain ⟨hc, hzl⟩ := hexValue_sound hz
      obtain ⟨hd, hul⟩ := hexValue_sound hu
      exact ⟨[a, b, c, d], rfl, ⟨a, b, c, d, x, y, z, u, rfl, ha, hb, hc, hd, by omega⟩, by omega⟩
    · cases h
  · cases h

theorem ofNat_toNat_valid {n : Nat} (h : n < 0xD800 ∨ 0xE000 ≤ n ∧ n < 0x110000) : (Char.ofNat n).toNat = n := by
  have hv : n.isValidChar := by
    rcases h with h | h
    · exact .inl (by omega)
    · exact .inr (by omega)
  unfold Char.ofNat
  rw [dif_pos hv]
  simp only [Char.ofNatAux, Char.toNat, UInt32.toNat]
  exact BitVec.toNat_ofNatLT ..

theorem secondHalf_sound {high : Nat} (hh : 0xD800 ≤ high) {s rest : Bytes} {c : Char} (h : secondHalf high s = some (c, rest)) :
    ∃ t low, s = [92, 117] ++ t ++ rest ∧ IsHex4 t low ∧ high < 0xDC00 ∧ 0xDC00 ≤ low ∧ low < 0xE000 ∧ c.toNat = 0x10000 + (high - 0xD800) * 0x400 + (low - 0xDC00) := by
  unfold secondHalf at h
  split at h
  · rename_i s'
    split at h
    · rename_i low rest' hr
      split at h
      · rename_i hc
        simp only [Option.some.injEq, Prod.mk.injEq] at h
        obtain ⟨rfl, rfl⟩ := h
        obtain ⟨t, rfl, ht, _⟩ := readHex4_sound hr
        exact ⟨t, low, by simp, ht, hc.1, hc.2.1, hc.2.2, ofNat_toNat_valid (.inr (by omega))⟩
      · cases h
    · cases h
  · cases h

theorem simpleEscape_sound {e : UInt8} {c : Char} (h : simpleEscape e = some c) : JsonChar c [92, e] := by
  unfold simpleEscape at h
  by_cases h1 : e = 34
  · rw [if_pos h1] at h; cases h; subst h1; exact .quote
  rw [if_neg h1] at h
  by_cases h1 : e = 92
  · rw [if_pos h1] at h; cases h; subst h1; exact .backslash
  rw [if_neg h1] at h
  by_cases h1 : e = 47
  · rw [if_pos h1] at h; cases h; subst h1; exact .slash
  rw [if_neg h1] at h
  by_cases h1 : e = 98
  · rw [if_pos h1] at h; cases h; subst h1; exact .backspace
  rw [if_neg h1] at h
  by_cases h1 : e = 102
  · rw [if_pos h1] at h; cases h; subst h1; exact .formFeed
  rw [if_neg h1] at h
  by_cases h1 : e = 110
  · rw [if_pos h1] at h; cases h; subst h1; exact .newline
  rw [if_neg h1] at h
  by_cases h1 : e = 114
  · rw [if_pos h1] at h; cases h; subst h1; exact .return
  rw [if_neg h1] at h
  by_cases h1 : e = 116
  · rw [if_pos h1] at h; cases h; subst h1; exact .tab
  rw [if_neg h1] at h
  cases h

theorem readString_sound : ∀ (fuel : Nat) {s rest : Bytes} {cs : List Char}, readString fuel s = some (cs, rest) →
    ∃ t, s = t ++ [34] ++ rest ∧ JsonChars LenientChar cs t
  | 0, _, _, _, h => by simp [readString] at h
  | _ + 1, [], _, _, h => by simp [readString] at h
  | fuel + 1, b :: s, rest, cs, h => by
    -- what remains after one character
    have step : ∀ {c : Char} {u s' : Bytes}, LenientChar c u → b :: s = u ++ s' → (readString fuel s').map (fun r => (c :: r.1, r.2)) = some (cs, rest) →
        ∃ t, b :: s = t ++ [34] ++ rest ∧ JsonChars LenientChar cs t := by
      intro c u s' hc hs h
      simp only [Option.map_eq_some_iff, Prod.mk.injEq] at h
      obtain ⟨⟨cs', rest'⟩, hr, rfl, rfl⟩ := h
      obtain ⟨t, rfl, ht⟩ := readString_sound fuel hr
      exact ⟨u ++ t, by rw [hs]; simp, .cons hc ht⟩
    simp only [readString] at h
    by_cases h1 : b = 34
    · rw [if_pos h1] at h
      simp only [Option.some.injEq, Prod.mk.injEq] at h
      obtain ⟨rfl, rfl⟩ := h
      exact ⟨[], by rw [h1]; rfl, .nil⟩
    rw [if_neg h1] at h
    by_cases h2 : b = 92
    · rw [if_pos h2] at h
      subst h2
      cases s with
      | nil => simp at h
      | cons e s =>
        simp only at h
        by_cases h3 : e = 117
        · rw [if_pos h3] at h
          subst h3
          split at h
          · cases h
          · rename_i u s' hu
            obtain ⟨t, rfl, ht, hlt⟩ := readHex4_sound hu
            by_cases h4 : 0xD800 ≤ u ∧ u < 0xE000
            · rw [if_pos h4] at h
              split at h
              · rename_i c s'' hc
                obtain ⟨t', low, rfl, ht', g1, g2, g3, g4⟩ := secondHalf_sound h4.1 hc
                exact step (.valid (.pair ht ht' h4.1 g1 g2 g3 g4)) (by simp) h
              · exact step (.half ht h4.1 h4.2) (by simp) h
            · rw [if_neg h4] at h
              refine step (.valid (.number (s := t) ?_)) (by simp) h
              rw [ofNat_toNat_valid (by omega)]
              exact ht
        · rw [if_neg h3] at h
          split at h
          · cases h
          · rename_i c hc
            exact step (.valid (simpleEscape_sound hc)) rfl h
    rw [if_neg h2] at h
    by_cases h3 : b.toNat < 32
    · rw [if_pos h3] at h
      cases h
    rw [if_neg h3] at h
    split at h
    · rename_i c hc
      obtain ⟨tail, ht⟩ := decodeRune_some hc
      have hdrop : (b :: s).drop c.utf8Size = tail := by rw [ht, ← String.length_utf8EncodeChar]; simp
      rw [hdrop] at h
      refine step (.valid (.plain ?_ ?_ ?_)) ht h
      · apply Nat.le_of_not_lt
        intro hlt
        rw [utf8EncodeChar_ascii (by omega)] at ht
        simp only [List.cons_append, List.cons.injEq] at ht
        rw [ht.1, UInt8.toNat_ofNat', Nat.mod_eq_of_lt (by omega)] at h3
        exact h3 hlt
      · rintro rfl
        exact h1 (List.cons.inj ht).1
      · rintro rfl
        exact h2 (List.cons.inj ht).1
    · rename_i hc
      refine step (u := [b]) (.byte ?_) rfl h
      apply Nat.le_of_not_lt
      intro hlt
      have henc : [b] = String.utf8EncodeChar (Char.ofNat b.toNat) := by
        rw [utf8EncodeChar_ascii (by rw [ofNat_toNat_ascii hlt]; exact hlt), ofNat_toNat_ascii hlt, UInt8.ofNat_toNat]
      have : decodeRune (b :: s) = some (Char.ofNat b.toNat) := by
        have := decodeRune_append (Char.ofNat b.toNat) s
        rw [← henc] at this
        exact this
      rw [this] at hc
      cases hc

/-! ### Numbers -/

theorem isAsciiDigit_sound {b : UInt8} (h : isAsciiDigit b = true) : 48 ≤ b.toNat ∧ b.toNat ≤ 57 := by
  simpa [isAsciiDigit] using h

theorem takeWhile_digits (s : Bytes) : ∀ d ∈ s.takeWhile isAsciiDigit, 48 ≤ d.toNat ∧ d.toNat ≤ 57 := fun d hd => isAsciiDigit_sound (by
  have := List.all_takeWhile (p := isAsciiDigit) (l := s)
  rw [List.all_eq_true] at this
  exact this d hd)

theorem readDigits_sound {s ds rest : Bytes} (h : readDigits s = some (ds, rest)) : s = ds ++ rest ∧ IsDigits ds := by
  unfold readDigits at h
  split at h
  · cases h
  · rename_i hne
    simp only [Option.some.injEq, Prod.mk.injEq] at h
    obtain ⟨rfl, rfl⟩ := h
    exact ⟨(List.takeWhile_append_dropWhile).symm, hne, takeWhile_digits s⟩

theorem readIntPart_sound {s i rest : Bytes} (h : readIntPart s = some (i, rest)) : s = i ++ rest ∧ (i = [48] ∨ IsDigits i ∧ ∀ rest, i ≠ 48 :: rest) := by
  unfold readIntPart at h
  split at h
  · cases h
  · rename_i d s
    split at h
    · rename_i h0
      simp only [Option.some.injEq, Prod.mk.injEq] at h
      obtain ⟨rfl, rfl⟩ := h
      exact ⟨by rw [h0]; rfl, .inl rfl⟩
    · rename_i h0
      split at h
      · rename_i hd
        simp only [Option.some.injEq, Prod.mk.injEq] at h
        obtain ⟨rfl, rfl⟩ := h
        refine ⟨by simp [List.takeWhile_append_dropWhile], .inr ⟨⟨by simp, ?_⟩, ?_⟩⟩
        · intro d' hd'
          rcases List.mem_cons.mp hd' with rfl | hd'
          · exact isAsciiDigit_sound hd
          · exact takeWhile_digits s d' hd'
        · intro rest he
          exact h0 (List.cons.inj he).1
      · cases h

theorem readFraction_sound {s f rest : Bytes} (h : readFraction s = some (f, rest)) : s = f ++ rest ∧ (f = [] ∨ ∃ ds, IsDigits ds ∧ f = 46 :: ds) := by
  unfold readFraction at h
  split at h
  · simp only [Option.map_eq_some_iff, Prod.mk.injEq] at h
    obtain ⟨⟨ds, r⟩, hd, rfl, rfl⟩ := h
    obtain ⟨rfl, hd'⟩ := readDigits_sound hd
    exact ⟨rfl, .inr ⟨_, hd', rfl⟩⟩
  · simp only [Option.some.injEq, Prod.mk.injEq] at h
    obtain ⟨rfl, rfl⟩ := h
    exact ⟨rfl, .inl rfl⟩

theorem readSign_sound (s : Bytes) : s = (readSign s).1 ++ (readSign s).2 ∧ ((readSign s).1 = [] ∨ (readSign s).1 = [43] ∨ (readSign s).1 = [45]) := by
  unfold readSign
  split
  · exact ⟨rfl, .inr (.inl rfl)⟩
  · exact ⟨rfl, .inr (.inr rfl)⟩
  · exact ⟨rfl, .inl rfl⟩

theorem readExponent_sound {s e rest : Bytes} (h : readExponent s = some (e, rest)) : s = e ++ rest ∧
    (e = [] ∨ ∃ b sign ds, (b = 101 ∨ b = 69) ∧ (sign = [] ∨ sign = [43] ∨ sign = [45]) ∧ IsDigits ds ∧ e = b :: sign ++ ds) := by
  unfold readExponent at h
  split at h
  · simp only [Option.some.injEq, Prod.mk.injEq] at h
    obtain ⟨rfl, rfl⟩ := h
    exact ⟨rfl, .inl rfl⟩
  · rename_i b s
    split at h
    · rename_i hb
      simp only [Option.map_eq_some_iff, Prod.mk.injEq] at h
      obtain ⟨⟨ds, r⟩, hd, rfl, rfl⟩ := h
      obtain ⟨h1, hd⟩ := readDigits_sound hd
      obtain ⟨h2, hs⟩ := readSign_sound s
      refine ⟨?_, .inr ⟨b, _, _, hb, hs, hd, rfl⟩⟩
      rw [h1] at h2
      simpa using h2
    · simp only [Option.some.injEq, Prod.mk.injEq] at h
      obtain ⟨rfl, rfl⟩ := h
      exact ⟨rfl, .inl rfl⟩

theorem readUnsigned_sound {s t rest : Bytes} (h : readUnsigned s = some (t, rest)) : s = t ++ rest ∧ ∀ sign, (sign = [] ∨ sign = [45]) → JsonNumber (sign ++ t) := by
  unfold readUnsigned at h
  split at h
  · cases h
  · rename_i i s1 hi
    split at h
    · cases h
    · rename_i f s2 hf
      split at h
      · cases h
      · rename_i e s3 he
        simp only [Option.some.injEq, Prod.mk.injEq] at h
        obtain ⟨rfl, rfl⟩ := h
        obtain ⟨rfl, hi'⟩ := readIntPart_sound hi
        obtain ⟨rfl, hf'⟩ := readFraction_sound hf
        obtain ⟨rfl, he'⟩ := readExponent_sound he
        exact ⟨by simp, fun sign hs => ⟨sign, i, f, e, by simp, hs, hi', hf', he'⟩⟩

theorem readNumber_sound {s t rest : Bytes} (h : readNumber s = some (t, rest)) : s = t ++ rest ∧ JsonNumber t := by
  unfold readNumber at h
  split at h
  · simp only [Option.map_eq_some_iff, Prod.mk.injEq] at h
    obtain ⟨⟨ds, r⟩, hd, rfl, rfl⟩ := h
    obtain ⟨rfl, hd'⟩ := readUnsigned_sound hd
    exact ⟨rfl, hd' [45] (.inr rfl)⟩
  · obtain ⟨rfl, hd⟩ := readUnsigned_sound h
    exact ⟨rfl, by simpa using hd [] (.inl rfl)⟩

/-! ### Values -/

theorem takeSpaces (s : Bytes) : ∃ sp, Spaces sp ∧ s = sp ++ s.dropWhile isJsonSpace := by
  refine ⟨s.takeWhile isJsonSpace, ?_, List.takeWhile_append_dropWhile.symm⟩
  intro b hb
  have := List.all_takeWhile (p := isJsonSpace) (l := s)
  rw [List.all_eq_true] at this
  have := this b hb
  simp only [isJsonSpace, Bool.or_eq_true, decide_eq_true_eq] at this
  rcases this with ((h | h) | h) | h
  · exact .inl h
  · exact .inr (.inl h)
  · exact .inr (.inr (.inr h))
  · exact .inr (.inr (.inl h))

theorem afterText_sound : ∀ {text s rest : Bytes}, afterText text s = some rest → s = text ++ rest
  | [], s, rest, h => by
    simp only [afterText, Option.some.injEq] at h
    exact h
  | b :: text, [], rest, h => by simp [afterText] at h
  | b :: text, c :: s, rest, h => by
    simp only [afterText] at h
    split at h
    · rename_i hb
      rw [hb, afterText_sound h]
      rfl
    · cases h

/-- The three statements, for one amount of fuel. -/
def ReadsOnlyTexts (parse : Bytes → Res GoFloat) (fuel : Nat) : Prop :=
  (∀ {depth : Nat} {s rest : Bytes} {w : Value}, readValue parse fuel depth s = some (w, rest) →
    ∃ sp t v, s = sp ++ t ++ rest ∧ Spaces sp ∧ JsonText LenientChar (ReadNumber parse) v t ∧ Nested depth v ∧ ReadAs v w) ∧
  (∀ {depth : Nat} {s rest : Bytes} {l : List Value}, readElements parse fuel depth s = some (l, rest) →
    ∃ (t : Bytes) (L : List (Value × Value)), s = t ++ [93] ++ rest ∧ JsonElements LenientChar (ReadNumber parse) (L.map (·.1)) t ∧ l = L.map (·.2) ∧
      ∀ x ∈ L, Nested depth x.1 ∧ ReadAs x.1 x.2) ∧
  (∀ {depth : Nat} {s rest : Bytes} {m : GoMap Value}, readMembers parse fuel depth s = some (m, rest) →
    ∃ (t : Bytes) (L : List (String × Value × Value)), s = t ++ [125] ++ rest ∧ JsonMembers LenientChar (ReadNumber parse) (L.map (fun x => (x.1, x.2.1))) t ∧
      m = L.map (fun x => (x.1, x.2.2)) ∧ ∀ x ∈ L, Nested depth x.2.1 ∧ ReadAs x.2.1 x.2.2)

theorem reads_only_texts (parse : Bytes → Res GoFloat) : ∀ fuel, ReadsOnlyTexts parse fuel
  | 0 => ⟨fun h => by simp [readValue] at h, fun h => by simp [readElements] at h, fun h => by simp [readMembers] at h⟩
  | fuel + 1 => by
    obtain ⟨ihv, ihe, ihm⟩ := reads_only_texts parse fuel
    refine ⟨?_, ?_, ?_⟩
    · intro depth s rest w h
      obtain ⟨sp, hsp, hs⟩ := takeSpaces s
      rw [readValue] at h
      cases hd : s.dropWhile isJsonSpace with
      | nil => rw [hd] at h; cases h
      | cons b r =>
        rw [hd] at h hs
        simp only at h
        by_cases h1 : b = 123
        · rw [if_pos h1] at h
          subst h1
          cases depth with
          | zero => cases h
          | succ depth =>
            obtain ⟨sp', hsp', hr⟩ := takeSpaces r
            simp only at h
            split at h
            · rename_i r' hr'
              rw [hr'] at hr
              simp only [Option.some.injEq, Prod.mk.injEq] at h
              obtain ⟨rfl, rfl⟩ := h
              refine ⟨sp, [123] ++ sp' ++ [125], .obj [], by rw [hs, hr]; simp, hsp, .noMember hsp', .obj (by simp), readAs_obj (L := []) (by simp)⟩
            · simp only [Option.map_eq_some_iff, Prod.mk.injEq] at h
              obtain ⟨⟨m, r'⟩, hm, rfl, rfl⟩ := h
              rw [readMembers_skip] at hm
              obtain ⟨t, L, rfl, ht, rfl, hL⟩ := ihm hm
              refine ⟨sp, [123] ++ t ++ [125], _, by rw [hs]; simp, hsp, .members ht, .obj ?_, readAs_obj (fun x hx => (hL x hx).2)⟩
              intro k v hv
              obtain ⟨x, hx, he⟩ := List.mem_map.mp hv
              cases he
              exact (hL x hx).1
        rw [if_neg h1] at h
        by_cases h2 : b = 91
        · rw [if_pos h2] at h
          subst h2
          cases depth with
          | zero => cases h
          | succ depth =>
            obtain ⟨sp', hsp', hr⟩ := takeSpaces r
            simp only at h
            split at h
            · rename_i r' hr'
              rw [hr'] at hr
              simp only [Option.some.injEq, Prod.mk.injEq] at h
              obtain ⟨rfl, rfl⟩ := h
              refine ⟨sp, [91] ++ sp' ++ [93], .arr [], by rw [hs, hr]; simp, hsp, .noElement hsp', .arr (by simp), readAs_arr (L := []) (by simp)⟩
            · simp only [Option.map_eq_some_iff, Prod.mk.injEq] at h
              obtain ⟨⟨m, r'⟩, hm, rfl, rfl⟩ := h
              rw [readElements_skip] at hm
              obtain ⟨t, L, rfl, ht, rfl, hL⟩ := ihe hm
              refine ⟨sp, [91] ++ t ++ [93], _, by rw [hs]; simp, hsp, .elements ht, .arr ?_, readAs_arr (fun x hx => (hL x hx).2)⟩
              intro v hv
              obtain ⟨x, hx, rfl⟩ := List.mem_map.mp hv
              exact (hL x hx).1
        rw [if_neg h2] at h
        by_cases h3 : b = 34
        · rw [if_pos h3] at h
          subst h3
          simp only [Option.map_eq_some_iff, Prod.mk.injEq] at h
          obtain ⟨⟨cs, r'⟩, hm, rfl, rfl⟩ := h
          obtain ⟨t, rfl, ht⟩ := readString_sound _ hm
          exact ⟨sp, [34] ++ t ++ [34], _, by rw [hs]; simp, hsp, .string ⟨t, ht, rfl⟩, .str, .same .str⟩
        rw [if_neg h3] at h
        by_cases h4 : b = 110
        · rw [if_pos h4] at h
          subst h4
          simp only [Option.map_eq_some_iff, Prod.mk.injEq] at h
          obtain ⟨r', hm, rfl, rfl⟩ := h
          have hm := afterText_sound hm
          exact ⟨sp, _, _, by rw [hs, hm]; simp, hsp, .null, .null, .same .null⟩
        rw [if_neg h4] at h
        by_cases h5 : b = 116
        · rw [if_pos h5] at h
          subst h5
          simp only [Option.map_eq_some_iff, Prod.mk.injEq] at h
          obtain ⟨r', hm, rfl, rfl⟩ := h
          have hm := afterText_sound hm
          exact ⟨sp, _, _, by rw [hs, hm]; simp, hsp, .true, .bool, .same .bool⟩
        rw [if_neg h5] at h
        by_cases h6 : b = 102
        · rw [if_pos h6] at h
          subst h6
          simp only [Option.map_eq_some_iff, Prod.mk.injEq] at h
          obtain ⟨r', hm, rfl, rfl⟩ := h
          have hm := afterText_sound hm
          exact ⟨sp, _, _, by rw [hs, hm]; simp, hsp, .false, .bool, .same .bool⟩
        rw [if_neg h6] at h
        split at h
        · cases h
        · rename_i t r' hn
          obtain ⟨hn1, hn2⟩ := readNumber_sound hn
          split at h
          · rename_i f hf
            simp only [Option.some.injEq, Prod.mk.injEq] at h
            obtain ⟨rfl, rfl⟩ := h
            exact ⟨sp, t, _, by rw [hs, hn1]; simp, hsp, .number hn2 ⟨f, rfl, hf⟩, .float, .same .float⟩
          · cases h
    · intro depth s rest l h
      rw [readElements] at h
      split at h
      · cases h
      · rename_i w r hv
        obtain ⟨sp, t, v, rfl, hsp, ht, hn, hw⟩ := ihv hv
        obtain ⟨sp', hsp', hr⟩ := takeSpaces r
        split at h
        · rename_i r' hr'
          rw [hr'] at hr
          simp only [Option.some.injEq, Prod.mk.injEq] at h
          obtain ⟨rfl, rfl⟩ := h
          refine ⟨sp ++ t ++ sp', [(v, w)], by rw [hr]; simp, .last hsp ht hsp', rfl, ?_⟩
          intro x hx
          rw [List.mem_singleton.mp hx]
          exact ⟨hn, hw⟩
        · rename_i r' hr'
          rw [hr'] at hr
          simp only [Option.map_eq_some_iff, Prod.mk.injEq] at h
          obtain ⟨⟨l', r''⟩, hm, rfl, rfl⟩ := h
          obtain ⟨u, L, rfl, hu, rfl, hL⟩ := ihe hm
          refine ⟨sp ++ t ++ sp' ++ [44] ++ u, (v, w) :: L, by rw [hr]; simp, .cons hsp ht hsp' hu, rfl, ?_⟩
          intro x hx
          rcases List.mem_cons.mp hx with rfl | hx
          · exact ⟨hn, hw⟩
          · exact hL x hx
        · cases h
    · intro depth s rest m h
      obtain ⟨sp, hsp, hs⟩ := takeSpaces s
      rw [readMembers] at h
      split at h
      · rename_i r hr
        rw [hr] at hs
        split at h
        · cases h
        · rename_i key r1 hk
          obtain ⟨k, rfl, hk'⟩ := readString_sound _ hk
          obtain ⟨sp1, hsp1, hr1⟩ := takeSpaces r1
          split at h
          · rename_i r2 hr2
            rw [hr2] at hr1
            split at h
            · cases h
            · rename_i w r3 hv
              obtain ⟨sp2, t, v, rfl, hsp2, ht, hn, hw⟩ := ihv hv
              obtain ⟨sp3, hsp3, hr3⟩ := takeSpaces r3
              have hkey : JsonString LenientChar (String.ofList key).toList ([34] ++ k ++ [34]) := ⟨k, by rw [String.toList_ofList]; exact hk', rfl⟩
              split at h
              · rename_i r4 hr4
                rw [hr4] at hr3
                simp only [Option.some.injEq, Prod.mk.injEq] at h
                obtain ⟨rfl, rfl⟩ := h
                refine ⟨sp ++ ([34] ++ k ++ [34]) ++ sp1 ++ [58] ++ sp2 ++ t ++ sp3, [(String.ofList key, v, w)], by rw [hs, hr1, hr3]; simp,
                  .last hsp hkey hsp1 hsp2 ht hsp3, rfl, ?_⟩
                intro x hx
                rw [List.mem_singleton.mp hx]
                exact ⟨hn, hw⟩
              · rename_i r4 hr4
                rw [hr4] at hr3
                simp only [Option.map_eq_some_iff, Prod.mk.injEq] at h
                obtain ⟨⟨l', r''⟩, hm, rfl, rfl⟩ := h
                obtain ⟨u, L, rfl, hu, rfl, hL⟩ := ihm hm
                refine ⟨sp ++ ([34] ++ k ++ [34]) ++ sp1 ++ [58] ++ sp2 ++ t ++ sp3 ++ [44] ++ u, (String.ofList key, v, w) :: L, by rw [hs, hr1, hr3]; simp,
                  .cons hsp hkey hsp1 hsp2 ht hsp3 hu, rfl, ?_⟩
                intro x hx
                rcases List.mem_cons.mp hx with rfl | hx
                · exact ⟨hn, hw⟩
                · exact hL x hx
              · cases h
          · cases h
      · cases h

end Rodb
