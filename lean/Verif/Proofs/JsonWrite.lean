import Verif.Proofs.JsonRead
import Verif.Proofs.Text
import Verif.Proofs.Config
/-
  What is written is a JSON text of the value.
-/
namespace Rodb
open Spec

/-! ### Texts -/

theorem hexDigit_isHex {n : Nat} (h : n < 16) : IsHex (hexDigit n) n := by
  unfold hexDigit
  split
  · refine .inl ?_
    have : (UInt8.ofNat (48 + n)).toNat = 48 + n := by rw [UInt8.toNat_ofNat']; omega
    omega
  · refine .inr (.inl ?_)
    have : (UInt8.ofNat (87 + n)).toNat = 87 + n := by rw [UInt8.toNat_ofNat']; omega
    omega

theorem ofNat_toNat_ascii {b : UInt8} (h : b.toNat < 128) : (Char.ofNat b.toNat).toNat = b.toNat := by
  have hv : b.toNat.isValidChar := .inl (by omega)
  unfold Char.ofNat
  rw [dif_pos hv]
  simp only [Char.ofNatAux, Char.toNat, UInt32.toNat]
  exact BitVec.toNat_ofNatLT ..

theorem uint8_ext {a b : UInt8} (h : a.toNat = b.toNat) : a = b := UInt8.toNat_inj.mp h

theorem quoteAscii_char {b : UInt8} (h : b.toNat < 128) : JsonChar (Char.ofNat b.toNat) (quoteAscii b) := by
  unfold quoteAscii
  by_cases h1 : b = 34 ∨ b = 92
  · rw [if_pos h1]
    rcases h1 with rfl | rfl
    · exact .quote
    · exact .backslash
  rw [if_neg h1]
  by_cases h2 : b = 10
  · rw [if_pos h2]; subst h2; exact .newline
  rw [if_neg h2]
  by_cases h3 : b = 13
  · rw [if_pos h3]; subst h3; exact .return
  rw [if_neg h3]
  by_cases h4 : b = 9
  · rw [if_pos h4]; subst h4; exact .tab
  rw [if_neg h4]
  by_cases h5 : b.toNat < 32 ∨ b = 38 ∨ b = 60 ∨ b = 62
  · rw [if_pos h5]
    refine JsonChar.number (s := [48, 48, hexDigit (b.toNat / 16), hexDigit (b.toNat % 16)]) ?_
    refine ⟨_, _, _, _, 0, 0, b.toNat / 16, b.toNat % 16, rfl, .inl (by decide), .inl (by decide), hexDigit_isHex (by omega), hexDigit_isHex (by omega), ?_⟩
    rw [ofNat_toNat_ascii h]
    omega
  · rw [if_neg h5]
    have henc : [b] = String.utf8EncodeChar (Char.ofNat b.toNat) := by
      rw [utf8EncodeChar_ascii (by rw [ofNat_toNat_ascii h]; exact h), ofNat_toNat_ascii h, UInt8.ofNat_toNat]
    rw [henc]
    refine .plain (by rw [ofNat_toNat_ascii h]; omega) ?_ ?_
    · intro hc
      apply h1
      left
      apply uint8_ext
      rw [← ofNat_toNat_ascii h, hc]
      rfl
    · intro hc
      apply h1
      right
      apply uint8_ext
      rw [← ofNat_toNat_ascii h, hc]
      rfl

theorem quoteRune_char {c : Char} (h : 128 ≤ c.toNat) : JsonChar c (quoteRune c) := by
  unfold quoteRune
  split
  · rename_i hc
    refine JsonChar.number (s := [50, 48, 50, hexDigit (c.toNat % 16)]) ?_
    refine ⟨_, _, _, _, 2, 0, 2, c.toNat % 16, rfl, .inl (by decide), .inl (by decide), .inl (by decide), hexDigit_isHex (by omega), ?_⟩
    rcases hc with rfl | rfl <;> rfl
  · refine .plain (by omega) ?_ ?_
    · rintro rfl; exact absurd h (by decide)
    · rintro rfl; exact absurd h (by decide)

theorem replacement_char : JsonChar replacementChar [92, 117, 102, 102, 102, 100] :=
  JsonChar.number (s := [102, 102, 102, 100]) ⟨_, _, _, _, 15, 15, 15, 13, rfl, .inr (.inl (by decide)), .inr (.inl (by decide)), .inr (.inl (by decide)), .inr (.inl (by decide)), rfl⟩

/-- What is written between the quotes is some characters; those of the text, if it is valid UTF-8. -/
theorem quoteBytes_chars : ∀ (n : Nat) (s : Bytes), s.length ≤ n → ∃ cs, JsonChars JsonChar cs (quoteBytes n s) ∧ ∀ cs', s = utf8 cs' → cs = cs'
  | 0, s, h => by
    have : s = [] := List.eq_nil_of_length_eq_zero (by omega)
    subst this
    exact ⟨[], .nil, fun cs' h => utf8_inj h⟩
  | n + 1, [], _ => ⟨[], .nil, fun cs' h => utf8_inj h⟩
  | n + 1, b :: rest, h => by
    have hlen : rest.length ≤ n := by simpa using h
    unfold quoteBytes
    by_cases hb : b.toNat < 128
    · rw [if_pos hb]
      obtain ⟨cs, hcs, huniq⟩ := quoteBytes_chars n rest hlen
      refine ⟨Char.ofNat b.toNat :: cs, .cons (quoteAscii_char hb) hcs, ?_⟩
      intro cs' h
      cases cs' with
      | nil => cases h
      | cons c' cs' =>
        have h' : b :: rest = String.utf8EncodeChar c' ++ utf8 cs' := h
        by_cases hc' : c'.toNat < 128
        · rw [utf8EncodeChar_ascii hc'] at h'
          simp only [List.cons_append, List.nil_append, List.cons.injEq] at h'
          obtain ⟨rfl, hr⟩ := h'
          rw [huniq cs' hr, UInt8.toNat_ofNat', Nat.mod_eq_of_lt (by omega), Char.ofNat_toNat]
        · obtain ⟨b', t, hbt, hb'⟩ := utf8EncodeChar_high (c := c') (by omega)
          rw [hbt] at h'
          simp only [List.cons_append, List.cons.injEq] at h'
          rw [← h'.1] at hb'
          omega
    · rw [if_neg hb]
      split
      · rename_i hdec
        obtain ⟨cs, hcs, _⟩ := quoteBytes_chars n rest hlen
        refine ⟨_, .cons replacement_char hcs, ?_⟩
        intro cs' h
        cases cs' with
        | nil => cases h
        | cons c' cs' =>
          have h' : b :: rest = String.utf8EncodeChar c' ++ utf8 cs' := h
          rw [h', decodeRune_append] at hdec
          cases hdec
      · rename_i c hdec
        obtain ⟨tail, htail⟩ := decodeRune_some hdec
        have hdrop : (b :: rest).drop c.utf8Size = tail := by
          rw [htail, ← String.length_utf8EncodeChar]
          simp
        have hpos := Char.utf8Size_pos c
        obtain ⟨cs, hcs, huniq⟩ := quoteBytes_chars n ((b :: rest).drop c.utf8Size) (by rw [List.length_drop, List.length_cons]; omega)
        have hc : 128 ≤ c.toNat := by
          apply Nat.le_of_not_lt
          intro hc
          rw [utf8EncodeChar_ascii hc] at htail
          simp only [List.cons_append, List.cons.injEq] at htail
          rw [htail.1, UInt8.toNat_ofNat', Nat.mod_eq_of_lt (by omega)] at hb
          exact hb hc
        refine ⟨_, .cons (quoteRune_char hc) hcs, ?_⟩
        intro cs' h
        cases cs' with
        | nil => cases h
        | cons c' cs' =>
          have h' : b :: rest = String.utf8EncodeChar c' ++ utf8 cs' := h
          have hcc : c = c' := by
            rw [h', decodeRune_append] at hdec
            exact (Option.some.inj hdec).symm
          subst hcc
          rw [huniq cs']
          rw [h', ← String.length_utf8EncodeChar]
          simp

theorem encodeString_string (s : Bytes) : ∃ cs, JsonString JsonChar cs (encodeString s) ∧ ∀ cs', s = utf8 cs' → cs = cs' := by
  obtain ⟨cs, h, hu⟩ := quoteBytes_chars s.length s (Nat.le_refl _)
  exact ⟨cs, ⟨_, h, rfl⟩, hu⟩

theorem encodeString_utf8 (cs : List Char) : JsonString JsonChar cs (encodeString (utf8 cs)) := by
  obtain ⟨cs', h, hu⟩ := encodeString_string (utf8 cs)
  have := hu cs rfl
  subst this
  exact h

/-! ### Numbers -/

theorem utf8_digits (n : Nat) : utf8 (Nat.toDigits 10 n) = natText n := by
  rw [Nat.toDigits_eq_if (by omega), natText]
  have hdigit : ∀ d < 10, String.utf8EncodeChar d.digitChar = [UInt8.ofNat (48 + d)] := by decide
  split
  · rename_i h
    simp [utf8, hdigit n h]
  · rename_i h
    have ih := utf8_digits (n / 10)
    rw [← ih]
    simp [utf8, hdigit (n % 10) (by omega)]
termination_by n

theorem utf8_itoa (i : Int) : utf8 (itoa i) = intText i := by
  unfold itoa intText
  split
  · have : utf8 ('-' :: Nat.toDigits 10 i.natAbs) = String.utf8EncodeChar '-' ++ utf8 (Nat.toDigits 10 i.natAbs) := rfl
    rw [this, utf8_digits]
    rfl
  · exact utf8_digits _

theorem natText_zero {n : Nat} {rest : Bytes} (h : natText n = 48 :: rest) : n = 0 := by
  rw [natText] at h
  split at h
  · rename_i hn
    have : UInt8.ofNat (48 + n) = 48 := (List.cons.inj h).1
    have := congrArg UInt8.toNat this
    rw [UInt8.toNat_ofNat', Nat.mod_eq_of_lt (by omega)] at this
    have h48 : (48 : UInt8).toNat = 48 := rfl
    omega
  · rename_i hn
    cases hd : natText (n / 10) with
    | nil => exact absurd hd (natText_spec (n / 10)).1.1
    | cons b t =>
      rw [hd] at h
      have hb : b = 48 := (List.cons.inj h).1
      subst hb
      have := natText_zero hd
      omega
termination_by n

theorem intText_number (i : Int) : JsonNumber (intText i) := by
  have hnat : ∀ n : Nat, natText n = [48] ∨ IsDigits (natText n) ∧ ∀ rest, natText n ≠ 48 :: rest := by
    intro n
    by_cases hn : n = 0
    · left
      subst hn
      rw [natText]
      rfl
    · exact .inr ⟨(natText_spec n).1, fun rest h => hn (natText_zero h)⟩
  unfold intText
  split
  · exact ⟨[45], natText i.natAbs, [], [], by simp, .inr rfl, hnat _, .inl rfl, .inl rfl⟩
  · exact ⟨[], natText i.natAbs, [], [], by simp, .inl rfl, hnat _, .inl rfl, .inl rfl⟩

/-! ### Values -/

theorem insertMember_perm (e : Bytes × Bytes) : ∀ l, (insertMember e l).Perm (e :: l)
  | [] => .refl _
  | e' :: l => by
    unfold insertMember
    split
    · exact ((insertMember_perm e l).cons e').trans (.swap ..)
    · exact .refl _

theorem sortMembers_perm : ∀ l, (sortMembers l).Perm l
  | [] => .refl _
  | e :: l => (insertMember_perm e (sortMembers l)).trans ((sortMembers_perm l).cons e)

theorem perm_map {α β : Type} (f : α → β) {l m : List β} (h : l.Perm m) : ∀ L : List α, m = L.map f → ∃ L' : List α, L'.Perm L ∧ l = L'.map f := by
  induction h with
  | nil => intro L h; exact ⟨L, .refl _, h⟩
  | cons x _ ih =>
    intro L h
    cases L with
    | nil => cases h
    | cons a L =>
      simp only [List.map_cons, List.cons.injEq] at h
      obtain ⟨L', hp, rfl⟩ := ih L h.2
      exact ⟨a :: L', hp.cons a, by rw [h.1]; rfl⟩
  | swap x y l =>
    intro L h
    cases L with
    | nil => cases h
    | cons a L =>
      cases L with
      | nil => cases h
      | cons b L =>
        simp only [List.map_cons, List.cons.injEq] at h
        exact ⟨b :: a :: L, .swap .., by rw [h.1, h.2.1, h.2.2]; rfl⟩
  | trans _ _ ih1 ih2 =>
    intro L h
    obtain ⟨L', hp, h'⟩ := ih2 L h
    obtain ⟨L'', hp', h''⟩ := ih1 L' h'
    exact ⟨L'', hp'.trans hp, h''⟩

theorem no_spaces : Spaces [] := fun _ h => by cases h

/-- The value `v'` stands for `v` in what is written. -/
def Faithful (v v' : Value) : Prop :=
  (DistinctKeys v → DistinctKeys v') ∧ (∀ depth, Nested depth v → Nested depth v') ∧ (DistinctKeys v → ValidTexts v → SameJson v v') ∧
    ∀ P, AllNumbers P v → AllNumbers P v'

theorem Faithful.refl (v : Value) : Faithful v v := ⟨id, fun _ => id, fun _ _ _ => rfl, fun _ => id⟩

theorem faithful_arr {α : Type} {L : List α} {f g : α → Value} (h : ∀ x ∈ L, Faithful (f x) (g x)) : Faithful (.arr (L.map f)) (.arr (L.map g)) := by
  refine ⟨?_, ?_, ?_, ?_⟩
  · intro hd
    cases hd with
    | arr hd =>
    refine .arr fun v hv => ?_
    obtain ⟨x, hx, rfl⟩ := List.mem_map.mp hv
    exact (h x hx).1 (hd _ (List.mem_map_of_mem hx))
  · intro depth hn
    cases hn with
    | arr hn =>
    refine .arr fun v hv => ?_
    obtain ⟨x, hx, rfl⟩ := List.mem_map.mp hv
    exact (h x hx).2.1 _ (hn _ (List.mem_map_of_mem hx))
  · intro hd hv path
    cases hd with
    | arr hd =>
    cases hv with
    | arr hv =>
    match path with
    | [] => simp [look]
    | .inl _ :: _ => rfl
    | .inr i :: path =>
      simp only [look, List.getElem?_map]
      cases hi : L[i]? with
      | none => rfl
      | some x =>
        have hx := List.mem_of_getElem? hi
        exact (h x hx).2.2.1 (hd _ (List.mem_map_of_mem hx)) (hv _ (List.mem_map_of_mem hx)) path
  · intro P hn
    cases hn with
    | arr hn =>
    refine .arr fun v hv => ?_
    obtain ⟨x, hx, rfl⟩ := List.mem_map.mp hv
    exact (h x hx).2.2.2 _ (hn _ (List.mem_map_of_mem hx))

theorem mapGet_bind_congr {α β : Type} {key : α → String} {f g : α → Value} {F : Value → Option β} {k : String} :
    ∀ {L : List α}, (∀ x ∈ L, F (f x) = F (g x)) → (mapGet (L.map (fun x => (key x, f x))) k).bind F = (mapGet (L.map (fun x => (key x, g x))) k).bind F
  | [], _ => rfl
  | x :: L, h => by
    simp only [List.map_cons, mapGet]
    split
    · exact h x (by simp)
    · exact mapGet_bind_congr (fun x hx => h x (by simp [hx]))

theorem faithful_obj {α : Type} {L L' : List α} {key : α → String} {f g : α → Value} (hp : L'.Perm L) (h : ∀ x ∈ L, Faithful (f x) (g x)) :
    Faithful (.obj (L.map (fun x => (key x, f x)))) (.obj (L'.map (fun x => (key x, g x)))) := by
  have hkeys : ∀ (f : α → Value) (L : List α), (L.map (fun x => (key x, f x))).map (·.1) = L.map key := by
    intro f L
    simp [Function.comp_def]
  refine ⟨?_, ?_, ?_, ?_⟩
  · intro hd
    cases hd with
    | obj hk hd =>
    refine .obj ?_ fun k v hv => ?_
    · rw [hkeys] at hk ⊢
      exact (hp.map key).nodup_iff.mpr hk
    · obtain ⟨x, hx, he⟩ := List.mem_map.mp hv
      cases he
      have hx := hp.mem_iff.mp hx
      exact (h x hx).1 (hd (key x) _ (List.mem_map.mpr ⟨x, hx, rfl⟩))
  · intro depth hn
    cases hn with
    | obj hn =>
    refine .obj fun k v hv => ?_
    obtain ⟨x, hx, he⟩ := List.mem_map.mp hv
    cases he
    have hx := hp.mem_iff.mp hx
    exact (h x hx).2.1 _ (hn (key x) _ (List.mem_map.mpr ⟨x, hx, rfl⟩))
  · intro hd hv path
    cases hd with
    | obj hk hd =>
    cases hv with
    | obj hv =>
    match path with
    | [] => rfl
    | .inr _ :: _ => rfl
    | .inl k :: path =>
      simp only [look]
      have hperm : (L'.map (fun x => (key x, g x))).Perm (L.map (fun x => (key x, g x))) := hp.map _
      rw [hkeys] at hk
      have : mapGet (L'.map (fun x => (key x, g x))) k = mapGet (L.map (fun x => (key x, g x))) k :=
        mapGet_perm hperm (by rw [hkeys]; exact (hp.map key).nodup_iff.mpr hk) k
      rw [this]
      exact mapGet_bind_congr (fun x hx => (h x hx).2.2.1 (hd (key x) _ (List.mem_map.mpr ⟨x, hx, rfl⟩)) (hv (key x) _ (List.mem_map.mpr ⟨x, hx, rfl⟩)) path)
  · intro P hn
    cases hn with
    | obj hn =>
    refine .obj fun k v hv => ?_
    obtain ⟨x, hx, he⟩ := List.mem_map.mp hv
    cases he
    have hx := hp.mem_iff.mp hx
    exact (h x hx).2.2.2 _ (hn (key x) _ (List.mem_map.mpr ⟨x, hx, rfl⟩))

theorem join_elements {α : Type} {num : Value → Bytes → Prop} {f : α → Value} {g : α → Bytes} :
    ∀ {L : List α}, L ≠ [] → (∀ x ∈ L, JsonText JsonChar num (f x) (g x)) → JsonElements JsonChar num (L.map f) (joinCommas (L.map g))
  | [], h, _ => absurd rfl h
  | [x], _, h => by
    have := JsonElements.last no_spaces (h x (by simp)) no_spaces
    simpa [joinCommas] using this
  | x :: y :: L, _, h => by
    have := JsonElements.cons no_spaces (h x (by simp)) no_spaces (join_elements (L := y :: L) (by simp) (fun z hz => h z (by simp [hz])))
    simpa [joinCommas] using this

theorem join_members {α : Type} {num : Value → Bytes → Prop} {key : α → String} {f : α → Value} {g : α → Bytes} :
    ∀ {L : List α}, L ≠ [] → (∀ x ∈ L, JsonText JsonChar num (f x) (g x)) →
      JsonMembers JsonChar num (L.map (fun x => (key x, f x))) (joinCommas (L.map (fun x => encodeString (utf8 (key x).toList) ++ [58] ++ g x)))
  | [], h, _ => absurd rfl h
  | [x], _, h => by
    have := JsonMembers.last (key := key x) no_spaces (encodeString_utf8 _) no_spaces no_spaces (h x (by simp)) no_spaces
    simpa [joinCommas] using this
  | x :: y :: L, _, h => by
    have := JsonMembers.cons (key := key x) no_spaces (encodeString_utf8 _) no_spaces no_spaces (h x (by simp)) no_spaces
      (join_members (key := key) (L := y :: L) (by simp) (fun z hz => h z (by simp [hz])))
    simpa [joinCommas] using this

mutual
theorem encodeValue_text {fmt : Int → Bytes} (hfmt : FormatContract fmt) : ∀ (v : Value) {text : Bytes}, encodeValue fmt v = .ok text →
    ∃ v', JsonText JsonChar (WrittenNumber fmt) v' text ∧ Faithful v v'
  | .null, text, h => by
    simp only [encodeValue, ok_inj] at h
    subst h
    exact ⟨_, .null, .refl _⟩
  | .bool true, text, h => by
    simp only [encodeValue, ok_inj] at h
    subst h
    exact ⟨_, .true, .refl _⟩
  | .bool false, text, h => by
    simp only [encodeValue, ok_inj] at h
    subst h
    exact ⟨_, .false, .refl _⟩
  | .int i, text, h => by
    simp only [encodeValue, ok_inj] at h
    subst h
    rw [utf8_itoa]
    exact ⟨_, .number (intText_number i) (.inl ⟨i, rfl, rfl⟩), .refl _⟩
  | .float (.fin k), text, h => by
    simp only [encodeValue, ok_inj] at h
    subst h
    exact ⟨_, .number (hfmt k) (.inr ⟨k, rfl, rfl⟩), .refl _⟩
  | .float .nan, text, h => by simp [encodeValue] at h
  | .float .ninf, text, h => by simp [encodeValue] at h
  | .float .pinf, text, h => by simp [encodeValue] at h
  | .str s, text, h => by
    simp only [encodeValue, ok_inj] at h
    subst h
    obtain ⟨cs, hcs, hu⟩ := encodeString_string s
    refine ⟨_, .string hcs, fun _ => .str, fun _ _ => .str, ?_, fun _ _ => .str⟩
    intro _ hv
    cases hv with
    | str =>
    rw [hu _ rfl]
    exact fun _ => rfl
  | .arr l, text, h => by
    simp only [encodeValue, bind_ok, ok_inj] at h
    obtain ⟨texts, ht, rfl⟩ := h
    obtain ⟨L, rfl, rfl, hL⟩ := encodeElements_text hfmt l ht
    refine ⟨.arr (L.map (·.2.1)), ?_, faithful_arr (fun x hx => (hL x hx).2)⟩
    cases L with
    | nil => exact JsonText.noElement (s := []) no_spaces
    | cons x L => exact .elements (join_elements (by simp) (fun y hy => (hL y hy).1))
  | .obj m, text, h => by
    simp only [encodeValue, bind_ok, ok_inj] at h
    obtain ⟨members, hm, rfl⟩ := h
    obtain ⟨L, rfl, rfl, hL⟩ := encodeMembers_text hfmt m hm
    obtain ⟨L', hp, hs⟩ := perm_map _ (sortMembers_perm _) L rfl
    refine ⟨.obj (L'.map (fun x => (x.1, x.2.2.1))), ?_, faithful_obj hp (fun x hx => (hL x hx).2)⟩
    rw [hs]
    cases L' with
    | nil => exact JsonText.noMember (s := []) no_spaces
    | cons x L' =>
      have := JsonText.members (join_members (num := WrittenNumber fmt) (key := fun x : String × Value × Value × Bytes => x.1) (f := fun x => x.2.2.1) (g := fun x => x.2.2.2)
        (L := x :: L') (by simp) (fun y hy => (hL y (hp.mem_iff.mp hy)).1))
      simpa [Function.comp_def] using this

theorem encodeElements_text {fmt : Int → Bytes} (hfmt : FormatContract fmt) : ∀ (l : List Value) {texts : List Bytes}, encodeElements fmt l = .ok texts →
    ∃ L : List (Value × Value × Bytes), l = L.map (·.1) ∧ texts = L.map (·.2.2) ∧ ∀ x ∈ L, JsonText JsonChar (WrittenNumber fmt) x.2.1 x.2.2 ∧ Faithful x.1 x.2.1
  | [], texts, h => by
    simp only [encodeElements, ok_inj] at h
    subst h
    exact ⟨[], rfl, rfl, by simp⟩
  | v :: l, texts, h => by
    simp only [encodeElements, bind_ok, ok_inj] at h
    obtain ⟨text, ht, texts, hts, rfl⟩ := h
    obtain ⟨v', hv, hf⟩ := encodeValue_text hfmt v ht
    obtain ⟨L, rfl, rfl, hL⟩ := encodeElements_text hfmt l hts
    refine ⟨(v, v', text) :: L, rfl, rfl, ?_⟩
    intro x hx
    rcases List.mem_cons.mp hx with rfl | hx
    · exact ⟨hv, hf⟩
    · exact hL x hx

theorem encodeMembers_text {fmt : Int → Bytes} (hfmt : FormatContract fmt) : ∀ (m : List (String × Value)) {members : List (Bytes × Bytes)}, encodeMembers fmt m = .ok members →
    ∃ L : List (String × Value × Value × Bytes), m = L.map (fun x => (x.1, x.2.1)) ∧ members = L.map (fun x => (utf8 x.1.toList, x.2.2.2)) ∧
      ∀ x ∈ L, JsonText JsonChar (WrittenNumber fmt) x.2.2.1 x.2.2.2 ∧ Faithful x.2.1 x.2.2.1
  | [], members, h => by
    simp only [encodeMembers, ok_inj] at h
    subst h
    exact ⟨[], rfl, rfl, by simp⟩
  | (k, v) :: m, members, h => by
    simp only [encodeMembers, bind_ok, ok_inj] at h
    obtain ⟨text, ht, members, hms, rfl⟩ := h
    obtain ⟨v', hv, hf⟩ := encodeValue_text hfmt v ht
    obtain ⟨L, rfl, rfl, hL⟩ := encodeMembers_text hfmt m hms
    refine ⟨(k, v, v', text) :: L, rfl, rfl, ?_⟩
    intro x hx
    rcases List.mem_cons.mp hx with rfl | hx
    · exact ⟨hv, hf⟩
    · exact hL x hx
end

end Rodb
