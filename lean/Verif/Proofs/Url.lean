import Verif.Model.Url
import Verif.Spec.Url
import Verif.Proofs.JsonSound
import Verif.Proofs.Files
import Verif.Proofs.Service
import Verif.Proofs.Relationship
/-
  The targets of requests are read as they are written.
-/
namespace Rodb
open Spec

theorem unescape_plain (query : Bool) {b : UInt8} (h : b ≠ 37) (rest : Bytes) : unescape query (b :: rest) = (unescape query rest).map ((if query && b = 43 then 32 else b) :: ·) := by
  rcases rest with _ | ⟨x, _ | ⟨y, rest⟩⟩ <;> simp only [unescape, if_neg h]

theorem unescape_escape (query : Bool) (x y : UInt8) (rest : Bytes) : unescape query (37 :: x :: y :: rest) =
    match hexValue x, hexValue y with
    | some x, some y => (unescape query rest).map (UInt8.ofNat (x * 16 + y) :: ·)
    | _, _ => none := by
  rw [unescape, if_pos rfl]
  rfl

theorem unescape_of {plus : Bool} {special bytes text : Bytes} (h : UrlText plus special bytes text) (hplus : plus = true → 43 ∈ special) : unescape plus text = some bytes := by
  induction h with
  | done => rfl
  | @plain b _ _ h1 h2 h3 h4 _ ih =>
    rw [unescape_plain _ h3, ih]
    cases plus with
    | false => simp
    | true =>
      have : b ≠ 43 := fun e => h4 (e ▸ hplus rfl)
      simp [this]
  | @escaped b x y _ _ h1 h2 _ ih =>
    rw [unescape_escape]
    simp only [hexValue_of h1, hexValue_of h2, ih, Option.map_some]
    rw [show b.toNat / 16 * 16 + b.toNat % 16 = b.toNat by omega, UInt8.ofNat_toNat]
  | space h _ ih =>
    rw [unescape_plain _ (by decide), ih, h]
    rfl

/-- A component can be read exactly if its escapes are good. -/
theorem unescape_some (query : Bool) : ∀ (k : Nat) (text : Bytes), text.length ≤ k → ((∃ bytes, unescape query text = some bytes) ↔ GoodEscapes text) := by
  intro k
  induction k with
  | zero =>
    intro text hk
    have : text = [] := List.length_eq_zero_iff.1 (by omega)
    subst this
    exact ⟨fun _ before after e => by simp at e, fun _ => ⟨_, rfl⟩⟩
  | succ k ih =>
    intro text hk
    match text with
    | [] => exact ⟨fun _ before after e => by simp at e, fun _ => ⟨_, rfl⟩⟩
    | b :: rest =>
      simp only [List.length_cons] at hk
      by_cases hb : b = 37
      · subst hb
        match rest with
        | [] => exact ⟨fun ⟨_, h⟩ => by simp [unescape] at h, fun h => by obtain ⟨x, y, rest, _, _, e, _⟩ := h [] _ rfl; simp at e⟩
        | [_] => exact ⟨fun ⟨_, h⟩ => by simp [unescape] at h, fun h => by obtain ⟨x, y, rest, _, _, e, _⟩ := h [] _ rfl; simp at e⟩
        | x :: y :: rest =>
          simp only [List.length_cons] at hk
          rw [unescape_escape]
          have h37 : ∀ {c : UInt8} {n : Nat}, IsHex c n → c ≠ 37 := by
            intro c n h e
            subst e
            unfold IsHex at h
            simp at h
          constructor
          · rintro ⟨bytes, h⟩
            split at h
            · next m n hx hy =>
              obtain ⟨bytes', h', _⟩ := Option.map_eq_some_iff.1 h
              have hg := (ih rest (by omega)).1 ⟨_, h'⟩
              have hx := (hexValue_sound hx).1
              have hy := (hexValue_sound hy).1
              intro before after e
              match before with
              | [] =>
                simp only [List.nil_append, List.cons.injEq, true_and] at e
                exact ⟨x, y, rest, m, n, e.symm, hx, hy⟩
              | [_] =>
                simp only [List.cons_append, List.nil_append, List.cons.injEq] at e
                exact absurd e.2.1 (h37 hx)
              | [_, _] =>
                simp only [List.cons_append, List.nil_append, List.cons.injEq] at e
                exact absurd e.2.2.1 (h37 hy)
              | _ :: _ :: _ :: before =>
                simp only [List.cons_append, List.cons.injEq] at e
                exact hg before after e.2.2.2
            · cases h
          · intro h
            obtain ⟨x', y', rest', m, n, e, hx, hy⟩ := h [] _ rfl
            cases e
            obtain ⟨bytes, hb⟩ := (ih rest (by omega)).2 fun before after e => h (37 :: x :: y :: before) after (by rw [e]; rfl)
            exact ⟨UInt8.ofNat (m * 16 + n) :: bytes, by simp only [hexValue_of hx, hexValue_of hy, hb, Option.map_some]⟩
      · rw [unescape_plain _ hb]
        constructor
        · rintro ⟨bytes, h⟩
          obtain ⟨bytes', h', _⟩ := Option.map_eq_some_iff.1 h
          have hg := (ih rest (by omega)).1 ⟨_, h'⟩
          intro before after e
          match before with
          | [] =>
            simp only [List.nil_append, List.cons.injEq] at e
            exact absurd e.1 hb
          | _ :: before =>
            simp only [List.cons_append, List.cons.injEq] at e
            exact hg before after e.2
        · intro h
          obtain ⟨bytes, hb⟩ := (ih rest (by omega)).2 fun before after e => h (b :: before) after (by rw [e]; rfl)
          exact ⟨_, by rw [hb]; rfl⟩

theorem unescape_none (query : Bool) (text : Bytes) : unescape query text = none ↔ ¬ GoodEscapes text := by
  rw [← unescape_some query _ text (Nat.le_refl _), Option.eq_none_iff_forall_ne_some, not_exists]

theorem urlText_good {plus : Bool} {special bytes text : Bytes} (h : UrlText plus special bytes text) : ∀ b ∈ text, 32 < b.toNat ∧ b.toNat ≠ 127 := by
  have hex : ∀ {x : UInt8} {n : Nat}, IsHex x n → 32 < x.toNat ∧ x.toNat ≠ 127 := by
    intro x n h
    unfold IsHex at h
    omega
  induction h with
  | done => simp
  | plain h1 h2 _ _ _ ih => 
    intro b hb
    rcases List.mem_cons.1 hb with rfl | hb
    · exact ⟨h1, h2⟩
    · exact ih b hb
  | escaped h1 h2 _ ih =>
    intro b hb
    simp only [List.mem_cons] at hb
    rcases hb with rfl | rfl | rfl | hb
    · decide
    · exact hex h1
    · exact hex h2
    · exact ih b hb
  | space _ _ ih => 
    intro b hb
    rcases List.mem_cons.1 hb with rfl | hb
    · decide
    · exact ih b hb

/-- No special byte is in the text, unless it could be an escape. -/
theorem urlText_not {plus : Bool} {special bytes text : Bytes} (h : UrlText plus special bytes text) {c : UInt8} (hc : c ∈ special) (h37 : c ≠ 37) (h43 : c ≠ 43) (hx : ∀ n, ¬ IsHex c n) :
    c ∉ text := by
  induction h with
  | done => simp
  | plain _ _ _ h4 _ ih => simp only [List.mem_cons, not_or]; exact ⟨fun e => h4 (e ▸ hc), ih⟩
  | escaped h1 h2 _ ih => simp only [List.mem_cons, not_or]; exact ⟨h37, fun e => hx _ (e ▸ h1), fun e => hx _ (e ▸ h2), ih⟩
  | space _ _ ih => simp only [List.mem_cons, not_or]; exact ⟨h43, ih⟩

theorem cutBytes_at {separator : UInt8} : ∀ {before : Bytes}, separator ∉ before → ∀ after, cutBytes separator (before ++ separator :: after) = (before, after)
  | [], _, after => by simp [cutBytes]
  | b :: before, h, after => by
    simp only [List.mem_cons, not_or] at h
    rw [List.cons_append, cutBytes, if_neg (fun e => h.1 e.symm), cutBytes_at h.2 after]

theorem cutBytes_none {separator : UInt8} : ∀ {text : Bytes}, separator ∉ text → cutBytes separator text = (text, [])
  | [], _ => rfl
  | b :: text, h => by
    simp only [List.mem_cons, not_or] at h
    rw [cutBytes, if_neg (fun e => h.1 e.symm), cutBytes_none h.2]

theorem queryParts_none {separator : UInt8 → Bool} : ∀ {text : Bytes}, (∀ b ∈ text, separator b = false) → queryParts separator text = [text]
  | [], _ => rfl
  | b :: text, h => by
    rw [queryParts, h b (by simp), queryParts_none (fun b hb => h b (by simp [hb]))]
    rfl

theorem queryParts_at {separator : UInt8 → Bool} : ∀ {part : Bytes}, (∀ b ∈ part, separator b = false) → ∀ {c : UInt8}, separator c = true → ∀ rest,
    queryParts separator (part ++ c :: rest) = part :: queryParts separator rest
  | [], _, c, hc, rest => by rw [List.nil_append, queryParts, hc]; rfl
  | b :: part, h, c, hc, rest => by
    rw [List.cons_append, queryParts, h b (by simp), queryParts_at (fun b hb => h b (by simp [hb])) hc rest]
    rfl

theorem queryParts_ne (separator : UInt8 → Bool) : ∀ text, queryParts separator text ≠ []
  | [] => by simp [queryParts]
  | b :: text => by
    rw [queryParts]
    split
    · simp
    · split <;> simp

/-- Splitting before a separator and after it. -/
theorem queryParts_append {separator : UInt8 → Bool} {c : UInt8} (hc : separator c = true) (rest : Bytes) : ∀ (text : Bytes),
    queryParts separator (text ++ c :: rest) = queryParts separator text ++ queryParts separator rest
  | [] => queryParts_at (part := []) (by simp) hc rest
  | b :: text => by
    rw [List.cons_append, queryParts, queryParts, queryParts_append hc rest text]
    split
    · rfl
    · cases h : queryParts separator text with
      | nil => exact absurd h (queryParts_ne _ _)
      | cons a l => rfl

theorem pairText_read {name : String} {value text : Bytes} (h : PairText name value text) (old : Bool) :
    queryPair old text = some (utf8 name.toList, value) ∧ ∀ b ∈ text, (b = 38 || (old && b = 59)) = false := by
  have hx : ∀ c ∈ [(38 : UInt8), 59, 43, 35, 61], ∀ n, ¬ IsHex c n := by
    intro c hc n h
    simp only [List.mem_cons, List.not_mem_nil, or_false] at hc
    unfold IsHex at h
    rcases hc with rfl | rfl | rfl | rfl | rfl <;> simp at h <;> omega
  have clean : ∀ {t : Bytes}, (38 : UInt8) ∉ t → (59 : UInt8) ∉ t → (∀ b ∈ t, (b = 38 || (old && b = 59)) = false) ∧ t.contains 59 = false := by
    intro t h1 h2
    constructor
    · intro b hb
      have e1 : b ≠ 38 := fun e => h1 (e ▸ hb)
      have e2 : b ≠ 59 := fun e => h2 (e ▸ hb)
      simp [e1, e2]
    · simpa using h2
  cases h with
  | @value _ n v hn hv =>
    have n1 := urlText_not hn (c := 38) (by simp) (by decide) (by decide) (hx _ (by simp))
    have n2 := urlText_not hn (c := 59) (by simp) (by decide) (by decide) (hx _ (by simp))
    have n3 := urlText_not hn (c := 61) (by simp) (by decide) (by decide) (hx _ (by simp))
    have v1 := urlText_not hv (c := 38) (by simp) (by decide) (by decide) (hx _ (by simp))
    have v2 := urlText_not hv (c := 59) (by simp) (by decide) (by decide) (hx _ (by simp))
    obtain ⟨c1, c2⟩ := clean (t := n ++ 61 :: v) (by simp [n1, v1]) (by simp [n2, v2])
    refine ⟨?_, c1⟩
    unfold queryPair
    rw [if_neg (by simp), c2, cutBytes_at n3]
    simp only [Bool.and_false, Bool.false_eq_true, if_false, unescape_of hn (fun _ => by simp), unescape_of hv (fun _ => by simp)]
  | @name _ hn hne =>
    have n1 := urlText_not hn (c := 38) (by simp) (by decide) (by decide) (hx _ (by simp))
    have n2 := urlText_not hn (c := 59) (by simp) (by decide) (by decide) (hx _ (by simp))
    have n3 := urlText_not hn (c := 61) (by simp) (by decide) (by decide) (hx _ (by simp))
    obtain ⟨c1, c2⟩ := clean (t := text) n1 n2
    refine ⟨?_, c1⟩
    unfold queryPair
    rw [if_neg hne, c2, cutBytes_none n3]
    simp only [Bool.and_false, Bool.false_eq_true, if_false, unescape_of hn (fun _ => by simp), unescape]

theorem addQueryPair_blank (old : Bool) (m : GoMap (List Bytes)) : addQueryPair old m [] = m := rfl

/-- The query as a map: the values of a list of parameters, added to those of a map. -/
theorem queryText_read {pairs : List (String × Bytes)} {text : Bytes} (h : QueryText pairs text) (old : Bool) :
    ∀ m, (queryParts (fun b => b = 38 || (old && b = 59)) text).foldl (addQueryPair old) m =
      pairs.foldl (fun m p => mapSet m p.1 ((mapGet m p.1).getD [] ++ [p.2])) m := by
  have add : ∀ {name : String} {value text : Bytes}, PairText name value text → ∀ m, addQueryPair old m text = mapSet m name ((mapGet m name).getD [] ++ [value]) := by
    intro name value text h m
    simp only [addQueryPair, (pairText_read h old).1, decodeUtf8_utf8]
  induction h with
  | none => intro m; rfl
  | last h =>
    intro m
    rw [queryParts_none (pairText_read h old).2]
    simp only [List.foldl_cons, List.foldl_nil, add h]
  | more h _ ih =>
    intro m
    rw [queryParts_at (pairText_read h old).2 (by simp)]
    simp only [List.foldl_cons, add h, ih]
  | @blank _ rest _ ih =>
    intro m
    rw [show (38 : UInt8) :: rest = [] ++ 38 :: rest from rfl, queryParts_at (by simp) (by simp)]
    simp only [List.foldl_cons, addQueryPair_blank, ih]

theorem valuesOf_cons (k : String) (v : Bytes) (pairs : List (String × Bytes)) (name : String) : valuesOf ((k, v) :: pairs) name = if k = name then v :: valuesOf pairs name else valuesOf pairs name := by
  unfold valuesOf
  by_cases h : k = name <;> simp [h]

theorem foldPairs_get : ∀ (pairs : List (String × Bytes)) (m : GoMap (List Bytes)) (name : String),
    mapGet (pairs.foldl (fun m p => mapSet m p.1 ((mapGet m p.1).getD [] ++ [p.2])) m) name =
      if valuesOf pairs name = [] then mapGet m name else some ((mapGet m name).getD [] ++ valuesOf pairs name)
  | [], m, name => by simp [valuesOf]
  | (k, v) :: pairs, m, name => by
    rw [List.foldl_cons, foldPairs_get pairs _ name, mapGet_mapSet, valuesOf_cons]
    by_cases h : k = name
    · subst h
      simp only [if_true, Option.getD_some, List.append_assoc, List.singleton_append, reduceCtorEq, if_false]
      split
      · next h2 => rw [h2]
      · rfl
    · simp only [if_neg h]

/-- What `parseQuery` gives is always a good query: each name once, with a value. -/
theorem goodQuery_set {m : GoMap (List Bytes)} (h : GoodQuery m) (k : String) {v : List Bytes} (hv : v ≠ []) : GoodQuery (mapSet m k v) := by
  refine ⟨mapSet_keys k v h.1, fun q hq => ?_⟩
  rcases mapSet_mem (n := q.1) (x := q.2) hq with hq | ⟨_, e⟩
  · exact h.2 q hq
  · rw [e]; exact hv

theorem parseQuery_good (old : Bool) (query : Bytes) : GoodQuery (parseQuery old query) := by
  unfold parseQuery
  have : ∀ (parts : List Bytes) (m : GoMap (List Bytes)), GoodQuery m → GoodQuery (parts.foldl (addQueryPair old) m) := by
    intro parts
    induction parts with
    | nil => exact fun m h => h
    | cons part parts ih =>
      intro m h
      refine ih _ ?_
      unfold addQueryPair
      split
      · exact h
      · split
        · exact h
        · exact goodQuery_set h _ (by simp)
  exact this _ _ ⟨by simp, by simp⟩

end Rodb
