import Verif.Proofs.XmlWritten
import Verif.Proofs.XmlInput
/-
  XML files that end too early.
-/
namespace Rodb
open Spec

/-! ### What follows a token does not change it -/

theorem dropWhile_append_stop {p : UInt8 → Bool} {l q : Bytes} {b : UInt8} {rest : Bytes} (h : l.dropWhile p = b :: rest) :
    (l ++ q).dropWhile p = b :: (rest ++ q) ∧ (l ++ q).takeWhile p = l.takeWhile p := by
  induction l with
  | nil => cases h
  | cons x l ih =>
    simp only [List.cons_append, List.dropWhile_cons, List.takeWhile_cons] at h ⊢
    split at h
    · rename_i hx
      obtain ⟨h1, h2⟩ := ih h
      simp only [hx, if_true, h1, h2, and_self]
    · rename_i hx
      simp only [List.cons.injEq] at h
      obtain ⟨rfl, rfl⟩ := h
      simp [hx]

theorem skipXmlSpace_append {l q : Bytes} {b : UInt8} {rest : Bytes} (h : skipXmlSpace l = b :: rest) : skipXmlSpace (l ++ q) = b :: (rest ++ q) := (dropWhile_append_stop h).1

theorem xmlName_append {left name rest} (h : xmlName left = some (name, rest)) (q : Bytes) : xmlName (left ++ q) = some (name, rest ++ q) ∧ rest ≠ [] := by
  unfold xmlName at h ⊢
  split at h
  · cases h
  · rename_i b t heq
    obtain ⟨h1, h2⟩ := dropWhile_append_stop (q := q) heq
    split at h
    · rename_i hp
      cases h
      rw [h1]
      simp only [h2, hp, if_true, List.cons_append, ne_eq, reduceCtorEq, not_false_eq_true, and_self]
    · cases h

theorem upTo_length {mark : Bytes} : ∀ {left data rest}, upTo mark left = some (data, rest) → mark.length ≤ left.length
  | [], _, _, h => by cases h
  | b :: left, data, rest, h => by
    unfold upTo at h
    split at h
    · rename_i hp
      rw [List.isPrefixOf_iff_prefix] at hp
      exact hp.length_le
    · cases hu : upTo mark left with
      | none => rw [hu] at h; cases h
      | some r =>
        obtain ⟨d, r⟩ := r
        have := upTo_length hu
        simp only [List.length_cons]; omega

theorem upTo_append {mark : Bytes} : ∀ {left data rest}, upTo mark left = some (data, rest) → ∀ q : Bytes, upTo mark (left ++ q) = some (data, rest ++ q)
  | [], _, _, h, _ => by cases h
  | b :: left, data, rest, h, q => by
    have hlen := upTo_length h
    unfold upTo at h
    rw [List.cons_append]
    unfold upTo
    split at h
    · rename_i hp
      rw [List.isPrefixOf_iff_prefix] at hp
      rw [if_pos (by rw [List.isPrefixOf_iff_prefix, ← List.cons_append]; exact hp.trans (List.prefix_append _ _))]
      cases h
      rw [← List.cons_append, List.drop_append_of_le_length hlen]
    · rename_i hp
      cases hu : upTo mark left with
      | none => rw [hu] at h; cases h
      | some r =>
        obtain ⟨d, r⟩ := r
        rw [hu] at h
        cases h
        rw [if_neg, upTo_append hu q]
        · rfl
        · intro hq
          apply hp
          rw [List.isPrefixOf_iff_prefix] at hq ⊢
          have : b :: (left ++ q) = (b :: left) ++ q := rfl
          rw [this] at hq
          exact List.prefix_of_prefix_length_le hq (List.prefix_append _ _) hlen

theorem xmlCharRef_append {base before left text rest} (h : xmlCharRef base before left = some (text, rest)) (q : Bytes) : xmlCharRef base before (left ++ q) = some (text, rest ++ q) := by
  unfold xmlCharRef at h ⊢
  simp only at h ⊢
  split at h
  · cases h
  · rename_i b t heq
    obtain ⟨h1, h2⟩ := dropWhile_append_stop (q := q) heq
    rw [h1, h2]
    simp only
    split at h
    · rename_i hb
      rw [if_pos hb]; cases h; rfl
    · rename_i hb
      rw [if_neg hb]
      split at h
      · rename_i hd
        rw [if_pos hd]; cases h; rfl
      · rename_i hd
        rw [if_neg hd]; cases h; rfl

theorem xmlEntityRef_append {left text rest} (h : xmlEntityRef left = some (text, rest)) (q : Bytes) : xmlEntityRef (left ++ q) = some (text, rest ++ q) := by
  unfold xmlEntityRef at h ⊢
  simp only at h ⊢
  split at h
  · cases h
  · rename_i b t heq
    obtain ⟨h1, h2⟩ := dropWhile_append_stop (q := q) heq
    rw [h1, h2]
    simp only
    split at h
    · rename_i hb
      rw [if_pos hb]; cases h; rfl
    · rename_i hb
      rw [if_neg hb]
      split at h <;> (cases h; rfl)

theorem xmlEscape_name {b : UInt8} (hb : b ≠ 35) (rest : Bytes) : xmlEscape (b :: rest) = xmlEntityRef (b :: rest) := by
  unfold xmlEscape
  split
  · rename_i heq; cases heq
  · rename_i heq; simp only [List.cons.injEq] at heq; exact absurd heq.1 hb
  · rename_i heq; simp only [List.cons.injEq] at heq; exact absurd heq.1 hb
  · rfl

theorem xmlEscape_decimal {c : UInt8} (hc : c ≠ 120) (rest : Bytes) : xmlEscape (35 :: c :: rest) = xmlCharRef 10 [38, 35] (c :: rest) := by
  unfold xmlEscape
  split
  · rename_i heq; cases heq
  · rename_i heq; simp only [List.cons.injEq] at heq; exact absurd heq.2.1 hc
  · rename_i heq; simp only [List.cons.injEq, true_and] at heq; rw [heq]
  · rename_i h; exact absurd rfl (h _)

theorem xmlEscape_append {left text rest} (h : xmlEscape left = some (text, rest)) (q : Bytes) : xmlEscape (left ++ q) = some (text, rest ++ q) := by
  cases left with
  | nil => cases h
  | cons b left =>
    by_cases hb : b = 35
    · subst hb
      cases left with
      | nil => cases h
      | cons c left =>
        by_cases hc : c = 120
        · subst hc
          exact xmlCharRef_append (base := 16) h q
        · rw [xmlEscape_decimal hc] at h
          rw [List.cons_append, List.cons_append, xmlEscape_decimal hc]
          exact xmlCharRef_append h q
    · rw [xmlEscape_name hb] at h
      rw [List.cons_append, xmlEscape_name hb]
      exact xmlEntityRef_append h q

theorem textLoop_append {quote} : ∀ {fuel b0 b1 left data rest}, textLoop quote fuel b0 b1 left = some (data, rest) → rest ≠ [] → ∀ (q : Bytes) {fuel' : Nat}, fuel ≤ fuel' →
    textLoop quote fuel' b0 b1 (left ++ q) = some (data, rest ++ q)
  | 0, _, _, _, _, _, h, _, _, _, _ => by cases h
  | fuel + 1, _, _, [], _, _, h, hr, _, _, _ => by cases h; exact absurd rfl hr
  | fuel + 1, b0, b1, b :: left, data, rest, h, hr, q, 0, hf => by omega
  | fuel + 1, b0, b1, b :: left, data, rest, h, hr, q, fuel' + 1, hf => by
    have map : ∀ {f : Bytes → Bytes} {b0 b1 left'} , (textLoop quote fuel b0 b1 left').map (fun r => (f r.1, r.2)) = some (data, rest) →
        (textLoop quote fuel' b0 b1 (left' ++ q)).map (fun r => (f r.1, r.2)) = some (data, rest ++ q) := by
      intro f b0 b1 left' hm
      cases ht : textLoop quote fuel b0 b1 left' with
      | none => rw [ht] at hm; cases hm
      | some r =>
        obtain ⟨d, r⟩ := r
        rw [ht] at hm
        cases hm
        rw [textLoop_append ht hr q (by omega)]
        rfl
    rw [List.cons_append]
    unfold textLoop at h ⊢
    split at h
    · cases h
    · rename_i c1
      rw [if_neg c1]
      split at h
      · rename_i c2
        rw [if_pos c2]
        split at h
        · cases h
        · rename_i c3
          rw [if_neg c3]
          cases h
          rfl
      · rename_i c2
        rw [if_neg c2]
        split at h
        · rename_i c3
          rw [if_pos c3]
          cases h
          rfl
        · rename_i c3
          rw [if_neg c3]
          split at h
          · rename_i c4
            rw [if_pos c4]
            split at h
            · cases h
            · rename_i he
              rw [xmlEscape_append he q]
              exact map (f := fun r => _ ++ r) h
          · rename_i c4
            rw [if_neg c4]
            split at h
            · rename_i c5
              rw [if_pos c5]
              exact map (f := fun r => _ :: r) h
            · rename_i c5
              rw [if_neg c5]
              split at h
              · rename_i c6
                rw [if_pos c6]
                exact textLoop_append h hr q (by omega)
              · rename_i c6
                rw [if_neg c6]
                exact map (f := fun r => _ :: r) h

theorem xmlText_append {quote left data rest} (h : xmlText quote left = some (data, rest)) (hr : rest ≠ []) (q : Bytes) : xmlText quote (left ++ q) = some (data, rest ++ q) := by
  unfold xmlText at h ⊢
  split at h
  · cases h
  · rename_i ht
    split at h
    · rename_i hc
      cases h
      rw [textLoop_append ht hr q (by simp only [List.length_append]; omega)]
      simp only [hc, if_true]
    · cases h

theorem xmlAttrVal_append {left data rest} (h : xmlAttrVal left = some (data, rest)) (hr : rest ≠ []) (q : Bytes) : xmlAttrVal (left ++ q) = some (data, rest ++ q) := by
  unfold xmlAttrVal at h
  split at h
  · cases h
  · rename_i c left
    rw [List.cons_append]
    unfold xmlAttrVal
    simp only
    split at h
    · rename_i hc
      rw [if_pos hc]
      exact xmlText_append h hr q
    · rename_i hc
      rw [if_neg hc]
      split at h
      · cases h
      · rename_i heq
        obtain ⟨h1, h2⟩ := dropWhile_append_stop (q := q) heq
        rw [List.cons_append] at h1 h2
        cases h
        rw [h1, h2]
        rfl

theorem xmlAttributes_append : ∀ {fuel left attr closed rest}, xmlAttributes fuel left = some (attr, closed, rest) → ∀ (q : Bytes) {fuel' : Nat}, fuel ≤ fuel' →
    xmlAttributes fuel' (left ++ q) = some (attr, closed, rest ++ q)
  | 0, _, _, _, _, h, _, _, _ => by cases h
  | fuel + 1, left, attr, closed, rest, h, q, 0, hf => by omega
  | fuel + 1, left, attr, closed, rest, h, q, fuel' + 1, hf => by
    have none : xmlAttributes fuel [] = none := by cases fuel <;> rfl
    have map : ∀ {x : String × Bytes} {left'} , (xmlAttributes fuel left').map (fun r => (x :: r.1, r.2)) = some (attr, closed, rest) →
        (xmlAttributes fuel' (left' ++ q)).map (fun r => (x :: r.1, r.2)) = some (attr, closed, rest ++ q) ∧ left' ≠ [] := by
      intro x left' hm
      cases ht : xmlAttributes fuel left' with
      | none => rw [ht] at hm; cases hm
      | some r =>
        obtain ⟨a, c, r⟩ := r
        rw [ht] at hm
        cases hm
        refine ⟨by rw [xmlAttributes_append ht q (by omega)]; rfl, ?_⟩
        rintro rfl
        rw [none] at ht
        cases ht
    unfold xmlAttributes at h
    split at h
    · cases h
    · rename_i heq
      unfold xmlAttributes
      rw [skipXmlSpace_append heq]
      cases h
      rfl
    · rename_i heq
      unfold xmlAttributes
      rw [skipXmlSpace_append heq]
      cases h
      rfl
    · rename_i b left' hn1 hn2 heq
      have e := skipXmlSpace_append (q := q) heq
      split at h
      · cases h
      · rename_i hb
        split at h
        · cases h
        · rename_i name rest' hn
          obtain ⟨hn', _⟩ := xmlName_append hn q
          rw [List.cons_append] at hn'
          have step : xmlAttributes (fuel' + 1) (left ++ q) = match skipXmlSpace (rest' ++ q) with
              | [] => .none
              | 61 :: rest =>
                match xmlAttrVal (skipXmlSpace rest) with
                | .none => .none
                | some (value, rest) => (xmlAttributes fuel' rest).map (fun r => ((name, value) :: r.1, r.2))
              | c :: rest => (xmlAttributes fuel' (c :: rest)).map (fun r => ((name, utf8 name.toList) :: r.1, r.2)) := by
            conv => lhs; unfold xmlAttributes
            rw [e]
            split
            · rename_i heq; cases heq
            · rename_i heq; simp only [List.cons.injEq] at heq; exact absurd heq.1 hb
            · rename_i heq; simp only [List.cons.injEq] at heq; exact absurd heq.1 hn2
            · rename_i heq
              simp only [List.cons.injEq] at heq
              obtain ⟨rfl, rfl⟩ := heq
              rw [if_neg hb, hn']
              rfl
          split at h
          · cases h
          · rename_i left'' heq'
            have e' := skipXmlSpace_append (q := q) heq'
            split at h
            · cases h
            · rename_i hv
              obtain ⟨m1, m2⟩ := map h
              have hs : skipXmlSpace (left'' ++ q) = skipXmlSpace left'' ++ q := by
                cases hs : skipXmlSpace left'' with
                | nil => rw [hs] at hv; cases hv
                | cons x y => rw [skipXmlSpace_append hs]; rfl
              rw [step, e']
              simp only
              rw [hs, xmlAttrVal_append hv m2 q]
              exact m1
          · rename_i c left'' hc heq'
            have e' := skipXmlSpace_append (q := q) heq'
            obtain ⟨m1, m2⟩ := map h
            rw [step, e']
            split
            · rename_i heq; cases heq
            · rename_i heq; simp only [List.cons.injEq] at heq; exact absurd heq.1 hc
            · rename_i heq
              simp only [List.cons.injEq] at heq
              obtain ⟨rfl, rfl⟩ := heq
              exact m1

theorem directiveLoop_append : ∀ {fuel quote depth left data rest}, directiveLoop fuel quote depth left = some (data, rest) → ∀ (q : Bytes) {fuel' : Nat}, fuel ≤ fuel' →
    directiveLoop fuel' quote depth (left ++ q) = some (data, rest ++ q)
  | 0, _, _, _, _, _, h, _, _, _ => by unfold directiveLoop at h; cases h
  | fuel + 1, quote, _, [], _, _, h, _, _, _ => by unfold directiveLoop at h; cases quote <;> cases h
  | fuel + 1, _, _, _ :: _, _, _, h, q, 0, hf => by omega
  | fuel + 1, quote, depth, b :: left, data, rest, h, q, fuel' + 1, hf => by
    have map : ∀ {x : UInt8} {quote depth left'} , (directiveLoop fuel quote depth left').map (fun r => (x :: r.1, r.2)) = some (data, rest) →
        (directiveLoop fuel' quote depth (left' ++ q)).map (fun r => (x :: r.1, r.2)) = some (data, rest ++ q) := by
      intro x quote depth left' hm
      cases ht : directiveLoop fuel quote depth left' with
      | none => rw [ht] at hm; cases hm
      | some r =>
        obtain ⟨d, r⟩ := r
        rw [ht] at hm
        cases hm
        rw [directiveLoop_append ht q (by omega)]
        rfl
    rw [List.cons_append]
    cases quote with
    | some c =>
      unfold directiveLoop at h ⊢
      exact map h
    | none =>
      unfold directiveLoop at h ⊢
      split at h
      · rename_i c1
        rw [if_pos c1]
        split at h
        · rename_i c2
          rw [if_pos c2]; cases h; rfl
        · rename_i c2
          rw [if_neg c2]
          exact map h
      · rename_i c1
        rw [if_neg c1]
        split at h
        · rename_i c2
          rw [if_pos c2]
          exact map h
        · rename_i c2
          rw [if_neg c2]
          split at h
          · rename_i c3
            rw [if_pos c3]
            split at h
            · rename_i c4
              rw [List.isPrefixOf_iff_prefix] at c4
              have hl := c4.length_le
              rw [if_pos (by rw [List.isPrefixOf_iff_prefix]; exact c4.trans (List.prefix_append _ _))]
              split at h
              · cases h
              · rename_i hu
                rw [List.drop_append_of_le_length (by simpa using hl), upTo_append hu q]
                exact map h
            · rename_i c4
              rw [if_neg]
              · exact map h
              · intro hp
                rw [List.isPrefixOf_iff_prefix] at hp c4
                by_cases c5 : 3 ≤ left.length
                · exact c4 (List.prefix_of_prefix_length_le hp (List.prefix_append _ _) (by simpa using c5))
                · have hl : left <+: [33, 45, 45] := List.prefix_of_prefix_length_le (List.prefix_append _ _) hp (by simp only [List.length_cons, List.length_nil]; omega)
                  have hnone : ∀ fuel, directiveLoop fuel none (depth + 1) left = none := by
                    intro fuel
                    match left, hl, c5 with
                    | [], _, _ => cases fuel <;> rfl
                    | [x], hl, _ =>
                      obtain ⟨t, ht⟩ := hl
                      simp only [List.cons_append, List.cons.injEq] at ht
                      obtain ⟨rfl, _⟩ := ht
                      match fuel with
                      | 0 => rfl
                      | 1 => rfl
                      | fuel + 2 => rfl
                    | [x, y], hl, _ =>
                      obtain ⟨t, ht⟩ := hl
                      simp only [List.cons_append, List.cons.injEq] at ht
                      obtain ⟨rfl, rfl, _⟩ := ht
                      match fuel with
                      | 0 => rfl
                      | 1 => rfl
                      | 2 => rfl
                      | fuel + 3 => rfl
                    | _ :: _ :: _ :: _, _, c5 => exact absurd (by simp) c5
                  rw [hnone] at h
                  cases h
          · rename_i c3
            rw [if_neg c3]
            exact map h

theorem xmlInstruction_append {left t rest} (h : xmlInstruction left = some (t, rest)) (q : Bytes) : xmlInstruction (left ++ q) = some (t, rest ++ q) := by
  unfold xmlInstruction at h ⊢
  split at h
  · cases h
  · rename_i name rest' hn
    rw [(xmlName_append hn q).1]
    simp only
    split at h
    · cases h
    · rename_i hu
      have hs : skipXmlSpace (rest' ++ q) = skipXmlSpace rest' ++ q := by
        cases hs : skipXmlSpace rest' with
        | nil => rw [hs] at hu; cases hu
        | cons x y => rw [skipXmlSpace_append hs]; rfl
      rw [hs, upTo_append hu q]
      simp only
      split at h
      · cases h
      · rename_i hc
        rw [if_neg hc]
        cases h
        rfl

theorem xmlBang_append {left t rest} (h : xmlBang left = some (t, rest)) (q : Bytes) : xmlBang (left ++ q) = some (t, rest ++ q) := by
  cases left with
  | nil => cases h
  | cons b left =>
    rw [List.cons_append]
    unfold xmlBang at h ⊢
    simp only at h ⊢
    split at h
    · rename_i c1
      rw [if_pos c1]
      split at h
      · rw [List.cons_append]
        simp only
        split at h
        · rename_i hu
          rw [upTo_append hu q]
          cases h
          rfl
        · cases h
      · cases h
    · rename_i c1
      rw [if_neg c1]
      split at h
      · rename_i c2
        rw [if_pos c2]
        split at h
        · rename_i c3
          rw [List.isPrefixOf_iff_prefix] at c3
          have hl := c3.length_le
          rw [if_pos (by rw [List.isPrefixOf_iff_prefix]; exact c3.trans (List.prefix_append _ _))]
          split at h
          · cases h
          · rename_i hu
            have hl' : 6 ≤ left.length := hl
            rw [List.drop_append_of_le_length hl', upTo_append hu q]
            simp only
            split at h
            · rename_i c4
              rw [if_pos c4]
              cases h
              rfl
            · cases h
        · cases h
      · rename_i c2
        rw [if_neg c2]
        cases hd : directiveLoop (left.length + 1) none 0 left with
        | none => rw [hd] at h; cases h
        | some r =>
          obtain ⟨d, r⟩ := r
          rw [hd] at h
          rw [directiveLoop_append hd q (by simp only [List.length_append]; omega)]
          cases h
          rfl

theorem xmlEndTag_append {left t rest} (h : xmlEndTag left = some (t, rest)) (q : Bytes) : xmlEndTag (left ++ q) = some (t, rest ++ q) := by
  unfold xmlEndTag at h ⊢
  split at h
  · cases h
  · rename_i hn
    rw [(xmlName_append hn q).1]
    simp only
    split at h
    · rename_i heq
      rw [skipXmlSpace_append heq]
      cases h
      rfl
    · cases h

theorem xmlStartTag_append {left t rest} (h : xmlStartTag left = some (t, rest)) (q : Bytes) : xmlStartTag (left ++ q) = some (t, rest ++ q) := by
  unfold xmlStartTag at h ⊢
  split at h
  · cases h
  · rename_i rest' hn
    rw [(xmlName_append hn q).1]
    simp only
    cases ha : xmlAttributes (rest'.length + 1) rest' with
    | none => rw [ha] at h; cases h
    | some r =>
      obtain ⟨a, c, r⟩ := r
      rw [ha] at h
      rw [xmlAttributes_append ha q (by simp only [List.length_append]; omega)]
      cases h
      rfl

/-- A token does not depend on what comes after it, except for a text at the end of the file. -/
theorem xmlToken_append {left t rest} (h : xmlToken left = some (t, rest)) (q : Bytes) : xmlToken (left ++ q) = some (t, rest ++ q) ∨ (rest = [] ∧ left.head? ≠ some 60 ∧ ∃ data, t = .other .text data) := by
  cases left with
  | nil => cases h
  | cons b left =>
    rw [List.cons_append]
    by_cases hb : b = 60
    · left
      subst hb
      unfold xmlToken at h ⊢
      simp only [ne_eq, not_true_eq_false, if_false] at h ⊢
      cases left with
      | nil => cases h
      | cons c left =>
        rw [List.cons_append]
        split at h
        · rename_i heq
          simp only [List.cons.injEq] at heq
          obtain ⟨rfl, rfl⟩ := heq
          exact xmlEndTag_append h q
        · rename_i heq
          simp only [List.cons.injEq] at heq
          obtain ⟨rfl, rfl⟩ := heq
          exact xmlInstruction_append h q
        · rename_i heq
          simp only [List.cons.injEq] at heq
          obtain ⟨rfl, rfl⟩ := heq
          exact xmlBang_append h q
        · rename_i n1 n2 n3
          split
          · rename_i heq; simp only [List.cons.injEq] at heq; exact absurd (by rw [heq.1]) (n1 left)
          · rename_i heq; simp only [List.cons.injEq] at heq; exact absurd (by rw [heq.1]) (n2 left)
          · rename_i heq; simp only [List.cons.injEq] at heq; exact absurd (by rw [heq.1]) (n3 left)
          · exact xmlStartTag_append h q
    · unfold xmlToken at h ⊢
      simp only [ne_eq, hb, not_false_eq_true, if_true] at h ⊢
      cases hx : xmlText none (b :: left) with
      | none => rw [hx] at h; cases h
      | some r =>
        obtain ⟨d, r⟩ := r
        rw [hx] at h
        cases h
        by_cases hr : r = []
        · exact .inr ⟨hr, by simpa using hb, _, rfl⟩
        · left
          rw [← List.cons_append, xmlText_append hx hr q]
          rfl

/-- The tokens of a part of the file: tokens of the file, then perhaps a part of a text. -/
theorem xmlLexer_cut : ∀ (n : Nat) {part q : Bytes} {tokens more : List (XmlRaw × Nat)} {last : XmlEnd}, part.length ≤ n → xmlLexer (part ++ q) = (tokens ++ more, last) →
    part.length < sizeOfTokens tokens →
    ∃ c c2 text e, tokens = c ++ c2 ∧ c2 ≠ [] ∧ xmlLexer part = (c ++ text, e) ∧ (text = [] ∨ ∃ data size, text = [(.other .text data, size)]) ∧
      (e = .eof → c = [] → part.head? ≠ some 60) := by
  intro n
  induction n with
  | zero =>
    intro part q tokens more last hn _ hs
    have : part = [] := List.length_eq_zero_iff.1 (by omega)
    subst this
    refine ⟨[], tokens, [], .eof, rfl, ?_, rfl, .inl rfl, by simp⟩
    rintro rfl
    simp [sizeOfTokens] at hs
  | succ n ih =>
    intro part q tokens more last hn hlex hs
    have htok : tokens ≠ [] := by rintro rfl; simp [sizeOfTokens] at hs
    cases part with
    | nil => exact ⟨[], tokens, [], .eof, rfl, htok, rfl, .inl rfl, by simp⟩
    | cons b part =>
      cases ht : xmlToken (b :: part) with
      | none =>
        refine ⟨[], tokens, [], .bad "XML syntax error", rfl, htok, ?_, .inl rfl, by simp⟩
        simp only [xmlLexer, xmlTokens, ht, List.append_nil]
      | some r =>
        obtain ⟨t, rest⟩ := r
        obtain ⟨hsuf, hlt⟩ := xmlToken_suffix ht
        have hl := xmlLexer_token ht
        rcases xmlToken_append ht q with h | ⟨rfl, h1, data, rfl⟩
        · have hl' := xmlLexer_token h
          rw [hlex] at hl'
          have hsize : (b :: part ++ q).length - (rest ++ q).length = (b :: part).length - rest.length := by simp only [List.length_append]; omega
          rw [hsize] at hl'
          cases tokens with
          | nil => exact absurd rfl htok
          | cons x tokens =>
            simp only [List.cons_append, Prod.mk.injEq, List.cons.injEq] at hl'
            obtain ⟨⟨rfl, h2⟩, h3⟩ := hl'
            have hs' : rest.length < sizeOfTokens tokens := by
              simp only [sizeOfTokens, List.map_cons, List.sum_cons] at hs ⊢
              omega
            obtain ⟨c, c2, text, e, g1, g2, g3, g4, g5⟩ := ih (part := rest) (q := q) (tokens := tokens) (more := more) (last := last) (by simp only [List.length_cons] at hn hlt; omega)
              (by rw [h2, h3]) hs'
            refine ⟨_ :: c, c2, text, e, by rw [g1]; rfl, g2, ?_, g4, by simp⟩
            rw [hl, g3]
            rfl
        · refine ⟨[], tokens, [(.other .text data, (b :: part).length)], .eof, rfl, htok, ?_, .inr ⟨_, _, rfl⟩, fun _ _ => h1⟩
          rw [hl, xmlLexer_nil]
          rfl

/-! ### The stack of open elements -/

/-- The names of the open elements before and after some tokens, if the end tags fit. -/
inductive Nests : List String → List (XmlRaw × Nat) → List String → Prop where
  | nil {names : List String} : Nests names [] names
  | other {names names' : List String} {kind : XmlKind} {data : Bytes} {size : Nat} {l} : Nests names l names' → Nests names ((.other kind data, size) :: l) names'
  | closed {names names' : List String} {name : String} {attr : List (String × Bytes)} {size : Nat} {l} : Nests names l names' → Nests names ((.start name attr true, size) :: l) names'
  | opened {names names' : List String} {name : String} {attr : List (String × Bytes)} {size : Nat} {l} : Nests (name :: names) l names' → Nests names ((.start name attr false, size) :: l) names'
  | stop {names names' : List String} {name : String} {size : Nat} {l} : Nests names l names' → Nests (name :: names) ((.stop name, size) :: l) names'

theorem Nests.trans {a b c : List String} {l l'} (h : Nests a l b) (h' : Nests b l' c) : Nests a (l ++ l') c := by
  induction h with
  | nil => exact h'
  | other _ ih => exact .other (ih h')
  | closed _ ih => exact .closed (ih h')
  | opened _ ih => exact .opened (ih h')
  | stop _ ih => exact .stop (ih h')

theorem Nests.split {l'} : ∀ {l} {a c : List String}, Nests a (l ++ l') c → ∃ b, Nests a l b ∧ Nests b l' c
  | [], a, c, h => ⟨a, .nil, h⟩
  | x :: l, a, c, h => by
    cases h with
    | other h => obtain ⟨b, h1, h2⟩ := Nests.split h; exact ⟨b, .other h1, h2⟩
    | closed h => obtain ⟨b, h1, h2⟩ := Nests.split h; exact ⟨b, .closed h1, h2⟩
    | opened h => obtain ⟨b, h1, h2⟩ := Nests.split h; exact ⟨b, .opened h1, h2⟩
    | stop h => obtain ⟨b, h1, h2⟩ := Nests.split h; exact ⟨b, .stop h1, h2⟩

theorem Spec.XmlContent.nests {l nodes} (h : XmlContent l nodes) : ∀ names, Nests names l names := by
  induction h with
  | nil => exact fun _ => .nil
  | other _ ih => exact fun names => .other (ih names)
  | closed _ ih => exact fun names => .closed (ih names)
  | element _ _ ih1 ih2 => exact fun names => .opened ((ih1 _).trans (.stop (ih2 _)))

/-- The state of the parser between two tokens of a well-formed document. -/
structure Tracks (s : XmlStream) (names : List String) : Prop where
  names : s.opened.map (·.name) = names
  pending : s.pending = none
  failed : s.failed = none
  target : ∀ k, s.target = some k → 1 ≤ k ∧ k ≤ s.opened.length

variable {query : XmlQuery}

theorem addNode_names {opened : List XmlFrame} {top : List XmlNode} (node : XmlNode) : (addNode opened top node).1.map (·.name) = opened.map (·.name) := by
  cases opened <;> rfl

theorem leave_names {forgets : Bool} {opened : List XmlFrame} {top : List XmlNode} : (leave forgets opened top).1.map (·.name) = opened.map (·.name) := by
  cases opened <;> rfl

theorem closeTag_tracks {forgets : Bool} {name : String} {attr : List (String × Bytes)} {children : List XmlNode} {fs : List XmlFrame} {top : List XmlNode} {target : Option Nat}
    (ht : ∀ k, target = some k → 1 ≤ k ∧ k ≤ fs.length + 1) :
    (∃ s', closeTag forgets name top [] (⟨name, attr, children⟩ :: fs) target = .next s' ∧ Tracks s' (fs.map (·.name))) ∨
      ∃ node s', closeTag forgets name top [] (⟨name, attr, children⟩ :: fs) target = .found node s' ∧ Tracks s' (fs.map (·.name)) := by
  unfold closeTag
  simp only
  by_cases h : target = some 1
  · rw [if_pos h, if_pos trivial]
    exact .inr ⟨_, _, rfl, ⟨leave_names, rfl, rfl, fun k hk => by cases hk⟩⟩
  · rw [if_neg h, if_pos trivial]
    refine .inl ⟨_, rfl, ⟨addNode_names _, rfl, rfl, fun k hk => ?_⟩⟩
    have hlen : ∀ node, (addNode fs top node).1.length = fs.length := by intro node; cases fs <;> rfl
    simp only [hlen]
    cases target with
    | none => cases hk
    | some n =>
      simp only [Option.map_some, Option.some.injEq] at hk
      have := ht n rfl
      have : n ≠ 1 := fun e => h (by rw [e])
      omega

/-- One token. -/
theorem Tracks.take {s : XmlStream} {names names' : List String} (h : Tracks s names) {t : XmlRaw} {size : Nat} {l} (hn : Nests names ((t, size) :: l) names') :
    ∃ names1, Nests names1 l names' ∧ ((∃ s', s.take query t = .next s' ∧ Tracks s' names1) ∨ ∃ node s', s.take query t = .found node s' ∧ Tracks s' names1) := by
  obtain ⟨opened, top, target, pending, failed⟩ := s
  obtain ⟨h1, h2, h3, h4⟩ := h
  simp only at h1 h2 h3 h4
  subst h2 h3
  cases hn with
  | other hn =>
    refine ⟨_, hn, .inl ⟨_, rfl, ⟨(addNode_names _).trans h1, rfl, rfl, fun k hk => ?_⟩⟩⟩
    have hlen : ∀ node, (addNode opened top node).1.length = opened.length := by intro node; cases opened <;> rfl
    simp only [hlen]
    exact h4 k hk
  | @closed _ _ name attr _ _ hn =>
    refine ⟨_, hn, ?_⟩
    rw [← h1]
    simp only [XmlStream.take, if_true]
    refine closeTag_tracks ?_
    intro k hk
    cases target with
    | none =>
      simp only at hk
      split at hk
      · cases hk; omega
      · cases hk
    | some n =>
      cases hk
      have := h4 n rfl
      omega
  | @opened _ _ name attr _ _ hn =>
    refine ⟨_, hn, .inl ⟨_, rfl, ⟨by rw [← h1]; rfl, rfl, rfl, ?_⟩⟩⟩
    intro k hk
    simp only [List.length_cons]
    cases target with
    | none =>
      simp only at hk
      split at hk
      · cases hk; omega
      · cases hk
    | some n =>
      cases hk
      have := h4 n rfl
      omega
  | @stop names _ name _ _ hn =>
    cases opened with
    | nil => cases h1
    | cons f fs =>
      obtain ⟨fn, fa, fc⟩ := f
      simp only [List.map_cons, List.cons.injEq] at h1
      obtain ⟨rfl, rfl⟩ := h1
      exact ⟨_, hn, closeTag_tracks (by simpa using h4)⟩

/-- Tokens of a well-formed document are read up to a record, or to their end. -/
theorem Tracks.reads : ∀ {c : List (XmlRaw × Nat)} {s : XmlStream} {names names' : List String}, Tracks s names → Nests names c names' →
    (∃ node s' c1 c2 names1, c = c1 ++ c2 ∧ c1 ≠ [] ∧ Tracks s' names1 ∧ Nests names1 c2 names' ∧
      ∀ last rest, readLoop query last s (c ++ rest) = (.node node, s', sizeOfTokens c1)) ∨
    ∃ s', GoesOn query s c s' ∧ Tracks s' names'
  | [], s, names, names', h, hn => by cases hn; exact .inr ⟨s, .refl, h⟩
  | (t, size) :: c, s, names, names', h, hn => by
    obtain ⟨names1, h1, h2⟩ := h.take (query := query) hn
    rcases h2 with ⟨s1, h2, h3⟩ | ⟨node, s1, h2, h3⟩
    · rcases Tracks.reads h3 h1 with ⟨node, s', c1, c2, n1, g1, g2, g3, g4, g5⟩ | ⟨s', g1, g2⟩
      · refine .inl ⟨node, s', (t, size) :: c1, c2, n1, by rw [g1]; rfl, by simp, g3, g4, fun last rest => ?_⟩
        rw [List.cons_append]
        unfold readLoop
        simp only [h2, g5]
        simp [sizeOfTokens]
      · exact .inr ⟨s', .step h2 g1, g2⟩
    · refine .inl ⟨node, s1, [(t, size)], c, names1, rfl, by simp, h3, h1, fun last rest => ?_⟩
      rw [List.cons_append]
      unfold readLoop
      simp only [h2]
      simp [sizeOfTokens]

theorem Nests.frame {a b : List String} {l} (h : Nests a l b) (c : List String) : Nests (a ++ c) l (b ++ c) := by
  induction h with
  | nil => exact .nil
  | other _ ih => exact .other ih
  | closed _ ih => exact .closed ih
  | opened _ ih => exact .opened ih
  | stop _ ih => exact .stop ih

/-- The tokens of one element. -/
inductive RootTokens : List (XmlRaw × Nat) → Prop where
  | closed {name : String} {attr : List (String × Bytes)} {size : Nat} : RootTokens [(.start name attr true, size)]
  | element {name : String} {attr : List (String × Bytes)} {size size' : Nat} {inner} : (∀ names, Nests names inner names) →
      RootTokens ((.start name attr false, size) :: (inner ++ [(.stop name, size')]))

/-- If only a part of the tokens of an element was read, there is an open element. -/
theorem RootTokens.opened {l c c2} (h : RootTokens l) (hl : l = c ++ c2) (hc : c ≠ []) (hc2 : c2 ≠ []) : ∃ names, names ≠ [] ∧ Nests [] c names := by
  cases h with
  | closed =>
    cases c with
    | nil => exact absurd rfl hc
    | cons x c =>
      simp only [List.cons_append, List.cons.injEq, List.nil_eq, List.append_eq_nil_iff] at hl
      exact absurd hl.2.2 hc2
  | @element name attr size size' inner h =>
    cases c with
    | nil => exact absurd rfl hc
    | cons x c =>
      simp only [List.cons_append, List.cons.injEq] at hl
      obtain ⟨rfl, hl⟩ := hl
      rcases List.eq_nil_or_concat c2 with rfl | ⟨c3, y, rfl⟩
      · exact absurd rfl hc2
      · rw [List.concat_eq_append, ← List.append_assoc] at hl
        obtain ⟨hl, _⟩ := List.append_inj' hl rfl
        subst hl
        obtain ⟨b, h1, _⟩ := Nests.split (h [])
        refine ⟨b ++ [name], by simp, .opened ?_⟩
        exact h1.frame [name]

/-- The tokens of an element, whatever follows. -/
theorem Spec.XmlWritten.root {name : String} {attr : List (String × Bytes)} {children : List XmlNode} {w : Bytes} (h : XmlWritten [.element name attr children] w) (tail : Bytes) :
    (∃ t, w = 60 :: t) ∧ ∃ tokens, RootTokens tokens ∧ sizeOfTokens tokens = w.length ∧ xmlLexer (w ++ tail) = (tokens ++ (xmlLexer tail).1, (xmlLexer tail).2) := by
  cases h with
  | @closed _ _ _ w w' h1 h2 h3 =>
    cases h3
    refine ⟨⟨_, by simp only [List.append_assoc]; rfl⟩, _, .closed (name := name) (attr := attr) (size := (xmlBytes "<" ++ xmlBytes name ++ w ++ xmlBytes "/>").length), ?_, ?_⟩
    · simp [sizeOfTokens]
    · rw [List.append_nil, xmlLexer_append (xmlToken_start h1 h2 _).2]
      rfl
  | @element _ _ _ _ w s inner w' h1 h2 h3 h4 h5 =>
    cases h5
    have hb : xmlBytes "</" = 60 :: [47] := rfl
    obtain ⟨inside, k1, ks, k2⟩ := h3.lexed
    have k2 := k2 (xmlBytes "</" ++ xmlBytes name ++ s ++ xmlBytes ">" ++ tail) (.inr ⟨_, by rw [hb]; simp only [List.append_assoc, List.cons_append]; rfl⟩)
    refine ⟨⟨_, by simp only [List.append_assoc]; rfl⟩, _, .element (name := name) (attr := attr) (size := (xmlBytes "<" ++ xmlBytes name ++ w ++ xmlBytes ">").length)
      (size' := (xmlBytes "</" ++ xmlBytes name ++ s ++ xmlBytes ">").length) k1.nests, ?_, ?_⟩
    · rw [sizeOfTokens_cons, sizeOfTokens_append, sizeOfTokens_cons, ks]
      simp only [List.length_append, sizeOfTokens, List.map_nil, List.sum_nil, List.length_nil]
      omega
    · have e : xmlBytes "<" ++ xmlBytes name ++ w ++ xmlBytes ">" ++ inner ++ xmlBytes "</" ++ xmlBytes name ++ s ++ xmlBytes ">" ++ [] ++ tail =
          (xmlBytes "<" ++ xmlBytes name ++ w ++ xmlBytes ">") ++ (inner ++ (xmlBytes "</" ++ xmlBytes name ++ s ++ xmlBytes ">" ++ tail)) := by
        simp only [List.append_assoc, List.nil_append]
      rw [e, xmlLexer_append (xmlToken_start h1 h2 _).1, k2, xmlLexer_append (xmlToken_stop h1 h4 _)]
      simp only [List.append_assoc, List.cons_append, List.nil_append]

theorem Tracks.read {s : XmlStream} {names : List String} (hs : Tracks s names) {lex : XmlLexer} {left : Bytes} {l last} (h : lex left = (l, last)) :
    s.read lex query left = readLoop query last s l := by
  simp only [XmlStream.read, hs.failed, hs.pending, h]

/-- The scan of two files that begin with the same tokens, if the first one cannot be read to its end. -/
theorem cut_records {make : XmlNode → Int → Rec} {lex : XmlLexer} (hl : SteadyLexer lex) {content content' : Bytes} {last last' : XmlEnd} {r r' : List (XmlRaw × Nat)} {names' : List String}
    (hend : ∀ s, Tracks s names' → ∃ msg, (readLoop query last s r).1 = .bad msg) :
    ∀ {fuel fuel' : Nat} {s : XmlStream} {names : List String} {l : List (XmlRaw × Nat)} {offset : Nat}, Tracks s names → Nests names l names' → l.length < fuel → l.length < fuel' →
    lex (content.drop offset) = (l ++ r, last) → lex (content'.drop offset) = (l ++ r', last') →
    ∃ records : List Rec, xmlRecords lex query make content fuel s offset = records.map .ok ++ [.error (.err "Cannot read xml data")] ∧
      ∃ rest, xmlRecords lex query make content' fuel' s offset = records.map .ok ++ rest := by
  intro fuel
  induction fuel with
  | zero => intro fuel' s names l offset _ _ h; omega
  | succ fuel ih =>
    intro fuel' s names l offset hs hn hf hf' hlex hlex'
    obtain ⟨fuel', rfl⟩ : ∃ n, fuel' = n + 1 := ⟨fuel' - 1, by omega⟩
    rcases hs.reads (query := query) hn with ⟨node, s', c1, c2, names1, rfl, hc, ht, hn', hr⟩ | ⟨s', hg, ht⟩
    · have e1 : s.read lex query (content.drop offset) = (.node node, s', sizeOfTokens c1) := by rw [hs.read hlex, hr]
      have e2 : s.read lex query (content'.drop offset) = (.node node, s', sizeOfTokens c1) := by rw [hs.read hlex', hr]
      rw [List.append_assoc] at hlex hlex'
      have hpos : 0 < c1.length := List.length_pos_iff.2 hc
      simp only [List.length_append] at hf hf'
      obtain ⟨records, g1, rest, g2⟩ := ih (fuel' := fuel') ht hn' (by omega) (by omega) (lex_drop hl hlex).1 (lex_drop hl hlex').1
      refine ⟨make node offset :: records, ?_, rest, ?_⟩
      · simp only [xmlRecords, e1, g1, List.map_cons, List.cons_append]
      · simp only [xmlRecords, e2, g2, List.map_cons, List.cons_append]
    · refine ⟨[], ?_, _, rfl⟩
      obtain ⟨msg, hm⟩ := hend s' ht
      have e1 := hs.read (query := query) hlex
      rw [hg.readLoop, hm] at e1
      simp only [xmlRecords, e1, List.map_nil, List.nil_append]

theorem ends_opened {s : XmlStream} {names : List String} (hs : Tracks s names) (hn : names ≠ []) (e : XmlEnd) : ∃ msg, (s.ends e).1 = .bad msg := by
  cases e with
  | bad msg => exact ⟨msg, rfl⟩
  | eof =>
    refine ⟨"unexpected EOF", ?_⟩
    have : s.opened ≠ [] := by
      intro h
      have := hs.names
      rw [h] at this
      exact hn this.symm
    simp only [XmlStream.ends]
    rw [if_neg (by simpa using this)]

end Rodb
