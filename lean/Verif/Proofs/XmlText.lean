import Verif.Model.XmlText
import Verif.Spec.XmlInput
/-
  The lexer of XML files: its tokens are parts of the file.
-/
namespace Rodb
open Spec

theorem skipXmlSpace_suffix (left : Bytes) : skipXmlSpace left <:+ left := List.dropWhile_suffix _

theorem xmlName_suffix {left name rest} (h : xmlName left = some (name, rest)) : rest <:+ left := by
  unfold xmlName at h
  have hs := List.dropWhile_suffix (l := left) isNameByte
  split at h
  · cases h
  · rename_i heq
    split at h
    · cases h; rw [heq] at hs; exact hs
    · cases h

theorem upTo_suffix {mark : Bytes} : ∀ {left data rest}, upTo mark left = some (data, rest) → rest <:+ left
  | [], _, _, h => by cases h
  | b :: left, data, rest, h => by
    unfold upTo at h
    split at h
    · cases h; exact List.drop_suffix _ _
    · cases hu : upTo mark left with
      | none => rw [hu] at h; cases h
      | some r =>
        obtain ⟨d, r⟩ := r
        rw [hu] at h; cases h
        exact (upTo_suffix hu).trans (List.suffix_cons _ _)

theorem xmlCharRef_suffix {base before left text rest} (h : xmlCharRef base before left = some (text, rest)) : rest <:+ left := by
  unfold xmlCharRef at h
  have hs := List.dropWhile_suffix (l := left) (isDigitOf base)
  simp only at h
  split at h
  · cases h
  · rename_i heq
    rw [heq] at hs
    split at h
    · cases h; exact hs
    · split at h <;> (cases h; exact (List.suffix_cons _ _).trans hs)

theorem xmlEntityRef_suffix {left text rest} (h : xmlEntityRef left = some (text, rest)) : rest <:+ left := by
  unfold xmlEntityRef at h
  have hs := List.dropWhile_suffix (l := left) isNameByte
  simp only at h
  split at h
  · cases h
  · rename_i heq
    rw [heq] at hs
    split at h
    · cases h; exact hs
    · split at h <;> (cases h; exact (List.suffix_cons _ _).trans hs)

theorem xmlEscape_suffix {left text rest} (h : xmlEscape left = some (text, rest)) : rest <:+ left := by
  unfold xmlEscape at h
  split at h
  · cases h
  · exact (xmlCharRef_suffix h).trans ((List.suffix_cons _ _).trans (List.suffix_cons _ _))
  · exact (xmlCharRef_suffix h).trans (List.suffix_cons _ _)
  · exact xmlEntityRef_suffix h

theorem textLoop_suffix {quote} : ∀ {fuel b0 b1 left data rest}, textLoop quote fuel b0 b1 left = some (data, rest) → rest <:+ left
  | 0, _, _, _, _, _, h => by cases h
  | fuel + 1, _, _, [], _, _, h => by cases h; exact List.suffix_refl _
  | fuel + 1, b0, b1, b :: left, data, rest, h => by
    have map : ∀ {f : Bytes × Bytes → Bytes} {b0 b1 left'} , left' <:+ left → (textLoop quote fuel b0 b1 left').map (fun r => (f r, r.2)) = some (data, rest) → rest <:+ b :: left := by
      intro f b0 b1 left' hl hm
      cases ht : textLoop quote fuel b0 b1 left' with
      | none => rw [ht] at hm; cases hm
      | some r =>
        obtain ⟨d, r⟩ := r
        rw [ht] at hm; cases hm
        exact ((textLoop_suffix ht).trans hl).trans (List.suffix_cons _ _)
    unfold textLoop at h
    split at h
    · cases h
    · split at h
      · split at h
        · cases h
        · cases h; exact List.suffix_refl _
      · split at h
        · cases h; exact List.suffix_cons _ _
        · split at h
          · split at h
            · cases h
            · rename_i he
              exact map (f := fun r => _ ++ r.1) (xmlEscape_suffix he) h
          · split at h
            · exact map (f := fun r => _ :: r.1) (List.suffix_refl _) h
            · split at h
              · exact (textLoop_suffix h).trans (List.suffix_cons _ _)
              · exact map (f := fun r => _ :: r.1) (List.suffix_refl _) h

theorem xmlText_suffix {quote left data rest} (h : xmlText quote left = some (data, rest)) : rest <:+ left := by
  unfold xmlText at h
  split at h
  · cases h
  · rename_i ht
    split at h
    · cases h; exact textLoop_suffix ht
    · cases h

theorem xmlAttrVal_suffix {left data rest} (h : xmlAttrVal left = some (data, rest)) : rest <:+ left := by
  unfold xmlAttrVal at h
  split at h
  · cases h
  · rename_i q left
    split at h
    · exact (xmlText_suffix h).trans (List.suffix_cons _ _)
    · have hs := List.dropWhile_suffix (l := q :: left) (fun b => isXmlLetter b || isXmlDigit b || b = 95 || b = 58 || b = 45)
      split at h
      · cases h
      · rename_i heq
        rw [heq] at hs
        cases h; exact hs

theorem xmlAttributes_suffix : ∀ {fuel left attr closed rest}, xmlAttributes fuel left = some (attr, closed, rest) → rest <:+ left
  | 0, _, _, _, _, h => by cases h
  | fuel + 1, left, attr, closed, rest, h => by
    have hs := skipXmlSpace_suffix left
    have map : ∀ {x : String × Bytes} {left'} , left' <:+ left → (xmlAttributes fuel left').map (fun r => (x :: r.1, r.2)) = some (attr, closed, rest) → rest <:+ left := by
      intro x left' hl hm
      cases ht : xmlAttributes fuel left' with
      | none => rw [ht] at hm; cases hm
      | some r =>
        obtain ⟨a, c, r⟩ := r
        rw [ht] at hm; cases hm
        exact (xmlAttributes_suffix ht).trans hl
    unfold xmlAttributes at h
    split at h
    · cases h
    · rename_i heq; rw [heq] at hs; cases h; exact ((List.suffix_cons _ _).trans (List.suffix_cons _ _)).trans hs
    · rename_i heq; rw [heq] at hs; cases h; exact (List.suffix_cons _ _).trans hs
    · rename_i heq
      rw [heq] at hs
      split at h
      · cases h
      · split at h
        · cases h
        · rename_i hn
          have hn := (xmlName_suffix hn).trans hs
          rename_i rest' _
          have hs' := skipXmlSpace_suffix rest'
          split at h
          · cases h
          · rename_i heq'
            rw [heq'] at hs'
            split at h
            · cases h
            · rename_i hv
              refine map ?_ h
              exact ((((xmlAttrVal_suffix hv).trans (skipXmlSpace_suffix _)).trans (List.suffix_cons _ _)).trans hs').trans hn
          · rename_i heq'
            rw [heq'] at hs'
            exact map (hs'.trans hn) h

theorem directiveLoop_suffix : ∀ {fuel quote depth left data rest}, directiveLoop fuel quote depth left = some (data, rest) → rest <:+ left
  | 0, _, _, _, _, _, h => by unfold directiveLoop at h; cases h
  | fuel + 1, quote, _, [], _, _, h => by unfold directiveLoop at h; cases quote <;> cases h
  | fuel + 1, quote, depth, b :: left, data, rest, h => by
    have map : ∀ {x : UInt8} {quote depth left'} , left' <:+ left → (directiveLoop fuel quote depth left').map (fun r => (x :: r.1, r.2)) = some (data, rest) → rest <:+ b :: left := by
      intro x quote depth left' hl hm
      cases ht : directiveLoop fuel quote depth left' with
      | none => rw [ht] at hm; cases hm
      | some r =>
        obtain ⟨d, r⟩ := r
        rw [ht] at hm; cases hm
        exact ((directiveLoop_suffix ht).trans hl).trans (List.suffix_cons _ _)
    cases quote with
    | some q => exact map (List.suffix_refl _) (by unfold directiveLoop at h; exact h)
    | none =>
      unfold directiveLoop at h
      split at h
      · split at h
        · cases h; exact List.suffix_cons _ _
        · exact map (List.suffix_refl _) h
      · split at h
        · exact map (List.suffix_refl _) h
        · split at h
          · split at h
            · split at h
              · cases h
              · rename_i hu
                exact map ((upTo_suffix hu).trans (List.drop_suffix _ _)) h
            · exact map (List.suffix_refl _) h
          · exact map (List.suffix_refl _) h

theorem xmlInstruction_suffix {left t rest} (h : xmlInstruction left = some (t, rest)) : rest <:+ left := by
  unfold xmlInstruction at h
  split at h
  · cases h
  · rename_i hn
    split at h
    · cases h
    · rename_i hu
      split at h
      · cases h
      · cases h
        exact ((upTo_suffix hu).trans (skipXmlSpace_suffix _)).trans (xmlName_suffix hn)

theorem xmlBang_suffix {left t rest} (h : xmlBang left = some (t, rest)) : rest <:+ left := by
  unfold xmlBang at h
  split at h
  · cases h
  · split at h
    · split at h
      · split at h
        · rename_i hu
          cases h
          exact ((List.suffix_cons _ _).trans (upTo_suffix hu)).trans ((List.suffix_cons _ _).trans (List.suffix_cons _ _))
        · cases h
      · cases h
    · split at h
      · split at h
        · split at h
          · cases h
          · rename_i hu
            split at h
            · cases h
              exact ((upTo_suffix hu).trans (List.drop_suffix _ _)).trans (List.suffix_cons _ _)
            · cases h
        · cases h
      · rename_i b left _ _
        cases hd : directiveLoop (left.length + 1) none 0 left with
        | none => rw [hd] at h; cases h
        | some r =>
          obtain ⟨d, r⟩ := r
          rw [hd] at h; cases h
          exact (directiveLoop_suffix hd).trans (List.suffix_cons _ _)

theorem xmlEndTag_suffix {left t rest} (h : xmlEndTag left = some (t, rest)) : rest <:+ left := by
  unfold xmlEndTag at h
  split at h
  · cases h
  · rename_i hn
    split at h
    · rename_i heq
      cases h
      refine List.IsSuffix.trans ?_ ((skipXmlSpace_suffix _).trans (xmlName_suffix hn))
      rw [heq]
      exact List.suffix_cons _ _
    · cases h

theorem xmlStartTag_suffix {left t rest} (h : xmlStartTag left = some (t, rest)) : rest <:+ left := by
  unfold xmlStartTag at h
  split at h
  · cases h
  · rename_i rest' hn
    cases ha : xmlAttributes (rest'.length + 1) rest' with
    | none => rw [ha] at h; cases h
    | some r =>
      obtain ⟨a, c, r⟩ := r
      rw [ha] at h; cases h
      exact (xmlAttributes_suffix ha).trans (xmlName_suffix hn)

theorem textLoop_length {fuel b left data rest} (hb : b ≠ 60) (h : textLoop none (fuel + 1) 0 0 (b :: left) = some (data, rest)) : rest.length ≤ left.length := by
  have map : ∀ {f : Bytes × Bytes → Bytes} {b0 b1 left'} , left' <:+ left → (textLoop none fuel b0 b1 left').map (fun r => (f r, r.2)) = some (data, rest) → rest.length ≤ left.length := by
    intro f b0 b1 left' hl hm
    cases ht : textLoop none fuel b0 b1 left' with
    | none => rw [ht] at hm; cases hm
    | some r =>
      obtain ⟨d, r⟩ := r
      rw [ht] at hm; cases hm
      exact ((textLoop_suffix ht).trans hl).length_le
  unfold textLoop at h
  rw [if_neg (by simp), if_neg hb, if_neg (by simp)] at h
  split at h
  · split at h
    · cases h
    · rename_i he
      exact map (f := fun r => _ ++ r.1) (xmlEscape_suffix he) h
  · split at h
    · exact map (f := fun r => _ :: r.1) (List.suffix_refl _) h
    · split at h
      · rename_i h13; simp at h13
      · exact map (f := fun r => _ :: r.1) (List.suffix_refl _) h

theorem xmlToken_suffix {left t rest} (h : xmlToken left = some (t, rest)) : rest <:+ left ∧ rest.length < left.length := by
  unfold xmlToken at h
  split at h
  · cases h
  · rename_i b left
    split at h
    · rename_i hb
      cases hx : xmlText none (b :: left) with
      | none => rw [hx] at h; cases h
      | some r =>
        obtain ⟨d, r⟩ := r
        rw [hx] at h; cases h
        refine ⟨xmlText_suffix hx, ?_⟩
        unfold xmlText at hx
        split at hx
        · cases hx
        · rename_i ht
          split at hx
          · cases hx
            have := textLoop_length hb ht
            simp only [List.length_cons]; omega
          · cases hx
    · have key : ∀ {left'}, rest <:+ left' → left' <:+ left → rest <:+ b :: left ∧ rest.length < (b :: left).length := by
        intro left' h1 h2
        have h3 := h1.trans h2
        exact ⟨h3.trans (List.suffix_cons _ _), by have := h3.length_le; simp only [List.length_cons]; omega⟩
      split at h
      · exact key (xmlEndTag_suffix h) (List.suffix_cons _ _)
      · exact key (xmlInstruction_suffix h) (List.suffix_cons _ _)
      · exact key (xmlBang_suffix h) (List.suffix_cons _ _)
      · exact key (xmlStartTag_suffix h) (List.suffix_refl _)

theorem xmlTokens_fuel : ∀ {fuel left}, left.length < fuel → xmlTokens fuel left = xmlTokens (left.length + 1) left
  | 0, _, h => by omega
  | fuel + 1, [], _ => rfl
  | fuel + 1, b :: left, h => by
    simp only [List.length_cons] at h ⊢
    cases ht : xmlToken (b :: left) with
    | none => simp only [xmlTokens, ht]
    | some r =>
      obtain ⟨t, rest⟩ := r
      have hl := (xmlToken_suffix ht).2
      simp only [List.length_cons] at hl
      simp only [xmlTokens, ht]
      rw [xmlTokens_fuel (fuel := fuel) (left := rest) (by omega), xmlTokens_fuel (fuel := left.length + 1) (left := rest) (by omega)]
  termination_by _ left => left.length

theorem xmlLexer_nil : xmlLexer [] = ([], .eof) := rfl

theorem xmlLexer_token {left t rest} (h : xmlToken left = some (t, rest)) :
    xmlLexer left = ((t, left.length - rest.length) :: (xmlLexer rest).1, (xmlLexer rest).2) := by
  cases left with
  | nil => cases h
  | cons b left =>
    have hl := (xmlToken_suffix h).2
    simp only [List.length_cons] at hl
    simp only [xmlLexer, List.length_cons, xmlTokens, h]
    rw [xmlTokens_fuel (fuel := left.length + 1) (left := rest) (by omega)]

theorem xmlLexer_append {w t tail} (h : xmlToken (w ++ tail) = some (t, tail)) :
    xmlLexer (w ++ tail) = ((t, w.length) :: (xmlLexer tail).1, (xmlLexer tail).2) := by
  rw [xmlLexer_token h]
  simp

/-- The tokens of the lexer are parts of the file, one after the other. -/
theorem xmlLexer_steady : SteadyLexer xmlLexer := by
  intro left t size rest e h
  cases left with
  | nil => rw [xmlLexer_nil] at h; simp at h
  | cons b left =>
    cases ht : xmlToken (b :: left) with
    | none => simp only [xmlLexer, xmlTokens, ht] at h; simp at h
    | some r =>
      obtain ⟨t', r⟩ := r
      obtain ⟨⟨pre, hp⟩, hl⟩ := xmlToken_suffix ht
      rw [xmlLexer_token ht] at h
      simp only [Prod.mk.injEq, List.cons.injEq] at h
      obtain ⟨⟨⟨rfl, rfl⟩, h1⟩, h2⟩ := h
      refine ⟨by omega, by omega, ?_⟩
      have : (b :: left).drop ((b :: left).length - r.length) = r := by
        rw [← hp]; simp
      rw [this, ← h1, ← h2]

end Rodb
