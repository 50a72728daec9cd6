import Verif.Model.Expand
import Verif.Model.Text
import Verif.Spec.Expand
/-
  Environment variables in the configuration file.
-/
namespace Rodb
open Spec

theorem isAlphaNum_iff (b : UInt8) : isAlphaNum b = true ↔ NameByte b := by
  simp only [isAlphaNum, NameByte, Bool.or_eq_true, beq_iff_eq, Bool.and_eq_true, decide_eq_true_eq, ← UInt8.toNat_inj]
  simp only [show (95 : UInt8).toNat = 95 from rfl, or_assoc]

theorem expandLoop_skip (env : Bytes → Bytes) : ∀ (a rest : Bytes), expandLoop env a.length (a ++ rest) = expandLoop env 0 rest
  | [], _ => rfl
  | _ :: a, rest => by simp only [List.length_cons, List.cons_append, expandLoop]; exact expandLoop_skip env a rest

theorem expandLoop_plain (env : Bytes → Bytes) : ∀ (text rest : Bytes), 36 ∉ text → expandLoop env 0 (text ++ rest) = text ++ expandLoop env 0 rest
  | [], _, _ => rfl
  | b :: text, rest, h => by
    have hb : b ≠ 36 := fun e => h (e ▸ .head _)
    simp only [List.cons_append, expandLoop, hb, false_and, if_false]
    rw [expandLoop_plain env text rest (fun h' => h (.tail _ h'))]

theorem not_special {b : UInt8} (h : NameByte b) (hd : ¬ (48 ≤ b.toNat ∧ b.toNat ≤ 57)) : isShellSpecial b = false := by
  simp only [isShellSpecial, Bool.or_eq_false_iff, Bool.and_eq_false_iff, decide_eq_false_iff_not]
  refine ⟨?_, by omega⟩
  simp only [List.contains_eq_mem, decide_eq_false_iff_not, List.mem_cons, List.not_mem_nil, or_false, ← UInt8.toNat_inj]
  simp only [show (42 : UInt8).toNat = 42 from rfl, show (35 : UInt8).toNat = 35 from rfl, show (36 : UInt8).toNat = 36 from rfl, show (64 : UInt8).toNat = 64 from rfl,
    show (33 : UInt8).toNat = 33 from rfl, show (63 : UInt8).toNat = 63 from rfl, show (45 : UInt8).toNat = 45 from rfl]
  rcases h with h | h | h | h <;> omega

theorem scanBrace_name (name rest : Bytes) (hn : name ≠ []) (h : (125 : UInt8) ∉ name) : scanBrace (name ++ 125 :: rest) = (name, name.length + 2) := by
  have htw : (name ++ 125 :: rest).takeWhile (fun b => b != 125) = name := by
    rw [List.takeWhile_append_of_pos]
    · simp
    · intro a ha; simp only [bne_iff_ne]; exact fun e => h (e ▸ ha)
  simp only [scanBrace, htw]
  rw [if_pos (by simp), if_neg hn]

theorem shellName_braced (name rest : Bytes) (hn : name ≠ []) (h : (125 : UInt8) ∉ name) : shellName (123 :: (name ++ 125 :: rest)) = (name, name.length + 2) := by
  have hscan := scanBrace_name name rest hn h
  simp only [shellName, if_true]
  split
  · rename_i d tail heq
    split
    · cases name with
      | nil => exact absurd rfl hn
      | cons c name =>
        cases name with
        | nil => simp only [List.cons_append, List.cons.injEq] at heq; rw [← heq.1]; rfl
        | cons e name =>
          simp only [List.cons_append, List.cons.injEq] at heq
          exact absurd (heq.2.1 ▸ .tail _ (.head _)) h
    · rw [← hscan, heq]
  · exact hscan

theorem shellName_bare (name rest : Bytes) (h : VariableName name) (hr : ∀ b tail, rest = b :: tail → ¬ NameByte b) : shellName (name ++ rest) = (name, name.length) := by
  obtain ⟨h1, b, name, rfl, h2⟩ := h
  have hb := h1 b (.head _)
  have hne : b ≠ 123 := by rintro rfl; rcases hb with h | h | h | h <;> revert h <;> decide
  have htw : ((b :: name) ++ rest).takeWhile isAlphaNum = b :: name := by
    rw [List.takeWhile_append_of_pos (fun a ha => (isAlphaNum_iff a).2 (h1 a ha))]
    cases rest with
    | nil => simp
    | cons c tail =>
      have : isAlphaNum c = false := by
        rw [← Bool.not_eq_true, isAlphaNum_iff]; exact hr c tail rfl
      simp [this]
  simp only [List.cons_append] at htw ⊢
  simp only [shellName, if_neg hne, not_special hb h2, htw]
  rfl

/-- **C91** (partial) In the text of the configuration file, every `${NAME}` and `$NAME` is replaced by the value of the environment variable, whatever the value contains, and the rest
is kept. Missing: texts with other `$`. -/
theorem C91_variables_replaced_partial (env : Bytes → Bytes) : ∀ pieces : List Piece, GoodPieces pieces → expandEnv env (written pieces) = meant env pieces
  | [], _ => rfl
  | .plain text :: rest, ⟨h1, h2⟩ => by
    have := C91_variables_replaced_partial env rest h2
    simp only [expandEnv, written, meant] at this ⊢
    rw [expandLoop_plain env text _ h1, this]
  | .braced name :: rest, ⟨h1, h2⟩ => by
    have ih := C91_variables_replaced_partial env rest h2
    obtain ⟨hname, b, tl, hb, _⟩ := h1
    have h125 : (125 : UInt8) ∉ name := fun h => by rcases hname _ h with h | h | h | h <;> revert h <;> decide
    have hne : name ≠ [] := by rw [hb]; exact List.cons_ne_nil _ _
    simp only [expandEnv, written, meant] at ih ⊢
    have hs := shellName_braced name (written rest) hne h125
    have hskip := expandLoop_skip env (123 :: (name ++ [125])) (written rest)
    simp only [List.length_cons, List.length_append, List.length_nil, List.cons_append, List.append_assoc, List.nil_append] at hskip
    rw [show ([36, 123] ++ name ++ [125] ++ written rest : Bytes) = 36 :: 123 :: (name ++ 125 :: written rest) by simp]
    rw [expandLoop, if_pos ⟨rfl, by simp⟩, hs]
    simp only [hne, false_and, if_false]
    rw [hskip, ih]
  | .bare name :: rest, ⟨h1, h2, h3⟩ => by
    have ih := C91_variables_replaced_partial env rest h3
    have hne : name ≠ [] := by obtain ⟨_, b, tl, hb, _⟩ := h1; rw [hb]; exact List.cons_ne_nil _ _
    simp only [expandEnv, written, meant] at ih ⊢
    have hs := shellName_bare name (written rest) h1 h2
    rw [show ([36] ++ name ++ written rest : Bytes) = 36 :: (name ++ written rest) by simp]
    simp only [expandLoop]
    rw [if_pos ⟨trivial, by simp [hne]⟩, hs]
    simp only [hne, false_and, if_false]
    rw [expandLoop_skip, ih]

/-- `path: ${DIR}/a$b.csv` -/
example (env : Bytes → Bytes) : GoodPieces [.plain [112, 97, 116, 104, 58, 32], .braced [68, 73, 82], .plain [47, 97], .bare [98], .plain [46, 99, 115, 118]] ∧
    utf8 "path: ${DIR}/a$b.csv".toList = written [.plain [112, 97, 116, 104, 58, 32], .braced [68, 73, 82], .plain [47, 97], .bare [98], .plain [46, 99, 115, 118]] ∧
    expandEnv env (utf8 "path: ${DIR}/a$b.csv".toList) =
      utf8 "path: ".toList ++ (env (utf8 "DIR".toList) ++ (utf8 "/a".toList ++ (env (utf8 "b".toList) ++ utf8 ".csv".toList))) := by
  have h : GoodPieces [.plain [112, 97, 116, 104, 58, 32], .braced [68, 73, 82], .plain [47, 97], .bare [98], .plain [46, 99, 115, 118]] := by
    refine ⟨by decide, ⟨by unfold NameByte; decide, _, _, rfl, by decide⟩, by decide, ⟨by unfold NameByte; decide, _, _, rfl, by decide⟩, ?_, by decide, trivial⟩
    intro b tail hb
    cases hb
    unfold NameByte
    decide
  exact ⟨h, by decide +kernel, C91_variables_replaced_partial env _ h⟩

/-- **C91** A text without `$` is kept. -/
theorem C91_no_dollar (env : Bytes → Bytes) (text : Bytes) (h : 36 ∉ text) : expandEnv env text = text := by
  have := C91_variables_replaced_partial env [.plain text] ⟨h, trivial⟩
  simpa [written, meant] using this

/-- No `$` followed by a character of names. -/
def DollarFree (out : Bytes) : Prop := ∀ before after : Bytes, ∀ b, NameByte b → out ≠ before ++ [36, b] ++ after

theorem dollarFree_nil : DollarFree [] := by
  intro before after b _ h
  simp at h

theorem dollarFree_cons {x : UInt8} {out : Bytes} (h : DollarFree out) (hx : x = 36 → ∀ d after, out = d :: after → ¬ NameByte d) : DollarFree (x :: out) := by
  intro before after b hb he
  cases before with
  | nil => cases he; exact hx rfl b after rfl hb
  | cons y before =>
    simp only [List.cons_append, List.cons.injEq] at he
    exact h before after b hb he.2

theorem shellName_none {c : UInt8} {rest : Bytes} (h : shellName (c :: rest) = ([], 0)) : c ≠ 36 ∧ ¬ NameByte c := by
  have hscan : ∀ l, scanBrace l ≠ ([], 0) := by
    intro l hl
    unfold scanBrace at hl
    split at hl
    · simp only at hl
      split at hl <;> simp at hl
    · simp at hl
  simp only [shellName] at h
  split at h
  · split at h
    · split at h
      · simp at h
      · exact absurd h (hscan _)
    · exact absurd h (hscan _)
  · split at h
    · simp at h
    · rename_i hs
      refine ⟨?_, fun hn => ?_⟩
      · rintro rfl; exact hs (by decide)
      · simp [(isAlphaNum_iff c).2 hn] at h

/-- **C91** is false of other texts with `$`: without any variable set, no text of the file gives a `$` that is followed by a letter, a digit or `_` (so a delimiter `$a` cannot be
configured), and `$5` loses both characters. -/
theorem C91_false : (∀ text before after : Bytes, ∀ b, NameByte b → expandEnv (fun _ => []) text ≠ before ++ [36, b] ++ after) ∧
    expandEnv (fun _ => []) [36, 53] = [] := by
  refine ⟨?_, by decide⟩
  have key : ∀ (text : Bytes) (skip : Nat), DollarFree (expandLoop (fun _ => []) skip text) := by
    intro text
    induction text with
    | nil => exact fun _ => dollarFree_nil
    | cons b rest ih =>
      intro skip
      cases skip with
      | succ skip => exact ih skip
      | zero =>
        rw [expandLoop]
        by_cases hd : b = 36 ∧ rest ≠ []
        · rw [if_pos hd]
          generalize hs : shellName rest = s
          obtain ⟨name, w⟩ := s
          simp only
          by_cases h1 : name = [] ∧ w > 0
          · rw [if_pos h1]; exact ih w
          · rw [if_neg h1]
            by_cases h2 : name = []
            · rw [if_pos h2]
              have hw : w = 0 := by
                cases w with
                | zero => rfl
                | succ w => exact absurd ⟨h2, Nat.succ_pos w⟩ h1
              subst hw
              subst h2
              obtain ⟨c, tail, hc⟩ := List.exists_cons_of_ne_nil hd.2
              subst hc
              obtain ⟨hc1, hc2⟩ := shellName_none hs
              refine dollarFree_cons (ih 0) (fun _ d after he => ?_)
              rw [expandLoop, if_neg (fun h => hc1 h.1)] at he
              cases he
              exact hc2
            · rw [if_neg h2]; exact ih w
        · rw [if_neg hd]
          refine dollarFree_cons (ih 0) (fun hb d after he => ?_)
          have : rest = [] := Classical.byContradiction fun h => hd ⟨hb, h⟩
          subst this
          cases he
  exact fun text => key text 0

end Rodb
