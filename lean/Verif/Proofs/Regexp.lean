import Verif.Spec.Regexp
/-
  Lemmas about regular expressions.
-/
namespace Rodb
open Spec

/-! ### Patterns -/

/-- The same state above other open parts. -/
def PatternState.over (s : PatternState) (base : List Frame) : PatternState := { s with stack := s.stack ++ base }

theorem repeatLast_over {s t : PatternState} {op : Regex → Regex} (base : List Frame) (h : s.repeatLast op = some t) :
    (s.over base).repeatLast op = some (t.over base) := by
  unfold PatternState.repeatLast at h ⊢
  show (match s.top.items with | [] => none | r :: rest => _) = _
  cases hi : s.top.items with
  | nil => rw [hi] at h; cases h
  | cons r rest => rw [hi] at h; cases h; rfl

theorem normalStep_over {s t : PatternState} {c : Char} (base : List Frame) (h : normalStep s c = some t) :
    normalStep (s.over base) c = some (t.over base) := by
  unfold normalStep at h ⊢
  by_cases h1 : c = '('
  · rw [if_pos h1] at h ⊢; cases h; rfl
  rw [if_neg h1] at h ⊢
  by_cases h2 : c = ')'
  · rw [if_pos h2] at h ⊢
    cases hs : s.stack with
    | nil => rw [hs] at h; cases h
    | cons f rest =>
      rw [hs] at h
      cases h
      simp [PatternState.over, hs]
  rw [if_neg h2] at h ⊢
  by_cases h3 : c = '|'
  · rw [if_pos h3] at h ⊢; cases h; rfl
  rw [if_neg h3] at h ⊢
  by_cases h4 : c = '*'
  · rw [if_pos h4] at h ⊢; exact repeatLast_over base h
  rw [if_neg h4] at h ⊢
  by_cases h5 : c = '+'
  · rw [if_pos h5] at h ⊢; exact repeatLast_over base h
  rw [if_neg h5] at h ⊢
  by_cases h6 : c = '?'
  · rw [if_pos h6] at h ⊢; exact repeatLast_over base h
  rw [if_neg h6] at h ⊢
  repeat' split at h
  all_goals (first | (cases h; done) | skip)
  all_goals (cases h; simp only [if_true, if_false, *]; rfl)

theorem classElement_over {s t : PatternState} {n rs} {c : Char} (base : List Frame) (h : classElement s n rs c = some t) :
    classElement (s.over base) n rs c = some (t.over base) := by
  unfold classElement at h ⊢
  repeat' split at h
  all_goals (first | cases h | skip)
  all_goals simp_all [PatternState.over]

theorem patternStep_over {s t : PatternState} {c : Char} (base : List Frame) (h : patternStep s c = some t) :
    patternStep (s.over base) c = some (t.over base) := by
  have hm : (s.over base).mode = s.mode := rfl
  unfold patternStep at h ⊢
  rw [hm]
  cases hmode : s.mode <;> rw [hmode] at h <;> dsimp only at h ⊢
  all_goals (repeat' split at h)
  all_goals (first | cases h; done | skip)
  all_goals (try simp_all only [if_true, if_false, not_or, or_false])
  all_goals (first | exact normalStep_over base h | exact classElement_over base h | (cases h; rfl) | skip)

theorem patternRun_over {s t : PatternState} (base : List Frame) : ∀ {cs : List Char}, patternRun s cs = some t →
    patternRun (s.over base) cs = some (t.over base) := by
  intro cs
  induction cs generalizing s with
  | nil => intro h; cases h; rfl
  | cons c cs ih =>
    intro h
    simp only [patternRun] at h ⊢
    cases hs : patternStep s c with
    | none => rw [hs] at h; cases h
    | some s' =>
      rw [hs] at h
      rw [patternStep_over base hs]
      exact ih h

theorem patternRun_append (s : PatternState) (a b : List Char) :
    patternRun s (a ++ b) = (patternRun s a).bind (fun t => patternRun t b) := by
  induction a generalizing s with
  | nil => rfl
  | cons c cs ih =>
    simp only [List.cons_append, patternRun]
    cases patternStep s c with
    | none => rfl
    | some s' => exact ih s'

theorem patternRun_append_of {s t : PatternState} {a : List Char} (h : patternRun s a = some t) (b : List Char) :
    patternRun s (a ++ b) = patternRun t b := by rw [patternRun_append, h]; rfl

/-- The outermost frame. -/
def outer (stack : List Frame) (top : Frame) : Frame := stack.getLast?.getD top

theorem outer_cons (f : Frame) (stack : List Frame) (top : Frame) : outer (f :: stack) top = outer stack f := by
  simp [outer, List.getLast?_cons]

theorem outer_nil (top : Frame) : outer [] top = top := rfl

theorem outer_capturing_congr {stack : List Frame} {top top' : Frame} (h : stack = [] → top'.capturing = top.capturing) :
    (outer stack top').capturing = (outer stack top).capturing := by
  cases stack with
  | nil => exact h rfl
  | cons f l => simp [outer_cons]

/-- No flag applies to the outermost part. -/
def Unflagged (s : PatternState) : Prop :=
  (outer s.stack s.top).capturing = true ∧ ((s.mode = .opened ∨ s.mode = .flagged) → s.stack ≠ [])

theorem normalStep_unflagged {s t : PatternState} {c : Char} (hs : (outer s.stack s.top).capturing = true)
    (h : normalStep s c = some t) : Unflagged t := by
  have key : ∀ top' mode, top'.capturing = s.top.capturing → mode ≠ Mode.opened → mode ≠ Mode.flagged →
      Unflagged { stack := s.stack, top := top', mode := mode } := by
    intro top' mode h1 h2 h3
    refine ⟨?_, fun h => by rcases h with h | h <;> contradiction⟩
    rw [← hs]
    exact outer_capturing_congr (fun _ => h1)
  have rep : ∀ op, s.repeatLast op = some t → Unflagged t := by
    intro op h
    unfold PatternState.repeatLast at h
    split at h
    · cases h
    · cases h; exact key _ _ rfl (by simp) (by simp)
  unfold normalStep at h
  by_cases h1 : c = '('
  · rw [if_pos h1] at h
    cases h
    exact ⟨by rw [outer_cons]; exact hs, fun _ => by simp⟩
  rw [if_neg h1] at h
  by_cases h2 : c = ')'
  · rw [if_pos h2] at h
    cases hst : s.stack with
    | nil => rw [hst] at h; cases h
    | cons f rest =>
      rw [hst] at h
      cases h
      refine ⟨?_, fun h => by rcases h with h | h <;> cases h⟩
      rw [hst, outer_cons] at hs
      rw [← hs]
      exact outer_capturing_congr (fun _ => rfl)
  rw [if_neg h2] at h
  by_cases h3 : c = '|'
  · rw [if_pos h3] at h
    cases h; exact key _ _ rfl (by simp) (by simp)
  rw [if_neg h3] at h
  by_cases h4 : c = '*'
  · rw [if_pos h4] at h; exact rep _ h
  rw [if_neg h4] at h
  by_cases h5 : c = '+'
  · rw [if_pos h5] at h; exact rep _ h
  rw [if_neg h5] at h
  by_cases h6 : c = '?'
  · rw [if_pos h6] at h; exact rep _ h
  rw [if_neg h6] at h
  repeat' split at h
  all_goals (first | (cases h; done) | (cases h; exact key _ _ rfl (by simp) (by simp)))

theorem patternStep_unflagged {s t : PatternState} {c : Char} (hs : Unflagged s) (h : patternStep s c = some t) : Unflagged t := by
  have key : ∀ top' mode, top'.capturing = s.top.capturing → mode ≠ Mode.opened → mode ≠ Mode.flagged →
      Unflagged { stack := s.stack, top := top', mode := mode } := by
    intro top' mode h1 h2 h3
    refine ⟨?_, fun h => by rcases h with h | h <;> contradiction⟩
    rw [← hs.1]
    exact outer_capturing_congr (fun _ => h1)
  have cl : ∀ n rs, classElement s n rs c = some t → Unflagged t := by
    intro n rs h
    unfold classElement at h
    repeat' split at h
    all_goals (first | (cases h; done) | (cases h; exact key _ _ rfl (by simp) (by simp)))
  unfold patternStep at h
  split at h
  case h_2 hm =>
    split at h
    · cases h
      exact ⟨hs.1, fun _ => hs.2 (.inl hm)⟩
    · exact normalStep_unflagged hs.1 h
  case h_3 hm =>
    split at h
    · cases h
      refine ⟨?_, fun h => by rcases h with h | h <;> cases h⟩
      rw [← hs.1]
      exact outer_capturing_congr (fun h => absurd h (hs.2 (.inr hm)))
    · cases h
  all_goals repeat' split at h
  all_goals (first
    | (cases h; done)
    | exact normalStep_unflagged hs.1 h
    | exact cl _ _ h
    | (cases h; exact key _ _ rfl (by simp) (by simp)))

theorem patternRun_unflagged {s t : PatternState} (hs : Unflagged s) : ∀ {cs : List Char}, patternRun s cs = some t → Unflagged t := by
  intro cs
  induction cs generalizing s with
  | nil => intro h; cases h; exact hs
  | cons c cs ih =>
    intro h
    simp only [patternRun] at h
    cases hc : patternStep s c with
    | none => rw [hc] at h; cases h
    | some s' => rw [hc] at h; exact ih (patternStep_unflagged hs hc) h

/-- A pattern in parentheses is one capturing group. -/
theorem group_run {p : List Char} {r : Regex} (h : compilePattern p = some r) (stack : List Frame) (top : Frame) :
    patternRun { stack := stack, top := top, mode := .normal } ('(' :: p ++ [')']) =
      some { stack := stack, top := { top with items := .group r :: top.items }, mode := .normal } := by
  unfold compilePattern at h
  cases hr : patternRun .start p with
  | none => rw [hr] at h; cases h
  | some s =>
    rw [hr] at h
    dsimp only at h
    split at h
    case isFalse => cases h
    case isTrue hc =>
    cases h
    simp only [Bool.and_eq_true, List.isEmpty_iff] at hc
    have hcap := (patternRun_unflagged (s := .start) ⟨rfl, fun h => by rcases h with h | h <;> cases h⟩ hr).1
    rw [hc.1, outer_nil] at hcap
    have close : ∀ s : PatternState, s.stack = [] → s.mode.complete = true → s.top.capturing = true →
        patternStep (s.over (top :: stack)) ')' =
          some { stack := stack, top := { top with items := .group s.top.close :: top.items }, mode := .normal } := by
      intro s h1 h2 h3
      have hn : normalStep (s.over (top :: stack)) ')' =
          some { stack := stack, top := { top with items := .group s.top.close :: top.items }, mode := .normal } := by
        unfold normalStep
        rw [if_neg (by decide), if_pos rfl]
        simp [PatternState.over, h1, h3]
      unfold patternStep
      have : (s.over (top :: stack)).mode = s.mode := rfl
      rw [this]
      cases hm : s.mode <;> rw [hm] at h2 <;> simp [Mode.complete] at h2 <;> simp [hn]
    have open_ : patternStep { stack := stack, top := top, mode := .normal } '(' =
        some { stack := top :: stack, top := newFrame, mode := .opened } := rfl
    rw [List.cons_append]
    simp only [patternRun, open_]
    cases p with
    | nil =>
      cases hr
      rfl
    | cons c cs =>
      have hstart := patternRun_over (top :: stack) hr
      have hsame : patternStep { stack := top :: stack, top := newFrame, mode := .opened } c =
          patternStep (PatternState.start.over (top :: stack)) c := by
        by_cases hq : c = '?'
        · subst hq
          exfalso
          revert hr
          simp [patternRun, patternStep, PatternState.start, normalStep, PatternState.repeatLast, newFrame]
        · simp only [patternStep, PatternState.over, PatternState.start, if_neg hq]
          have indep : ∀ m, normalStep { stack := top :: stack, top := newFrame, mode := m } c =
              normalStep { stack := top :: stack, top := newFrame, mode := .normal } c := by
            intro m
            unfold normalStep
            by_cases h1 : c = '('
            · rw [if_pos h1, if_pos h1]
            rw [if_neg h1, if_neg h1]
            rfl
          exact indep _
      simp only [List.cons_append, patternRun] at hstart ⊢
      rw [hsame]
      cases hc1 : patternStep (PatternState.start.over (top :: stack)) c with
      | none => rw [hc1] at hstart; cases hstart
      | some s1 =>
        rw [hc1] at hstart
        dsimp only at hstart ⊢
        rw [patternRun_append_of hstart]
        simp only [patternRun, close s hc.1 hc.2 hcap]

/-- Characters without a special meaning in a pattern. -/
def plainChar (c : Char) : Prop := isMeta c = false

theorem plain_step {c : Char} (h : plainChar c) (s : PatternState) (hs : s.mode = .normal) :
    patternStep s c = some (s.push (.chr c)) := by
  simp only [plainChar, isMeta, List.mem_cons, List.not_mem_nil, or_false, decide_eq_false_iff_not, not_or] at h
  obtain ⟨h1, h2, h3, h4, h5, h6, h7, h8, h9, h10, h11, h12, h13, h14⟩ := h
  simp only [patternStep, hs, normalStep, if_neg h1, if_neg h2, if_neg h3, if_neg h4, if_neg h5, if_neg h6, if_neg h7, if_neg h8,
    if_neg h9, if_neg h11, if_neg h13, if_neg h14]

theorem plain_run : ∀ (lit : List Char), (∀ c ∈ lit, plainChar c) → ∀ (stack : List Frame) (top : Frame),
    patternRun { stack := stack, top := top, mode := .normal } lit =
      some { stack := stack, top := { top with items := (lit.map Regex.chr).reverse ++ top.items }, mode := .normal }
  | [], _, stack, top => rfl
  | c :: cs, h, stack, top => by
    have h1 := plain_step (h c (by simp)) { stack := stack, top := top, mode := .normal } rfl
    simp only [patternRun, h1, PatternState.push]
    rw [plain_run cs (fun x hx => h x (by simp [hx]))]
    simp

theorem meta_step {c : Char} (h : isMeta c = true) : isEscapable c = true := by
  simp only [isMeta, List.mem_cons, List.not_mem_nil, or_false, decide_eq_true_eq] at h
  rcases h with h | h | h | h | h | h | h | h | h | h | h | h | h | h <;> subst h <;> decide

/-- A quoted text is the sequence of its characters. -/
theorem quote_run : ∀ (lit : List Char) (stack : List Frame) (top : Frame),
    patternRun { stack := stack, top := top, mode := .normal } (quoteMeta lit) =
      some { stack := stack, top := { top with items := (lit.map Regex.chr).reverse ++ top.items }, mode := .normal }
  | [], stack, top => rfl
  | c :: cs, stack, top => by
    have ih := quote_run cs stack { top with items := .chr c :: top.items }
    simp only [quoteMeta, List.flatMap_cons] at ih ⊢
    by_cases hc : isMeta c = true
    · rw [if_pos hc]
      have h1 : patternStep { stack := stack, top := top, mode := .normal } '\\' = some { stack := stack, top := top, mode := .escaped } := rfl
      have h2 : patternStep { stack := stack, top := top, mode := .escaped } c =
          some { stack := stack, top := { top with items := .chr c :: top.items }, mode := .normal } := by
        simp only [patternStep, meta_step hc, if_true]; rfl
      simp only [List.cons_append, List.nil_append, patternRun, h1, h2, ih]
      simp
    · rw [if_neg hc]
      have hp : plainChar c := by simpa [plainChar] using hc
      have h1 := plain_step hp { stack := stack, top := top, mode := .normal } rfl
      simp only [List.cons_append, List.nil_append, patternRun, h1, PatternState.push, ih]
      simp

/-! ### Matches -/

theorem Spec.Matches.captures {r : Regex} {before s after caps} (h : Matches r before s after caps) : caps.length = r.groups := by
  induction h with
  | empty => rfl
  | chr => rfl
  | any _ => rfl
  | cls _ => rfl
  | cat _ _ ha hb => simp [Regex.groups, ha, hb]
  | altLeft _ ha => simp [Regex.groups, ha]
  | altRight _ hb => simp [Regex.groups, hb]
  | starNone => simp [Regex.groups]
  | starMore _ _ ha hb => simp only [laterCaptures, List.length_zipWith, ha, hb, Regex.groups]; omega
  | plus _ _ ha hb => simp only [laterCaptures, List.length_zipWith, ha, hb, Regex.groups]; omega
  | optNone => simp [Regex.groups]
  | optSome _ ha => exact ha
  | group _ ha => simp [Regex.groups, ha]
  | bol => rfl
  | eol => rfl

/-- Without anchors the surroundings do not matter. -/
theorem Spec.Matches.elsewhere {r : Regex} {before s after caps} (h : Matches r before s after caps) (hr : NoAnchors r) :
    ∀ before' after', Matches r before' s after' caps := by
  induction h with
  | empty => intros; exact .empty
  | chr => intros; exact .chr
  | any h => intros; exact .any h
  | cls h => intros; exact .cls h
  | cat _ _ ha hb => intros; exact .cat (ha hr.1 _ _) (hb hr.2 _ _)
  | altLeft _ ha => intros; exact .altLeft (ha hr.1 _ _)
  | altRight _ hb => intros; exact .altRight (hb hr.2 _ _)
  | starNone => intros; exact .starNone
  | starMore _ _ ha hb => intros; exact .starMore (ha hr _ _) (hb hr _ _)
  | plus _ _ ha hb => intros; exact .plus (ha hr _ _) (hb hr _ _)
  | optNone => intros; exact .optNone
  | optSome _ ha => intros; exact .optSome (ha hr _ _)
  | group _ ha => intros; exact .group (ha hr _ _)
  | bol => exact hr.elim
  | eol => exact hr.elim

theorem matches_accepts {r : Regex} (hr : NoAnchors r) {before s after : List Char} :
    (∃ caps, Matches r before s after caps) ↔ Accepts r s :=
  ⟨fun ⟨c, h⟩ => ⟨c, h.elsewhere hr _ _⟩, fun ⟨c, h⟩ => ⟨c, h.elsewhere hr _ _⟩⟩

/-- A sequence that starts with a text. -/
theorem matches_literal {rest : List Regex} : ∀ {lit : List Char} {before s after caps},
    Matches (catList (lit.map .chr ++ rest)) before s after caps ↔
      ∃ s', s = lit ++ s' ∧ Matches (catList rest) (before ++ lit) s' after caps
  | [], before, s, after, caps => by simp
  | c :: cs, before, s, after, caps => by
    constructor
    · intro h
      simp only [List.map_cons, List.cons_append, catList] at h
      cases h with
      | cat ha hb =>
        cases ha
        obtain ⟨s', rfl, h'⟩ := matches_literal.1 hb
        exact ⟨s', by simp, by simpa using h'⟩
    · rintro ⟨s', rfl, h'⟩
      have : Matches (catList (cs.map .chr ++ rest)) (before ++ [c]) (cs ++ s') after caps := by
        rw [matches_literal]
        exact ⟨s', rfl, by simpa using h'⟩
      exact Matches.cat (s := [c]) (ca := []) .chr this

/-- A sequence that starts with a group. -/
theorem matches_group {r : Regex} {rest : List Regex} {before s after caps} :
    Matches (catList (.group r :: rest)) before s after caps ↔
      ∃ t s' ca cb, s = t ++ s' ∧ caps = some t :: ca ++ cb ∧ Matches r before t (s' ++ after) ca ∧
        Matches (catList rest) (before ++ t) s' after cb := by
  constructor
  · intro h
    cases h with
    | cat ha hb =>
      cases ha with
      | group ha => exact ⟨_, _, _, _, rfl, rfl, ha, hb⟩
  · rintro ⟨t, s', ca, cb, rfl, rfl, ha, hb⟩
    exact .cat (.group ha) hb

theorem matches_cons {r : Regex} {rest : List Regex} {before s after caps} :
    Matches (catList (r :: rest)) before s after caps ↔
      ∃ t s' ca cb, s = t ++ s' ∧ caps = ca ++ cb ∧ Matches r before t (s' ++ after) ca ∧
        Matches (catList rest) (before ++ t) s' after cb := by
  constructor
  · intro h
    cases h with
    | cat ha hb => exact ⟨_, _, _, _, rfl, rfl, ha, hb⟩
  · rintro ⟨t, s', ca, cb, rfl, rfl, ha, hb⟩
    exact .cat ha hb

theorem accepts_cat {a b : Regex} (ha : NoAnchors a) (hb : NoAnchors b) {s : List Char} :
    Accepts (.cat a b) s ↔ ∃ t u, s = t ++ u ∧ Accepts a t ∧ Accepts b u := by
  constructor
  · rintro ⟨c, h⟩
    cases h with
    | cat h1 h2 => exact ⟨_, _, rfl, ⟨_, h1.elsewhere ha _ _⟩, ⟨_, h2.elsewhere hb _ _⟩⟩
  · rintro ⟨t, u, rfl, ⟨c1, h1⟩, ⟨c2, h2⟩⟩
    exact ⟨_, .cat (h1.elsewhere ha _ _) (h2.elsewhere hb _ _)⟩

theorem accepts_empty {s : List Char} : Accepts .empty s ↔ s = [] :=
  ⟨fun ⟨_, h⟩ => by cases h; rfl, fun h => by subst h; exact ⟨_, .empty⟩⟩

theorem accepts_opt {a : Regex} {s : List Char} : Accepts (.opt a) s ↔ s = [] ∨ Accepts a s := by
  constructor
  · rintro ⟨c, h⟩
    cases h with
    | optNone => exact .inl rfl
    | optSome h => exact .inr ⟨_, h⟩
  · rintro (rfl | ⟨c, h⟩)
    · exact ⟨_, .optNone⟩
    · exact ⟨_, .optSome h⟩

theorem accepts_group {a : Regex} {s : List Char} : Accepts (.group a) s ↔ Accepts a s := by
  constructor
  · rintro ⟨c, h⟩
    cases h with
    | group h => exact ⟨_, h⟩
  · rintro ⟨c, h⟩
    exact ⟨_, .group h⟩

theorem accepts_alt {a b : Regex} {s : List Char} : Accepts (.alt a b) s ↔ Accepts a s ∨ Accepts b s := by
  constructor
  · rintro ⟨c, h⟩
    cases h with
    | altLeft h => exact .inl ⟨_, h⟩
    | altRight h => exact .inr ⟨_, h⟩
  · rintro (⟨c, h⟩ | ⟨c, h⟩)
    · exact ⟨_, .altLeft h⟩
    · exact ⟨_, .altRight h⟩

/-- Expressions that match one character. -/
theorem accepts_star {a : Regex} {p : Char → Prop} (ha : ∀ {before s after caps}, Matches a before s after caps → ∃ c, s = [c] ∧ p c)
    (hp : ∀ c before after, p c → ∃ caps, Matches a before [c] after caps) {before s after : List Char} :
    (∃ caps, Matches (.star a) before s after caps) ↔ ∀ c ∈ s, p c := by
  constructor
  · rintro ⟨caps, h⟩
    generalize hr : Regex.star a = r at h
    induction h with
    | starNone => simp
    | starMore h1 _ _ ih =>
      cases hr
      obtain ⟨c, rfl, hc⟩ := ha h1
      intro x hx
      rcases List.mem_append.1 hx with hx | hx
      · rw [List.mem_singleton.1 hx]; exact hc
      · exact ih rfl x hx
    | _ => cases hr
  · intro h
    induction s generalizing before with
    | nil => exact ⟨_, .starNone⟩
    | cons c cs ih =>
      obtain ⟨c1, h1⟩ := hp c before (cs ++ after) (h c (by simp))
      obtain ⟨c2, h2⟩ := ih (before := before ++ [c]) (fun x hx => h x (by simp [hx]))
      exact ⟨_, .starMore h1 h2⟩

theorem accepts_plus {a : Regex} {p : Char → Prop} (ha : ∀ {before s after caps}, Matches a before s after caps → ∃ c, s = [c] ∧ p c)
    (hp : ∀ c before after, p c → ∃ caps, Matches a before [c] after caps) {s : List Char} :
    Accepts (.plus a) s ↔ s ≠ [] ∧ ∀ c ∈ s, p c := by
  constructor
  · rintro ⟨caps, h⟩
    cases h with
    | plus h1 h2 =>
      obtain ⟨c, rfl, hc⟩ := ha h1
      have := (accepts_star ha hp).1 ⟨_, h2⟩
      refine ⟨by simp, fun x hx => ?_⟩
      rcases List.mem_append.1 hx with hx | hx
      · rw [List.mem_singleton.1 hx]; exact hc
      · exact this x hx
  · rintro ⟨h1, h2⟩
    cases s with
    | nil => exact absurd rfl h1
    | cons c cs =>
      obtain ⟨c1, g1⟩ := hp c [] (cs ++ []) (h2 c (by simp))
      obtain ⟨c2, g2⟩ := (accepts_star (before := [] ++ [c]) (after := []) ha hp).2 (fun x hx => h2 x (List.mem_cons_of_mem _ hx))
      exact ⟨_, .plus g1 g2⟩

theorem matches_any {before s after caps} (h : Matches .any before s after caps) : ∃ c, s = [c] ∧ c ≠ '\n' := by
  cases h with
  | any h => exact ⟨_, rfl, h⟩

theorem matches_cls {n rs} {before s after caps} (h : Matches (.cls n rs) before s after caps) : ∃ c, s = [c] ∧ inClass n rs c := by
  cases h with
  | cls h => exact ⟨_, rfl, h⟩

theorem accepts_cls {n rs} {s : List Char} : Accepts (.cls n rs) s ↔ ∃ c, s = [c] ∧ inClass n rs c :=
  ⟨fun ⟨_, h⟩ => matches_cls h, fun ⟨c, h1, h2⟩ => by subst h1; exact ⟨_, .cls h2⟩⟩

theorem accepts_chars {s : List Char} : ∀ {text : List Char}, Accepts (catList (text.map .chr)) s ↔ s = text := by
  intro text
  constructor
  · rintro ⟨c, h⟩
    have := matches_literal (rest := []).1 (by simpa using h)
    obtain ⟨s', rfl, h'⟩ := this
    cases h'
    simp
  · rintro rfl
    refine ⟨[], ?_⟩
    have := (matches_literal (rest := []) (lit := s) (before := []) (s := s) (after := []) (caps := [])).2 ⟨[], by simp, .empty⟩
    simpa using this

end Rodb
