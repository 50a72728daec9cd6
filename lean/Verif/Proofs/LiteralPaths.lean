import Verif.Proofs.RoutePaths
/-
  A pattern matches nothing shorter than itself only if it has no characters with a special meaning: every match can be made as short as the pattern without those characters.
-/
namespace Rodb
open Spec

/-- A match stays one if nothing is added at the sides that were empty. -/
theorem Spec.Matches.around {r : Regex} {before s after caps} (h : Matches r before s after caps) :
    ∀ before' after', (before = [] → before' = []) → (after = [] → after' = []) → Matches r before' s after' caps := by
  induction h with
  | empty => intros; exact .empty
  | chr => intros; exact .chr
  | any h => intros; exact .any h
  | cls h => intros; exact .cls h
  | cat _ _ ha hb =>
    intro b a h1 h2
    exact .cat (ha _ _ h1 (by simp +contextual [h2])) (hb _ _ (by simp +contextual [h1]) h2)
  | altLeft _ ha => intro b a h1 h2; exact .altLeft (ha _ _ h1 h2)
  | altRight _ hb => intro b a h1 h2; exact .altRight (hb _ _ h1 h2)
  | starNone => intros; exact .starNone
  | starMore _ _ ha hb =>
    intro b a h1 h2
    exact .starMore (ha _ _ h1 (by simp +contextual [h2])) (hb _ _ (by simp +contextual [h1]) h2)
  | plus _ _ ha hb =>
    intro b a h1 h2
    exact .plus (ha _ _ h1 (by simp +contextual [h2])) (hb _ _ (by simp +contextual [h1]) h2)
  | optNone => intros; exact .optNone
  | optSome _ ha => intro b a h1 h2; exact .optSome (ha _ _ h1 h2)
  | group _ ha => intro b a h1 h2; exact .group (ha _ _ h1 h2)
  | bol => intro b a h1 _; cases h1 rfl; exact .bol
  | eol => intro b a _ h2; cases h2 rfl; exact .eol

/-- Every match can be replaced by one of at most `n` characters, at the same place. -/
def ShortBy (r : Regex) (n : Nat) : Prop :=
  ∀ before s after caps, Matches r before s after caps → ∃ s' caps', Matches r before s' after caps' ∧ s'.length ≤ n ∧ (s = [] → s' = [])

theorem ShortBy.mono {r : Regex} {n m : Nat} (h : ShortBy r n) (hm : n ≤ m) : ShortBy r m := by
  intro before s after caps hmat
  obtain ⟨s', c, h1, h2, h3⟩ := h _ _ _ _ hmat
  exact ⟨s', c, h1, by omega, h3⟩

theorem ShortBy.empty : ShortBy .empty 0 := by
  intro before s after caps h; cases h; exact ⟨[], [], .empty, by simp, by simp⟩
theorem ShortBy.bol : ShortBy .bol 0 := by
  intro before s after caps h; cases h; exact ⟨[], [], .bol, by simp, by simp⟩
theorem ShortBy.eol : ShortBy .eol 0 := by
  intro before s after caps h; cases h; exact ⟨[], [], .eol, by simp, by simp⟩
theorem ShortBy.chr (c : Char) : ShortBy (.chr c) 1 := by
  intro before s after caps h; cases h; exact ⟨[c], [], .chr, by simp, by simp⟩
theorem ShortBy.any : ShortBy .any 1 := by
  intro before s after caps h
  cases h with
  | any h => exact ⟨_, [], .any h, by simp, by simp⟩
theorem ShortBy.cls (negated ranges) : ShortBy (.cls negated ranges) 1 := by
  intro before s after caps h
  cases h with
  | cls h => exact ⟨_, [], .cls h, by simp, by simp⟩

theorem ShortBy.cat {a b : Regex} {n m : Nat} (ha : ShortBy a n) (hb : ShortBy b m) : ShortBy (.cat a b) (n + m) := by
  intro before s after caps h
  cases h with
  | cat h1 h2 =>
    obtain ⟨t', c2, g2, l2, e2⟩ := hb _ _ _ _ h2
    obtain ⟨s', c1, g1, l1, e1⟩ := ha _ _ _ _ h1
    refine ⟨s' ++ t', c1 ++ c2, .cat (g1.around _ _ id ?_) (g2.around _ _ ?_ id), by simp; omega, ?_⟩
    · simp +contextual [e2]
    · simp +contextual [e1]
    · simp +contextual [e1, e2]

theorem ShortBy.alt {a b : Regex} {n m : Nat} (ha : ShortBy a n) (hb : ShortBy b m) : ShortBy (.alt a b) (n + m) := by
  intro before s after caps h
  cases h with
  | altLeft h =>
    obtain ⟨s', c, g, l, e⟩ := ha _ _ _ _ h
    exact ⟨s', _, .altLeft g, by omega, e⟩
  | altRight h =>
    obtain ⟨s', c, g, l, e⟩ := hb _ _ _ _ h
    exact ⟨s', _, .altRight g, by omega, e⟩

theorem ShortBy.group {a : Regex} {n : Nat} (ha : ShortBy a n) : ShortBy (.group a) n := by
  intro before s after caps h
  cases h with
  | group h =>
    obtain ⟨s', c, g, l, e⟩ := ha _ _ _ _ h
    exact ⟨s', _, .group g, l, e⟩

theorem ShortBy.star {a : Regex} {n : Nat} : ShortBy (.star a) n := by
  intro before s after caps _
  exact ⟨[], _, .starNone, by simp, by simp⟩

theorem ShortBy.opt {a : Regex} {n : Nat} : ShortBy (.opt a) n := by
  intro before s after caps _
  exact ⟨[], _, .optNone, by simp, by simp⟩

theorem ShortBy.plus {a : Regex} {n : Nat} (ha : ShortBy a n) : ShortBy (.plus a) n := by
  intro before s after caps h
  cases h with
  | plus h1 h2 =>
    obtain ⟨s', c, g, l, e⟩ := ha _ _ _ _ h1
    refine ⟨s' ++ [], _, .plus (g.around _ _ id ?_) .starNone, by simpa using l, ?_⟩
    · simp +contextual
    · simp +contextual [e]

/-- The bounds of several expressions, added up. -/
inductive ItemsFit : List Regex → Nat → Prop where
  | nil : ItemsFit [] 0
  | cons {r rs n m} : ShortBy r n → ItemsFit rs m → ItemsFit (r :: rs) (n + m)

theorem ItemsFit.append {a b : List Regex} {n m : Nat} (ha : ItemsFit a n) (hb : ItemsFit b m) : ItemsFit (a ++ b) (n + m) := by
  induction ha with
  | nil => simpa using hb
  | cons h _ ih => rw [Nat.add_assoc]; exact .cons h ih

theorem ItemsFit.reverse {a : List Regex} {n : Nat} (ha : ItemsFit a n) : ItemsFit a.reverse n := by
  induction ha with
  | nil => exact .nil
  | @cons r rs n m h _ ih =>
    rw [List.reverse_cons, Nat.add_comm]
    exact ih.append (by simpa using ItemsFit.cons h .nil)

theorem ItemsFit.catList {a : List Regex} {n : Nat} (ha : ItemsFit a n) : ShortBy (Rodb.catList a) n := by
  induction ha with
  | nil => exact .empty
  | cons h _ ih => exact h.cat ih

theorem ItemsFit.foldl {l : List Regex} {n : Nat} (h : ItemsFit l n) : ∀ {acc : Regex} {m : Nat}, ShortBy acc m →
    ShortBy (l.foldl (fun acc r => .alt r acc) acc) (n + m) := by
  induction h with
  | nil => intro acc m h; simpa using h
  | @cons r rs n k h _ ih =>
    intro acc m hacc
    have := ih (h.alt hacc)
    simp only [List.foldl_cons]
    exact this.mono (by omega)

def FrameFits (f : Frame) (n : Nat) : Prop := ∃ a b, ItemsFit f.items a ∧ ItemsFit f.alternatives b ∧ a + b ≤ n

theorem FrameFits.close {f : Frame} {n : Nat} (h : FrameFits f n) : ShortBy f.close n := by
  obtain ⟨a, b, h1, h2, h3⟩ := h
  exact (h2.foldl h1.reverse.catList).mono (by omega)

inductive StackFits : List Frame → Nat → Prop where
  | nil : StackFits [] 0
  | cons {f fs n m} : FrameFits f n → StackFits fs m → StackFits (f :: fs) (n + m)

def StateFits (s : PatternState) (n : Nat) : Prop := ∃ a b, FrameFits s.top a ∧ StackFits s.stack b ∧ a + b ≤ n

theorem StateFits.mono {s : PatternState} {n m : Nat} (h : StateFits s n) (hm : n ≤ m) : StateFits s m := by
  obtain ⟨a, b, h1, h2, h3⟩ := h
  exact ⟨a, b, h1, h2, by omega⟩

theorem StateFits.push {s : PatternState} {n k : Nat} (h : StateFits s n) {r : Regex} (hr : ShortBy r k) : StateFits (s.push r) (n + k) := by
  obtain ⟨a, b, ⟨x, y, h1, h2, h3⟩, h4, h5⟩ := h
  exact ⟨k + a, b, ⟨k + x, y, .cons hr h1, h2, by omega⟩, h4, by omega⟩

theorem StateFits.mode {s : PatternState} {n : Nat} (h : StateFits s n) (m : Mode) : StateFits { s with mode := m } n := h

theorem StateFits.repeatLast {s t : PatternState} {n : Nat} (h : StateFits s n) {op : Regex → Regex} (hop : ∀ r k, ShortBy r k → ShortBy (op r) k) (ht : s.repeatLast op = some t) :
    StateFits t n ∧ t.mode ≠ .escaped := by
  obtain ⟨a, b, ⟨x, y, h1, h2, h3⟩, h4, h5⟩ := h
  unfold PatternState.repeatLast at ht
  cases hi : s.top.items with
  | nil => rw [hi] at ht; cases ht
  | cons r rest =>
    rw [hi] at ht h1
    cases ht
    cases h1 with
    | cons hr hrest => exact ⟨⟨a, b, ⟨_, y, .cons (hop _ _ hr) hrest, h2, h3⟩, h4, h5⟩, by simp⟩

instance (c : Char) : Decidable (Ordinary c) := by unfold Ordinary; infer_instance

/-- One character adds at most one to the bound, and nothing if it has a special meaning. -/
theorem normalStep_fits {s t : PatternState} {c : Char} {n : Nat} (h : StateFits s n) (ht : normalStep s c = some t) :
    StateFits t (if Ordinary c ∨ c = '.' then n + 1 else n) ∧ (t.mode = .escaped → c = '\\') := by
  have key : StateFits t n ∧ (t.mode = .escaped → c = '\\') ∨ ((Ordinary c ∨ c = '.') ∧ StateFits t (n + 1) ∧ t.mode ≠ .escaped) := by
    unfold normalStep at ht
    by_cases h1 : c = '('
    · rw [if_pos h1] at ht
      cases ht
      obtain ⟨a, b, h2, h3, h4⟩ := h
      exact .inl ⟨⟨0, a + b, ⟨0, 0, .nil, .nil, by omega⟩, .cons h2 h3, by omega⟩, by simp⟩
    rw [if_neg h1] at ht
    by_cases h2 : c = ')'
    · rw [if_pos h2] at ht
      obtain ⟨a, b, g1, g2, g3⟩ := h
      cases hs : s.stack with
      | nil => rw [hs] at ht; cases ht
      | cons f rest =>
        rw [hs] at ht g2
        cases g2 with
        | @cons _ _ n1 n2 g4 g5 =>
          obtain ⟨x, y, k1, k2, k3⟩ := g4
          cases ht
          refine .inl ⟨⟨a + n1, n2, ⟨a + x, y, .cons ?_ k1, k2, by omega⟩, g5, by omega⟩, by simp⟩
          by_cases hc : s.top.capturing
          · simp only [hc, if_true]; exact g1.close.group
          · simp only [hc]; exact g1.close
    rw [if_neg h2] at ht
    by_cases h3 : c = '|'
    · rw [if_pos h3] at ht
      cases ht
      obtain ⟨a, b, ⟨x, y, k1, k2, k3⟩, g2, g3⟩ := h
      exact .inl ⟨⟨a, b, ⟨0, x + y, .nil, .cons k1.reverse.catList k2, by omega⟩, g2, g3⟩, by simp⟩
    rw [if_neg h3] at ht
    by_cases h4 : c = '*'
    · rw [if_pos h4] at ht
      have := h.repeatLast (op := .star) (fun _ _ _ => .star) ht
      exact .inl ⟨this.1, fun e => absurd e this.2⟩
    rw [if_neg h4] at ht
    by_cases h5 : c = '+'
    · rw [if_pos h5] at ht
      have := h.repeatLast (op := .plus) (fun _ _ hr => hr.plus) ht
      exact .inl ⟨this.1, fun e => absurd e this.2⟩
    rw [if_neg h5] at ht
    by_cases h6 : c = '?'
    · rw [if_pos h6] at ht
      have := h.repeatLast (op := .opt) (fun _ _ _ => .opt) ht
      exact .inl ⟨this.1, fun e => absurd e this.2⟩
    rw [if_neg h6] at ht
    by_cases h7 : c = '.'
    · rw [if_pos h7] at ht
      cases ht
      exact .inr ⟨.inr h7, h.push .any, by simp [PatternState.push]⟩
    rw [if_neg h7] at ht
    by_cases h8 : c = '^'
    · rw [if_pos h8] at ht
      cases ht
      exact .inl ⟨h.push .bol, by simp [PatternState.push]⟩
    rw [if_neg h8] at ht
    by_cases h9 : c = '$'
    · rw [if_pos h9] at ht
      cases ht
      exact .inl ⟨h.push .eol, by simp [PatternState.push]⟩
    rw [if_neg h9] at ht
    by_cases h10 : c = '['
    · rw [if_pos h10] at ht
      cases ht
      exact .inl ⟨h, by simp⟩
    rw [if_neg h10] at ht
    by_cases h11 : c = '\\'
    · rw [if_pos h11] at ht
      cases ht
      exact .inl ⟨h, fun _ => h11⟩
    rw [if_neg h11] at ht
    by_cases h12 : c = '{'
    · rw [if_pos h12] at ht; cases ht
    rw [if_neg h12] at ht
    cases ht
    exact .inr ⟨.inl (by simp [Ordinary, *]), h.push (.chr c), by simp [PatternState.push]⟩
  rcases key with ⟨k1, k2⟩ | ⟨k1, k2, k3⟩
  · refine ⟨?_, k2⟩
    by_cases hc : Ordinary c ∨ c = '.'
    · rw [if_pos hc]; exact k1.mono (by omega)
    · rw [if_neg hc]; exact k1
  · rw [if_pos k1]
    exact ⟨k2, fun e => absurd e k3⟩

theorem classElement_fits {s t : PatternState} {negated ranges} {c : Char} {n : Nat} (h : StateFits s n) (ht : classElement s negated ranges c = some t) :
    StateFits t n ∧ t.mode ≠ .escaped ∧ t.mode.complete = false := by
  unfold classElement at ht
  by_cases h1 : c = '\\'
  · rw [if_pos h1] at ht; cases ht; exact ⟨h, by simp, rfl⟩
  rw [if_neg h1] at ht
  by_cases h2 : c = '['
  · rw [if_pos h2] at ht; cases ht
  rw [if_neg h2] at ht
  cases ht
  exact ⟨h, by simp, rfl⟩

/-- A step in any mode: at most one more, and no more if a backslash begins; a "$" that is not quoted and outside of brackets adds nothing. -/
theorem patternStep_fits {s t : PatternState} {c : Char} {n : Nat} (h : StateFits s n) (ht : patternStep s c = some t) :
    StateFits t (n + 1) ∧ (t.mode = .escaped → StateFits t n) ∧ (c = '$' → s.mode ≠ .escaped → t.mode.complete = true → StateFits t n) := by
  have normal : normalStep s c = some t →
      StateFits t (n + 1) ∧ (t.mode = .escaped → StateFits t n) ∧ (c = '$' → s.mode ≠ .escaped → t.mode.complete = true → StateFits t n) := by
    intro h1
    obtain ⟨h2, h3⟩ := normalStep_fits h h1
    have h4 : ∀ d, c = d → d ∈ ['\\', '$'] → StateFits t n := by
      rintro d rfl hd
      rw [if_neg] at h2
      · exact h2
      · simp only [List.mem_cons, List.not_mem_nil, or_false] at hd
        rcases hd with rfl | rfl <;> simp [Ordinary]
    refine ⟨?_, fun e => h4 '\\' (h3 e) (by simp), fun e _ _ => h4 '$' e (by simp)⟩
    by_cases hc : Ordinary c ∨ c = '.'
    · rw [if_pos hc] at h2; exact h2
    · rw [if_neg hc] at h2; exact h2.mono (by omega)
  have kept : StateFits t n → StateFits t (n + 1) ∧ (t.mode = .escaped → StateFits t n) ∧ (c = '$' → s.mode ≠ .escaped → t.mode.complete = true → StateFits t n) :=
    fun h1 => ⟨h1.mono (by omega), fun _ => h1, fun _ _ _ => h1⟩
  have pushed : ∀ r, t = s.push r → ShortBy r 1 → c ≠ '$' ∨ s.mode = .escaped →
      StateFits t (n + 1) ∧ (t.mode = .escaped → StateFits t n) ∧ (c = '$' → s.mode ≠ .escaped → t.mode.complete = true → StateFits t n) := by
    rintro r rfl hr hc
    refine ⟨h.push hr, by simp [PatternState.push], fun e1 e2 _ => ?_⟩
    rcases hc with hc | hc
    · exact absurd e1 hc
    · exact absurd hc e2
  unfold patternStep at ht
  cases hm : s.mode with
  | normal => simp only [hm] at ht; simpa [hm] using normal ht
  | opened =>
    simp only [hm] at ht
    by_cases hc : c = '?'
    · rw [if_pos hc] at ht; cases ht; exact hm ▸ kept h
    · rw [if_neg hc] at ht; exact hm ▸ normal ht
  | flagged =>
    simp only [hm] at ht
    by_cases hc : c = ':'
    · rw [if_pos hc] at ht; cases ht; exact hm ▸ kept h
    · rw [if_neg hc] at ht; cases ht
  | repeated =>
    simp only [hm] at ht
    by_cases hc : c = '?'
    · rw [if_pos hc] at ht; cases ht; exact hm ▸ kept h
    rw [if_neg hc] at ht
    by_cases hc2 : c = '*' ∨ c = '+'
    · rw [if_pos hc2] at ht; cases ht
    · rw [if_neg hc2] at ht; exact hm ▸ normal ht
  | lazied =>
    simp only [hm] at ht
    by_cases hc2 : c = '?' ∨ c = '*' ∨ c = '+'
    · rw [if_pos hc2] at ht; cases ht
    · rw [if_neg hc2] at ht; exact hm ▸ normal ht
  | escaped =>
    simp only [hm] at ht
    by_cases hc : isEscapable c
    · rw [if_pos hc] at ht; exact hm ▸ pushed _ (Option.some.inj ht).symm (.chr c) (.inr hm)
    · rw [if_neg hc] at ht; cases ht
  | clsStart =>
    simp only [hm] at ht
    by_cases hc : c = '^'
    · rw [if_pos hc] at ht; cases ht; exact hm ▸ kept h
    rw [if_neg hc] at ht
    by_cases hc2 : c = ']'
    · rw [if_pos hc2] at ht; cases ht; exact hm ▸ kept h
    rw [if_neg hc2] at ht; exact hm ▸ kept (classElement_fits h ht).1
  | clsFirst negated =>
    simp only [hm] at ht
    by_cases hc2 : c = ']'
    · rw [if_pos hc2] at ht; cases ht; exact hm ▸ kept h
    rw [if_neg hc2] at ht; exact hm ▸ kept (classElement_fits h ht).1
  | clsNext negated ranges =>
    simp only [hm] at ht
    by_cases hc2 : c = ']'
    · rw [if_pos hc2] at ht; exact hm ▸ pushed _ (Option.some.inj ht).symm (.cls _ _) (.inl (by rw [hc2]; decide))
    rw [if_neg hc2] at ht; exact hm ▸ kept (classElement_fits h ht).1
  | clsChar negated ranges lo =>
    simp only [hm] at ht
    by_cases hc2 : c = ']'
    · rw [if_pos hc2] at ht; exact hm ▸ pushed _ (Option.some.inj ht).symm (.cls _ _) (.inl (by rw [hc2]; decide))
    rw [if_neg hc2] at ht
    by_cases hc3 : c = '-'
    · rw [if_pos hc3] at ht; cases ht; exact hm ▸ kept h
    rw [if_neg hc3] at ht; exact hm ▸ kept (classElement_fits h ht).1
  | clsDash negated ranges lo =>
    simp only [hm] at ht
    by_cases hc2 : c = ']'
    · rw [if_pos hc2] at ht; exact hm ▸ pushed _ (Option.some.inj ht).symm (.cls _ _) (.inl (by rw [hc2]; decide))
    rw [if_neg hc2] at ht
    by_cases hc3 : c = '\\'
    · rw [if_pos hc3] at ht; cases ht; exact hm ▸ kept h
    rw [if_neg hc3] at ht
    by_cases hc4 : c = '['
    · rw [if_pos hc4] at ht; cases ht
    rw [if_neg hc4] at ht
    by_cases hc5 : lo ≤ c
    · rw [if_pos hc5] at ht; cases ht; exact hm ▸ kept h
    · rw [if_neg hc5] at ht; cases ht
  | clsEscape negated ranges =>
    simp only [hm] at ht
    by_cases hc : isEscapable c
    · rw [if_pos hc] at ht; cases ht; exact hm ▸ kept h
    · rw [if_neg hc] at ht; cases ht
  | clsDashEscape negated ranges lo =>
    simp only [hm] at ht
    by_cases hc : isEscapable c
    · rw [if_pos hc] at ht
      by_cases hc5 : lo ≤ c
      · rw [if_pos hc5] at ht; cases ht; exact hm ▸ kept h
      · rw [if_neg hc5] at ht; cases ht
    · rw [if_neg hc] at ht; cases ht

/-! ### The pattern of a path -/

/-- What a character without a special meaning, or a dot, stands for. -/
def plainItem (c : Char) : Regex := if c = '.' then .any else .chr c

/-- After "^" and such characters. -/
def plainState (w : List Char) (m : Mode) : PatternState := ⟨[], { newFrame with items := (w.map plainItem).reverse ++ [.bol] }, m⟩

theorem plainItem_short (c : Char) : ShortBy (plainItem c) 1 := by
  unfold plainItem
  split
  · exact .any
  · exact .chr c

theorem plainState_fits (w : List Char) (m : Mode) : StateFits (plainState w m) w.length := by
  have : ∀ w : List Char, ItemsFit (w.map plainItem) w.length := by
    intro w
    induction w with
    | nil => exact .nil
    | cons c w ih => rw [List.length_cons, Nat.add_comm]; exact .cons (plainItem_short c) ih
  exact ⟨w.length, 0, ⟨w.length, 0, (this w).reverse.append (m := 0) (.cons (n := 0) .bol .nil), .nil, by simp⟩, .nil, by simp⟩

/-- Either nothing special has been read so far, or only a backslash at the end, or the bound is smaller than the length of the text. -/
def SoFar (w : List Char) (s : PatternState) : Prop :=
  (s = plainState w .normal ∧ ∀ c ∈ w, Ordinary c ∨ c = '.') ∨
  (∃ v, w = v ++ ['\\'] ∧ s = plainState v .escaped ∧ ∀ c ∈ v, Ordinary c ∨ c = '.') ∨
  ∃ n, StateFits s n ∧ n < w.length ∧ (s.mode = .escaped → n + 1 < w.length)

theorem plain_push {w : List Char} {c : Char} : (plainState w .normal).push (plainItem c) = plainState (w ++ [c]) .normal := by
  simp [plainState, PatternState.push]

theorem soFar_step {w : List Char} {s t : PatternState} {c : Char} (h : SoFar w s) (ht : patternStep s c = some t) : SoFar (w ++ [c]) t := by
  rcases h with ⟨rfl, hw⟩ | ⟨v, rfl, rfl, hv⟩ | ⟨n, h1, h2, h3⟩
  · have ht' : normalStep (plainState w .normal) c = some t := ht
    by_cases hc : Ordinary c ∨ c = '.'
    · refine .inl ⟨?_, ?_⟩
      · rw [← plain_push]
        rcases hc with hc | rfl
        · simp only [Ordinary, List.mem_cons, List.not_mem_nil, or_false, not_or] at hc
          have : normalStep (plainState w .normal) c = some ((plainState w .normal).push (.chr c)) := by simp [normalStep, hc]
          rw [this] at ht'
          rw [← Option.some.inj ht', plainItem, if_neg hc.2.1]
        · exact (Option.some.inj ht').symm
      · intro d hd
        rcases List.mem_append.1 hd with hd | hd
        · exact hw d hd
        · rw [List.mem_singleton.1 hd]; exact hc
    · obtain ⟨g1, g2⟩ := normalStep_fits (plainState_fits w .normal) ht'
      rw [if_neg hc] at g1
      by_cases hb : c = '\\'
      · subst hb
        exact .inr (.inl ⟨w, rfl, (Option.some.inj ht').symm, hw⟩)
      · exact .inr (.inr ⟨w.length, g1, by simp, fun e => absurd (g2 e) hb⟩)
  · have g := patternStep_fits (plainState_fits v .escaped) ht
    refine .inr (.inr ⟨v.length + 1, g.1, by simp, ?_⟩)
    have ht' : (if isEscapable c then some ((plainState v .escaped).push (.chr c)) else none) = some t := ht
    intro e
    split at ht'
    · cases ht'; cases e
    · cases ht'
  · obtain ⟨g1, g2, _⟩ := patternStep_fits h1 ht
    by_cases he : t.mode = .escaped
    · exact .inr (.inr ⟨n, g2 he, by simp; omega, fun _ => by simp; omega⟩)
    · exact .inr (.inr ⟨n + 1, g1, by simp; omega, fun e => absurd e he⟩)

theorem soFar_run {s t : PatternState} : ∀ {cs w : List Char}, SoFar w s → patternRun s cs = some t → SoFar (w ++ cs) t
  | [], w, h, ht => by cases ht; simpa using h
  | c :: cs, w, h, ht => by
    unfold patternRun at ht
    cases hs : patternStep s c with
    | none => rw [hs] at ht; cases ht
    | some s' =>
      rw [hs] at ht
      simpa using soFar_run (soFar_step h hs) ht

/-- A text of the same length that differs only where the path has a dot. -/
inductive SameBut : List Char → List Char → Prop where
  | nil : SameBut [] []
  | same {c w t} : SameBut w t → SameBut (c :: w) (c :: t)
  | dot {d w t} : d ≠ '\n' → SameBut w t → SameBut ('.' :: w) (d :: t)

theorem SameBut.refl : ∀ w : List Char, SameBut w w
  | [] => .nil
  | _ :: w => .same (SameBut.refl w)

theorem sameBut_matches {rest : List Regex} {tail after : List Char} {w t : List Char} (h : SameBut w t) : ∀ {before : List Char},
    (∀ before, ∃ caps, Matches (catList rest) before tail after caps) → ∃ caps, Matches (catList (w.map plainItem ++ rest)) before (t ++ tail) after caps := by
  induction h with
  | nil => intro before hr; simpa using hr before
  | @same c w t _ ih =>
    intro before hr
    obtain ⟨caps, g⟩ := ih (before := before ++ [c]) hr
    have hi : Matches (plainItem c) before [c] ((t ++ tail) ++ after) [] := by
      unfold plainItem
      split
      · rename_i e; subst e; exact .any (by decide)
      · exact .chr
    exact ⟨[] ++ caps, .cat (s := [c]) hi g⟩
  | @dot d w t hd _ ih =>
    intro before hr
    obtain ⟨caps, g⟩ := ih (before := before ++ [d]) hr
    exact ⟨[] ++ caps, .cat (s := [d]) (a := .any) (.any hd) g⟩

/-- An expression that is written by a path without placeholders, and matches exactly this path, has no characters with a special meaning. -/
theorem literal_ordinary {path : List Char} {r : Regex} (hc : compilePattern ('^' :: path ++ ['$']) = some r)
    (h : ∀ requested, (∃ before s after captures, requested = before ++ s ++ after ∧ Matches r before s after captures) ↔ requested = path) : ∀ c ∈ path, Ordinary c := by
  unfold compilePattern at hc
  cases hr : patternRun .start ('^' :: path ++ ['$']) with
  | none => rw [hr] at hc; cases hc
  | some t =>
    rw [hr] at hc
    simp only at hc
    by_cases hcomp : (t.stack.isEmpty && t.mode.complete) = true
    case neg => rw [if_neg hcomp] at hc; cases hc
    rw [if_pos hcomp] at hc
    simp only [Bool.and_eq_true] at hcomp
    have hst : t.stack = [] := by simpa using hcomp.1
    have hrun : patternRun (plainState [] .normal) (path ++ ['$']) = some t := hr
    rw [patternRun_append] at hrun
    cases hs : patternRun (plainState [] .normal) path with
    | none => rw [hs] at hrun; cases hrun
    | some s =>
      rw [hs] at hrun
      have hlast : patternStep s '$' = some t := by
        have : (match patternStep s '$' with | none => none | some s' => some s') = some t := hrun
        cases hh : patternStep s '$' with
        | none => rw [hh] at this; cases this
        | some s' => rw [hh] at this; exact this
      have hso := soFar_run (w := []) (.inl ⟨rfl, by simp⟩) hs
      rw [List.nil_append] at hso
      -- no match may be shorter than the path
      have short : ∀ n, StateFits t n → n < path.length → False := by
        rintro n ⟨a, b, h1, h2, h3⟩ hn
        obtain ⟨before, x, after, caps, e, hm⟩ := (h path).2 rfl
        have hclose := h1.close
        rw [Option.some.inj hc] at hclose
        obtain ⟨s', caps', g1, g2, _⟩ := hclose _ _ _ _ hm
        have := (h s').1 ⟨[], s', [], caps', by simp, g1.around _ _ (fun _ => rfl) (fun _ => rfl)⟩
        rw [this] at g2
        omega
      rcases hso with ⟨rfl, hw⟩ | ⟨v, rfl, rfl, hv⟩ | ⟨n, h1, h2, h3⟩
      · have ht : t = (plainState path .normal).push .eol := (Option.some.inj hlast).symm
        have hr' : r = catList (.bol :: (path.map plainItem ++ [.eol])) := by
          rw [← Option.some.inj hc, ht]
          simp [Frame.close, PatternState.push, plainState, newFrame]
        have hmat : ∀ u, SameBut path u → u = path := by
          intro u hu
          refine (h u).1 ?_
          obtain ⟨caps, g⟩ := sameBut_matches (rest := [.eol]) (tail := []) (after := []) hu (before := []) (fun b => ⟨[] ++ [], .cat (s := []) (t := []) .eol .empty⟩)
          have hm : ∃ caps, Matches r [] u [] caps := by
            rw [hr']
            exact ⟨[] ++ caps, .cat (s := []) .bol (by simpa using g)⟩
          exact ⟨[], u, [], hm.choose, by simp, hm.choose_spec⟩
        intro c hcm
        rcases hw c hcm with ho | rfl
        · exact ho
        · obtain ⟨a, b, rfl⟩ := List.append_of_mem hcm
          have hx : SameBut (a ++ '.' :: b) (a ++ 'x' :: b) := by
            clear hcm hw h short hmat hr' ht hc hs hr hrun hlast
            induction a with
            | nil => exact .dot (by decide) (SameBut.refl b)
            | cons c a ih => exact .same ih
          have := List.append_cancel_left (hmat _ hx)
          simp at this
      · exfalso
        have ht : t = (plainState v .escaped).push (.chr '$') := by
          have : (if isEscapable '$' then some ((plainState v .escaped).push (.chr '$')) else none) = some t := hlast
          rw [if_pos (by decide)] at this
          exact (Option.some.inj this).symm
        have hr' : r = catList (.bol :: (v.map plainItem ++ [.chr '$'])) := by
          rw [← Option.some.inj hc, ht]
          simp [Frame.close, PatternState.push, plainState, newFrame]
        obtain ⟨caps, g⟩ := sameBut_matches (rest := [.chr '$']) (tail := ['$']) (after := []) (SameBut.refl v) (before := []) (fun b => ⟨[] ++ [], .cat (s := ['$']) (t := []) .chr .empty⟩)
        have hm : ∃ caps, Matches r [] (v ++ ['$']) [] caps := by
          rw [hr']
          exact ⟨[] ++ caps, .cat (s := []) .bol (by simpa using g)⟩
        have := (h (v ++ ['$'])).1 ⟨[], v ++ ['$'], [], hm.choose, by simp, hm.choose_spec⟩
        have := List.append_cancel_left this
        simp at this
      · exfalso
        obtain ⟨g1, _, g3⟩ := patternStep_fits h1 hlast
        by_cases he : s.mode = .escaped
        · exact short _ g1 (h3 he)
        · exact short _ (g3 rfl he hcomp.2) h2

end Rodb
