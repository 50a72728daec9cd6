import Verif.Proofs.Regexp
import Verif.Proofs.Text
import Verif.Proofs.Output
import Verif.Spec.Service
/-
  Lemmas about routes and requests.
-/
namespace Rodb
open Spec

/-! ### Route paths -/

theorem plainText_iff {text : List Char} : PlainText text ↔ ∀ c ∈ text, plainChar c := by
  unfold PlainText plainChar isMeta
  simp only [decide_eq_false_iff_not]

theorem splitTemplate_plain {c : Char} (hc : c ≠ '{') (fuel : Nat) (rest : List Char) :
    splitTemplate (fuel + 1) (c :: rest) = (c :: (splitTemplate fuel rest).1, (splitTemplate fuel rest).2) := by
  simp only [splitTemplate]
  cases rest.dropWhile (· ≠ '}') with
  | nil => rfl
  | cons d after => simp only [hc, false_and, if_false]

theorem takeWhile_name : ∀ {name : List Char}, '}' ∉ name → ∀ rest, (name ++ '}' :: rest).takeWhile (· ≠ '}') = name
  | [], _, rest => by simp
  | c :: cs, h, rest => by
    have h1 : c ≠ '}' := fun h' => h (by simp [h'])
    have h2 : '}' ∉ cs := fun h' => h (by simp [h'])
    simp only [List.cons_append, List.takeWhile_cons, ne_eq, h1, not_false_eq_true, decide_true, if_true]
    rw [show (fun x => decide (x ≠ '}')) = (fun x : Char => decide (¬ x = '}')) from rfl] at *
    exact congrArg _ (takeWhile_name h2 rest)

theorem dropWhile_name : ∀ {name : List Char}, '}' ∉ name → ∀ rest, (name ++ '}' :: rest).dropWhile (· ≠ '}') = '}' :: rest
  | [], _, rest => by simp
  | c :: cs, h, rest => by
    have h1 : c ≠ '}' := fun h' => h (by simp [h'])
    have h2 : '}' ∉ cs := fun h' => h (by simp [h'])
    simp only [List.cons_append, List.dropWhile_cons, ne_eq, h1, not_false_eq_true, decide_true, if_true]
    exact dropWhile_name h2 rest

theorem splitTemplate_literal : ∀ {lit : List Char}, '{' ∉ lit → ∀ (fuel : Nat) (rest : List Char),
    splitTemplate (lit.length + fuel) (lit ++ rest) = (lit ++ (splitTemplate fuel rest).1, (splitTemplate fuel rest).2)
  | [], _, fuel, rest => by simp
  | c :: cs, h, fuel, rest => by
    have h1 : c ≠ '{' := fun h' => h (by simp [h'])
    have h2 : '{' ∉ cs := fun h' => h (by simp [h'])
    have : (c :: cs).length + fuel = (cs.length + fuel) + 1 := by simp; omega
    rw [this, List.cons_append, splitTemplate_plain h1, splitTemplate_literal h2]
    rfl

theorem splitTemplate_more : ∀ (fuel extra : Nat) (path : List Char), path.length ≤ fuel →
    splitTemplate (fuel + extra) path = splitTemplate fuel path
  | 0, 0, path, _ => rfl
  | 0, extra+1, [], _ => by simp [splitTemplate]
  | 0, extra+1, c :: cs, h => by simp at h
  | fuel+1, extra, [], _ => by rw [show fuel + 1 + extra = (fuel + extra) + 1 by omega]; simp [splitTemplate]
  | fuel+1, extra, c :: rest, h => by
    rw [show fuel + 1 + extra = (fuel + extra) + 1 by omega]
    have hr : rest.length ≤ fuel := by simpa using h
    have h1 := splitTemplate_more fuel extra rest hr
    simp only [splitTemplate, h1]
    cases hd : rest.dropWhile (· ≠ '}') with
    | nil => rfl
    | cons d after =>
      have : after.length ≤ fuel := by
        have := (List.dropWhile_suffix (l := rest) (fun x => decide (x ≠ '}'))).length_le
        rw [hd] at this
        simp at this
        omega
      simp only [splitTemplate_more fuel extra after this]

/-- The path of the configuration is cut into its parts. -/
theorem splitTemplate_template : ∀ (placeholders : List (List Char × List Char)) (first : List Char), '{' ∉ first →
    (∀ p ∈ placeholders, p.1 ≠ [] ∧ '}' ∉ p.1 ∧ '{' ∉ p.2) → ∀ fuel, (template first placeholders).length ≤ fuel →
    splitTemplate fuel (template first placeholders) = (first, placeholders)
  | [], first, hf, _, fuel, hl => by
    have hl' : first.length ≤ fuel := by simpa [template] using hl
    have h := splitTemplate_literal hf (fuel - first.length) []
    rw [show first.length + (fuel - first.length) = fuel by omega] at h
    have : splitTemplate (fuel - first.length) [] = ([], []) := by
      cases fuel - first.length <;> simp [splitTemplate]
    simpa [template, this] using h
  | (name, lit) :: rest, first, hf, hp, fuel, hl => by
    obtain ⟨h1, h2, h3⟩ := hp (name, lit) (by simp)
    have ht : template first ((name, lit) :: rest) = first ++ ('{' :: (name ++ '}' :: template lit rest)) := by
      simp [template]
    rw [ht] at hl ⊢
    simp only [List.length_append, List.length_cons] at hl
    have hfuel : fuel = first.length + ((fuel - first.length - 1) + 1) := by omega
    rw [hfuel, splitTemplate_literal hf]
    have ih := splitTemplate_template rest lit h3 (fun p hp' => hp p (by simp [hp'])) (fuel - first.length - 1) (by omega)
    simp only [splitTemplate, takeWhile_name h2, dropWhile_name h2, ih]
    simp [h1]

/-! ### The patterns of the parsers -/

/-- The ranges of single characters, in the order of the parser of patterns. -/
def singles (chars : List Char) : List (Char × Char) := (chars.map (fun c => (c, c))).reverse

/-- Quoted characters inside of brackets, up to the closing one. -/
theorem class_run (stack : List Frame) (top : Frame) : ∀ (chars : List Char), '-' ∉ chars → ∀ (m : Mode) (ranges : List (Char × Char)),
    (m = .clsNext false ranges ∨ (∃ lo rs, ranges = (lo, lo) :: rs ∧ m = .clsChar false rs lo) ∨
      (m = .clsStart ∧ ranges = [] ∧ chars ≠ [])) →
    patternRun { stack := stack, top := top, mode := m } (quoteMeta chars ++ [']']) =
      some { stack := stack, top := { top with items := .cls false (singles chars ++ ranges) :: top.items }, mode := .normal }
  | [], _, m, ranges, hm => by
    rcases hm with rfl | ⟨lo, rs, rfl, rfl⟩ | ⟨_, _, h⟩
    · rfl
    · rfl
    · exact absurd rfl h
  | c :: cs, hd, m, ranges, hm => by
    have hd1 : c ≠ '-' := fun h => hd (by simp [h])
    have hd2 : '-' ∉ cs := fun h => hd (by simp [h])
    have ih := class_run stack top cs hd2 (.clsChar false ranges c) ((c, c) :: ranges) (.inr (.inl ⟨c, ranges, rfl, rfl⟩))
    have hgoal : singles (c :: cs) ++ ranges = singles cs ++ (c, c) :: ranges := by simp [singles]
    rw [hgoal]
    simp only [quoteMeta, List.flatMap_cons] at ih ⊢
    by_cases hc : isMeta c = true
    · rw [if_pos hc]
      have h1 : patternStep { stack := stack, top := top, mode := m } '\\' =
          some { stack := stack, top := top, mode := .clsEscape false ranges } := by
        rcases hm with rfl | ⟨lo, rs, rfl, rfl⟩ | ⟨rfl, rfl, _⟩ <;> rfl
      have h2 : patternStep { stack := stack, top := top, mode := .clsEscape false ranges } c =
          some { stack := stack, top := top, mode := .clsChar false ranges c } := by
        simp only [patternStep, meta_step hc, if_true]
      simp only [List.cons_append, List.nil_append, patternRun, h1, h2]
      exact ih
    · rw [if_neg hc]
      have hp : plainChar c := by simpa [plainChar] using hc
      simp only [plainChar, isMeta, List.mem_cons, List.not_mem_nil, or_false, decide_eq_false_iff_not, not_or] at hp
      obtain ⟨p1, p2, p3, p4, p5, p6, p7, p8, p9, p10, p11, p12, p13, p14⟩ := hp
      have h1 : patternStep { stack := stack, top := top, mode := m } c =
          some { stack := stack, top := top, mode := .clsChar false ranges c } := by
        rcases hm with rfl | ⟨lo, rs, rfl, rfl⟩ | ⟨rfl, rfl, _⟩ <;>
          simp only [patternStep, classElement, if_neg p1, if_neg p9, if_neg p10, if_neg p13, if_neg hd1]
      simp only [List.cons_append, List.nil_append, patternRun, h1]
      exact ih

theorem quoteMeta_nil_iff (chars : List Char) : quoteMeta chars = [] ↔ chars = [] := by
  cases chars with
  | nil => simp [quoteMeta]
  | cons c cs =>
    simp only [quoteMeta, List.flatMap_cons]
    split <;> simp

/-- The first part of the patterns of integers and floats. -/
def leadItems (ignore : List Char) : List Regex := if ignore = [] then [] else [.star (.cls false (singles ignore))]

def digitClass (ignore : List Char) : Regex := .cls false (singles ignore ++ [('0', '9')])

theorem lead_run (ignore : List Char) (hi : '-' ∉ ignore) (stack : List Frame) (top : Frame) :
    ∃ m, (m = .normal ∨ m = .repeated) ∧ patternRun { stack := stack, top := top, mode := .normal } (ignorePrefix ignore) =
      some { stack := stack, top := { top with items := (leadItems ignore).reverse ++ top.items }, mode := m } := by
  unfold ignorePrefix leadItems
  by_cases h : ignore = []
  · subst h
    exact ⟨.normal, .inl rfl, rfl⟩
  · rw [if_pos (by rw [ne_eq, quoteMeta_nil_iff]; exact h), if_neg h]
    refine ⟨.repeated, .inr rfl, ?_⟩
    have h1 : patternStep { stack := stack, top := top, mode := .normal } '[' = some { stack := stack, top := top, mode := .clsStart } := rfl
    have h2 := class_run stack top ignore hi .clsStart [] (.inr (.inr ⟨rfl, rfl, h⟩))
    rw [List.cons_append, show ([']', '*'] : List Char) = [']'] ++ ['*'] from rfl, ← List.append_assoc]
    simp only [patternRun, h1]
    rw [patternRun_append_of h2]
    simp [patternRun, patternStep, normalStep, PatternState.repeatLast]

theorem step_bracket (stack : List Frame) (top : Frame) {m : Mode} (hm : m = .normal ∨ m = .repeated ∨ m = .opened) :
    patternStep { stack := stack, top := top, mode := m } '[' = some { stack := stack, top := top, mode := .clsStart } := by
  rcases hm with rfl | rfl | rfl <;> rfl

theorem sign_run (stack : List Frame) (top : Frame) {m : Mode} (hm : m = .normal ∨ m = .repeated) :
    patternRun { stack := stack, top := top, mode := m } ['[', '-', ']', '?'] =
      some { stack := stack, top := { top with items := .opt (.cls false [('-', '-')]) :: top.items }, mode := .repeated } := by
  rcases hm with rfl | rfl <;> rfl

/-- "[0-9" with the ignored characters "]+". -/
theorem digits_run (ignore : List Char) (hi : '-' ∉ ignore) (stack : List Frame) (top : Frame) {m : Mode} (hm : m = .normal ∨ m = .repeated) :
    patternRun { stack := stack, top := top, mode := m } (['[', '0', '-', '9'] ++ (quoteMeta ignore ++ [']']) ++ ['+']) =
      some { stack := stack, top := { top with items := .plus (digitClass ignore) :: top.items }, mode := .repeated } := by
  have h1 : patternRun { stack := stack, top := top, mode := m } ['[', '0', '-', '9'] =
      some { stack := stack, top := top, mode := .clsNext false [('0', '9')] } := by
    rcases hm with rfl | rfl <;> rfl
  have h2 := class_run stack top ignore hi _ _ (.inl rfl : (Mode.clsNext false [('0', '9')] = .clsNext false [('0', '9')] ∨ _))
  rw [List.append_assoc, patternRun_append_of h1, patternRun_append_of h2]
  simp [patternRun, patternStep, normalStep, PatternState.repeatLast, digitClass]

theorem inClass_singles (chars : List Char) (ranges : List (Char × Char)) (c : Char) :
    inClass false (singles chars ++ ranges) c ↔ c ∈ chars ∨ inClass false ranges c := by
  simp only [inClass, singles, iff_true]
  constructor
  · rintro ⟨r, hr, h1, h2⟩
    rcases List.mem_append.1 hr with hr | hr
    · simp only [List.mem_reverse, List.mem_map] at hr
      obtain ⟨d, hd, rfl⟩ := hr
      have : c = d := Char.le_antisymm h2 h1
      exact .inl (this ▸ hd)
    · exact .inr ⟨r, hr, h1, h2⟩
  · rintro (h | ⟨r, hr, h1, h2⟩)
    · exact ⟨(c, c), by simp [h], Char.le_refl c, Char.le_refl c⟩
    · exact ⟨r, by simp [hr], h1, h2⟩

theorem inClass_digits (ignore : List Char) (c : Char) :
    inClass false (singles ignore ++ [('0', '9')]) c ↔ isDigitChar c ∨ c ∈ ignore := by
  rw [inClass_singles]
  simp [inClass, isDigitChar, or_comm]

theorem accepts_digits (ignore : List Char) {s : List Char} :
    Accepts (.plus (digitClass ignore)) s ↔ s ≠ [] ∧ ∀ c ∈ s, isDigitChar c ∨ c ∈ ignore := by
  have := accepts_plus (a := digitClass ignore) (p := fun c => isDigitChar c ∨ c ∈ ignore) (s := s)
    (fun h => by obtain ⟨c, h1, h2⟩ := matches_cls h; exact ⟨c, h1, (inClass_digits _ _).1 h2⟩)
    (fun c before after h => ⟨_, .cls ((inClass_digits _ _).2 h)⟩)
  exact this

theorem accepts_sign {s : List Char} : Accepts (.opt (.cls false [('-', '-')])) s ↔ s = [] ∨ s = ['-'] := by
  rw [accepts_opt, accepts_cls]
  constructor
  · rintro (h | ⟨c, rfl, h⟩)
    · exact .inl h
    · have h' := (inClass_singles ['-'] [] c).1 h
      simp [inClass] at h'
      exact .inr (by rw [h'])
  · rintro (h | h)
    · exact .inl h
    · exact .inr ⟨'-', h, (inClass_singles ['-'] [] '-').2 (.inl (by simp))⟩

theorem catList_append_noAnchors {a b : List Regex} : NoAnchors (catList (a ++ b)) ↔ NoAnchors (catList a) ∧ NoAnchors (catList b) := by
  induction a with
  | nil => simp [catList, NoAnchors]
  | cons x a ih => simp [catList, NoAnchors, ih, and_assoc]

theorem accepts_single {r : Regex} (hr : NoAnchors r) {s : List Char} : Accepts (catList [r]) s ↔ Accepts r s := by
  have he : NoAnchors (catList []) := trivial
  rw [catList, accepts_cat hr he]
  simp [catList, accepts_empty]

theorem accepts_append : ∀ {a b : List Regex}, NoAnchors (catList a) → NoAnchors (catList b) → ∀ {s : List Char},
    (Accepts (catList (a ++ b)) s ↔ ∃ t u, s = t ++ u ∧ Accepts (catList a) t ∧ Accepts (catList b) u)
  | [], b, _, _, s => by
    simp only [List.nil_append]
    constructor
    · intro h; exact ⟨[], s, rfl, accepts_empty.2 rfl, h⟩
    · rintro ⟨t, u, rfl, h1, h2⟩
      rw [show catList [] = .empty from rfl, accepts_empty] at h1
      rw [h1]; exact h2
  | x :: a, b, ha, hb, s => by
    have hxa : NoAnchors x ∧ NoAnchors (catList a) := ha
    have hab := catList_append_noAnchors.2 ⟨hxa.2, hb⟩
    rw [List.cons_append, catList, accepts_cat hxa.1 hab]
    constructor
    · rintro ⟨t, u, rfl, h1, h2⟩
      obtain ⟨v, w, rfl, h3, h4⟩ := (accepts_append hxa.2 hb).1 h2
      exact ⟨t ++ v, w, by simp, by rw [catList, accepts_cat hxa.1 hxa.2]; exact ⟨t, v, rfl, h1, h3⟩, h4⟩
    · rintro ⟨t, u, rfl, h1, h2⟩
      rw [catList, accepts_cat hxa.1 hxa.2] at h1
      obtain ⟨v, w, rfl, h3, h4⟩ := h1
      exact ⟨v, w ++ u, by simp, h3, (accepts_append hxa.2 hb).2 ⟨w, u, rfl, h4, h2⟩⟩

theorem accepts_lead (ignore : List Char) {s : List Char} : Accepts (catList (leadItems ignore)) s ↔ ∀ c ∈ s, c ∈ ignore := by
  unfold leadItems
  split
  · next h =>
    subst h
    rw [show catList [] = .empty from rfl, accepts_empty]
    exact List.eq_nil_iff_forall_not_mem.trans (by simp)
  · rw [accepts_single (by simp [NoAnchors])]
    have h := accepts_star (a := .cls false (singles ignore)) (p := fun c => c ∈ ignore) (before := []) (s := s) (after := [])
      (fun h => by
        obtain ⟨c, h1, h2⟩ := matches_cls h
        have := (inClass_singles ignore [] c).1 (by simpa using h2)
        exact ⟨c, h1, by simpa [inClass] using this⟩)
      (fun c before after h => ⟨_, .cls (by have := (inClass_singles ignore [] c).2 (.inl h); simpa using this)⟩)
    exact h

/-- The expression of an integer placeholder. -/
def integerRegex (ignore : List Char) : Regex :=
  catList (leadItems ignore ++ [.opt (.cls false [('-', '-')]), .plus (digitClass ignore)])

theorem compile_of_run {p : List Char} {items : List Regex} {m : Mode} (hm : m.complete = true)
    (h : patternRun .start p = some { stack := [], top := { newFrame with items := items.reverse }, mode := m }) :
    compilePattern p = some (catList items) := by
  unfold compilePattern
  rw [h]
  simp [hm, Frame.close, newFrame]

theorem integer_compiles (ignore : List Char) (hi : '-' ∉ ignore) :
    compilePattern (TextParser.integer ignore).pattern = some (integerRegex ignore) := by
  have hp : (TextParser.integer ignore).pattern =
      ignorePrefix ignore ++ (['[', '-', ']', '?'] ++ (['[', '0', '-', '9'] ++ (quoteMeta ignore ++ [']']) ++ ['+'])) := by
    simp [TextParser.pattern]
  obtain ⟨m, hm, h1⟩ := lead_run ignore hi [] newFrame
  refine compile_of_run (m := .repeated) rfl ?_
  rw [hp, PatternState.start, patternRun_append_of h1, patternRun_append_of (sign_run _ _ hm), digits_run ignore hi _ _ (.inr rfl)]
  simp [newFrame]

theorem lead_noAnchors (ignore : List Char) : NoAnchors (catList (leadItems ignore)) := by
  unfold leadItems; split <;> simp [catList, NoAnchors]

theorem catList_groups (l : List Regex) : (catList l).groups = (l.map Regex.groups).sum := by
  induction l with
  | nil => rfl
  | cons x l ih => simp [catList, Regex.groups, ih]

theorem lead_groups (ignore : List Char) : ((leadItems ignore).map Regex.groups).sum = 0 := by
  unfold leadItems; split <;> simp [Regex.groups]

theorem accepts_number (ignore : List Char) {s : List Char} : Accepts (integerRegex ignore) s ↔
    ∃ lead sign body, s = lead ++ sign ++ body ∧ (∀ c ∈ lead, c ∈ ignore) ∧ (sign = [] ∨ sign = ['-']) ∧
      (body ≠ [] ∧ ∀ c ∈ body, isDigitChar c ∨ c ∈ ignore) := by
  have hd : NoAnchors (.plus (digitClass ignore)) := by simp [NoAnchors, digitClass]
  have hs : NoAnchors (.opt (.cls false [('-', '-')])) := by simp [NoAnchors]
  have h1 : NoAnchors (catList [.opt (.cls false [('-', '-')])]) := ⟨hs, trivial⟩
  have h2 : NoAnchors (catList [.plus (digitClass ignore)]) := ⟨hd, trivial⟩
  have h3 : NoAnchors (catList [.opt (.cls false [('-', '-')]), .plus (digitClass ignore)]) := ⟨hs, h2⟩
  rw [integerRegex, accepts_append (lead_noAnchors _) h3]
  constructor
  · rintro ⟨lead, u, rfl, hl, hu⟩
    obtain ⟨sign, body, rfl, h3, h4⟩ := (accepts_append (a := [_]) (b := [_]) h1 h2).1 hu
    rw [accepts_single hs, accepts_sign] at h3
    rw [accepts_single hd, accepts_digits] at h4
    exact ⟨lead, sign, body, by simp, (accepts_lead _).1 hl, h3, h4⟩
  · rintro ⟨lead, sign, body, rfl, hl, h3, h4⟩
    rw [← accepts_sign, ← accepts_single hs] at h3
    rw [← accepts_digits, ← accepts_single hd] at h4
    exact ⟨lead, sign ++ body, by simp, (accepts_lead _).2 hl, (accepts_append (a := [_]) (b := [_]) h1 h2).2 ⟨_, _, rfl, h3, h4⟩⟩

theorem integer_noAnchors (ignore : List Char) : NoAnchors (integerRegex ignore) := by
  rw [integerRegex, catList_append_noAnchors]
  exact ⟨lead_noAnchors _, by simp [catList, NoAnchors, digitClass]⟩

theorem integer_groups (ignore : List Char) : (integerRegex ignore).groups = 0 := by
  rw [integerRegex, catList_groups, List.map_append, List.sum_append, lead_groups]
  simp [Regex.groups, digitClass]

/-- The last part of the expression of a float placeholder. -/
def fractionRegex (separator ignore : List Char) : Regex :=
  .opt (.group (catList [.cls false (singles separator), .plus (digitClass ignore)]))

/-- The expression of a float placeholder. -/
def floatRegex (separator ignore : List Char) : Regex :=
  catList (leadItems ignore ++ [.opt (.cls false [('-', '-')]), .plus (digitClass ignore)] ++ [fractionRegex separator ignore])

theorem fraction_run (separator ignore : List Char) (hs : '-' ∉ separator) (hs' : separator ≠ []) (hi : '-' ∉ ignore) (top : Frame) :
    patternRun { stack := [], top := top, mode := .repeated }
      ('(' :: '[' :: (quoteMeta separator ++ [']']) ++ ((['[', '0', '-', '9'] ++ (quoteMeta ignore ++ [']']) ++ ['+']) ++ [')', '?'])) =
      some { stack := [], top := { top with items := fractionRegex separator ignore :: top.items }, mode := .repeated } := by
  have h1 : patternRun { stack := [], top := top, mode := .repeated } ['(', '['] =
      some { stack := [top], top := newFrame, mode := .clsStart } := rfl
  have h2 := class_run [top] newFrame separator hs .clsStart [] (.inr (.inr ⟨rfl, rfl, hs'⟩))
  rw [show ∀ x y : List Char, '(' :: '[' :: x ++ y = ['(', '['] ++ (x ++ y) by intros; simp]
  rw [patternRun_append_of h1, patternRun_append_of h2, patternRun_append_of (digits_run ignore hi _ _ (.inl rfl))]
  simp [patternRun, patternStep, normalStep, PatternState.repeatLast, newFrame, Frame.close, fractionRegex]

theorem float_compiles (separator ignore : List Char) (hs : '-' ∉ separator) (hs' : separator ≠ []) (hi : '-' ∉ ignore) :
    compilePattern (TextParser.float separator ignore).pattern = some (floatRegex separator ignore) := by
  have hp : (TextParser.float separator ignore).pattern =
      ignorePrefix ignore ++ (['[', '-', ']', '?'] ++ ((['[', '0', '-', '9'] ++ (quoteMeta ignore ++ [']']) ++ ['+']) ++
        ('(' :: '[' :: (quoteMeta separator ++ [']']) ++ ((['[', '0', '-', '9'] ++ (quoteMeta ignore ++ [']']) ++ ['+']) ++ [')', '?'])))) := by
    simp [TextParser.pattern]
  obtain ⟨m, hm, h1⟩ := lead_run ignore hi [] newFrame
  refine compile_of_run (m := .repeated) rfl ?_
  rw [hp, PatternState.start, patternRun_append_of h1, patternRun_append_of (sign_run _ _ hm),
    patternRun_append_of (digits_run ignore hi _ _ (.inr rfl)), fraction_run separator ignore hs hs' hi]
  simp [newFrame]

theorem fraction_noAnchors (separator ignore : List Char) : NoAnchors (fractionRegex separator ignore) := by
  simp [fractionRegex, catList, NoAnchors, digitClass]

theorem float_noAnchors (separator ignore : List Char) : NoAnchors (floatRegex separator ignore) := by
  rw [floatRegex, catList_append_noAnchors]
  exact ⟨integer_noAnchors _, fraction_noAnchors _ _, trivial⟩

theorem accepts_fraction (separator ignore : List Char) {s : List Char} : Accepts (fractionRegex separator ignore) s ↔
    (s = [] ∨ ∃ point digits, s = point :: digits ∧ point ∈ separator ∧ digits ≠ [] ∧ ∀ c ∈ digits, isDigitChar c ∨ c ∈ ignore) := by
  have hd : NoAnchors (.plus (digitClass ignore)) := by simp [NoAnchors, digitClass]
  have hp : NoAnchors (.cls false (singles separator)) := trivial
  have h2 : NoAnchors (catList [.plus (digitClass ignore)]) := ⟨hd, trivial⟩
  have hc : ∀ c, inClass false (singles separator) c ↔ c ∈ separator := by
    intro c
    have := inClass_singles separator [] c
    simpa [inClass] using this
  rw [fractionRegex, accepts_opt, accepts_group]
  refine or_congr Iff.rfl ?_
  rw [show catList [.cls false (singles separator), .plus (digitClass ignore)] =
    .cat (.cls false (singles separator)) (catList [.plus (digitClass ignore)]) from rfl, accepts_cat hp h2]
  constructor
  · rintro ⟨t, u, rfl, h3, h4⟩
    obtain ⟨c, rfl, h5⟩ := accepts_cls.1 h3
    rw [accepts_single hd, accepts_digits] at h4
    exact ⟨c, u, rfl, (hc c).1 h5, h4⟩
  · rintro ⟨c, u, rfl, h3, h4⟩
    exact ⟨[c], u, rfl, accepts_cls.2 ⟨c, rfl, (hc c).2 h3⟩, by rw [accepts_single hd, accepts_digits]; exact h4⟩

theorem accepts_float (separator ignore : List Char) {s : List Char} :
    Accepts (floatRegex separator ignore) s ↔ PlaceholderText (.float separator ignore) s := by
  have hf := fraction_noAnchors separator ignore
  have hf' : NoAnchors (catList [fractionRegex separator ignore]) := ⟨hf, trivial⟩
  rw [floatRegex, accepts_append (integer_noAnchors ignore) hf']
  constructor
  · rintro ⟨t, u, rfl, h1, h2⟩
    obtain ⟨lead, sign, body, rfl, h3, h4, h5⟩ := (accepts_number ignore).1 h1
    rw [accepts_single hf, accepts_fraction] at h2
    exact ⟨lead, sign, body, u, rfl, h3, h4, h5, h2⟩
  · rintro ⟨lead, sign, body, u, rfl, h3, h4, h5, h2⟩
    exact ⟨lead ++ sign ++ body, u, rfl, (accepts_number ignore).2 ⟨lead, sign, body, rfl, h3, h4, h5⟩,
      by rw [accepts_single hf, accepts_fraction]; exact h2⟩

/-! Boolean placeholders -/

/-- The expression inside of the parentheses of a boolean placeholder, with the alternatives already read. -/
def choiceRegex (before : List Regex) (last : Regex) : Regex := before.foldl (fun acc r => .alt r acc) last

theorem choice_run : ∀ (values : List (List Char)), values ≠ [] → ∀ (alternatives : List Regex),
    ∃ t : PatternState, patternRun { stack := [], top := { newFrame with alternatives := alternatives }, mode := .normal }
        (joinBars (values.map quoteMeta)) = some t ∧ t.stack = [] ∧ t.mode = .normal ∧
      ∃ init last, values = init ++ [last] ∧
        t.top = { newFrame with alternatives := (init.map (fun v => catList (v.map Regex.chr))).reverse ++ alternatives,
                                items := (last.map Regex.chr).reverse }
  | [], h, _ => absurd rfl h
  | [v], _, alternatives => by
    have h := quote_run v [] { newFrame with alternatives := alternatives }
    refine ⟨_, by simpa [joinBars] using h, rfl, rfl, [], v, rfl, ?_⟩
    simp [newFrame]
  | v :: w :: rest, _, alternatives => by
    have h := quote_run v [] { newFrame with alternatives := alternatives }
    obtain ⟨t, ht, h1, h2, init, last, h3, h4⟩ := choice_run (w :: rest) (by simp) (catList (v.map Regex.chr) :: alternatives)
    refine ⟨t, ?_, h1, h2, v :: init, last, by simp [h3], by rw [h4]; simp⟩
    simp only [List.map_cons, joinBars] at ht ⊢
    rw [patternRun_append_of h]
    simp only [patternRun]
    have hbar : patternStep
        { stack := [], top := { { newFrame with alternatives := alternatives } with items := (v.map Regex.chr).reverse ++ newFrame.items },
          mode := .normal } '|' =
        some { stack := [], top := { newFrame with alternatives := catList (v.map Regex.chr) :: alternatives }, mode := .normal } := by
      simp [patternStep, normalStep, newFrame]
    rw [hbar]
    exact ht

theorem accepts_choice {s : List Char} : ∀ (before : List Regex) (last : Regex),
    Accepts (choiceRegex before last) s ↔ Accepts last s ∨ ∃ r ∈ before, Accepts r s
  | [], last => by simp [choiceRegex]
  | r :: before, last => by
    have := accepts_choice before (.alt r last) (s := s)
    simp only [choiceRegex, List.foldl_cons] at this ⊢
    rw [this, accepts_alt]
    simp only [List.mem_cons, exists_eq_or_imp]
    constructor
    · rintro ((h | h) | h)
      · exact .inr (.inl h)
      · exact .inl h
      · exact .inr (.inr h)
    · rintro (h | h | h)
      · exact .inl (.inr h)
      · exact .inl (.inl h)
      · exact .inr h

theorem choice_noAnchors : ∀ (before : List Regex) (last : Regex), (∀ r ∈ before, NoAnchors r) → NoAnchors last →
    NoAnchors (choiceRegex before last)
  | [], _, _, h => h
  | r :: before, last, h1, h2 => by
    have := choice_noAnchors before (.alt r last) (fun x hx => h1 x (by simp [hx])) ⟨h1 r (by simp), h2⟩
    simpa [choiceRegex] using this

theorem chars_noAnchors (text : List Char) : NoAnchors (catList (text.map .chr)) := by
  induction text with
  | nil => trivial
  | cons c cs ih => exact ⟨trivial, ih⟩

theorem values_compile (values : List (List Char)) (hv : values ≠ []) :
    ∃ r, compilePattern (joinBars (values.map quoteMeta)) = some r ∧ NoAnchors r ∧ ∀ s, Accepts r s ↔ s ∈ values := by
  obtain ⟨t, ht, h1, h2, init, last, h3, h4⟩ := choice_run values hv []
  refine ⟨t.top.close, ?_, ?_, ?_⟩
  · unfold compilePattern
    rw [show PatternState.start = { stack := [], top := { newFrame with alternatives := [] }, mode := .normal } from rfl, ht]
    simp [h1, h2, Mode.complete]
  all_goals
    rw [show t.top.close = choiceRegex (init.map (fun v => catList (v.map Regex.chr))).reverse (catList (last.map Regex.chr)) by
      rw [h4]; simp [Frame.close, choiceRegex]]
  · refine choice_noAnchors _ _ ?_ (chars_noAnchors _)
    intro r hr
    simp only [List.mem_reverse, List.mem_map] at hr
    obtain ⟨v, _, rfl⟩ := hr
    exact chars_noAnchors _
  · intro s
    rw [accepts_choice, accepts_chars, h3]
    simp only [List.mem_reverse, List.mem_map, List.mem_append, List.mem_singleton]
    constructor
    · rintro (h | ⟨r, ⟨v, hv, rfl⟩, h⟩)
      · exact .inr h
      · exact .inl (accepts_chars.1 h ▸ hv)
    · rintro (h | h)
      · exact .inr ⟨_, ⟨s, h, rfl⟩, accepts_chars.2 rfl⟩
      · exact .inl h

theorem boolean_compiles (t f : List (List Char)) (ht : t ≠ []) :
    ∃ r, compilePattern (TextParser.boolean t f).pattern = some r ∧ NoAnchors r ∧ ∀ s, Accepts r s ↔ PlaceholderText (.boolean t f) s := by
  obtain ⟨r, h1, h2, h3⟩ := values_compile (t ++ f) (by simp [ht])
  refine ⟨catList [.group r], compile_of_run (m := .normal) rfl ?_, ⟨h2, trivial⟩, ?_⟩
  · have := group_run h1 [] newFrame
    simpa [TextParser.pattern, PatternState.start, newFrame] using this
  · intro s
    rw [accepts_single (by exact h2), accepts_group, h3]
    simp [PlaceholderText]

/-- Every parser that can be used in a route has a pattern that accepts exactly the texts of its placeholders. -/
theorem pattern_compiles (parser : TextParser) (h : RouteParser parser) :
    ∃ r, compilePattern parser.pattern = some r ∧ NoAnchors r ∧ (∀ s, Accepts r s ↔ PlaceholderText parser s) ∧
      (Ungrouped parser → r.groups = 0) := by
  cases parser with
  | string c =>
    refine ⟨catList [.plus .any], rfl, ⟨trivial, trivial⟩, ?_, fun _ => rfl⟩
    intro s
    rw [accepts_single (by exact trivial), accepts_plus (p := fun c => c ≠ '\n') matches_any (fun c _ _ h => ⟨_, .any h⟩)]
    simp only [PlaceholderText]
    refine and_congr Iff.rfl ?_
    constructor
    · intro h hn; exact h _ hn rfl
    · intro h c hc hn; exact h (hn ▸ hc)
  | integer ignore =>
    refine ⟨integerRegex ignore, integer_compiles ignore h, integer_noAnchors _, ?_, fun _ => integer_groups _⟩
    intro s
    rw [accepts_number]
    rfl
  | float separator ignore =>
    exact ⟨_, float_compiles separator ignore h.2.1 h.2.2 h.1, float_noAnchors _ _, fun s => accepts_float _ _, fun h => h.elim⟩
  | boolean t f =>
    obtain ⟨r, h1, h2, h3⟩ := boolean_compiles t f h.1
    exact ⟨r, h1, h2, h3, fun h => h.elim⟩
  | nonPrimitive c => exact h.elim

/-! ### Routes -/

/-- The items of the expression of a route after its first text. -/
def pathItems : List (List Char × List Char) → List Regex → List Regex
  | p :: ps, r :: rs => .group r :: (p.2.map Regex.chr ++ pathItems ps rs)
  | _, _ => [.eol]

/-- The expressions of the parsers. -/
def Expressions : List TextParser → List Regex → Prop
  | [], [] => True
  | p :: ps, r :: rs => (compilePattern p.pattern = some r ∧ NoAnchors r ∧ (∀ s, Accepts r s ↔ PlaceholderText p s) ∧
      (Ungrouped p → r.groups = 0)) ∧ Expressions ps rs
  | _, _ => False

theorem expressions_exist : ∀ (parsers : List TextParser), (∀ p ∈ parsers, RouteParser p) → ∃ rs, Expressions parsers rs
  | [], _ => ⟨[], trivial⟩
  | p :: ps, h => by
    obtain ⟨r, hr⟩ := pattern_compiles p (h p (by simp))
    obtain ⟨rs, hrs⟩ := expressions_exist ps (fun q hq => h q (by simp [hq]))
    exact ⟨r :: rs, hr, hrs⟩

theorem routeParser_primitive {p : TextParser} (h : RouteParser p) : p.config.primitive = true := by
  cases p <;> first | rfl | exact h.elim

theorem path_run (output : OutputApi) : ∀ (placeholders : List (List Char × List Char)) (parsers : List TextParser) (rs : List Regex),
    ParsersOf output placeholders parsers → (∀ p ∈ parsers, RouteParser p) → Expressions parsers rs → (∀ p ∈ placeholders, PlainText p.2) →
    ∃ pattern, pathPattern output placeholders = .ok pattern ∧ ∀ top : Frame,
      patternRun { stack := [], top := top, mode := .normal } (pattern ++ ['$']) =
        some { stack := [], top := { top with items := (pathItems placeholders rs).reverse ++ top.items }, mode := .normal }
  | [], [], [], _, _, _, _ => ⟨[], rfl, fun _ => rfl⟩
  | p :: ps, q :: qs, r :: rs, ⟨_, h1, h2⟩, hr, ⟨h3, h4⟩, hp => by
    obtain ⟨pattern, ih1, ih2⟩ := path_run output ps qs rs h2 (fun x hx => hr x (by simp [hx])) h4 (fun x hx => hp x (by simp [hx]))
    refine ⟨'(' :: q.pattern ++ ')' :: p.2 ++ pattern, ?_, ?_⟩
    · simp [pathPattern, h1, routeParser_primitive (hr q (by simp)), ih1]
    · intro top
      rw [show '(' :: q.pattern ++ ')' :: p.2 ++ pattern ++ ['$'] = ('(' :: q.pattern ++ [')']) ++ (p.2 ++ (pattern ++ ['$'])) by simp]
      rw [patternRun_append_of (group_run h3.1 [] top), patternRun_append_of (plain_run p.2 (plainText_iff.1 (hp p (by simp))) [] _), ih2]
      simp [pathItems]
  | [], [], _ :: _, _, _, h, _ => h.elim
  | [], _ :: _, _, h, _, _, _ => h.elim
  | _ :: _, [], _, h, _, _, _ => h.elim
  | _ :: _, _ :: _, [], _, _, h, _ => h.elim

theorem parsers_parameters (output : OutputApi) : ∀ (placeholders : List (List Char × List Char)) (parsers : List TextParser),
    ParsersOf output placeholders parsers → (placeholders.map (fun p => String.ofList p.1)).all output.hasParameter = true
  | [], [], _ => rfl
  | p :: ps, q :: qs, ⟨h, _, h'⟩ => by
    simp only [List.map_cons, List.all_cons, h, Bool.true_and]
    exact parsers_parameters output ps qs h'
  | [], _ :: _, h => h.elim
  | _ :: _, [], h => h.elim

/-- A good route path gives a route, whose expression is the sequence of its parts. -/
theorem route_created {outputs : GoMap OutputApi} {name : String} {output : OutputApi} (ho : mapGet outputs name = some output)
    {first : List Char} {placeholders : List (List Char × List Char)} (hg : GoodTemplate first placeholders) {parsers : List TextParser}
    (hp : ParsersOf output placeholders parsers) (hr : ∀ p ∈ parsers, RouteParser p) {rs : List Regex} (hrs : Expressions parsers rs) :
    createRoute outputs name (template first placeholders) = .ok
      { path := template first placeholders, regexp := catList (.bol :: (first.map .chr ++ pathItems placeholders rs)),
        parameters := placeholders.map (fun p => String.ofList p.1), output := output } := by
  have nobrace : ∀ {text : List Char}, PlainText text → '{' ∉ text := fun h hm => by simpa using h '{' hm
  have hsplit := splitTemplate_template placeholders first (nobrace hg.first)
    (fun p hp => ⟨(hg.names p hp).1, (hg.names p hp).2, nobrace (hg.texts p hp)⟩) _ (Nat.le_refl _)
  obtain ⟨pattern, h1, h2⟩ := path_run output placeholders parsers rs hp hr hrs hg.texts
  have hc : compilePattern ('^' :: (first ++ pattern) ++ ['$']) = some (catList (.bol :: (first.map .chr ++ pathItems placeholders rs))) := by
    refine compile_of_run (m := .normal) rfl ?_
    rw [show '^' :: (first ++ pattern) ++ ['$'] = '^' :: (first ++ (pattern ++ ['$'])) by simp]
    have hs : patternStep .start '^' = some { stack := [], top := { newFrame with items := [.bol] }, mode := .normal } := rfl
    simp only [patternRun, hs]
    rw [patternRun_append_of (plain_run first (plainText_iff.1 hg.first) [] _), h2]
    simp [newFrame]
  simp only [createRoute, ho, createPathRegexp, hsplit, h1, hc]
  rw [if_pos (parsers_parameters output placeholders parsers hp)]

/-- What the expression of a route matches. -/
theorem matches_items : ∀ (placeholders : List (List Char × List Char)) (parsers : List TextParser) (rs : List Regex),
    placeholders.length = parsers.length → Expressions parsers rs → (∀ p ∈ parsers.dropLast, Ungrouped p) →
    ∀ before s after caps, (Matches (catList (pathItems placeholders rs)) before s after caps →
      after = [] ∧ ∃ texts rest, PlaceholderTexts parsers texts ∧ s = (List.zipWith (fun p t => t ++ p.2) placeholders texts).flatten ∧
        caps = texts.map some ++ rest)
  | [], [], [], _, _, _, before, s, after, caps => by
    intro h
    obtain ⟨t, s', ca, cb, rfl, rfl, h1, h2⟩ := matches_cons.1 h
    cases h2
    generalize hx : [] ++ after = x at h1
    cases h1
    exact ⟨by simpa using hx, [], [], trivial, rfl, rfl⟩
  | p :: ps, q :: qs, r :: rs, hl, ⟨hr, hrs⟩, hu, before, s, after, caps => by
    intro h
    simp only [pathItems] at h
    obtain ⟨t, s', ca, cb, rfl, rfl, h1, h2⟩ := matches_group.1 h
    obtain ⟨s'', rfl, h3⟩ := matches_literal.1 h2
    cases qs with
    | nil =>
      cases ps with
      | cons _ _ => simp at hl
      | nil =>
        cases rs with
        | cons _ _ => exact hrs.elim
        | nil =>
          obtain ⟨h4, texts, rest, h5, rfl, rfl⟩ := matches_items [] [] [] rfl trivial (by simp) _ _ _ _ h3
          cases texts with
          | cons _ _ => exact h5.elim
          | nil => exact ⟨h4, [t], ca ++ rest, ⟨(hr.2.2.1 t).1 ⟨_, h1.elsewhere hr.2.1 _ _⟩, trivial⟩, by simp, by simp⟩
    | cons q' qs =>
      have hg : ca.length = 0 := by rw [h1.captures]; exact hr.2.2.2 (hu q (by simp))
      have hca : ca = [] := List.length_eq_zero_iff.1 hg
      obtain ⟨h4, texts, rest, h5, rfl, rfl⟩ := matches_items ps (q' :: qs) rs (by simpa using hl) hrs
        (fun x hx => hu x (by rw [List.dropLast_cons_of_ne_nil (by simp)]; exact List.mem_cons_of_mem _ hx)) _ _ _ _ h3
      exact ⟨h4, t :: texts, rest, ⟨(hr.2.2.1 t).1 ⟨_, h1.elsewhere hr.2.1 _ _⟩, h5⟩, by simp, by simp [hca]⟩
  | [], [], _ :: _, _, h, _, _, _, _, _ => h.elim
  | [], _ :: _, _, h, _, _, _, _, _, _ => by simp at h
  | _ :: _, [], _, h, _, _, _, _, _, _ => by simp at h
  | _ :: _, _ :: _, [], _, h, _, _, _, _, _ => h.elim

theorem items_match : ∀ (placeholders : List (List Char × List Char)) (parsers : List TextParser) (rs : List Regex) (texts : List (List Char)),
    placeholders.length = parsers.length → Expressions parsers rs → PlaceholderTexts parsers texts → ∀ before,
    ∃ caps, Matches (catList (pathItems placeholders rs)) before (List.zipWith (fun p t => t ++ p.2) placeholders texts).flatten [] caps
  | [], [], [], [], _, _, _, before => ⟨_, matches_cons.2 ⟨[], [], [], [], rfl, rfl, .eol, .empty⟩⟩
  | p :: ps, q :: qs, r :: rs, t :: ts, hl, ⟨hr, hrs⟩, ⟨ht, hts⟩, before => by
    obtain ⟨cb, hb⟩ := items_match ps qs rs ts (by simpa using hl) hrs hts (before ++ t ++ p.2)
    obtain ⟨ca, ha⟩ := (hr.2.2.1 t).2 ht
    refine ⟨some t :: ca ++ cb, ?_⟩
    rw [pathItems, matches_group]
    refine ⟨t, p.2 ++ (List.zipWith (fun p t => t ++ p.2) ps ts).flatten, ca, cb, by simp, rfl, ha.elsewhere hr.2.1 _ _, ?_⟩
    exact matches_literal.2 ⟨_, rfl, hb⟩
  | [], [], _ :: _, _, _, h, _, _ => h.elim
  | [], [], [], _ :: _, _, _, h, _ => h.elim
  | [], _ :: _, _, _, h, _, _, _ => by simp at h
  | _ :: _, [], _, _, h, _, _, _ => by simp at h
  | _ :: _, _ :: _, [], _, _, h, _, _ => h.elim
  | _ :: _, _ :: _, _ :: _, [], _, _, h, _ => h.elim

theorem parsersOf_length (output : OutputApi) : ∀ (placeholders : List (List Char × List Char)) (parsers : List TextParser),
    ParsersOf output placeholders parsers → placeholders.length = parsers.length
  | [], [], _ => rfl
  | _ :: ps, _ :: qs, ⟨_, _, h⟩ => by simp [parsersOf_length output ps qs h]
  | [], _ :: _, h => h.elim
  | _ :: _, [], h => h.elim

theorem placeholderTexts_length : ∀ (parsers : List TextParser) (texts : List (List Char)), PlaceholderTexts parsers texts →
    texts.length = parsers.length
  | [], [], _ => rfl
  | _ :: ps, _ :: ts, ⟨_, h⟩ => by simp [placeholderTexts_length ps ts h]
  | [], _ :: _, h => h.elim
  | _ :: _, [], h => h.elim

theorem matches_path {first : List Char} {placeholders : List (List Char × List Char)} {parsers : List TextParser} {rs : List Regex}
    (hl : placeholders.length = parsers.length) (hrs : Expressions parsers rs) (hu : ∀ p ∈ parsers.dropLast, Ungrouped p)
    {before s after : List Char} {caps}
    (h : Matches (catList (.bol :: (first.map .chr ++ pathItems placeholders rs))) before s after caps) :
    ∃ texts rest, PlaceholderTexts parsers texts ∧ before ++ s ++ after = filled first placeholders texts ∧ caps = texts.map some ++ rest := by
  obtain ⟨t, s', ca, cb, rfl, rfl, h1, h2⟩ := matches_cons.1 h
  obtain ⟨s'', rfl, h3⟩ := matches_literal.1 h2
  obtain ⟨rfl, texts, rest, h4, rfl, rfl⟩ := matches_items placeholders parsers rs hl hrs hu _ _ _ _ h3
  cases h1
  exact ⟨texts, rest, h4, by simp [filled], by simp⟩

theorem path_matches {first : List Char} {placeholders : List (List Char × List Char)} {parsers : List TextParser} {rs : List Regex}
    (hl : placeholders.length = parsers.length) (hrs : Expressions parsers rs) {texts : List (List Char)} (ht : PlaceholderTexts parsers texts) :
    ∃ caps, Matches (catList (.bol :: (first.map .chr ++ pathItems placeholders rs))) [] (filled first placeholders texts) [] caps := by
  obtain ⟨cb, h⟩ := items_match placeholders parsers rs texts hl hrs ht ([] ++ [] ++ first)
  exact ⟨_, matches_cons.2 ⟨[], _, [], cb, rfl, rfl, .bol, matches_literal.2 ⟨_, rfl, by simpa using h⟩⟩⟩

/-! ### Parameters -/

theorem queryParams_get : ∀ (query : GoMap (List Bytes)) (params : GoMap Bytes), GoodQuery query →
    ∃ result, queryParams query params = .ok result ∧ ∀ name, mapGet result name = (queryValue query name).or (mapGet params name)
  | [], params, _ => ⟨params, rfl, fun _ => rfl⟩
  | (k, []) :: rest, params, h => absurd rfl (h.2 (k, []) (by simp))
  | (k, v :: vs) :: rest, params, h => by
    have hk : k ∉ rest.map (·.1) := (List.nodup_cons.1 h.1).1
    obtain ⟨result, h1, h2⟩ := queryParams_get rest (mapSet params k v) ⟨(List.nodup_cons.1 h.1).2, fun q hq => h.2 q (by simp [hq])⟩
    refine ⟨result, h1, fun name => ?_⟩
    rw [h2, mapGet_mapSet]
    by_cases hn : k = name
    · subst hn
      have : mapGet rest k = none := by
        cases hg : mapGet rest k with
        | none => rfl
        | some x =>
          exfalso
          apply hk
          clear h h1 h2 hk
          induction rest with
          | nil => simp [mapGet] at hg
          | cons y rest ih =>
            obtain ⟨a, b⟩ := y
            simp only [mapGet] at hg
            split at hg
            · next e => simp [e]
            · simp [ih hg]
      simp [queryValue, mapGet, this]
    · simp [queryValue, mapGet, hn]

theorem pathParams_get : ∀ (names : List String) (texts : List (List Char)) (rest : List (Option (List Char))) (params : GoMap Bytes),
    names.length = texts.length →
    ∃ result, pathParams names (texts.map some ++ rest) params = .ok result ∧
      ∀ name, mapGet result name = ((placeholderValue names texts name).map utf8).or (mapGet params name)
  | [], [], rest, params, _ => ⟨params, rfl, fun _ => rfl⟩
  | n :: names, t :: texts, rest, params, h => by
    obtain ⟨result, h1, h2⟩ := pathParams_get names texts rest (mapSet params n (utf8 t)) (by simpa using h)
    refine ⟨result, by simpa [pathParams] using h1, fun name => ?_⟩
    rw [h2, mapGet_mapSet]
    simp only [placeholderValue, List.zip_cons_cons, List.reverse_cons, List.find?_append]
    cases hf : ((names.zip texts).reverse.find? (fun p => decide (p.1 = name))) with
    | some x => simp
    | none =>
      by_cases hn : n = name
      · simp [hn]
      · simp [hn]
  | [], _ :: _, _, _, h => by simp at h
  | _ :: _, [], _, _, h => by simp at h

end Rodb
