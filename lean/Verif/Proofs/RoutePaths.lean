import Verif.Spec.RoutePaths
import Verif.Proofs.Service
/-
  Lemmas about the paths of routes as regular expressions.
-/
namespace Rodb
open Spec

/-! ### The parser of patterns -/

/-- Something new may begin. -/
def Mode.Ready (m : Mode) : Prop := m = .normal ∨ m = .repeated ∨ m = .lazied ∨ m = .opened

theorem ready_step {m : Mode} (hm : m.Ready) {c : Char} (h1 : c ≠ '?') (h2 : c ≠ '*') (h3 : c ≠ '+') (stack : List Frame) (top : Frame) :
    patternStep ⟨stack, top, m⟩ c = normalStep ⟨stack, top, .normal⟩ c := by
  have key : ∀ m', normalStep ⟨stack, top, m'⟩ c = normalStep ⟨stack, top, .normal⟩ c := by
    intro m'
    simp only [normalStep, if_neg h1, if_neg h2, if_neg h3]
    rfl
  rcases hm with rfl | rfl | rfl | rfl <;> simp only [patternStep, h1, h2, h3, if_false, or_self, key]

theorem quotable_escapable {c : Char} (h : Quotable c) : isEscapable c = true := by
  obtain ⟨h1, h2, h3, h4, _⟩ := h
  simp only [isEscapable, isAlnum, Bool.and_eq_true, decide_eq_true_eq, Bool.not_eq_true', Bool.or_eq_false_iff, Bool.and_eq_false_iff, decide_eq_false_iff_not]
  refine ⟨h1, ⟨?_, ?_⟩, ?_⟩
  · by_cases h : '0' ≤ c
    · exact .inr (fun h' => h2 ⟨h, h'⟩)
    · exact .inl h
  · by_cases h : 'a' ≤ c
    · exact .inr (fun h' => h3 ⟨h, h'⟩)
    · exact .inl h
  · by_cases h : 'A' ≤ c
    · exact .inr (fun h' => h4 ⟨h, h'⟩)
    · exact .inl h

/-- Inside of brackets, where an element may begin. -/
inductive ClassReady (negated : Bool) : List (Char × Char) → Mode → Prop where
  | start : negated = false → ClassReady negated [] .clsStart
  | first : ClassReady negated [] (.clsFirst negated)
  | next {rs} : ClassReady negated rs (.clsNext negated rs)
  | char {rs lo} : ClassReady negated ((lo, lo) :: rs) (.clsChar negated rs lo)

/-- A character of an element: not a hyphen after a character. -/
theorem bracketChar_run {negated : Bool} {rs : List (Char × Char)} {m : Mode} (hm : ClassReady negated rs m) {c : Char} {w : List Char} (hw : BracketChar c w)
    (h1 : m = .clsStart → w.head? ≠ some '^') (h2 : w.head? = some '-' → ∀ rs lo, m ≠ .clsChar negated rs lo) (stack : List Frame) (top : Frame) :
    patternRun ⟨stack, top, m⟩ w = some ⟨stack, top, .clsChar negated rs c⟩ := by
  cases hw with
  | plain hc =>
    simp only [List.mem_cons, List.not_mem_nil, or_false, not_or] at hc
    obtain ⟨c1, c2, c3, c4⟩ := hc
    cases hm with
    | start hn =>
      subst hn
      have : c ≠ '^' := fun h => h1 rfl (by rw [h]; rfl)
      simp only [patternRun, patternStep, classElement, if_neg this, if_neg c1, if_neg c2, if_neg c3]
    | first => simp only [patternRun, patternStep, classElement, if_neg c1, if_neg c2, if_neg c3]
    | next => simp only [patternRun, patternStep, classElement, if_neg c1, if_neg c2, if_neg c3]
    | char =>
      have : c ≠ '-' := fun h => h2 (by rw [h]; rfl) _ _ rfl
      simp only [patternRun, patternStep, classElement, if_neg this, if_neg c1, if_neg c2, if_neg c3]
  | quoted hc =>
    have he := quotable_escapable hc
    cases hm with
    | start hn => subst hn; simp [patternRun, patternStep, classElement, he]
    | first => simp [patternRun, patternStep, classElement, he]
    | next => simp [patternRun, patternStep, classElement, he]
    | char => simp [patternRun, patternStep, classElement, he]

theorem brackets_nonempty {rs : List (Char × Char)} {u : List Char} (h : Brackets rs u) (hu : u = []) : rs = [] := by
  cases h with
  | nil => rfl
  | one hw _ _ => cases hw <;> simp at hu
  | range hw _ _ _ => cases hw <;> simp at hu
  | hyphen hw => cases hw <;> simp at hu

theorem brackets_run {ranges : List (Char × Char)} {text : List Char} (h : Brackets ranges text) : ∀ {negated : Bool} {rs : List (Char × Char)} {m : Mode}, ClassReady negated rs m →
    (m = .clsStart → text.head? ≠ some '^') → (text.head? = some '-' → ∀ rs lo, m ≠ .clsChar negated rs lo) → (ranges = [] → m ≠ .clsStart ∧ m ≠ .clsFirst negated) →
    ∀ (stack : List Frame) (top : Frame), patternRun ⟨stack, top, m⟩ (text ++ [']']) = some ⟨stack, { top with items := .cls negated (ranges.reverse ++ rs) :: top.items }, .normal⟩ := by
  induction h with
  | nil =>
    intro negated rs m hm _ _ h3 stack top
    obtain ⟨h3, h4⟩ := h3 rfl
    cases hm with
    | start _ => exact absurd rfl h3
    | first => exact absurd rfl h4
    | next => rfl
    | char => rfl
  | @one c w ranges u hw hr hu ih =>
    intro negated rs m hm h1 h2 _ stack top
    have hh : (w ++ u).head? = w.head? := by cases hw <;> rfl
    rw [hh] at h1 h2
    rw [List.append_assoc, patternRun_append_of (bracketChar_run hm hw h1 h2 stack top)]
    rw [ih (.char (rs := rs) (lo := c)) (by simp) (fun h => absurd h hu) (by simp)]
    simp
  | @range lo hi v w ranges u hv hw hle hr ih =>
    intro negated rs m hm h1 h2 _ stack top
    have hh : (v ++ '-' :: w ++ u).head? = v.head? := by cases hv <;> rfl
    rw [hh] at h1 h2
    rw [List.append_assoc, List.append_assoc, patternRun_append_of (bracketChar_run hm hv h1 h2 stack top)]
    have hdash : patternRun ⟨stack, top, .clsChar negated rs lo⟩ ('-' :: w) = some ⟨stack, top, .clsNext negated ((lo, hi) :: rs)⟩ := by
      cases hw with
      | plain hc =>
        simp only [List.mem_cons, List.not_mem_nil, or_false, not_or] at hc
        obtain ⟨c1, c2, c3, c4⟩ := hc
        simp [patternRun, patternStep, c1, c2, c3, hle]
      | quoted hc => simp [patternRun, patternStep, quotable_escapable hc, hle]
    rw [patternRun_append_of hdash, ih .next (by simp) (by simp) (by simp)]
    simp
  | @hyphen c w hw =>
    intro negated rs m hm h1 h2 _ stack top
    have hh : (w ++ ['-']).head? = w.head? := by cases hw <;> rfl
    rw [hh] at h1 h2
    rw [List.append_assoc, patternRun_append_of (bracketChar_run hm hw h1 h2 stack top)]
    rfl

/-- The alternatives and items of a frame after these alternatives. -/
def finish : List Regex → List Regex → List (List Regex) → List Regex × List Regex
  | A, I, [] => (A, I)
  | A, I, [l] => (A, l.reverse ++ I)
  | A, I, l :: more => finish (catList (l.reverse ++ I).reverse :: A) [] more

/-- Reading this text adds the part to the current frame. -/
def PartRuns : Part → List Char → Prop
  | .atom r, u => ∀ stack top m, Mode.Ready m → patternRun ⟨stack, top, m⟩ u = some ⟨stack, { top with items := r :: top.items }, .normal⟩
  | .item r, u => ∀ stack top m, Mode.Ready m → ∃ m', m'.Ready ∧ patternRun ⟨stack, top, m⟩ u = some ⟨stack, { top with items := r :: top.items }, m'⟩
  | .items l, u => ∀ stack top m, Mode.Ready m → ∃ m', m'.Ready ∧ patternRun ⟨stack, top, m⟩ u = some ⟨stack, { top with items := l.reverse ++ top.items }, m'⟩
  | .alternatives l, u => l ≠ [] ∧ ∀ stack top m, Mode.Ready m → ∃ m', m'.Ready ∧
      patternRun ⟨stack, top, m⟩ u = some ⟨stack, { top with alternatives := (finish top.alternatives top.items l).1, items := (finish top.alternatives top.items l).2 }, m'⟩

/-- These items at the end of the last alternative. -/
def addLast (extra : List Regex) : List (List Regex) → List (List Regex)
  | [] => []
  | [l] => [l ++ extra]
  | l :: more => l :: addLast extra more

theorem finish_close (extra : List Regex) : ∀ (more : List (List Regex)) (l A I : List Regex),
    (finish A I (l :: more)).1.foldl (fun acc r => Regex.alt r acc) (catList ((finish A I (l :: more)).2.reverse ++ extra)) =
      A.foldl (fun acc r => Regex.alt r acc) (altList (addLast extra ((I.reverse ++ l) :: more)))
  | [], l, A, I => by simp [finish, addLast, altList]
  | x :: more, l, A, I => by
    have ih := finish_close extra more x (catList (l.reverse ++ I).reverse :: A) []
    have e : finish A I (l :: x :: more) = finish (catList (l.reverse ++ I).reverse :: A) [] (x :: more) := by simp only [finish]
    rw [e, ih]
    have hne : addLast extra (x :: more) ≠ [] := by cases more <;> simp [addLast]
    have h1 : addLast extra ((I.reverse ++ l) :: x :: more) = (I.reverse ++ l) :: addLast extra (x :: more) := by simp only [addLast]
    rw [h1]
    cases hm : addLast extra (x :: more) with
    | nil => exact absurd hm hne
    | cons y ys =>
      simp only [List.reverse_nil, List.nil_append, hm, List.foldl_cons, altList]
      simp

/-! ### Placeholders -/

/-- The text of the path with the patterns of the placeholders. -/
inductive Expands (output : OutputApi) : List Char → List Char → Prop where
  | nil : Expands output [] []
  | char {c t u} : c ≠ '{' → Expands output t u → Expands output (c :: t) (c :: u)
  | hole {name parser t u} : name ≠ [] → '}' ∉ name → output.hasParameter (String.ofList name) = true → output.parameterParser (String.ofList name) = .ok parser →
      parser.config.primitive = true → Expands output t u → Expands output ('{' :: name ++ '}' :: t) ('(' :: parser.pattern ++ ')' :: u)

theorem Expands.append {output : OutputApi} {t u t' u' : List Char} (h : Expands output t u) (h' : Expands output t' u') : Expands output (t ++ t') (u ++ u') := by
  induction h with
  | nil => exact h'
  | char hc _ ih => exact .char hc ih
  | @hole name parser t u h1 h2 h3 h4 h5 _ ih =>
    have := Expands.hole h1 h2 h3 h4 h5 ih
    simpa using this

theorem Expands.text {output : OutputApi} : ∀ {t : List Char}, '{' ∉ t → Expands output t t
  | [], _ => .nil
  | c :: t, h => .char (fun e => h (by simp [e])) (Expands.text (fun e => h (by simp [e])))

theorem Expands.split {output : OutputApi} {t u : List Char} (h : Expands output t u) : ∀ fuel, t.length ≤ fuel → ∃ first placeholders pattern,
    splitTemplate fuel t = (first, placeholders) ∧ pathPattern output placeholders = .ok pattern ∧ u = first ++ pattern ∧
      (placeholders.map (fun p => String.ofList p.1)).all output.hasParameter = true := by
  induction h with
  | nil => intro fuel _; exact ⟨[], [], [], by cases fuel <;> rfl, rfl, rfl, rfl⟩
  | @char c t u hc _ ih =>
    intro fuel hf
    obtain ⟨fuel, rfl⟩ : ∃ n, fuel = n + 1 := ⟨fuel - 1, by simp at hf; omega⟩
    obtain ⟨first, placeholders, pattern, h1, h2, h3, h4⟩ := ih fuel (by simp at hf; omega)
    refine ⟨c :: first, placeholders, pattern, ?_, h2, by rw [h3]; rfl, h4⟩
    rw [splitTemplate_plain hc, h1]
  | @hole name parser t u h1 h2 h3 h4 h5 _ ih =>
    intro fuel hf
    obtain ⟨fuel, rfl⟩ : ∃ n, fuel = n + 1 := ⟨fuel - 1, by simp at hf; omega⟩
    obtain ⟨first, placeholders, pattern, g1, g2, g3, g4⟩ := ih fuel (by simp at hf; omega)
    refine ⟨[], (name, first) :: placeholders, '(' :: parser.pattern ++ ')' :: first ++ pattern, ?_, ?_, ?_, ?_⟩
    · rw [List.cons_append]
      simp only [splitTemplate, takeWhile_name h2, dropWhile_name h2, g1]
      simp [h1]
    · simp only [pathPattern, h4, h5, if_true, g2]
    · rw [g3]; simp
    · simp only [List.map_cons, List.all_cons, h3, Bool.true_and]; exact g4

theorem written_runs {output : OutputApi} {part : Part} {t : List Char} (h : PathWritten (Placeholder output) part t) : ∃ u, Expands output t u ∧ PartRuns part u := by
  have hbrace : ∀ {rs : List (Char × Char)} {u : List Char}, Brackets rs u → '{' ∉ u := by
    have hc : ∀ {c w}, BracketChar c w → '{' ∉ w := by
      intro c w h
      cases h with
      | plain h => simp only [List.mem_cons, List.not_mem_nil, or_false, not_or] at h ⊢; exact fun e => h.2.2.2 e.symm
      | quoted h => simp only [List.mem_cons, List.not_mem_nil, or_false, not_or]; exact ⟨by decide, fun e => h.2.2.2.2 e.symm⟩
    intro rs u h
    induction h with
    | nil => simp
    | one h _ _ ih => simp only [List.mem_append, not_or]; exact ⟨hc h, ih⟩
    | range h1 h2 _ _ ih => simp only [List.mem_append, List.mem_cons, not_or]; exact ⟨⟨hc h1, by decide, hc h2⟩, ih⟩
    | hyphen h => simp only [List.mem_append, not_or]; exact ⟨hc h, by decide⟩
  have hrep : ∀ {r : Regex} {u l : List Char} {op : Char} {f : Regex → Regex}, PartRuns (.atom r) u → (l = [] ∨ l = ['?']) →
      (∀ stack top, patternStep ⟨stack, top, .normal⟩ op = PatternState.repeatLast ⟨stack, top, .normal⟩ f) → PartRuns (.item (f r)) (u ++ op :: l) := by
    intro r u l op f hr hl hop stack top m hm
    rw [patternRun_append_of (hr stack top m hm)]
    simp only [patternRun]
    rw [hop]
    rcases hl with rfl | rfl
    · exact ⟨.repeated, .inr (.inl rfl), rfl⟩
    · exact ⟨.lazied, .inr (.inr (.inl rfl)), rfl⟩
  have hgroup : ∀ {l : List (List Regex)} {u : List Char}, PartRuns (.alternatives l) u → ∀ (stack : List Frame) (f top : Frame) (m : Mode), m.Ready → f.alternatives = [] → f.items = [] →
      patternRun ⟨top :: stack, f, m⟩ (u ++ [')']) = some ⟨stack, { top with items := (if f.capturing then .group (altList l) else altList l) :: top.items }, .normal⟩ := by
    intro l u hr stack f top m hm hf1 hf2
    obtain ⟨hne, hr⟩ := hr
    obtain ⟨m', hm', h1⟩ := hr (top :: stack) f m hm
    rw [patternRun_append_of h1]
    simp only [patternRun]
    rw [ready_step hm' (by decide) (by decide) (by decide)]
    obtain ⟨x, more, rfl⟩ := List.exists_cons_of_ne_nil hne
    have hclose := finish_close [] more x [] []
    rw [hf1, hf2]
    have hadd : ∀ (more : List (List Regex)) x, addLast [] (x :: more) = x :: more := by
      intro more
      induction more with
      | nil => intro x; simp [addLast]
      | cons y more ih => intro x; simp only [addLast]; rw [ih]
    rw [List.append_nil, List.foldl_nil, List.reverse_nil, List.nil_append, hadd] at hclose
    simp only [normalStep, Frame.close, hclose]
    rfl
  induction h with
  | @ordinary c hc =>
    simp only [Ordinary, List.mem_cons, List.not_mem_nil, or_false, not_or] at hc
    obtain ⟨p1, p2, p3, p4, p5, p6, p7, p8, p9, p10, p11, p12⟩ := hc
    refine ⟨[c], .text (by simp only [List.mem_singleton]; exact fun e => p10 e.symm), fun stack top m hm => ?_⟩
    simp only [patternRun]
    rw [ready_step hm p5 p4 p3]
    simp only [normalStep, if_neg p1, if_neg p2, if_neg p3, if_neg p4, if_neg p5, if_neg p6, if_neg p7, if_neg p8, if_neg p9, if_neg p10, if_neg p11, if_neg p12]
    rfl
  | @quoted c hc =>
    refine ⟨['\\', c], .text (by simp only [List.mem_cons, List.not_mem_nil, or_false, not_or]; exact ⟨by decide, fun e => hc.2.2.2.2 e.symm⟩), fun stack top m hm => ?_⟩
    simp only [patternRun]
    rw [ready_step hm (by decide) (by decide) (by decide)]
    simp [normalStep, patternStep, quotable_escapable hc, PatternState.push]
  | any => exact ⟨['.'], .text (by decide), fun stack top m hm => by simp only [patternRun]; rw [ready_step hm (by decide) (by decide) (by decide)]; rfl⟩
  | start => exact ⟨['^'], .text (by decide), fun stack top m hm => by simp only [patternRun]; rw [ready_step hm (by decide) (by decide) (by decide)]; rfl⟩
  | stop => exact ⟨['$'], .text (by decide), fun stack top m hm => by simp only [patternRun]; rw [ready_step hm (by decide) (by decide) (by decide)]; rfl⟩
  | @brackets ranges text h h1 h2 =>
    refine ⟨_, .text (by simp only [List.mem_append, List.mem_cons, List.not_mem_nil, or_false, not_or]; exact ⟨⟨by decide, hbrace h⟩, by decide⟩), fun stack top m hm => ?_⟩
    have hs : patternStep ⟨stack, top, m⟩ '[' = some ⟨stack, top, .clsStart⟩ := by rw [ready_step hm (by decide) (by decide) (by decide)]; rfl
    rw [List.cons_append]
    simp only [patternRun, hs]
    rw [brackets_run h (.start rfl) (fun _ => h2) (by simp) (fun e => absurd e h1)]
    simp
  | @notBrackets ranges text h h1 =>
    refine ⟨_, .text (by simp only [List.mem_append, List.mem_cons, List.not_mem_nil, or_false, not_or]; exact ⟨⟨by decide, by decide, hbrace h⟩, by decide⟩), fun stack top m hm => ?_⟩
    have hs : patternStep ⟨stack, top, m⟩ '[' = some ⟨stack, top, .clsStart⟩ := by rw [ready_step hm (by decide) (by decide) (by decide)]; rfl
    have hs2 : patternStep ⟨stack, top, .clsStart⟩ '^' = some ⟨stack, top, .clsFirst true⟩ := rfl
    rw [List.cons_append, List.cons_append]
    simp only [patternRun, hs, hs2]
    rw [brackets_run h .first (by simp) (by simp) (fun e => absurd e h1)]
    simp
  | @group l text _ ih =>
    obtain ⟨u, h1, h2⟩ := ih
    refine ⟨'(' :: u ++ [')'], (Expands.char (by decide) h1).append (.text (by decide)), fun stack top m hm => ?_⟩
    have hs : patternStep ⟨stack, top, m⟩ '(' = some ⟨top :: stack, newFrame, .opened⟩ := by rw [ready_step hm (by decide) (by decide) (by decide)]; rfl
    rw [List.cons_append]
    simp only [patternRun, hs]
    rw [hgroup h2 stack newFrame top .opened (.inr (.inr (.inr rfl))) rfl rfl]
    rfl
  | @parentheses l text _ ih =>
    obtain ⟨u, h1, h2⟩ := ih
    refine ⟨'(' :: '?' :: ':' :: u ++ [')'], (Expands.char (by decide) (.char (by decide) (.char (by decide) h1))).append (.text (by decide)), fun stack top m hm => ?_⟩
    have hs : patternStep ⟨stack, top, m⟩ '(' = some ⟨top :: stack, newFrame, .opened⟩ := by rw [ready_step hm (by decide) (by decide) (by decide)]; rfl
    have hs2 : patternStep ⟨top :: stack, newFrame, .opened⟩ '?' = some ⟨top :: stack, newFrame, .flagged⟩ := rfl
    have hs3 : patternStep ⟨top :: stack, newFrame, .flagged⟩ ':' = some ⟨top :: stack, { newFrame with capturing := false }, .normal⟩ := rfl
    rw [List.cons_append, List.cons_append, List.cons_append]
    simp only [patternRun, hs, hs2, hs3]
    rw [hgroup h2 stack { newFrame with capturing := false } top .normal (.inl rfl) rfl rfl]
    rfl
  | @placeholder name r h1 h2 h3 =>
    obtain ⟨g1, parser, g2, g3, g4⟩ := h3
    refine ⟨'(' :: parser.pattern ++ ')' :: [], .hole h1 h2 g1 g2 g3 .nil, fun stack top m hm => ?_⟩
    have := group_run g4 stack top
    rw [List.cons_append] at this ⊢
    simp only [patternRun] at this ⊢
    rw [ready_step hm (by decide) (by decide) (by decide)]
    exact this
  | once _ ih =>
    obtain ⟨u, h1, h2⟩ := ih
    exact ⟨u, h1, fun stack top m hm => ⟨.normal, .inl rfl, h2 stack top m hm⟩⟩
  | @star r text l _ hl ih =>
    obtain ⟨u, h1, h2⟩ := ih
    exact ⟨_, h1.append (.text (by rcases hl with rfl | rfl <;> decide)), hrep h2 hl (fun _ _ => rfl)⟩
  | @plus r text l _ hl ih =>
    obtain ⟨u, h1, h2⟩ := ih
    exact ⟨_, h1.append (.text (by rcases hl with rfl | rfl <;> decide)), hrep h2 hl (fun _ _ => rfl)⟩
  | @opt r text l _ hl ih =>
    obtain ⟨u, h1, h2⟩ := ih
    exact ⟨_, h1.append (.text (by rcases hl with rfl | rfl <;> decide)), hrep h2 hl (fun _ _ => rfl)⟩
  | nil => exact ⟨[], .nil, fun stack top m hm => ⟨m, hm, rfl⟩⟩
  | cons _ _ ih1 ih2 =>
    obtain ⟨u, h1, h2⟩ := ih1
    obtain ⟨v, g1, g2⟩ := ih2
    refine ⟨_, h1.append g1, fun stack top m hm => ?_⟩
    obtain ⟨m', hm', e⟩ := h2 stack top m hm
    obtain ⟨m'', hm'', e'⟩ := g2 stack _ m' hm'
    refine ⟨m'', hm'', ?_⟩
    rw [patternRun_append_of e, e']
    simp
  | last _ ih =>
    obtain ⟨u, h1, h2⟩ := ih
    refine ⟨u, h1, by simp, fun stack top m hm => ?_⟩
    obtain ⟨m', hm', e⟩ := h2 stack top m hm
    exact ⟨m', hm', e⟩
  | @more l ls a b _ _ ih1 ih2 =>
    obtain ⟨u, h1, h2⟩ := ih1
    obtain ⟨v, g1, g3, g2⟩ := ih2
    refine ⟨_, h1.append (.char (by decide) g1), by simp, fun stack top m hm => ?_⟩
    obtain ⟨m', hm', e⟩ := h2 stack top m hm
    have hs : patternStep ⟨stack, { top with items := l.reverse ++ top.items }, m'⟩ '|' =
        some ⟨stack, { top with alternatives := catList (l.reverse ++ top.items).reverse :: top.alternatives, items := [] }, .normal⟩ := by
      rw [ready_step hm' (by decide) (by decide) (by decide)]; rfl
    obtain ⟨m'', hm'', e'⟩ := g2 stack { top with alternatives := catList (l.reverse ++ top.items).reverse :: top.alternatives, items := [] } .normal (.inl rfl)
    refine ⟨m'', hm'', ?_⟩
    rw [patternRun_append_of e]
    simp only [patternRun, hs]
    rw [e']
    obtain ⟨x, more, rfl⟩ := List.exists_cons_of_ne_nil g3
    simp only [finish]

/-! ### What they match -/

theorem matches_altList {before s after : List Char} : ∀ {l : List (List Regex)}, l ≠ [] →
    ((∃ captures, Matches (altList l) before s after captures) ↔ ∃ items ∈ l, ∃ captures, Matches (catList items) before s after captures)
  | [], h => absurd rfl h
  | [items], _ => by simp [altList]
  | items :: x :: more, _ => by
    have ih := matches_altList (before := before) (s := s) (after := after) (l := x :: more) (by simp)
    have e : altList (items :: x :: more) = .alt (catList items) (altList (x :: more)) := by simp only [altList]
    rw [e]
    constructor
    · rintro ⟨captures, h⟩
      cases h with
      | altLeft h => exact ⟨items, .head _, _, h⟩
      | altRight h =>
        obtain ⟨y, hy, h⟩ := ih.1 ⟨_, h⟩
        exact ⟨y, .tail _ hy, h⟩
    · rintro ⟨y, hy, captures, h⟩
      rcases List.mem_cons.1 hy with rfl | hy
      · exact ⟨_, .altLeft h⟩
      · obtain ⟨_, h⟩ := ih.2 ⟨y, hy, captures, h⟩
        exact ⟨_, .altRight h⟩

theorem matches_append : ∀ {a b : List Regex} {before s after : List Char}, (∃ captures, Matches (catList (a ++ b)) before s after captures) ↔
    ∃ s1 s2, s = s1 ++ s2 ∧ (∃ captures, Matches (catList a) before s1 (s2 ++ after) captures) ∧ ∃ captures, Matches (catList b) (before ++ s1) s2 after captures
  | [], b, before, s, after => by
    constructor
    · rintro ⟨captures, h⟩
      exact ⟨[], s, rfl, ⟨_, .empty⟩, captures, by simpa using h⟩
    · rintro ⟨s1, s2, rfl, ⟨_, h1⟩, captures, h2⟩
      cases h1
      exact ⟨captures, by simpa using h2⟩
  | r :: a, b, before, s, after => by
    simp only [List.cons_append, catList]
    constructor
    · rintro ⟨captures, h⟩
      cases h with
      | @cat _ _ _ x y _ ca cb h1 h2 =>
        obtain ⟨s1, s2, rfl, ⟨c1, g1⟩, c2, g2⟩ := matches_append.1 ⟨_, h2⟩
        refine ⟨x ++ s1, s2, by simp, ⟨_, .cat (by simpa using h1) g1⟩, c2, by simpa using g2⟩
    · rintro ⟨s1, s2, rfl, ⟨_, h1⟩, captures, h2⟩
      cases h1 with
      | @cat _ _ _ x y _ ca cb h1 h3 =>
        obtain ⟨c, h4⟩ := matches_append.2 ⟨y, s2, rfl, ⟨_, h3⟩, captures, by simpa using h2⟩
        rw [List.append_assoc]
        exact ⟨_, .cat (by simpa using h1) h4⟩

theorem matches_bol {l : List Regex} {before s after : List Char} : (∃ captures, Matches (catList (.bol :: l)) before s after captures) ↔
    before = [] ∧ ∃ captures, Matches (catList l) before s after captures := by
  constructor
  · rintro ⟨captures, h⟩
    obtain ⟨s1, s2, c1, c2, rfl, rfl, h1, h2⟩ := matches_cons.1 h
    cases h1
    exact ⟨rfl, _, by simpa using h2⟩
  · rintro ⟨rfl, captures, h⟩
    exact ⟨_, .cat (s := []) .bol (by simpa using h)⟩

theorem matches_eol {l : List Regex} {before s after : List Char} : (∃ captures, Matches (catList (l ++ [.eol])) before s after captures) ↔
    after = [] ∧ ∃ captures, Matches (catList l) before s after captures := by
  rw [matches_append]
  constructor
  · rintro ⟨s1, s2, rfl, h1, captures, h2⟩
    obtain ⟨t1, t2, c1, c2, rfl, rfl, h3, h4⟩ := matches_cons.1 h2
    cases h4
    cases h3
    refine ⟨rfl, ?_⟩
    simpa using h1
  · rintro ⟨rfl, h⟩
    exact ⟨s, [], by simp, by simpa using h, _, .cat (s := []) .eol .empty⟩

/-- The alternatives with the signs for the start and the end. -/
def anchored : List (List Regex) → List (List Regex)
  | [] => []
  | l :: more => addLast [.eol] ((.bol :: l) :: more)

theorem addLast_get (extra : List Regex) : ∀ (l : List (List Regex)) (i : Nat), (addLast extra l)[i]? = (l[i]?).map (fun items => if i + 1 = l.length then items ++ extra else items)
  | [], i => by simp [addLast]
  | [x], i => by cases i <;> simp [addLast]
  | x :: y :: l, 0 => by simp [addLast]
  | x :: y :: l, i+1 => by
    have := addLast_get extra (y :: l) i
    simp only [addLast, List.getElem?_cons_succ, this, List.length_cons, Nat.add_right_cancel_iff]

theorem anchored_matches {l : List (List Regex)} (hl : l ≠ []) (requested : List Char) :
    (∃ before s after captures, requested = before ++ s ++ after ∧ Matches (altList (anchored l)) before s after captures) ↔ PathStandsFor l requested := by
  obtain ⟨x, more, rfl⟩ := List.exists_cons_of_ne_nil hl
  have hne : anchored (x :: more) ≠ [] := by cases more <;> simp [anchored, addLast]
  have hget : ∀ i : Nat, (anchored (x :: more))[i]? = ((x :: more)[i]?).map (fun items => (if i = 0 then [Regex.bol] else []) ++ items ++ (if i + 1 = (x :: more).length then [Regex.eol] else [])) := by
    intro i
    rw [anchored, addLast_get]
    cases i with
    | zero => simp only [List.getElem?_cons_zero, Option.map_some, List.length_cons]; split <;> simp
    | succ i =>
      simp only [List.getElem?_cons_succ, List.length_cons]
      cases more[i]? with
      | none => rfl
      | some items => simp only [Option.map_some]; split <;> simp
  have hone : ∀ (b e : Prop) [Decidable b] [Decidable e] (items : List Regex) (before s after : List Char),
      (∃ captures, Matches (catList ((if b then [Regex.bol] else []) ++ items ++ (if e then [Regex.eol] else []))) before s after captures) ↔
        (b → before = []) ∧ (e → after = []) ∧ ∃ captures, Matches (catList items) before s after captures := by
    intro b e _ _ items before s after
    by_cases hb : b <;> by_cases he : e
    · simp only [hb, he, if_true, true_implies]
      rw [matches_eol, List.singleton_append, matches_bol]
      grind
    · simp only [hb, he, if_true, if_false, true_implies, false_implies, true_and, List.append_nil]
      rw [List.singleton_append, matches_bol]
    · simp only [hb, he, if_true, if_false, true_implies, false_implies, true_and, List.nil_append]
      rw [matches_eol]
    · simp [hb, he]
  constructor
  · rintro ⟨before, s, after, captures, h1, h2⟩
    obtain ⟨items, hm, h⟩ := (matches_altList hne).1 ⟨captures, h2⟩
    obtain ⟨i, hi⟩ := List.mem_iff_getElem?.1 hm
    rw [hget] at hi
    obtain ⟨y, hy, rfl⟩ := Option.map_eq_some_iff.1 hi
    obtain ⟨g1, g2, c, g3⟩ := (hone _ _ _ _ _ _).1 h
    exact ⟨i, y, hy, before, s, after, c, h1, g1, g2, g3⟩
  · rintro ⟨i, y, hy, before, s, after, c, h1, g1, g2, g3⟩
    have hi := hget i
    rw [hy, Option.map_some] at hi
    obtain ⟨captures, h⟩ := (matches_altList hne).2 ⟨_, List.mem_of_getElem? hi, (hone _ _ _ _ _ _).2 ⟨g1, g2, c, g3⟩⟩
    exact ⟨before, s, after, captures, h1, h⟩

end Rodb
