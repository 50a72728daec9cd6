import Verif.Proofs.Reader
import Verif.Spec.CsvText
namespace Rodb
open Spec

theorem csvReader_good {comma : UInt8} (h : GoodDelimiter comma) : csvReader comma = csvRecordReader comma := by
  obtain ⟨h1, h2, h3, h4⟩ := h
  unfold csvReader
  rw [if_neg]
  rintro (h | h | h | h) <;> contradiction

theorem csvRecordReader_end (comma : UInt8) : (csvRecordReader comma).eof (csvRecordReader comma).init = .eof := by
  show (match csvTakeLine comma CsvState.start.before (csvFileEnd CsvState.start.line) with
    | .inr a => a
    | .inl s => if s = CsvState.start then CsvRead.eof else .bad) = .eof
  have : csvTakeLine comma CsvState.start.before (csvFileEnd CsvState.start.line) = .inl CsvState.start := by
    unfold csvTakeLine
    rw [if_pos ⟨rfl, .inl rfl⟩]
  rw [this]
  simp only [if_true]

/-! ### Line ends -/

theorem unixLines_append : ∀ (a b : Bytes), a.getLast? ≠ some 13 ∨ b.head? ≠ some 10 → unixLines (a ++ b) = unixLines a ++ unixLines b
  | [], b, _ => rfl
  | [x], b, h => by
    cases b with
    | nil => rfl
    | cons y b =>
      simp only [List.singleton_append, unixLines]
      rw [if_neg]
      rintro ⟨rfl, rfl⟩
      simp at h
  | x :: y :: a, b, h => by
    have h' : (y :: a).getLast? ≠ some 13 ∨ b.head? ≠ some 10 := by simpa [List.getLast?_cons_cons] using h
    have h'' : a.getLast? ≠ some 13 ∨ b.head? ≠ some 10 ∨ a = [] := by
      cases a with
      | nil => exact .inr (.inr rfl)
      | cons z a =>
        rcases h' with h' | h'
        · exact .inl (by simpa [List.getLast?_cons_cons] using h')
        · exact .inr (.inl h')
    simp only [List.cons_append, unixLines]
    split
    · rename_i hxy
      have : unixLines (a ++ b) = unixLines a ++ unixLines b := by
        rcases h'' with h'' | h'' | h''
        · exact unixLines_append a b (.inl h'')
        · exact unixLines_append a b (.inr h'')
        · subst h''; rfl
      rw [this]; rfl
    · have := unixLines_append (y :: a) b h'
      rw [List.cons_append] at this
      rw [this]; rfl

theorem unixLines_plain : ∀ {l : Bytes}, (∀ b ∈ l, b ≠ 10) → unixLines l = l
  | [], _ => rfl
  | [x], _ => rfl
  | x :: y :: l, h => by
    simp only [unixLines]
    rw [if_neg (fun hxy => h y (by simp) hxy.2), unixLines_plain (fun b hb => h b (List.mem_cons_of_mem _ hb))]

/-- The end of a line without other line feeds. -/
theorem csvLineEnd_eq {l : Bytes} (h : ∀ b ∈ l, b ≠ 10) : csvLineEnd (l ++ [10]) = unixLines (l ++ [10]) := by
  rcases List.eq_nil_or_concat l with rfl | ⟨l', x, rfl⟩
  · rfl
  · have hl : l' ++ [x] ++ [10] = l' ++ [x, 10] := by simp
    have hl' : ∀ b ∈ l', b ≠ 10 := fun b hb => h b (by simp [hb])
    simp only [List.concat_eq_append] at h ⊢
    rw [hl, unixLines_append l' [x, 10] (.inr (by simpa using h x (by simp))), unixLines_plain hl']
    unfold csvLineEnd
    simp only [List.length_append, List.length_cons, List.length_nil, Nat.add_sub_cancel, List.drop_left', List.take_left', unixLines]
    by_cases hx : x = 13
    · subst hx; simp
    · rw [if_neg (by simpa using hx), if_neg (fun e => hx e.1)]

/-! ### Cells and rows -/

theorem unixLines_double : ∀ (l : Bytes), unixLines (doubleQuotes l) = doubleQuotes (unixLines l)
  | [] => rfl
  | [x] => by
    by_cases hx : x = 34
    · subst hx; rfl
    · simp [doubleQuotes, unixLines, hx]
  | x :: y :: l => by
    have ih := unixLines_double (y :: l)
    have ih' := unixLines_double l
    by_cases hx : x = 34
    · subst hx
      rw [show doubleQuotes (34 :: y :: l) = [34, 34] ++ doubleQuotes (y :: l) from rfl, unixLines_append _ _ (.inl (by decide)), ih]
      rfl
    · rw [show doubleQuotes (x :: y :: l) = x :: doubleQuotes (y :: l) by simp [doubleQuotes, hx]]
      by_cases hxy : x = 13 ∧ y = 10
      · obtain ⟨rfl, rfl⟩ := hxy
        rw [show doubleQuotes (10 :: l) = 10 :: doubleQuotes l by simp [doubleQuotes]]
        simp only [unixLines, and_self, if_true, ih']
        simp [doubleQuotes]
      · have hu : unixLines (x :: y :: l) = x :: unixLines (y :: l) := by simp only [unixLines]; rw [if_neg hxy]
        rw [hu, show doubleQuotes (x :: unixLines (y :: l)) = x :: doubleQuotes (unixLines (y :: l)) by simp [doubleQuotes, hx], ← ih]
        have hhead : ∃ z t, doubleQuotes (y :: l) = z :: t ∧ z = y := by
          simp only [doubleQuotes]
          split
          · rename_i hy; exact ⟨34, _, rfl, hy.symm⟩
          · exact ⟨y, _, rfl, rfl⟩
        obtain ⟨z, t, hz, rfl⟩ := hhead
        rw [hz]
        simp only [unixLines]
        rw [if_neg hxy]

theorem fold_quoted (comma : UInt8) (cells : List Bytes) : ∀ (text cell : Bytes),
    (doubleQuotes text).foldl (csvByte comma) ⟨.quoted, cells, cell⟩ = ⟨.quoted, cells, cell ++ text⟩
  | [], cell => by simp [doubleQuotes]
  | b :: text, cell => by
    by_cases hb : b = 34
    · subst hb
      simp only [doubleQuotes, if_true, List.foldl_cons, csvByte]
      rw [fold_quoted comma cells text]; simp
    · simp only [doubleQuotes, hb, if_false, List.foldl_cons, csvByte]
      rw [fold_quoted comma cells text]; simp

theorem fold_plain {comma : UInt8} (cells : List Bytes) : ∀ (text cell : Bytes), (∀ b ∈ text, b ≠ comma ∧ b ≠ 34 ∧ b ≠ 10 ∧ b ≠ 13) →
    text.foldl (csvByte comma) ⟨.plain, cells, cell⟩ = ⟨.plain, cells, cell ++ text⟩
  | [], cell, _ => by simp
  | b :: text, cell, h => by
    obtain ⟨h1, h2, h3, _⟩ := h b (by simp)
    simp only [List.foldl_cons, csvByte, h1, h2, h3, if_false]
    rw [fold_plain cells text _ (fun b hb => h b (by simp [hb]))]; simp

/-- A row is complete here, unless it goes on with another cell. -/
def CsvMode.between : CsvMode → Prop
  | .field => True
  | .plain => True
  | .quote => True
  | _ => False

theorem Spec.CellText.no_cr {comma : UInt8} {cell text : Bytes} (h : CellText comma cell text) : text.getLast? ≠ some 13 := by
  cases h with
  | plain h =>
    intro e
    exact (h 13 (List.mem_of_getLast? e)).2.2.2 rfl
  | quoted => rw [List.getLast?_append]; simp

theorem Spec.CellText.fold {comma : UInt8} {cell text : Bytes} (h : CellText comma cell text) (cells : List Bytes) :
    ∃ mode, CsvMode.between mode ∧ (unixLines text).foldl (csvByte comma) ⟨.field, cells, []⟩ = ⟨mode, cells, unixLines cell⟩ := by
  cases h with
  | plain h =>
    rw [unixLines_plain (fun b hb => (h b hb).2.2.1)]
    cases cell with
    | nil => exact ⟨.field, trivial, rfl⟩
    | cons b text =>
      obtain ⟨h1, h2, h3, _⟩ := h b (by simp)
      refine ⟨.plain, trivial, ?_⟩
      simp only [List.foldl_cons, csvByte, h1, h2, h3, if_false]
      rw [fold_plain cells text _ (fun b hb => h b (by simp [hb]))]; simp
  | quoted =>
    refine ⟨.quote, trivial, ?_⟩
    rw [unixLines_append (34 :: doubleQuotes cell) [34] (.inr (by decide)), show 34 :: doubleQuotes cell = [34] ++ doubleQuotes cell from rfl,
      unixLines_append [34] (doubleQuotes cell) (.inl (by decide)), unixLines_double, List.foldl_append, List.foldl_append]
    show List.foldl (csvByte comma) (List.foldl (csvByte comma) ⟨.quoted, cells, []⟩ _) [34] = _
    rw [fold_quoted]
    simp [csvByte]

theorem csvByte_comma {comma : UInt8} (hg : GoodDelimiter comma) {mode : CsvMode} (hm : mode.between) (cells : List Bytes) (cell : Bytes) :
    csvByte comma ⟨mode, cells, cell⟩ comma = ⟨.field, cells ++ [cell], []⟩ := by
  cases mode <;> simp_all [csvByte, CsvMode.between, GoodDelimiter]

theorem csvByte_lf {comma : UInt8} (hg : GoodDelimiter comma) {mode : CsvMode} (hm : mode.between) (cells : List Bytes) (cell : Bytes) :
    csvByte comma ⟨mode, cells, cell⟩ 10 = ⟨.ended, cells, cell⟩ := by
  have : ¬ (10 = comma) := fun e => hg.2.1 e.symm
  cases mode <;> simp_all [csvByte, CsvMode.between]

theorem Spec.RowText.no_cr {comma : UInt8} (hg : GoodDelimiter comma) {cells : List Bytes} {text : Bytes} (h : RowText comma cells text) : text.getLast? ≠ some 13 := by
  induction h with
  | one h => exact h.no_cr
  | @cons cell text rest cells h h' ih =>
    intro e
    cases rest with
    | nil => simp at e; exact hg.2.2.1 e
    | cons b rest =>
      rw [List.getLast?_append] at e
      rw [List.getLast?_cons_cons] at e
      cases hl : (b :: rest).getLast? with
      | none => simp at hl
      | some z => rw [hl] at e ih; simp at e; exact ih (by rw [e])

theorem Spec.RowText.unix {comma : UInt8} (hg : GoodDelimiter comma) {cell text : Bytes} (h : CellText comma cell text) (rest : Bytes) :
    unixLines (text ++ comma :: rest) = unixLines text ++ comma :: unixLines rest := by
  rw [unixLines_append _ _ (.inl h.no_cr), show comma :: rest = [comma] ++ rest from rfl, unixLines_append [comma] rest (.inl (by
    simpa using hg.2.2.1))]
  rfl

theorem Spec.RowText.fold {comma : UInt8} (hg : GoodDelimiter comma) {cells : List Bytes} {text : Bytes} (h : RowText comma cells text) : ∀ (before : List Bytes),
    ∃ mode cs c, CsvMode.between mode ∧ (unixLines text).foldl (csvByte comma) ⟨.field, before, []⟩ = ⟨mode, cs, c⟩ ∧
      cs ++ [c] = before ++ cells.map unixLines := by
  induction h with
  | one h =>
    intro before
    obtain ⟨mode, h1, h2⟩ := h.fold before
    exact ⟨mode, _, _, h1, h2, rfl⟩
  | @cons cell text rest cells h h' ih =>
    intro before
    obtain ⟨mode, h1, h2⟩ := h.fold before
    obtain ⟨mode', cs, c, h3, h4, h5⟩ := ih (before ++ [unixLines cell])
    refine ⟨mode', cs, c, h3, ?_, by rw [h5]; simp⟩
    rw [RowText.unix hg h, List.foldl_append, h2, List.foldl_cons, csvByte_comma hg h1, h4]

/-- A line feed inside the text of a row is between quotes. -/
theorem fold_double_prefix (comma : UInt8) (cells : List Bytes) : ∀ (text p q cell : Bytes), doubleQuotes text = p ++ 10 :: q →
    ∃ c, p.foldl (csvByte comma) ⟨.quoted, cells, cell⟩ = ⟨.quoted, cells, c⟩
  | [], p, q, cell, h => by simp [doubleQuotes] at h
  | b :: text, p, q, cell, h => by
    by_cases hb : b = 34
    · subst hb
      simp only [doubleQuotes, if_true] at h
      match p, h with
      | [], h => simp at h
      | [x], h => simp at h
      | x :: y :: p, h =>
        simp only [List.cons_append, List.cons.injEq] at h
        obtain ⟨rfl, rfl, h⟩ := h
        obtain ⟨c, hc⟩ := fold_double_prefix comma cells text p q (cell ++ [34]) h
        exact ⟨c, by simpa [csvByte] using hc⟩
    · simp only [doubleQuotes, hb, if_false] at h
      match p, h with
      | [], h => exact ⟨cell, rfl⟩
      | x :: p, h =>
        simp only [List.cons_append, List.cons.injEq] at h
        obtain ⟨rfl, h⟩ := h
        obtain ⟨c, hc⟩ := fold_double_prefix comma cells text p q (cell ++ [b]) h
        exact ⟨c, by simpa [csvByte, hb] using hc⟩

theorem append_split {α : Type} : ∀ {a b p q : List α} {x : α}, a ++ b = p ++ x :: q → (∃ a', a = p ++ x :: a' ∧ q = a' ++ b) ∨ (∃ p', p = a ++ p' ∧ b = p' ++ x :: q)
  | [], b, p, q, x, h => .inr ⟨p, rfl, h⟩
  | y :: a, b, [], q, x, h => by
    simp only [List.cons_append, List.nil_append, List.cons.injEq] at h
    obtain ⟨rfl, rfl⟩ := h
    exact .inl ⟨a, rfl, rfl⟩
  | y :: a, b, z :: p, q, x, h => by
    simp only [List.cons_append, List.cons.injEq] at h
    obtain ⟨rfl, h⟩ := h
    rcases append_split h with ⟨a', h1, h2⟩ | ⟨p', h1, h2⟩
    · exact .inl ⟨a', by rw [h1]; rfl, h2⟩
    · exact .inr ⟨p', by rw [h1]; rfl, h2⟩

/-- Each line of the text of a row but the last one ends between quotes. -/
theorem Spec.CellText.inner {comma : UInt8} {cell text : Bytes} (h : CellText comma cell text) (cells : List Bytes) {p q : Bytes} (hp : unixLines text = p ++ 10 :: q) :
    ∃ c, (p ++ [10]).foldl (csvByte comma) ⟨.field, cells, []⟩ = ⟨.quoted, cells, c⟩ := by
  cases h with
  | plain h =>
    rw [unixLines_plain (fun b hb => (h b hb).2.2.1)] at hp
    exact ((h 10 (by rw [hp]; simp)).2.2.1 rfl).elim
  | quoted =>
    rw [unixLines_append (34 :: doubleQuotes cell) [34] (.inr (by decide)), show 34 :: doubleQuotes cell = [34] ++ doubleQuotes cell from rfl,
      unixLines_append [34] (doubleQuotes cell) (.inl (by decide)), unixLines_double] at hp
    simp only [unixLines] at hp
    cases p with
    | nil => simp at hp
    | cons x p =>
      simp only [List.cons_append, List.nil_append, List.cons.injEq] at hp
      obtain ⟨rfl, hp⟩ := hp
      rcases append_split hp with ⟨a', h1, _⟩ | ⟨p', h1, h2⟩
      · obtain ⟨c, hc⟩ := fold_double_prefix comma cells _ p a' [] h1
        refine ⟨c ++ [10], ?_⟩
        rw [List.foldl_append, show 34 :: p = [34] ++ p from rfl, List.foldl_append]
        show List.foldl (csvByte comma) (List.foldl (csvByte comma) ⟨.quoted, cells, []⟩ p) [10] = _
        rw [hc]
        simp [csvByte]
      · cases p' with
        | nil => simp at h2
        | cons y p' => simp at h2

theorem Spec.RowText.inner {comma : UInt8} (hg : GoodDelimiter comma) {cells : List Bytes} {text : Bytes} (h : RowText comma cells text) : ∀ (before : List Bytes) {p q : Bytes},
    unixLines text = p ++ 10 :: q → ∃ cs c, (p ++ [10]).foldl (csvByte comma) ⟨.field, before, []⟩ = ⟨.quoted, cs, c⟩ := by
  induction h with
  | one h =>
    intro before p q hp
    obtain ⟨c, hc⟩ := h.inner before hp
    exact ⟨_, c, hc⟩
  | @cons cell text rest cells h h' ih =>
    intro before p q hp
    rw [RowText.unix hg h] at hp
    rcases append_split hp with ⟨a', h1, _⟩ | ⟨p', h1, h2⟩
    · obtain ⟨c, hc⟩ := h.inner before h1
      exact ⟨_, c, hc⟩
    · cases p' with
      | nil =>
        simp only [List.nil_append, List.cons.injEq] at h2
        exact (hg.2.1 h2.1).elim
      | cons y p' =>
        simp only [List.cons_append, List.cons.injEq] at h2
        obtain ⟨rfl, h2⟩ := h2
        obtain ⟨mode, h3, h4⟩ := h.fold before
        obtain ⟨cs, c, h5⟩ := ih (before ++ [unixLines cell]) h2
        refine ⟨cs, c, ?_⟩
        rw [h1, List.append_assoc, List.foldl_append, h4, List.cons_append, List.foldl_cons, csvByte_comma hg h3, h5]

/-! ### Reading a record -/

theorem readItem_byte (comma : UInt8) (s : CsvState) {b : UInt8} (hb : b ≠ 10) (rest : Bytes) :
    readItem (csvRecordReader comma) s (b :: rest) =
      ((readItem (csvRecordReader comma) { s with line := s.line ++ [b] } rest).1, (readItem (csvRecordReader comma) { s with line := s.line ++ [b] } rest).2 + 1) := by
  have : (csvRecordReader comma).step s b = .inl { s with line := s.line ++ [b] } := if_neg hb
  simp only [readItem, this]

theorem readItem_lf_more {comma : UInt8} {s s' : CsvState} (rest : Bytes) (h : csvTakeLine comma s.before (csvLineEnd (s.line ++ [10])) = .inl s') :
    readItem (csvRecordReader comma) s (10 :: rest) =
      ((readItem (csvRecordReader comma) s' rest).1, (readItem (csvRecordReader comma) s' rest).2 + 1) := by
  have : (csvRecordReader comma).step s 10 = .inl s' := h
  simp only [readItem, this]

theorem readItem_lf_done {comma : UInt8} {s : CsvState} {a : CsvRead} (rest : Bytes) (h : csvTakeLine comma s.before (csvLineEnd (s.line ++ [10])) = .inr a) :
    readItem (csvRecordReader comma) s (10 :: rest) = (a, 1) := by
  have : (csvRecordReader comma).step s 10 = .inr a := h
  simp only [readItem, this]

/-- The lines of a record, `l` being the part of the current line that has been read. -/
theorem readItem_record {comma : UInt8} {e : Bytes} (he : LineEnd e) {cells : List Bytes} (rest : Bytes) : ∀ (t l : Bytes) (before : CsvLine),
    (∀ b ∈ l, b ≠ 10) →
    (∀ p q, unixLines (l ++ t) = p ++ 10 :: q → ∃ cs c, (p ++ [10]).foldl (csvByte comma) before = ⟨.quoted, cs, c⟩) →
    (l ++ t).getLast? ≠ some 13 →
    (l ++ t ≠ [] ∨ before ≠ CsvState.start.before) →
    (∃ cs c, (unixLines (l ++ t) ++ [10]).foldl (csvByte comma) before = ⟨.ended, cs, c⟩ ∧ cs ++ [c] = cells) →
    readItem (csvRecordReader comma) ⟨l, before⟩ (t ++ e ++ rest) = (.row cells, t.length + e.length)
  | [], l, before, hl, _, hcr, hne, ⟨cs, c, hend, hcells⟩ => by
    simp only [List.append_nil] at hcr hne hend
    have hu : unixLines l = l := unixLines_plain hl
    rw [hu] at hend
    have hnb : ¬ (before = CsvState.start.before ∧ (l ++ [10] = [] ∨ l ++ [10] = [10])) := by
      rintro ⟨rfl, h | h⟩
      · simp at h
      · rcases hne with hne | hne
        · exact hne (by simpa using h)
        · exact hne rfl
    have htake : csvTakeLine comma before (l ++ [10]) = .inr (.row cells) := by
      unfold csvTakeLine
      rw [if_neg hnb, hend]
      simp only [hcells]
    rcases he with rfl | rfl
    · have h1 : csvLineEnd (l ++ [10]) = l ++ [10] := by
        rw [csvLineEnd_eq hl, unixLines_append _ _ (.inl hcr), hu]; rfl
      exact readItem_lf_done rest (by rw [show (CsvState.mk l before).line = l from rfl, h1]; exact htake)
    · show readItem (csvRecordReader comma) ⟨l, before⟩ (13 :: 10 :: rest) = _
      rw [readItem_byte comma _ (by decide)]
      have h1 : csvLineEnd (l ++ [13] ++ [10]) = l ++ [10] := by
        unfold csvLineEnd
        simp
      rw [readItem_lf_done rest (a := .row cells) (by
        show csvTakeLine comma before (csvLineEnd (l ++ [13] ++ [10])) = _
        rw [h1]; exact htake)]
      rfl
  | b :: t, l, before, hl, hin, hcr, hne, hend => by
    have hlt : l ++ b :: t = (l ++ [b]) ++ t := by simp
    by_cases hb : b = 10
    · subst hb
      have hu : unixLines (l ++ 10 :: t) = csvLineEnd (l ++ [10]) ++ unixLines t := by
        rw [hlt, unixLines_append _ _ (.inl (by simp)), csvLineEnd_eq hl]
      have hsplit : ∃ p, csvLineEnd (l ++ [10]) = p ++ [10] := by
        unfold csvLineEnd
        split
        · exact ⟨_, rfl⟩
        · exact ⟨_, rfl⟩
      obtain ⟨p, hp⟩ := hsplit
      obtain ⟨cs, c, hq⟩ := hin p (unixLines t) (by rw [hu, hp]; simp)
      have htake : csvTakeLine comma before (csvLineEnd (l ++ [10])) = .inl ⟨[], ⟨.quoted, cs, c⟩⟩ := by
        unfold csvTakeLine
        rw [hp, if_neg, hq]
        rintro ⟨rfl, h | h⟩
        · simp at h
        · have hpn : p = [] := by simpa using h
          rw [hpn] at hq
          simp only [List.nil_append, List.foldl_cons, List.foldl_nil, CsvState.start, csvByte] at hq
          split at hq
          · rename_i h; cases h
          · split at hq
            · cases hq
            · simp at hq
      rw [List.cons_append, List.cons_append]
      rw [readItem_lf_more (s := ⟨l, before⟩) _ htake]
      have := readItem_record he rest t [] ⟨.quoted, cs, c⟩ (by simp) (by
          intro p' q' hp'
          obtain ⟨cs', c', hc'⟩ := hin (p ++ [10] ++ p') q' (by
            rw [hu, hp]
            simp only [List.nil_append] at hp'
            rw [hp']; simp)
          refine ⟨cs', c', ?_⟩
          rw [List.append_assoc (p ++ [10]) p' [10], List.foldl_append, hq] at hc'
          exact hc') (by
          intro hl13
          simp only [List.nil_append] at hl13
          apply hcr
          rw [List.getLast?_append, List.getLast?_cons, hl13]
          rfl) (.inr (by intro h; cases h)) (by
          obtain ⟨cs', c', h1, h2⟩ := hend
          refine ⟨cs', c', ?_, h2⟩
          rw [hu, hp, List.append_assoc, List.foldl_append, hq] at h1
          exact h1)
      rw [this]
      simp only [List.length_cons]
      congr 1
      omega
    · rw [List.cons_append, List.cons_append, readItem_byte comma _ hb]
      have := readItem_record he rest t (l ++ [b]) before (by
          intro x hx
          rcases List.mem_append.1 hx with hx | hx
          · exact hl x hx
          · rw [List.mem_singleton.1 hx]; exact hb) (by rw [← hlt]; exact hin) (by rw [← hlt]; exact hcr) (by
            rw [← hlt]; exact .inl (by simp)) (by rw [← hlt]; exact hend)
      rw [this]
      simp only [List.length_cons]
      congr 1
      omega

/-- The last line of a file, without an end. -/
theorem readItem_last {comma : UInt8} {cells : List Bytes} : ∀ (t l : Bytes) (before : CsvLine),
    (∀ b ∈ l, b ≠ 10) →
    (∀ p q, unixLines (l ++ t) = p ++ 10 :: q → ∃ cs c, (p ++ [10]).foldl (csvByte comma) before = ⟨.quoted, cs, c⟩) →
    (l ++ t).getLast? ≠ some 13 →
    (l ++ t ≠ [] ∨ before ≠ CsvState.start.before) →
    (∃ mode cs c, mode.between ∧ (unixLines (l ++ t)).foldl (csvByte comma) before = ⟨mode, cs, c⟩ ∧ cs ++ [c] = cells) →
    readItem (csvRecordReader comma) ⟨l, before⟩ t = (.row cells, t.length)
  | [], l, before, hl, _, hcr, hne, ⟨mode, cs, c, hmode, hend, hcells⟩ => by
    simp only [List.append_nil] at hcr hne hend
    rw [unixLines_plain hl] at hend
    have htake : csvTakeLine comma before (csvFileEnd l) = .inr (.row cells) := by
      unfold csvTakeLine csvFileEnd
      rw [if_neg hcr, if_neg, hend]
      · cases mode <;> simp_all [CsvMode.between]
      · rintro ⟨h1, h | h⟩
        · exact hne.elim (fun e => e h) (fun e => e h1)
        · exact hl 10 (by rw [h]; simp) rfl
    have : (csvRecordReader comma).eof ⟨l, before⟩ = .row cells := by
      show (match csvTakeLine comma before (csvFileEnd l) with
        | .inr a => a
        | .inl s => if s = CsvState.start then CsvRead.eof else .bad) = _
      rw [htake]
    simp only [readItem, this, List.length_nil]
  | b :: t, l, before, hl, hin, hcr, hne, hend => by
    have hlt : l ++ b :: t = (l ++ [b]) ++ t := by simp
    by_cases hb : b = 10
    · subst hb
      have hu : unixLines (l ++ 10 :: t) = csvLineEnd (l ++ [10]) ++ unixLines t := by
        rw [hlt, unixLines_append _ _ (.inl (by simp)), csvLineEnd_eq hl]
      have hsplit : ∃ p, csvLineEnd (l ++ [10]) = p ++ [10] := by
        unfold csvLineEnd
        split
        · exact ⟨_, rfl⟩
        · exact ⟨_, rfl⟩
      obtain ⟨p, hp⟩ := hsplit
      obtain ⟨cs, c, hq⟩ := hin p (unixLines t) (by rw [hu, hp]; simp)
      have htake : csvTakeLine comma before (csvLineEnd (l ++ [10])) = .inl ⟨[], ⟨.quoted, cs, c⟩⟩ := by
        unfold csvTakeLine
        rw [hp, if_neg, hq]
        rintro ⟨rfl, h | h⟩
        · simp at h
        · have hpn : p = [] := by simpa using h
          rw [hpn] at hq
          simp only [List.nil_append, List.foldl_cons, List.foldl_nil, CsvState.start, csvByte] at hq
          split at hq
          · rename_i h; cases h
          · split at hq
            · cases hq
            · simp at hq
      rw [readItem_lf_more (s := ⟨l, before⟩) _ htake]
      have := readItem_last t [] ⟨.quoted, cs, c⟩ (by simp) (by
          intro p' q' hp'
          obtain ⟨cs', c', hc'⟩ := hin (p ++ [10] ++ p') q' (by
            rw [hu, hp]
            simp only [List.nil_append] at hp'
            rw [hp']; simp)
          refine ⟨cs', c', ?_⟩
          rw [List.append_assoc (p ++ [10]) p' [10], List.foldl_append, hq] at hc'
          exact hc') (by
          intro hl13
          simp only [List.nil_append] at hl13
          apply hcr
          rw [List.getLast?_append, List.getLast?_cons, hl13]
          rfl) (.inr (by intro h; cases h)) (by
          obtain ⟨mode, cs', c', h0, h1, h2⟩ := hend
          refine ⟨mode, cs', c', h0, ?_, h2⟩
          rw [hu, hp, List.foldl_append, hq] at h1
          exact h1)
      rw [this]
      simp only [List.length_cons]
    · rw [readItem_byte comma _ hb]
      have := readItem_last t (l ++ [b]) before (by
          intro x hx
          rcases List.mem_append.1 hx with hx | hx
          · exact hl x hx
          · rw [List.mem_singleton.1 hx]; exact hb) (by rw [← hlt]; exact hin) (by rw [← hlt]; exact hcr) (by
            rw [← hlt]; exact .inl (by simp)) (by rw [← hlt]; exact hend)
      rw [this]
      simp only [List.length_cons]

theorem Spec.RowText.read {comma : UInt8} (hg : GoodDelimiter comma) {cells : List Bytes} {text e : Bytes} (h : RowText comma cells text) (hne : text ≠ [])
    (he : LineEnd e) (rest : Bytes) :
    readItem (csvRecordReader comma) (csvRecordReader comma).init (text ++ e ++ rest) = (.row (cells.map unixLines), text.length + e.length) := by
  refine readItem_record he rest text [] CsvState.start.before (by simp) (fun p q hp => h.inner hg [] hp) (h.no_cr hg) (.inl hne) ?_
  obtain ⟨mode, cs, c, h1, h2, h3⟩ := h.fold hg []
  refine ⟨cs, c, ?_, h3⟩
  rw [List.nil_append, List.foldl_append]
  rw [show CsvState.start.before = ⟨.field, [], []⟩ from rfl, h2]
  exact csvByte_lf hg h1 cs c

theorem Spec.RowText.read_last {comma : UInt8} (hg : GoodDelimiter comma) {cells : List Bytes} {text : Bytes} (h : RowText comma cells text) (hne : text ≠ []) :
    readItem (csvRecordReader comma) (csvRecordReader comma).init text = (.row (cells.map unixLines), text.length) := by
  refine readItem_last text [] CsvState.start.before (by simp) (fun p q hp => h.inner hg [] hp) (h.no_cr hg) (.inl hne) ?_
  obtain ⟨mode, cs, c, h1, h2, h3⟩ := h.fold hg []
  exact ⟨mode, cs, c, h1, h2, h3⟩

theorem blank_read (comma : UInt8) {e : Bytes} (he : LineEnd e) (rest : Bytes) :
    readItem (csvRecordReader comma) (csvRecordReader comma).init (e ++ rest) =
      ((readItem (csvRecordReader comma) (csvRecordReader comma).init rest).1, (readItem (csvRecordReader comma) (csvRecordReader comma).init rest).2 + e.length) := by
  have h1 : csvTakeLine comma CsvState.start.before [10] = .inl CsvState.start := by
    unfold csvTakeLine
    rw [if_pos ⟨rfl, .inr rfl⟩]
  rcases he with rfl | rfl
  · exact readItem_lf_more (s := CsvState.start) rest h1
  · show readItem (csvRecordReader comma) CsvState.start (13 :: 10 :: rest) = _
    rw [readItem_byte comma _ (by decide), readItem_lf_more (s' := CsvState.start) rest (by exact h1)]
    rfl

/-! ### Reading a file -/

theorem Spec.CsvRows.skip {m : ItemReader CsvRead} {content : Bytes} {p k : Nat} {rows : List (Nat × List Bytes)} {complete : Bool}
    (h : CsvRows m content (p + k) rows complete)
    (hskip : readItem m m.init (content.drop p) =
      ((readItem m m.init (content.drop (p + k))).1, (readItem m m.init (content.drop (p + k))).2 + k)) :
    ∃ rows', CsvRows m content p rows' complete ∧ rows'.map (·.2) = rows.map (·.2) := by
  cases h with
  | eof h => exact ⟨[], .eof (by unfold firstItem at h ⊢; rw [hskip]; exact h), rfl⟩
  | bad h => exact ⟨[], .bad (by unfold firstItem at h ⊢; rw [hskip]; exact h), rfl⟩
  | @row _ n cells rest _ h1 h2 =>
    refine ⟨(p, cells) :: rest, .row (n := n + k) (by rw [hskip, h1]) ?_, rfl⟩
    rw [show p + (n + k) = p + k + n by omega]
    exact h2

theorem Spec.CellText.no_lf {comma : UInt8} {cell text : Bytes} (h : CellText comma cell text) : text.getLast? ≠ some 10 := by
  cases h with
  | plain h =>
    intro e
    exact (h 10 (List.mem_of_getLast? e)).2.2.1 rfl
  | quoted => rw [List.getLast?_append]; simp

theorem Spec.RowText.no_lf {comma : UInt8} (hg : GoodDelimiter comma) {cells : List Bytes} {text : Bytes} (h : RowText comma cells text) : text.getLast? ≠ some 10 := by
  induction h with
  | one h => exact h.no_lf
  | @cons cell text rest cells h h' ih =>
    intro e
    cases rest with
    | nil => simp at e; exact hg.2.1 e
    | cons b rest =>
      rw [List.getLast?_append] at e
      rw [List.getLast?_cons_cons] at e
      cases hl : (b :: rest).getLast? with
      | none => simp at hl
      | some z => rw [hl] at e ih; simp at e; exact ih (by rw [e])

/-- The rows of a written table that ends with a line end, and what follows them. -/
theorem Spec.CsvText.rows_then {comma : UInt8} (hg : GoodDelimiter comma) {content : Bytes} {table : List (List Bytes)} {text : Bytes} (h : CsvText comma table text) :
    (text = [] ∨ text.getLast? = some 10) → ∀ (p : Nat) (tail : Bytes), content.drop p = text ++ tail →
    ∀ rest complete, CsvRows (csvRecordReader comma) content (p + text.length) rest complete →
    ∃ rows, CsvRows (csvRecordReader comma) content p rows complete ∧ rows.map (·.2) = table.map (fun cells => cells.map unixLines) ++ rest.map (·.2) := by
  induction h with
  | done =>
    intro _ p tail hp rest complete hrest
    exact ⟨rest, hrest, rfl⟩
  | @blank table e text he ht ih =>
    intro hend p tail hp rest complete hrest
    have hend' : text = [] ∨ text.getLast? = some 10 := by
      cases text with
      | nil => exact .inl rfl
      | cons b text =>
        rcases hend with h | h
        · rcases he with rfl | rfl <;> cases h
        · rw [List.getLast?_append] at h
          cases hl : (b :: text).getLast? with
          | none => simp at hl
          | some z => rw [hl] at h; exact .inr h
    have hd : content.drop (p + e.length) = text ++ tail := by rw [← List.drop_drop, hp]; simp
    obtain ⟨rows, h1, h2⟩ := ih hend' (p + e.length) tail hd rest complete (by rw [List.length_append, ← Nat.add_assoc] at hrest; exact hrest)
    obtain ⟨rows', h3, h4⟩ := h1.skip (by rw [hp, hd, List.append_assoc]; exact blank_read comma he _)
    exact ⟨rows', h3, by rw [h4, h2]⟩
  | @row cells table text e more hr hne he _ ih =>
    intro hend p tail hp rest complete hrest
    have hend' : more = [] ∨ more.getLast? = some 10 := by
      cases more with
      | nil => exact .inl rfl
      | cons b more =>
        rcases hend with h | h
        · simp at h
        · rw [List.getLast?_append] at h
          cases hl : (b :: more).getLast? with
          | none => simp at hl
          | some z => rw [hl] at h; exact .inr h
    have hd : content.drop (p + (text.length + e.length)) = more ++ tail := by
      rw [← List.drop_drop, hp, ← List.length_append]; simp
    obtain ⟨rows, h1, h2⟩ := ih hend' _ tail hd rest complete (by
      rw [List.length_append, List.length_append, ← Nat.add_assoc] at hrest; exact hrest)
    refine ⟨(p, cells.map unixLines) :: rows, .row ?_ h1, by simp [h2]⟩
    rw [hp, List.append_assoc]
    exact hr.read hg hne he _
  | @last cells text hr hne =>
    intro hend
    rcases hend with h | h
    · exact (hne h).elim
    · exact (hr.no_lf hg h).elim

/-- The rows of a written table. -/
theorem Spec.CsvText.rows {comma : UInt8} (hg : GoodDelimiter comma) {content : Bytes} {table : List (List Bytes)} {text : Bytes} (h : CsvText comma table text) :
    ∀ (p : Nat), content.drop p = text → ∃ rows, CsvRows (csvRecordReader comma) content p rows true ∧ rows.map (·.2) = table.map (fun cells => cells.map unixLines) := by
  induction h with
  | done =>
    intro p hp
    refine ⟨[], .eof ?_, rfl⟩
    rw [hp]
    exact csvRecordReader_end comma
  | @blank table e rest he _ ih =>
    intro p hp
    have hd : content.drop (p + e.length) = rest := by rw [← List.drop_drop, hp]; simp
    obtain ⟨rows, h1, h2⟩ := ih (p + e.length) hd
    obtain ⟨rows', h3, h4⟩ := h1.skip (by rw [hp, hd]; exact blank_read comma he rest)
    exact ⟨rows', h3, by rw [h4, h2]⟩
  | @row cells table text e rest hr hne he _ ih =>
    intro p hp
    have hd : content.drop (p + (text.length + e.length)) = rest := by
      rw [← List.drop_drop, hp, ← List.length_append]; simp
    obtain ⟨rows, h1, h2⟩ := ih _ hd
    refine ⟨(p, cells.map unixLines) :: rows, .row ?_ h1, by simp [h2]⟩
    rw [hp]
    exact hr.read hg hne he rest
  | @last cells text hr hne =>
    intro p hp
    have hd : content.drop (p + text.length) = [] := by rw [← List.drop_drop, hp]; simp
    refine ⟨[(p, cells.map unixLines)], .row (n := text.length) ?_ (.eof ?_), rfl⟩
    · rw [hp]
      exact hr.read_last hg hne
    · rw [hd]
      exact csvRecordReader_end comma

/-! ### Malformed rows -/

theorem fold_bad (comma : UInt8) (cells : List Bytes) (cell : Bytes) : ∀ (l : Bytes), l.foldl (csvByte comma) ⟨.bad, cells, cell⟩ = ⟨.bad, cells, cell⟩
  | [] => rfl
  | _ :: l => fold_bad comma cells cell l

/-- Reading a line without line feeds. -/
theorem readItem_line (comma : UInt8) (rest : Bytes) : ∀ (t l : Bytes) (before : CsvLine), (∀ b ∈ t, b ≠ 10) →
    readItem (csvRecordReader comma) ⟨l, before⟩ (t ++ rest) =
      ((readItem (csvRecordReader comma) ⟨l ++ t, before⟩ rest).1, (readItem (csvRecordReader comma) ⟨l ++ t, before⟩ rest).2 + t.length)
  | [], l, before, _ => by simp
  | b :: t, l, before, h => by
    rw [List.cons_append, readItem_byte comma _ (h b (by simp))]
    simp only
    rw [readItem_line comma rest t (l ++ [b]) before (fun x hx => h x (by simp [hx]))]
    simp only [List.append_assoc, List.singleton_append, List.length_cons]
    congr 1

/-- A line with a misplaced quote. -/
theorem readItem_bad {comma : UInt8} {line : Bytes} (hlf : ∀ b ∈ line, b ≠ 10) (hcr : line.getLast? ≠ some 13)
    (hbad : (line.foldl (csvByte comma) CsvState.start.before).mode = .bad) (rest : Bytes)
    (hrest : rest = [] ∨ ∃ e r, LineEnd e ∧ rest = e ++ r) : firstItem (csvRecordReader comma) (line ++ rest) = .bad := by
  have hne : line ≠ [] := by
    intro e
    subst e
    cases hbad
  have htake : csvTakeLine comma CsvState.start.before line = .inr .bad := by
    unfold csvTakeLine
    rw [if_neg]
    · simp only [hbad]
    · rintro ⟨_, h | h⟩
      · exact hne h
      · exact hlf 10 (by rw [h]; simp) rfl
  have htake' : csvTakeLine comma CsvState.start.before (line ++ [10]) = .inr .bad := by
    unfold csvTakeLine
    rw [if_neg, List.foldl_append]
    · generalize line.foldl (csvByte comma) CsvState.start.before = s at hbad
      obtain ⟨m, cells, cell⟩ := s
      cases hbad
      rw [fold_bad]
    · rintro ⟨_, h | h⟩
      · simp at h
      · exact hne (by simpa using h)
  have h1 : csvLineEnd (line ++ [10]) = line ++ [10] := by
    rw [csvLineEnd_eq hlf, unixLines_append _ _ (.inl hcr), unixLines_plain hlf]; rfl
  unfold firstItem
  rw [show (csvRecordReader comma).init = (⟨[], CsvState.start.before⟩ : CsvState) from rfl, readItem_line comma rest line [] _ hlf]
  rcases hrest with rfl | ⟨e, r, rfl | rfl, rfl⟩
  · show (csvRecordReader comma).eof ⟨line, CsvState.start.before⟩ = .bad
    show (match csvTakeLine comma CsvState.start.before (csvFileEnd line) with
      | .inr a => a
      | .inl s => if s = CsvState.start then CsvRead.eof else .bad) = .bad
    unfold csvFileEnd
    rw [if_neg hcr, htake]
  · show (readItem (csvRecordReader comma) (⟨line, CsvState.start.before⟩ : CsvState) (10 :: r)).1 = .bad
    rw [readItem_lf_done r (a := .bad) (by show csvTakeLine comma CsvState.start.before (csvLineEnd (line ++ [10])) = _; rw [h1]; exact htake')]
  · simp only [List.nil_append]
    show (readItem (csvRecordReader comma) ⟨line, CsvState.start.before⟩ (13 :: 10 :: r)).1 = .bad
    rw [readItem_byte comma _ (by decide)]
    have h2 : csvLineEnd (line ++ [13] ++ [10]) = line ++ [10] := by
      unfold csvLineEnd
      simp
    rw [readItem_lf_done r (a := .bad) (by
      show csvTakeLine comma CsvState.start.before (csvLineEnd (line ++ [13] ++ [10])) = _
      rw [h2]; exact htake')]

theorem csvByte_quoted {comma b : UInt8} (hb : b ≠ 34) {s : CsvLine} {cs : List Bytes} {c : Bytes} (h : csvByte comma s b = ⟨.quoted, cs, c⟩) :
    ∃ c', s = ⟨.quoted, cs, c'⟩ := by
  obtain ⟨m, cells, cell⟩ := s
  cases m with
  | quoted =>
    simp only [csvByte, hb, if_false] at h
    exact ⟨cell, by cases h; rfl⟩
  | field =>
    simp only [csvByte, hb, if_false] at h
    by_cases h1 : b = comma
    · rw [if_pos h1] at h; cases h
    · rw [if_neg h1] at h
      by_cases h2 : b = 10
      · rw [if_pos h2] at h; cases h
      · rw [if_neg h2] at h; cases h
  | plain =>
    simp only [csvByte, hb, if_false] at h
    by_cases h1 : b = comma
    · rw [if_pos h1] at h; cases h
    · rw [if_neg h1] at h
      by_cases h2 : b = 10
      · rw [if_pos h2] at h; cases h
      · rw [if_neg h2] at h; cases h
  | quote =>
    simp only [csvByte, hb, if_false] at h
    by_cases h1 : b = comma
    · rw [if_pos h1] at h; cases h
    · rw [if_neg h1] at h
      by_cases h2 : b = 10
      · rw [if_pos h2] at h; cases h
      · rw [if_neg h2] at h; cases h
  | ended => cases h
  | bad => cases h

/-- Reading up to the end of the file, each line ending between quotes. -/
theorem readItem_open {comma : UInt8} : ∀ (t l : Bytes) (before : CsvLine),
    (∀ b ∈ l, b ≠ 10) →
    (∀ p q, unixLines (l ++ t) = p ++ 10 :: q → ∃ cs c, (p ++ [10]).foldl (csvByte comma) before = ⟨.quoted, cs, c⟩) →
    (∃ cs c, (unixLines (l ++ t)).foldl (csvByte comma) before = ⟨.quoted, cs, c⟩) →
    (readItem (csvRecordReader comma) ⟨l, before⟩ t).1 = .bad
  | [], l, before, hl, _, ⟨cs, c, hend⟩ => by
    simp only [List.append_nil] at hend
    rw [unixLines_plain hl] at hend
    show (match csvTakeLine comma before (csvFileEnd l) with
      | .inr a => a
      | .inl s => if s = CsvState.start then CsvRead.eof else .bad) = .bad
    have hquoted : ∃ c', (csvFileEnd l).foldl (csvByte comma) before = ⟨.quoted, cs, c'⟩ := by
      unfold csvFileEnd
      split
      · rename_i h13
        rcases List.eq_nil_or_concat l with rfl | ⟨l', x, rfl⟩
        · simp at h13
        · simp only [List.concat_eq_append] at hend h13 ⊢
          have hx : x = 13 := by simpa using h13
          subst hx
          rw [List.dropLast_concat]
          rw [List.foldl_append] at hend
          exact csvByte_quoted (by decide) hend
      · exact ⟨c, hend⟩
    obtain ⟨c', hq⟩ := hquoted
    have htake : csvTakeLine comma before (csvFileEnd l) = .inl ⟨[], ⟨.quoted, cs, c'⟩⟩ := by
      unfold csvTakeLine
      rw [if_neg, hq]
      rintro ⟨rfl, h | h⟩
      · rw [h] at hq; cases hq
      · have : (10 : UInt8) ∈ l := by
          have : (10 : UInt8) ∈ csvFileEnd l := by rw [h]; simp
          unfold csvFileEnd at this
          split at this
          · exact (List.dropLast_subset l) this
          · exact this
        exact hl 10 this rfl
    rw [htake]
    simp only
    rw [if_neg]
    intro h
    cases h
  | b :: t, l, before, hl, hin, hend => by
    have hlt : l ++ b :: t = (l ++ [b]) ++ t := by simp
    by_cases hb : b = 10
    · subst hb
      have hu : unixLines (l ++ 10 :: t) = csvLineEnd (l ++ [10]) ++ unixLines t := by
        rw [hlt, unixLines_append _ _ (.inl (by simp)), csvLineEnd_eq hl]
      have hsplit : ∃ p, csvLineEnd (l ++ [10]) = p ++ [10] := by
        unfold csvLineEnd
        split
        · exact ⟨_, rfl⟩
        · exact ⟨_, rfl⟩
      obtain ⟨p, hp⟩ := hsplit
      obtain ⟨cs, c, hq⟩ := hin p (unixLines t) (by rw [hu, hp]; simp)
      have htake : csvTakeLine comma before (csvLineEnd (l ++ [10])) = .inl ⟨[], ⟨.quoted, cs, c⟩⟩ := by
        unfold csvTakeLine
        rw [hp, if_neg, hq]
        rintro ⟨rfl, h | h⟩
        · simp at h
        · have hpn : p = [] := by simpa using h
          rw [hpn] at hq
          simp only [List.nil_append, List.foldl_cons, List.foldl_nil, CsvState.start, csvByte] at hq
          split at hq
          · rename_i h; cases h
          · split at hq
            · cases hq
            · simp at hq
      rw [readItem_lf_more (s := ⟨l, before⟩) _ htake]
      refine readItem_open t [] ⟨.quoted, cs, c⟩ (by simp) ?_ ?_
      · intro p' q' hp'
        obtain ⟨cs', c', hc'⟩ := hin (p ++ [10] ++ p') q' (by
          rw [hu, hp]
          simp only [List.nil_append] at hp'
          rw [hp']; simp)
        refine ⟨cs', c', ?_⟩
        rw [List.append_assoc (p ++ [10]) p' [10], List.foldl_append, hq] at hc'
        exact hc'
      · obtain ⟨cs', c', h1⟩ := hend
        refine ⟨cs', c', ?_⟩
        rw [hu, hp, List.foldl_append, hq] at h1
        exact h1
    · rw [readItem_byte comma _ hb]
      refine readItem_open t (l ++ [b]) before ?_ (by rw [← hlt]; exact hin) (by rw [← hlt]; exact hend)
      intro x hx
      rcases List.mem_append.1 hx with hx | hx
      · exact hl x hx
      · rw [List.mem_singleton.1 hx]; exact hb

/-- The cells before a cell: none, or some followed by the delimiter. -/
theorem Spec.CellsBefore.fold {comma : UInt8} (hg : GoodDelimiter comma) {text : Bytes} (h : CellsBefore comma text) :
    ∃ cells, (unixLines text).foldl (csvByte comma) CsvState.start.before = ⟨.field, cells, []⟩ := by
  cases h with
  | none => exact ⟨[], rfl⟩
  | some h =>
    obtain ⟨mode, cs, c, h1, h2, h3⟩ := h.fold hg []
    refine ⟨cs ++ [c], ?_⟩
    rw [unixLines_append _ _ (.inl (h.no_cr hg)), List.foldl_append]
    show List.foldl (csvByte comma) (List.foldl (csvByte comma) ⟨.field, [], []⟩ _) [comma] = _
    rw [h2]
    exact csvByte_comma hg h1 cs c

theorem Spec.CellsBefore.no_cr {comma : UInt8} (hg : GoodDelimiter comma) {text : Bytes} (h : CellsBefore comma text) : text.getLast? ≠ Option.some 13 := by
  cases h with
  | none => simp
  | some h => simpa using hg.2.2.1

theorem Spec.CellsBefore.inner {comma : UInt8} (hg : GoodDelimiter comma) {text : Bytes} (h : CellsBefore comma text) {p q : Bytes} (hp : unixLines text = p ++ 10 :: q) :
    ∃ cs c, (p ++ [10]).foldl (csvByte comma) CsvState.start.before = ⟨.quoted, cs, c⟩ := by
  cases h with
  | none => simp [unixLines] at hp
  | some h =>
    rw [unixLines_append _ _ (.inl (h.no_cr hg))] at hp
    rcases append_split hp with ⟨a', h1, _⟩ | ⟨p', _, h2⟩
    · exact h.inner hg [] h1
    · cases p' with
      | nil =>
        simp only [unixLines, List.nil_append, List.cons.injEq] at h2
        exact (hg.2.1 h2.1).elim
      | cons y p' => simp [unixLines] at h2

/-- A row whose last cell is not closed. -/
theorem readItem_unclosed {comma : UInt8} (hg : GoodDelimiter comma) {text : Bytes} (h : CellsBefore comma text) (cell : Bytes) :
    firstItem (csvRecordReader comma) (text ++ 34 :: doubleQuotes cell) = .bad := by
  have hu : unixLines (text ++ 34 :: doubleQuotes cell) = unixLines text ++ 34 :: doubleQuotes (unixLines cell) := by
    rw [unixLines_append _ _ (.inl (h.no_cr hg)), show 34 :: doubleQuotes cell = [34] ++ doubleQuotes cell from rfl,
      unixLines_append [34] _ (.inl (by decide)), unixLines_double]
    rfl
  obtain ⟨cells, hc⟩ := h.fold hg
  refine readItem_open _ [] CsvState.start.before (by simp) ?_ ?_
  · intro p q hp
    rw [List.nil_append, hu] at hp
    rcases append_split hp with ⟨a', h1, _⟩ | ⟨p', h1, h2⟩
    · exact h.inner hg h1
    · cases p' with
      | nil => simp at h2
      | cons y p' =>
        simp only [List.cons_append, List.cons.injEq] at h2
        obtain ⟨rfl, h2⟩ := h2
        obtain ⟨c, h3⟩ := fold_double_prefix comma cells _ p' q [] h2
        refine ⟨cells, c ++ [10], ?_⟩
        rw [h1, List.append_assoc, List.foldl_append, hc, List.cons_append, List.foldl_cons]
        show List.foldl (csvByte comma) ⟨.quoted, cells, []⟩ (p' ++ [10]) = _
        rw [List.foldl_append, h3]
        simp [csvByte]
  · refine ⟨cells, unixLines cell, ?_⟩
    rw [List.nil_append, hu, List.foldl_append, hc, List.foldl_cons]
    show List.foldl (csvByte comma) ⟨.quoted, cells, []⟩ _ = _
    rw [fold_quoted]
    simp

theorem Spec.Misquoted.fold {comma : UInt8} (hg : GoodDelimiter comma) {line : Bytes} (h : Misquoted comma line) (hlf : ∀ b ∈ line, b ≠ 10) :
    (line.foldl (csvByte comma) CsvState.start.before).mode = .bad := by
  cases h with
  | @bare text x y hb hx hne =>
    obtain ⟨cells, hc⟩ := hb.fold hg
    rw [unixLines_plain (fun b hm => hlf b (by simp [hm]))] at hc
    rw [List.append_assoc, List.foldl_append, hc]
    cases x with
    | nil => exact (hne rfl).elim
    | cons b x =>
      obtain ⟨h1, h2, h3, _⟩ := hx b (by simp)
      simp only [List.cons_append, List.foldl_cons, csvByte, h1, h2, h3, if_false]
      rw [List.foldl_append, fold_plain cells x _ (fun b hb => hx b (by simp [hb])), List.foldl_cons]
      have h34 : ¬ (34 = comma) := fun e => hg.1 e.symm
      simp only [csvByte, h34, if_false, if_true]
      rw [fold_bad]
  | @after text cell b y hb h1 h2 =>
    obtain ⟨cells, hc⟩ := hb.fold hg
    rw [unixLines_plain (fun b hm => hlf b (by simp [hm]))] at hc
    rw [List.append_assoc, List.foldl_append, hc, List.cons_append, List.foldl_cons]
    show (List.foldl (csvByte comma) ⟨.quoted, cells, []⟩ (doubleQuotes cell ++ (34 :: b :: y))).mode = .bad
    have h3 : b ≠ 10 := hlf b (by simp)
    rw [List.foldl_append, fold_quoted, List.foldl_cons, List.foldl_cons]
    simp only [csvByte, if_true, h1, h2, h3, if_false]
    rw [fold_bad]

end Rodb
