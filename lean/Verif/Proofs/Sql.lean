import Verif.Model.Sqlite
/-
  Lemmas about SQL texts: their tokens and statements.
-/
namespace Rodb

/-! ### Tokens -/

theorem lexRun_append (s : LexState) (a b : List Char) : lexRun s (a ++ b) =
    (lexRun s a).bind (fun p => (lexRun p.2 b).map (fun q => (p.1 ++ q.1, q.2))) := by
  induction a generalizing s with
  | nil => simp [lexRun]
  | cons c a ih =>
    simp only [List.cons_append, lexRun, Option.bind_eq_bind]
    cases hs : lexStep s c with
    | none => rfl
    | some p =>
      obtain ⟨ts, s'⟩ := p
      simp only [Option.bind_some, ih]
      cases ha : lexRun s' a with
      | none => rfl
      | some q =>
        obtain ⟨us, s''⟩ := q
        simp only [Option.bind_some]
        cases lexRun s'' b with
        | none => rfl
        | some r => simp

/-- The tokens of a text that begins and may end anywhere between tokens. -/
def Lexes (a : List Char) (ts : List SqlToken) : Prop :=
  ∃ us s vs, lexRun .top a = some (us, s) ∧ lexEnd s = some vs ∧ ts = us ++ vs ∧ s ≠ .ended

/-- The tokens of a text that begins between tokens and ends behind a blank or a symbol. -/
def LexesTop (a : List Char) (ts : List SqlToken) : Prop := lexRun .top a = some (ts, .top)

/-- A character that ends a word or a name. -/
def isSeparator (c : Char) : Bool := isSqlSpace c || isSqlSymbol c

theorem LexesTop.lexes {a : List Char} {ts : List SqlToken} (h : LexesTop a ts) : Lexes a ts :=
  ⟨ts, .top, [], h, rfl, by simp, by simp⟩

theorem LexesTop.append {a b : List Char} {ts us : List SqlToken} (h : LexesTop a ts) (h' : Lexes b us) : Lexes (a ++ b) (ts ++ us) := by
  obtain ⟨us', s, vs, h1, h2, rfl, h3⟩ := h'
  refine ⟨ts ++ us', s, vs, ?_, h2, by simp, h3⟩
  rw [lexRun_append, show lexRun .top a = _ from h]
  simp [h1]

theorem LexesTop.append_top {a b : List Char} {ts us : List SqlToken} (h : LexesTop a ts) (h' : LexesTop b us) : LexesTop (a ++ b) (ts ++ us) := by
  simp only [LexesTop]
  rw [lexRun_append, show lexRun .top a = _ from h]
  simp [show lexRun .top b = _ from h']

theorem separator_not_word {c : Char} (h : isSeparator c = true) : isSqlWordChar c = false ∧ c ≠ '"' ∧ c ≠ '\'' := by
  simp only [isSeparator, isSqlSpace, isSqlSymbol, Bool.or_eq_true, decide_eq_true_eq] at h
  rcases h with ((((h | h) | h) | h) | ((((((h | h) | h) | h) | h) | h) | h)) <;> subst h <;> decide

/-- A separator ends the token before it. -/
theorem lexRun_separator {s : LexState} {vs : List SqlToken} (h : lexEnd s = some vs) (hs : s ≠ .ended) (hq : ∀ q acc, s = .closing q acc → q = '"' ∨ q = '\'')
    {c : Char} (hc : isSeparator c = true) (b : List Char) : lexRun s (c :: b) = (lexRun .top (c :: b)).map (fun p => (vs ++ p.1, p.2)) := by
  obtain ⟨h1, h2, h3⟩ := separator_not_word hc
  have key : ∀ t : SqlToken, (lexTop c).map (fun p : List SqlToken × LexState => (t :: p.1, p.2)) = (lexStep .top c).map (fun p => ([t] ++ p.1, p.2)) := by
    intro t
    rfl
  have run : ∀ t, lexStep s c = (lexStep .top c).map (fun p => ([t] ++ p.1, p.2)) → vs = [t] →
      lexRun s (c :: b) = (lexRun .top (c :: b)).map (fun p => (vs ++ p.1, p.2)) := by
    rintro t ht rfl
    simp only [lexRun, ht, Option.bind_eq_bind]
    cases lexStep .top c with
    | none => rfl
    | some p =>
      simp only [Option.map_some, Option.bind_some]
      cases lexRun p.2 b with
      | none => rfl
      | some q => simp
  cases s with
  | top =>
    cases h
    cases lexRun LexState.top (c :: b) <;> simp
  | word acc =>
    cases h
    refine run _ ?_ rfl
    simp only [lexStep, h1]
    exact key _
  | inQuotes q acc => cases h
  | closing q acc =>
    cases h
    refine run _ ?_ rfl
    have hne : c ≠ q := by
      rcases hq q acc rfl with rfl | rfl
      · exact h2
      · exact h3
    simp only [lexStep, hne, if_false]
    exact key _
  | ended => exact (hs rfl).elim

/-- The tokenizer is only ever between quotes of the two kinds. -/
theorem lexRun_quote : ∀ {a : List Char} {s s' : LexState} {us : List SqlToken},
    (∀ q acc, s = .inQuotes q acc ∨ s = .closing q acc → q = '"' ∨ q = '\'') → lexRun s a = some (us, s') →
    ∀ q acc, s' = .inQuotes q acc ∨ s' = .closing q acc → q = '"' ∨ q = '\''
  | [], s, s', us, hs, h => by
    simp only [lexRun, Option.some.injEq, Prod.mk.injEq] at h
    exact h.2 ▸ hs
  | c :: a, s, s', us, hs, h => by
    simp only [lexRun, Option.bind_eq_bind] at h
    cases hstep : lexStep s c with
    | none => rw [hstep] at h; cases h
    | some p =>
      obtain ⟨ts, t⟩ := p
      rw [hstep] at h
      simp only [Option.bind_some] at h
      cases hrun : lexRun t a with
      | none => rw [hrun] at h; cases h
      | some q =>
        obtain ⟨vs, t'⟩ := q
        rw [hrun] at h
        simp only [Option.bind_some, Option.some.injEq, Prod.mk.injEq] at h
        obtain ⟨_, rfl⟩ := h
        refine lexRun_quote ?_ hrun
        have htop : ∀ {c ts t}, lexTop c = some (ts, t) → ∀ q acc, t = .inQuotes q acc ∨ t = .closing q acc → q = '"' ∨ q = '\'' := by
          intro c ts t h q acc ht
          unfold lexTop at h
          repeat' split at h
          all_goals first
            | cases h
            | skip
          all_goals rcases ht with ht | ht <;> cases ht
          rename_i hc
          exact hc
        cases s with
        | top => exact htop hstep
        | word acc =>
          simp only [lexStep] at hstep
          split at hstep
          · cases hstep
            rintro q acc (h | h) <;> cases h
          · simp only [Option.map_eq_some_iff] at hstep
            obtain ⟨⟨a, b⟩, h1, h2⟩ := hstep
            cases h2
            exact htop h1
        | inQuotes q acc =>
          have hq := hs q acc (.inl rfl)
          simp only [lexStep] at hstep
          split at hstep
          · cases hstep
          · split at hstep <;> cases hstep <;> rintro q' acc' (h | h) <;> cases h <;> exact hq
        | closing q acc =>
          have hq := hs q acc (.inr rfl)
          simp only [lexStep] at hstep
          split at hstep
          · cases hstep
            rintro q' acc' (h | h) <;> cases h
            exact hq
          · simp only [Option.map_eq_some_iff] at hstep
            obtain ⟨⟨a, b⟩, h1, h2⟩ := hstep
            cases h2
            exact htop h1
        | ended =>
          cases hstep
          rintro q acc (h | h) <;> cases h

theorem Lexes.closing {s : LexState} {a : List Char} {us : List SqlToken} (h : lexRun .top a = some (us, s)) : ∀ q acc, s = .closing q acc → q = '"' ∨ q = '\'' :=
  fun q acc hs => lexRun_quote (by rintro q acc (h | h) <;> cases h) h q acc (.inr hs)

theorem Lexes.append {a b : List Char} {c : Char} {ts us : List SqlToken} (h : Lexes a ts) (hc : isSeparator c = true) (h' : Lexes (c :: b) us) :
    Lexes (a ++ c :: b) (ts ++ us) := by
  obtain ⟨ts', s, vs, h1, h2, rfl, h3⟩ := h
  obtain ⟨us', t, ws, g1, g2, rfl, g3⟩ := h'
  refine ⟨ts' ++ (vs ++ us'), t, ws, ?_, g2, by simp, g3⟩
  rw [lexRun_append, h1]
  simp only [Option.bind_some]
  rw [lexRun_separator h2 h3 (Lexes.closing h1) hc, g1]
  rfl

theorem Lexes.append_top {a b : List Char} {c : Char} {ts us : List SqlToken} (h : Lexes a ts) (hc : isSeparator c = true) (h' : LexesTop (c :: b) us) :
    LexesTop (a ++ c :: b) (ts ++ us) := by
  obtain ⟨ts', s, vs, h1, h2, rfl, h3⟩ := h
  simp only [LexesTop] at *
  rw [lexRun_append, h1]
  simp only [Option.bind_some]
  rw [lexRun_separator h2 h3 (Lexes.closing h1) hc, h']
  simp

theorem Lexes.sql {a : List Char} {ts : List SqlToken} (h : Lexes a ts) : lexSql a = some ts := by
  obtain ⟨us, s, vs, h1, h2, rfl, _⟩ := h
  simp [lexSql, h1, h2]

/-- What SQLite reads of a name: it ends at a NUL character. -/
def readName (name : List Char) : List Char := name.takeWhile (· ≠ '\x00')

theorem readName_plain {name : List Char} (h : '\x00' ∉ name) : readName name = name := by
  induction name with
  | nil => rfl
  | cons c n ih =>
    have hc : c ≠ '\x00' := fun e => h (e ▸ .head _)
    have := ih (fun e => h (.tail _ e))
    simp only [readName] at this ⊢
    rw [List.takeWhile_cons, if_pos (by simpa using hc), this]

theorem readName_nul (name : List Char) : '\x00' ∉ readName name := by
  induction name with
  | nil => simp [readName]
  | cons c n ih =>
    simp only [readName] at ih ⊢
    rw [List.takeWhile_cons]
    split
    · rename_i h
      simp only [List.mem_cons, not_or]
      refine ⟨?_, ih⟩
      simpa using fun e => (by simpa using h : c ≠ '\x00') e.symm
    · simp

/-- The quoted form of a name is one token that denotes what SQLite reads of the name. -/
theorem lexes_identifier (name : List Char) : Lexes (sanitizeIdentifier name) [.quoted (readName name)] := by
  have key : ∀ (n acc : List Char), '\x00' ∉ n →
      lexRun (.inQuotes '"' acc) (n.flatMap (fun c => if c = '"' then ['"', '"'] else [c]) ++ ['"']) = some ([], .closing '"' (n.reverse ++ acc)) := by
    intro n
    induction n with
    | nil => intro acc _; rfl
    | cons c n ih =>
      intro acc hn
      have hc : c ≠ '\x00' := fun e => hn (e ▸ .head _)
      have hn' : '\x00' ∉ n := fun e => hn (.tail _ e)
      by_cases hq : c = '"'
      · subst hq
        simp only [List.flatMap_cons, if_true, List.cons_append, List.nil_append, lexRun, lexStep, Option.bind_eq_bind, Option.bind_some, if_neg hc]
        rw [ih _ hn']
        simp
      · simp only [List.flatMap_cons, if_neg hq, List.cons_append, List.nil_append, lexRun, lexStep, Option.bind_eq_bind, if_neg hc, Option.bind_some]
        rw [ih _ hn']
        simp
  refine ⟨[], .closing '"' (readName name).reverse, [.quoted (readName name)], ?_, ?_, rfl, by simp⟩
  · rw [sanitizeIdentifier, printfW, show name.takeWhile (· ≠ '\x00') = readName name from rfl, List.append_assoc, lexRun_append]
    have := key (readName name) [] (readName_nul name)
    rw [List.append_nil] at this
    rw [show lexRun .top ['"'] = some ([], .inQuotes '"' []) from rfl]
    simp only [Option.bind_some, this]
    rfl
  · simp [lexEnd, quotedToken]

end Rodb
