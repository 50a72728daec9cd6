import Verif.Proofs.SqlText
import Verif.Model.Fts5
/-
  The statements that the SQL texts of the FTS5 index mean.
-/
namespace Rodb

set_option maxRecDepth 8000

/-- A text between single quotes. -/
theorem lexes_text {s : List Char} (hq : '\'' ∉ s) (hn : '\x00' ∉ s) : Lexes (['\''] ++ s ++ ['\'']) [.text s] := by
  have key : ∀ (n acc : List Char), '\'' ∉ n → '\x00' ∉ n → lexRun (.inQuotes '\'' acc) (n ++ ['\'']) = some ([], .closing '\'' (n.reverse ++ acc)) := by
    intro n
    induction n with
    | nil => intro acc _ _; rfl
    | cons c n ih =>
      intro acc h1 h2
      have hc : c ≠ '\x00' := fun e => h2 (e ▸ .head _)
      have hc' : c ≠ '\'' := fun e => h1 (e ▸ .head _)
      simp only [List.cons_append, lexRun, lexStep, Option.bind_eq_bind, if_neg hc, if_neg hc', Option.bind_some]
      rw [ih _ (fun e => h1 (.tail _ e)) (fun e => h2 (.tail _ e))]
      simp
  refine ⟨[], .closing '\'' s.reverse, [.text s], ?_, ?_, rfl, by simp⟩
  · rw [List.append_assoc, lexRun_append, show lexRun .top ['\''] = some ([], .inQuotes '\'' []) from rfl]
    have := key s [] hq hn
    rw [List.append_nil] at this
    simp only [Option.bind_some, this]
    rfl
  · simp [lexEnd, quotedToken]

theorem itoa_chars {n : Int} {c : Char} (h : c ∈ itoa n) : c = '-' ∨ c.isDigit = true := by
  unfold itoa at h
  split at h
  · rcases List.mem_cons.1 h with h | h
    · exact .inl h
    · exact .inr (Nat.isDigit_of_mem_toDigits (by omega) (by omega) h)
  · exact .inr (Nat.isDigit_of_mem_toDigits (by omega) (by omega) h)

theorem prefixText_chars : ∀ {l : List Int} {c : Char}, c ∈ prefixText l → c = ' ' ∨ c = '-' ∨ c.isDigit = true
  | [], _, h => by cases h
  | [_], _, h => .inr (itoa_chars h)
  | _ :: m :: rest, c, h => by
    simp only [prefixText, List.mem_append, List.mem_singleton] at h
    rcases h with (h | h) | h
    · exact .inr (itoa_chars h)
    · exact .inl h
    · exact prefixText_chars (l := m :: rest) h

theorem lexes_prefix (l : List Int) : Lexes (['\''] ++ prefixText l ++ ['\'']) [.text (prefixText l)] := by
  refine lexes_text (fun h => ?_) (fun h => ?_)
  · rcases prefixText_chars h with e | e | e <;> exact absurd e (by decide)
  · rcases prefixText_chars h with e | e | e <;> exact absurd e (by decide)

/-- The columns of the table of an FTS5 index, as SQLite reads their names. -/
def ftsColumns (c : Fts5Decl) : List SqlColumn := ⟨"__offset".toList, "BINARY".toList⟩ :: c.properties.map (fun p => ⟨readName p.toList, "BINARY".toList⟩)

theorem parseFts_of_lexes {text : List Char} {ts us : List SqlToken} (h : Lexes text ts) (hu : ts = us ++ [.sym ';']) : parseFts text = parseFtsStatement us := by
  subst hu
  simp only [parseFts, h.sql, Option.bind_eq_bind, Option.bind_some, List.getLast?_concat, if_true, List.dropLast_concat]

/-- The tokens of the arguments of `fts5(...)`. -/
def ftsArguments (columns : List (List Char)) (prefixes tokenize : List Char) : List (List SqlToken) :=
  [.quoted "__offset".toList, kw "UNINDEXED"] :: (if columns = [] then [[]] else columns.map (fun n => [SqlToken.quoted n])) ++
    [[kw "prefix", .sym '=', .text prefixes], [kw "tokenize", .sym '=', .quoted tokenize]]

theorem ftsArguments_no {columns : List (List Char)} {prefixes tokenize : List Char} {s : Char} (hs : s ≠ '=') : ∀ p ∈ ftsArguments columns prefixes tokenize, SqlToken.sym s ∉ p := by
  intro p hm
  unfold ftsArguments at hm
  simp only [List.cons_append, List.mem_cons, List.mem_append, List.not_mem_nil, or_false] at hm
  rcases hm with rfl | hm | rfl | rfl
  · simp [kw]
  · split at hm
    · rw [List.mem_singleton.1 hm]
      simp
    · obtain ⟨q, _, rfl⟩ := List.mem_map.1 hm
      simp
  · simp [kw, hs]
  · simp [kw, hs]

theorem ftsArguments_parse (columns : List (List Char)) (prefixes tokenize : List Char) :
    allSome parseFtsArgument ((ftsArguments columns prefixes tokenize).filter (fun a => a ≠ [])) =
      some (.column "__offset".toList true :: (columns.map (fun n => FtsArgument.column n false) ++ [.option "prefix".toList prefixes, .option "tokenize".toList tokenize])) := by
  have hf : (ftsArguments columns prefixes tokenize).filter (fun a => a ≠ []) =
      [.quoted "__offset".toList, kw "UNINDEXED"] :: (columns.map (fun n => [SqlToken.quoted n]) ++
        [[kw "prefix", .sym '=', .text prefixes], [kw "tokenize", .sym '=', .quoted tokenize]]) := by
    unfold ftsArguments
    by_cases h : columns = []
    · subst h
      simp
    · rw [if_neg h]
      have hself : (columns.map (fun n => [SqlToken.quoted n])).filter (fun a => decide (a ≠ [])) = columns.map (fun n => [SqlToken.quoted n]) := by
        rw [List.filter_eq_self]
        intro a ha
        obtain ⟨q, _, rfl⟩ := List.mem_map.1 ha
        simp
      rw [List.filter_append, List.filter_cons, hself]
      simp
  rw [hf]
  have happ : ∀ (l : List (List Char)) (r : List (List SqlToken)) (out : List FtsArgument), allSome parseFtsArgument r = some out →
      allSome parseFtsArgument (l.map (fun n => [SqlToken.quoted n]) ++ r) = some (l.map (fun n => FtsArgument.column n false) ++ out) := by
    intro l r out h
    induction l with
    | nil => exact h
    | cons n l ih => simp only [List.map_cons, List.cons_append, allSome, ih, parseFtsArgument, Option.bind_eq_bind, Option.bind_some]
  have h1 := happ columns [[kw "prefix", .sym '=', .text prefixes], [kw "tokenize", .sym '=', .quoted tokenize]]
    [.option "prefix".toList prefixes, .option "tokenize".toList tokenize] rfl
  simp only [allSome, h1, Option.bind_eq_bind, show parseFtsArgument [.quoted "__offset".toList, kw "UNINDEXED"] = some (.column "__offset".toList true) by rfl, Option.bind_some]

theorem parse_ftsTokens (table : List Char) (columns : List (List Char)) (prefixes tokenize : List Char) :
    parseFtsStatement (kw "CREATE" :: kw "VIRTUAL" :: kw "TABLE" :: .quoted table :: kw "USING" :: kw "fts5" :: .sym '(' ::
      (interTokens (.sym ',') (ftsArguments columns prefixes tokenize) ++ .sym ')' :: [])) =
    some (.create table (("__offset".toList, true) :: columns.map (fun n => (n, false))) [("prefix".toList, prefixes), ("tokenize".toList, tokenize)]) := by
  have hne : ftsArguments columns prefixes tokenize ≠ [] := by simp [ftsArguments]
  have hp := ftsArguments_parse columns prefixes tokenize
  have hcut := cutAt_append (stop := .sym ')') (mem_inter (sep := .sym ',') (t := .sym ')') (by simp) (ftsArguments_no (columns := columns) (prefixes := prefixes) (tokenize := tokenize) (by decide))) []
  have hsplit := splitAtToken_inter (sep := .sym ',') hne (ftsArguments_no (by decide))
  generalize ftsArguments columns prefixes tokenize = args at hp hcut hsplit
  simp only [parseFtsStatement, parseTable, expectTokens, Option.bind_eq_bind, Option.bind_some, if_true, and_self, hcut, hsplit, hp]
  simp [List.filterMap_append, List.filterMap_map, Function.comp_def]

theorem ftsCreate_head : LexesTop "\n\t\tCREATE VIRTUAL TABLE ".toList [kw "CREATE", kw "VIRTUAL", kw "TABLE"] := by rfl

theorem ftsCreate_body : LexesTop " USING fts5(\n\t\t\t\"__offset\" UNINDEXED,\n\t\t\t".toList
    [kw "USING", kw "fts5", .sym '(', .quoted "__offset".toList, kw "UNINDEXED", .sym ','] := by rfl

theorem ftsCreate_prefix : LexesTop ",\n\t\t\tprefix = ".toList [.sym ',', kw "prefix", .sym '='] := by rfl

theorem ftsCreate_tokenize : LexesTop ",\n\t\t\ttokenize = ".toList [.sym ',', kw "tokenize", .sym '='] := by rfl

theorem fts5CreateText_eq (c : Fts5Decl) : fts5CreateText c =
    "\n\t\tCREATE VIRTUAL TABLE ".toList ++ indexTableIdentifier c.name ++ " USING fts5(\n\t\t\t\"__offset\" UNINDEXED,\n\t\t\t".toList ++
    joinTexts ", ".toList (c.properties.map (fun p => sanitizeIdentifier p.toList)) ++ ",\n\t\t\tprefix = ".toList ++ (['\''] ++ prefixText c.prefixes ++ ['\'']) ++
    ",\n\t\t\ttokenize = ".toList ++ sanitizeIdentifier c.tokenize.toList ++ "\n\t\t);\n\t".toList := by
  unfold fts5CreateText
  rw [show ",\n\t\t\tprefix = '".toList = ",\n\t\t\tprefix = ".toList ++ ['\''] by rfl, show "',\n\t\t\ttokenize = ".toList = ['\''] ++ ",\n\t\t\ttokenize = ".toList by rfl]
  simp only [List.append_assoc]

theorem Lexes.append_head {a b : List Char} {c : Char} {ts us : List SqlToken} (h : Lexes a ts) (hb : b.head? = some c) (hc : isSeparator c = true) (h' : LexesTop b us) :
    LexesTop (a ++ b) (ts ++ us) := by
  cases b with
  | nil => cases hb
  | cons d b =>
    cases hb
    exact h.append_top hc h'

theorem interTokens_append {sep : SqlToken} : ∀ {l r : List (List SqlToken)}, l ≠ [] → r ≠ [] → interTokens sep (l ++ r) = interTokens sep l ++ sep :: interTokens sep r
  | [], _, hl, _ => (hl rfl).elim
  | _, [], _, hr => (hr rfl).elim
  | [a], b :: r, _, _ => rfl
  | a :: b :: l, c :: r, _, _ => by
    have ih := interTokens_append (sep := sep) (l := b :: l) (r := c :: r) (by simp) (by simp)
    simp only [List.cons_append] at ih ⊢
    simp only [interTokens]
    rw [ih]
    simp

theorem lexes_ftsCreate (c : Fts5Decl) : Lexes (fts5CreateText c) ((kw "CREATE" :: kw "VIRTUAL" :: kw "TABLE" :: .quoted (indexTable c.name) :: kw "USING" :: kw "fts5" :: .sym '(' ::
      (interTokens (.sym ',') (ftsArguments (c.properties.map (fun p => readName p.toList)) (prefixText c.prefixes) (readName c.tokenize.toList)) ++ .sym ')' :: [])) ++ [.sym ';']) := by
  have hsep : LexesTop (',' :: [' ']) [.sym ','] := by rfl
  have h2 := ftsCreate_head.append (lexes_indexTable c.name)
  have h3 := h2.append_head (c := ' ') (by decide +kernel) (by decide) ftsCreate_body
  have h4 := h3.append (lexes_join (l := c.properties) (sepText := ", ".toList) (d := ',') (b := [' ']) (by rfl) (by rfl) hsep
    (fun p => sanitizeIdentifier p.toList) (fun p => [.quoted (readName p.toList)]) (fun p _ => lexes_identifier p.toList))
  have h5 := h4.append_head (c := ',') (by decide +kernel) (by decide) ftsCreate_prefix
  have h6 := h5.append (lexes_prefix c.prefixes)
  have h7 := h6.append_head (c := ',') (by decide +kernel) (by decide) ftsCreate_tokenize
  have h8 := h7.append (lexes_identifier c.tokenize.toList)
  have h9 := h8.append_head (c := '\n') (by decide +kernel) (by decide) createTable_end
  rw [fts5CreateText_eq]
  have h10 := h9.lexes
  have hin : interTokens (.sym ',') (ftsArguments (c.properties.map (fun p => readName p.toList)) (prefixText c.prefixes) (readName c.tokenize.toList)) =
      [.quoted "__offset".toList, kw "UNINDEXED", .sym ','] ++ interTokens (.sym ',') (c.properties.map (fun p => [SqlToken.quoted (readName p.toList)])) ++
      [.sym ',', kw "prefix", .sym '=', .text (prefixText c.prefixes), .sym ',', kw "tokenize", .sym '=', .quoted (readName c.tokenize.toList)] := by
    unfold ftsArguments
    by_cases hp : c.properties = []
    · simp [hp, interTokens]
    · rw [if_neg (by simpa using hp), List.map_map, interTokens_append (by simp) (by simp),
        show ∀ (a : List SqlToken) (l : List (List SqlToken)), a :: l = [a] ++ l from fun _ _ => rfl, interTokens_append (by simp) (by simpa using hp)]
      simp [interTokens, Function.comp_def]
  rw [hin]
  refine Eq.mp (congrArg _ ?_) h10
  simp

theorem parse_ftsCreate (c : Fts5Decl) : parseFts (fts5CreateText c) =
    some (.create (indexTable c.name) (("__offset".toList, true) :: c.properties.map (fun p => (readName p.toList, false)))
      [("prefix".toList, prefixText c.prefixes), ("tokenize".toList, readName c.tokenize.toList)]) := by
  have key := parse_ftsTokens (indexTable c.name) (c.properties.map (fun p => readName p.toList)) (prefixText c.prefixes) (readName c.tokenize.toList)
  rw [List.map_map] at key
  exact (parseFts_of_lexes (lexes_ftsCreate c) rfl).trans key

theorem parseSql_ftsCreate (c : Fts5Decl) : parseSql (fts5CreateText c) = none :=
  (parse_of_lexes (lexes_ftsCreate c) rfl).trans (by rfl)

theorem parseSql_ftsInsert_empty {c : Fts5Decl} (hne : c.properties = []) : parseSql (fts5InsertText c) = none := by
  have h1 : LexesTop "\n\t\tINSERT INTO ".toList [kw "INSERT", kw "INTO"] := by rfl
  have h2 := h1.append (lexes_indexTable c.name)
  have h3 := h2.append_head (b := " (\n\t\t\t\"__offset\",\n\t\t\t".toList) (c := ' ') (by decide +kernel) (by decide)
    (show LexesTop _ [.sym '(', .quoted "__offset".toList, .sym ','] by rfl)
  have h4 := h3.append_top (show LexesTop "\n\t\t) VALUES (?, ".toList [.sym ')', kw "VALUES", .sym '(', .sym '?', .sym ','] by rfl)
  have h5 := h4.append_top (show LexesTop ");\n\t".toList [.sym ')', .sym ';'] by rfl)
  have e : fts5InsertText c = "\n\t\tINSERT INTO ".toList ++ indexTableIdentifier c.name ++ " (\n\t\t\t\"__offset\",\n\t\t\t".toList ++
      "\n\t\t) VALUES (?, ".toList ++ ");\n\t".toList := by
    unfold fts5InsertText
    rw [hne]
    simp only [List.map_nil, joinTexts, List.append_nil]
  rw [e]
  exact (parse_of_lexes h5.lexes (us := kw "INSERT" :: kw "INTO" :: .quoted (indexTable c.name) :: .sym '(' :: .quoted "__offset".toList :: .sym ',' :: .sym ')' :: kw "VALUES" ::
    .sym '(' :: .sym '?' :: .sym ',' :: .sym ')' :: []) (by simp)).trans (by rfl)

theorem lexes_match (c : Fts5Decl) : Lexes (matchText c) [kw "SELECT", .quoted "__offset".toList, kw "FROM", .quoted (indexTable c.name), kw "WHERE", .quoted (indexTable c.name),
    kw "MATCH", .sym '?'] := by
  have h1 : LexesTop "\n\t\tSELECT \"__offset\"\n\t\tFROM ".toList [kw "SELECT", .quoted "__offset".toList, kw "FROM"] := by rfl
  have h2 := h1.append (lexes_indexTable c.name)
  have h3 := h2.append_head (b := "\n\t\tWHERE ".toList) (c := '\n') (by decide +kernel) (by decide) (show LexesTop _ [kw "WHERE"] by rfl)
  have h4 := h3.append (lexes_indexTable c.name)
  exact (h4.append_head (b := " MATCH ?\n\t".toList) (c := ' ') (by decide +kernel) (by decide) (show LexesTop _ [kw "MATCH", .sym '?'] by rfl)).lexes

theorem parse_match (c : Fts5Decl) : parseFts (matchText c) = some (.search "__offset".toList (indexTable c.name) (indexTable c.name)) := by
  unfold parseFts
  rw [(lexes_match c).sql]
  rfl

theorem parseSql_match (c : Fts5Decl) : parseSql (matchText c) = none := by
  unfold parseSql
  rw [(lexes_match c).sql]
  rfl

theorem parse_ftsInsert {c : Fts5Decl} (hne : c.properties ≠ []) :
    parseSql (fts5InsertText c) = some (.insert (indexTable c.name) ((ftsColumns c).map (·.name)) (c.properties.length + 1)) := by
  have h := parse_insertText hne (fun p => sanitizeIdentifier p.toList) (fun p => readName p.toList) (fun p => lexes_identifier p.toList) c.name
    (mid := " (\n\t\t\t\"__offset\",\n\t\t\t".toList) (first := "__offset".toList) rfl (by rfl)
  simp only [ftsColumns, List.map_cons, List.map_map, Function.comp_def]
  exact h

end Rodb
