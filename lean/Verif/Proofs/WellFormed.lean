import Verif.Proofs.ConfigOrder
import Verif.Spec.WellFormed
/-
  Lemmas about the configurations that are accepted.
-/
namespace Rodb
open Spec

theorem exists_bind_ok {α β : Type} {x : Res α} {f : α → Res β} : (∃ b, (x >>= f) = .ok b) ↔ ∃ a, x = .ok a ∧ ∃ b, f a = .ok b := by
  simp only [bind_ok]
  exact ⟨fun ⟨b, a, h, h'⟩ => ⟨a, h, b, h'⟩, fun ⟨a, h, b, h'⟩ => ⟨b, a, h, h'⟩⟩

theorem exists_require_bind {β : Type} {c : Bool} {m : String} {f : Unit → Res β} : (∃ b, (require c m >>= f) = .ok b) ↔ c = true ∧ ∃ b, f () = .ok b := by
  simp only [require_bind, exists_and_left]

theorem exists_ok {α : Type} (a : α) : (∃ b, (Except.ok a : Res α) = .ok b) ↔ True := ⟨fun _ => trivial, fun _ => ⟨a, rfl⟩⟩

theorem not_exists_error {α : Type} (e : Fail) : (∃ b, (Except.error e : Res α) = .ok b) ↔ False := ⟨fun ⟨_, h⟩ => (by cases h), False.elim⟩

theorem exists_require {c : Bool} {m : String} : (∃ a, require c m = .ok a) ↔ c = true := by simp only [require_ok, exists_const]

theorem exists_checkFile {lib : ConfigLib} {path : String} : (∃ a, checkFile lib path = .ok a) ↔ IsFile lib path := by
  simp only [checkFile_ok, exists_const, IsFile]

/-- The rest after something that does not change what comes next. -/
theorem exists_bind_of {α β : Type} {x : Res α} {f : α → Res β} (h : ∀ a, ∃ b, f a = .ok b) : (∃ b, (x >>= f) = .ok b) ↔ ∃ a, x = .ok a := by
  rw [exists_bind_ok]
  exact ⟨fun ⟨a, h', _⟩ => ⟨a, h'⟩, fun ⟨a, h'⟩ => ⟨a, h', h a⟩⟩

theorem validateList_iff {α : Type} {f : α → Res α} {name : α → String} {message : String} (hf : ∀ x y, f x = .ok y → name y = name x) :
    ∀ {l : List α} {seen : List String}, (∃ l', validateList f name message seen l = .ok l') ↔
      (∀ x ∈ l, ∃ y, f x = .ok y) ∧ (l.map name).Nodup ∧ ∀ x ∈ l, name x ∉ seen
  | [], _ => by simp [validateList]
  | x :: rest, seen => by
    have ih := @validateList_iff α f name message hf rest (name x :: seen)
    simp only [validateList]
    rw [exists_bind_ok]
    constructor
    · rintro ⟨y, hy, h⟩
      rw [exists_require_bind, hf x y hy, exists_bind_of (fun _ => ⟨_, rfl⟩), ih] at h
      obtain ⟨h1, h2, h3, h4⟩ := h
      simp only [Bool.not_eq_true', List.contains_eq_mem, decide_eq_false_iff_not] at h1
      refine ⟨?_, ?_, ?_⟩
      · intro z hz
        rcases List.mem_cons.1 hz with rfl | hz
        · exact ⟨y, hy⟩
        · exact h2 z hz
      · rw [List.map_cons, List.nodup_cons]
        refine ⟨fun hm => ?_, h3⟩
        obtain ⟨z, hz, e⟩ := List.mem_map.1 hm
        exact h4 z hz (by rw [e]; exact .head _)
      · intro z hz
        rcases List.mem_cons.1 hz with rfl | hz
        · exact h1
        · exact fun hm => h4 z hz (.tail _ hm)
    · rintro ⟨h1, h2, h3⟩
      obtain ⟨y, hy⟩ := h1 x (.head _)
      refine ⟨y, hy, ?_⟩
      rw [exists_require_bind, hf x y hy, exists_bind_of (fun _ => ⟨_, rfl⟩), ih]
      rw [List.map_cons, List.nodup_cons] at h2
      refine ⟨by simpa using h3 x (.head _), fun z hz => h1 z (.tail _ hz), h2.2, fun z hz hm => ?_⟩
      rcases List.mem_cons.1 hm with e | hm
      · exact h2.1 (e ▸ List.mem_map_of_mem hz)
      · exact h3 z (.tail _ hz) hm

/-! ### What is known about the maps -/

/-- The maps hold the components of the file and the default ones. -/
structure Holds (p : ParsedConfig) (ps : GoMap ParserDecl) (is : GoMap InputDecl) (xs : GoMap IndexDecl) (os : GoMap OutputDecl) : Prop where
  parsers : ∀ n x, mapGet ps n = some x ↔ IsParser p n x
  inputs : ∀ n x, mapGet is n = some x ↔ x ∈ p.inputs ∧ x.name = n
  indexes : ∀ n x, mapGet xs n = some x ↔ IsIndex p n x
  outputs : ∀ n x, mapGet os n = some x ↔ x ∈ p.outputs ∧ x.name = n

section
variable {lib : ConfigLib} {p : ParsedConfig} {ps : GoMap ParserDecl} {is : GoMap InputDecl} {xs : GoMap IndexDecl} {os : GoMap OutputDecl}

theorem Holds.parser (h : Holds p ps is xs os) (n : String) : (mapGet ps n).isSome = true ↔ ∃ x, IsParser p n x := by
  rw [Option.isSome_iff_exists]
  exact exists_congr (h.parsers n)

theorem Holds.input (h : Holds p ps is xs os) (n : String) : (mapGet is n).isSome = true ↔ InputName p n := by
  rw [Option.isSome_iff_exists]
  exact exists_congr (h.inputs n)

theorem Holds.output (h : Holds p ps is xs os) (n : String) : (mapGet os n).isSome = true ↔ OutputName p n := by
  rw [Option.isSome_iff_exists]
  exact exists_congr (h.outputs n)

theorem string_isParser (p : ParsedConfig) : ∃ x, IsParser p "string" x := by
  by_cases h : ∃ x ∈ p.parsers, x.name = "string"
  · obtain ⟨x, hx, e⟩ := h
    exact ⟨x, .inl ⟨hx, e⟩⟩
  · exact ⟨⟨"string", .string ""⟩, .inr ⟨fun y hy e => h ⟨y, hy, e⟩, by simp [builtinParsers], rfl⟩⟩

theorem Holds.parserName (h : Holds p ps is xs os) (n : String) : (mapGet ps (parserOrString n)).isSome = true ↔ ParserName p n := by
  rw [h.parser, ParserName, parserOrString]
  split
  · rename_i e; exact ⟨fun _ => .inl e, fun _ => string_isParser p⟩
  · rename_i e; exact ⟨.inr, fun h => h.resolve_left e⟩

theorem handles_iff (i : IndexDecl) (input : InputDecl) (property : String) :
    (i.handlesInput input = true ∧ i.handlesProperty property = true) ↔ Searches i input.name property := by
  constructor
  · exact fun h => searches_of_handles h.1 h.2
  · intro h
    cases i <;> simp_all [IndexDecl.handlesInput, IndexDecl.handlesProperty, Searches]
    obtain ⟨q, hq, rfl⟩ := h.2; exact ⟨q, hq, rfl⟩

theorem Holds.checkIndex (h : Holds p ps is xs os) {input : InputDecl} {index property : String} :
    (∃ u, checkIndex xs input (indexOrDefault index) property = .ok u) ↔ Searchable p index input.name property := by
  unfold Searchable
  simp only [← h.indexes]
  change (∃ u, Rodb.checkIndex xs input (indexOrDefault index) property = .ok u) ↔ ∃ i, mapGet xs (indexOrDefault index) = some i ∧ _
  unfold Rodb.checkIndex
  cases hi : mapGet xs (indexOrDefault index) with
  | none => simp
  | some i =>
    simp only [exists_require_bind, require_ok, exists_const, handles_iff, Option.some.injEq, exists_eq_left']

/-! ### Parsers -/

theorem ParserDecl.validate_iff (h : Holds p ps is xs os) (x : ParserDecl) :
    (∃ y, x.validate lib ps = .ok y) ↔ x.name ≠ "" ∧ WellFormedParser lib p x := by
  obtain ⟨name, kind⟩ := x
  cases kind with
  | string _ | integer _ | json => simp [ParserDecl.validate, exists_require_bind, WellFormedParser]
  | float s i => simp [ParserDecl.validate, exists_require_bind, WellFormedParser]
  | boolean t f => simp [ParserDecl.validate, exists_require_bind, WellFormedParser]
  | split d r q =>
    cases d with
    | none => simp [ParserDecl.validate, exists_require_bind, WellFormedParser]
    | some d =>
      simp only [ParserDecl.validate, exists_require_bind, WellFormedParser, h.parser, exists_ok, and_true, decide_eq_true_eq, Option.some.injEq, exists_eq_left']
      refine and_congr Iff.rfl (and_congr ?_ Iff.rfl)
      cases r with
      | none => simp
      | some b => cases b <;> simp

/-! ### Inputs -/

theorem ColumnDecl.validate_iff (h : Holds p ps is xs os) (c : ColumnDecl) :
    (∃ y, c.validate ps = .ok y) ↔ c.name ≠ "" ∧ ParserName p c.parser := by
  simp only [ColumnDecl.validate, exists_require_bind, h.parserName, exists_ok, and_true, decide_eq_true_eq]

theorem CsvDecl.validate_iff (h : Holds p ps is xs os) (c : CsvDecl) :
    (∃ y, c.validate lib ps = .ok y) ↔ c.name ≠ "" ∧ WellFormedInput lib p (.csv c) := by
  have hs : ((if c.delimiter = "" then "," else c.delimiter).utf8ByteSize ≤ 1) ↔ c.delimiter.utf8ByteSize ≤ 1 := by
    split
    · rename_i e; rw [e]; decide
    · exact Iff.rfl
  have hf : ∀ x y, ColumnDecl.validate ps x = .ok y → y.name = x.name := fun x y h => (ColumnDecl.validate_ok h).1
  unfold CsvDecl.validate WellFormedInput IsFile GoodNames
  have hb : ∀ (P : Prop), ((∃ u, checkFile lib c.path = .ok u ∧ P) ↔ lib.stat c.path = .file ∧ P) := by
    intro P
    constructor
    · rintro ⟨u, h, h'⟩; exact ⟨checkFile_ok.1 h, h'⟩
    · rintro ⟨h, h'⟩; exact ⟨(), checkFile_ok.2 h, h'⟩
  have hn : (∀ x ∈ c.columns, ∃ y, x.validate ps = .ok y) ↔ "" ∉ c.columns.map ColumnDecl.name ∧ ∀ column ∈ c.columns, ParserName p column.parser := by
    simp only [ColumnDecl.validate_iff h, List.mem_map, not_exists, not_and]
    exact ⟨fun h => ⟨fun x hx => (h x hx).1, fun x hx => (h x hx).2⟩, fun h x hx => ⟨h.1 x hx, h.2 x hx⟩⟩
  have tail : ∀ {msg : String} (b : Bool), (∃ y, (Rodb.require b msg >>= fun _ => do
        checkFile lib c.path
        require ((if c.delimiter = "" then "," else c.delimiter).utf8ByteSize ≤ 1) "csv.delimiter must be a single character"
        let columns ← validateList (ColumnDecl.validate ps) ColumnDecl.name "Column names must be unique." [] c.columns
        .ok { c with dieOnInputChange := some (c.dieOnInputChange.getD true), delimiter := if c.delimiter = "" then "," else c.delimiter, columns := columns }) = Except.ok y) ↔
      b = true ∧ lib.stat c.path = .file ∧ c.delimiter.utf8ByteSize ≤ 1 ∧ (∀ x ∈ c.columns, ∃ y, x.validate ps = .ok y) ∧ (c.columns.map ColumnDecl.name).Nodup := by
    intro msg b
    rw [exists_require_bind, exists_bind_ok, hb, exists_require_bind, exists_bind_of (fun _ => ⟨_, rfl⟩), validateList_iff hf, decide_eq_true_eq, hs]
    simp
  rw [exists_require_bind, decide_eq_true_eq]
  refine and_congr Iff.rfl ?_
  by_cases ha : c.autodetectColumns = true
  · rw [if_pos ha, tail, hn, List.isEmpty_iff]
    constructor
    · rintro ⟨h1, h2, h3, ⟨h4, h5⟩, h6⟩; exact ⟨h2, ⟨fun _ => h1, fun _ => ha⟩, h3, ⟨h6, h4⟩, h5⟩
    · rintro ⟨h2, h1, h3, ⟨h6, h4⟩, h5⟩; exact ⟨h1.1 ha, h2, h3, ⟨h4, h5⟩, h6⟩
  · rw [if_neg ha, tail, hn, Bool.not_eq_true', List.isEmpty_eq_false_iff]
    constructor
    · rintro ⟨h1, h2, h3, ⟨h4, h5⟩, h6⟩; exact ⟨h2, ⟨fun h => (ha h).elim, fun h => (h1 h).elim⟩, h3, ⟨h6, h4⟩, h5⟩
    · rintro ⟨h2, h1, h3, ⟨h6, h4⟩, h5⟩; exact ⟨fun h => ha (h1.2 h), h2, h3, ⟨h4, h5⟩, h6⟩

theorem XmlPropDecl.validate_name {b : Bool} : ∀ {x y : XmlPropDecl}, x.validate lib ps b = .ok y → y.name = x.name
  | .mk name type parser xpath items properties, q, h => by
    simp only [XmlPropDecl.validate, bind_ok, require_ok, exists_const] at h
    obtain ⟨_, _, h⟩ := h
    generalize (if type = "" then "primitive" else type) = t at h
    by_cases h1 : t = "primitive"
    · rw [if_pos h1] at h
      simp only [bind_ok, require_ok, exists_const, ok_inj] at h
      obtain ⟨_, _, _, rfl⟩ := h; rfl
    · rw [if_neg h1] at h
      by_cases h2 : t = "array"
      · rw [if_pos h2] at h
        simp only [bind_ok, require_ok, exists_const, ok_inj] at h
        obtain ⟨_, _, _, _, rfl⟩ := h; rfl
      · rw [if_neg h2] at h
        by_cases h3 : t = "object"
        · rw [if_pos h3] at h
          simp only [bind_ok, require_ok, exists_const, ok_inj] at h
          obtain ⟨_, _, _, _, _, rfl⟩ := h; rfl
        · rw [if_neg h3] at h; cases h

mutual
theorem XmlPropDecl.validate_iff (h : Holds p ps is xs os) {b : Bool} : ∀ (x : XmlPropDecl),
    (∃ y, x.validate lib ps b = .ok y) ↔ (b = true → x.name ≠ "") ∧ ∀ q ∈ xmlWithNested x, WellFormedXml lib p q
  | .mk name type parser xpath items properties => by
    have hi := validateXmlItems_iff h items
    have hp := validateXmlProperties_iff h [] properties
    simp only [XmlPropDecl.validate, exists_require_bind, xmlWithNested, List.forall_mem_cons, WellFormedXml, XmlPropDecl.name, List.forall_mem_append]
    have e0 : ((!b || decide (name ≠ "")) = true) ↔ (b = true → name ≠ "") := by cases b <;> simp
    rw [e0]
    refine and_congr Iff.rfl ?_
    rw [and_assoc]
    refine and_congr Iff.rfl ?_
    by_cases h1 : type = "" ∨ type = "primitive"
    · have h1' : (if type = "" then "primitive" else type) = "primitive" := by rcases h1 with e | e <;> simp [e]
      simp only [h1', if_true, exists_require_bind, h.parserName, exists_ok, and_true, Option.isNone_iff_eq_none, List.isEmpty_iff]
      constructor
      · rintro ⟨a, rfl, rfl⟩
        exact ⟨.inl ⟨h1, a, rfl, rfl⟩, by simp [xmlItems], by simp [xmlAll]⟩
      · rintro ⟨a, _, _⟩
        rcases a with ⟨_, a, b, c⟩ | ⟨e, _⟩ | ⟨e, _⟩
        · exact ⟨a, b, c⟩
        · rcases h1 with h1 | h1 <;> rw [e] at h1 <;> exact absurd h1 (by decide)
        · rcases h1 with h1 | h1 <;> rw [e] at h1 <;> exact absurd h1 (by decide)
    · obtain ⟨h2, h3⟩ := not_or.1 h1
      simp only [h2, h3, false_or, false_and, ↓reduceIte]
      by_cases h4 : type = "array"
      · subst h4
        simp only [↓reduceIte, exists_require_bind, exists_bind_of (fun _ => exists_ok _ |>.2 trivial), hi, List.isEmpty_iff, decide_eq_true_eq, true_and]
        constructor
        · rintro ⟨a, rfl, b, c⟩
          exact ⟨.inl ⟨a, b, rfl⟩, c, by simp [xmlAll]⟩
        · rintro ⟨⟨a, b, c⟩ | ⟨e, _⟩, d, _⟩
          · exact ⟨a, c, b, d⟩
          · exact absurd e (by decide)
      · simp only [h4, false_and, false_or, ↓reduceIte]
        by_cases h5 : type = "object"
        · subst h5
          simp only [↓reduceIte, exists_require_bind,
            exists_bind_of (fun _ => exists_ok _ |>.2 trivial), hp, decide_eq_true_eq, true_and,
            Option.isNone_iff_eq_none, Bool.not_eq_true', List.isEmpty_eq_false_iff]
          constructor
          · rintro ⟨a, rfl, c, d, _, e⟩
            exact ⟨⟨a, rfl, c, d⟩, by simp [xmlItems], e⟩
          · rintro ⟨⟨a, b, c, d⟩, _, e⟩
            exact ⟨a, b, c, d, by simp, e⟩
        · simp only [h5, false_and, ↓reduceIte, not_exists_error]
theorem validateXmlItems_iff (h : Holds p ps is xs os) : ∀ (i : Option XmlPropDecl),
    (∃ j, validateXmlItems lib ps i = .ok j) ↔ i ≠ none ∧ ∀ q ∈ xmlItems i, WellFormedXml lib p q
  | none => by simp [validateXmlItems]
  | some x => by
    simp only [validateXmlItems, xmlItems]
    rw [exists_bind_of (fun _ => ⟨_, rfl⟩), XmlPropDecl.validate_iff h x]
    simp
theorem validateXmlProperties_iff (h : Holds p ps is xs os) : ∀ (seen : List String) (l : List XmlPropDecl),
    (∃ l', validateXmlProperties lib ps seen l = .ok l') ↔
      GoodNames (namesOfXml l) ∧ (∀ n ∈ namesOfXml l, n ∉ seen) ∧ ∀ q ∈ xmlAll l, WellFormedXml lib p q
  | seen, [] => by simp [validateXmlProperties, GoodNames, namesOfXml, xmlAll]
  | seen, x :: rest => by
    have hx := XmlPropDecl.validate_iff h (b := true) x
    have ih := validateXmlProperties_iff h (x.name :: seen) rest
    have e : (∃ l', validateXmlProperties lib ps seen (x :: rest) = .ok l') ↔
        (∃ y, x.validate lib ps true = .ok y) ∧ x.name ∉ seen ∧ ∃ l', validateXmlProperties lib ps (x.name :: seen) rest = .ok l' := by
      simp only [validateXmlProperties]
      rw [exists_bind_ok]
      constructor
      · rintro ⟨y, hy, h'⟩
        rw [exists_require_bind, XmlPropDecl.validate_name hy, exists_bind_of (fun _ => ⟨_, rfl⟩)] at h'
        exact ⟨⟨y, hy⟩, by simpa using h'.1, h'.2⟩
      · rintro ⟨⟨y, hy⟩, h1, h2⟩
        refine ⟨y, hy, ?_⟩
        rw [exists_require_bind, XmlPropDecl.validate_name hy, exists_bind_of (fun _ => ⟨_, rfl⟩)]
        exact ⟨by simpa using h1, h2⟩
    rw [e, hx, ih]
    simp only [GoodNames, namesOfXml, List.map_cons, List.nodup_cons, xmlAll, List.forall_mem_append, List.mem_cons, not_or, forall_eq_or_imp]
    constructor
    · rintro ⟨⟨a, b⟩, c, ⟨d, d'⟩, e, f⟩
      exact ⟨⟨⟨fun hm => (e _ hm).1 rfl, d⟩, fun e' => a trivial e'.symm, d'⟩, ⟨c, fun n hn => (e n hn).2⟩, b, f⟩
    · rintro ⟨⟨⟨a, b⟩, c, c'⟩, ⟨d, e⟩, f, g⟩
      exact ⟨⟨fun _ e' => c e'.symm, f⟩, d, ⟨b, c'⟩, fun n hn => ⟨fun e' => a (e' ▸ hn), e n hn⟩, g⟩
end

theorem exists_checkFile_bind {β : Type} {path : String} {f : Unit → Res β} : (∃ b, (checkFile lib path >>= f) = .ok b) ↔ IsFile lib path ∧ ∃ b, f () = .ok b := by
  rw [exists_bind_ok]
  constructor
  · rintro ⟨u, h, h'⟩; exact ⟨checkFile_ok.1 h, h'⟩
  · rintro ⟨h, h'⟩; exact ⟨(), checkFile_ok.2 h, h'⟩

theorem InputDecl.validate_iff (h : Holds p ps is xs os) (x : InputDecl) :
    (∃ y, x.validate lib ps = .ok y) ↔ x.name ≠ "" ∧ WellFormedInput lib p x := by
  cases x with
  | csv c =>
    simp only [InputDecl.validate]
    rw [exists_bind_of (fun _ => ⟨_, rfl⟩), CsvDecl.validate_iff h]
    rfl
  | xml c =>
    simp only [InputDecl.validate]
    rw [exists_bind_of (fun _ => ⟨_, rfl⟩)]
    simp only [XmlDecl.validate, exists_require_bind, exists_checkFile_bind, decide_eq_true_eq, Bool.not_eq_true', List.isEmpty_eq_false_iff, InputDecl.name, WellFormedInput]
    rw [exists_bind_of (fun _ => ⟨_, rfl⟩), validateXmlProperties_iff h]
    constructor
    · rintro ⟨a, b, c, d, e, _, f⟩; exact ⟨a, d, b, c, e, f⟩
    · rintro ⟨a, d, b, c, e, f⟩; exact ⟨a, b, c, d, e, by simp, f⟩
  | json c =>
    simp only [InputDecl.validate]
    rw [exists_bind_of (fun _ => ⟨_, rfl⟩)]
    simp only [JsonDecl.validate, exists_require_bind, exists_checkFile_bind, decide_eq_true_eq, exists_ok, and_true, InputDecl.name, WellFormedInput]

/-! ### Indexes -/

theorem validateTexts_iff {message : String} {l : List String} : (∃ l', validateList .ok id message [] l = .ok l') ↔ l.Nodup := by
  rw [validateList_iff (fun x y h => (by cases h; rfl))]
  simp

theorem SqlitePropertyDecl.validate_iff (x : SqlitePropertyDecl) :
    (∃ y, x.validate lib = .ok y) ↔ x.name ≠ "" ∧ (x.collate = "" ∨ toUpper lib x.collate ∈ ["BINARY", "NOCASE", "RTIRM"]) := by
  simp only [SqlitePropertyDecl.validate, exists_require_bind, exists_ok, and_true, decide_eq_true_eq]
  refine and_congr Iff.rfl ?_
  by_cases e : x.collate = ""
  · simp [e, collateAllowedValues]
  · simp [e, collateAllowedValues]

theorem IndexDecl.validate_iff (h : Holds p ps is xs os) (x : IndexDecl) :
    (∃ y, x.validate lib is = .ok y) ↔ x.name ≠ "" ∧ WellFormedIndex lib p x := by
  cases x with
  | map c =>
    simp only [IndexDecl.validate]
    rw [exists_bind_of (fun _ => ⟨_, rfl⟩)]
    simp only [MapDecl.validate, exists_require_bind, decide_eq_true_eq, h.input, IndexDecl.name, WellFormedIndex]
    rw [exists_bind_of (fun _ => ⟨_, rfl⟩), validateTexts_iff]
  | wildcard c =>
    simp only [IndexDecl.validate]
    rw [exists_bind_of (fun _ => ⟨_, rfl⟩)]
    simp only [WildcardDecl.validate, exists_require_bind, decide_eq_true_eq, h.input, IndexDecl.name, WellFormedIndex]
    rw [exists_bind_of (fun _ => ⟨_, rfl⟩), validateTexts_iff]
    have e : (lib.stat c.path ≠ .failed ∧ lib.stat c.path ≠ .directory) ↔ (lib.stat c.path = .absent ∨ lib.stat c.path = .file) := by
      cases lib.stat c.path <;> simp
    rw [← e, and_assoc]
  | sqlite c =>
    simp only [IndexDecl.validate]
    rw [exists_bind_of (fun _ => ⟨_, rfl⟩)]
    simp only [SqliteDecl.validate, exists_require_bind, decide_eq_true_eq, h.input, IndexDecl.name, WellFormedIndex]
    rw [exists_bind_of (fun _ => ⟨_, rfl⟩), validateList_iff]
    · simp only [SqlitePropertyDecl.validate_iff, GoodNames, List.mem_map, not_exists, not_and]
      constructor
      · rintro ⟨a, b, c, d, e, _⟩; exact ⟨a, b, c, ⟨e, fun x hx => (d x hx).1⟩, fun x hx => (d x hx).2⟩
      · rintro ⟨a, b, c, ⟨e, d⟩, f⟩; exact ⟨a, b, c, fun x hx => ⟨d x hx, f x hx⟩, e, by simp⟩
    · intro x y hy
      simp only [SqlitePropertyDecl.validate, bind_ok, require_ok, exists_const, ok_inj] at hy
      obtain ⟨_, _, rfl⟩ := hy; rfl
  | fts5 c =>
    simp only [IndexDecl.validate]
    rw [exists_bind_of (fun _ => ⟨_, rfl⟩)]
    simp only [Fts5Decl.validate, exists_require_bind, decide_eq_true_eq, h.input, IndexDecl.name, WellFormedIndex]
    rw [exists_bind_of (fun _ => ⟨_, rfl⟩), validateTexts_iff]
  | noop n =>
    simp [IndexDecl.validate, exists_require_bind, IndexDecl.name, WellFormedIndex]

/-! ### Outputs -/

theorem ParamConfig.validate_iff (h : Holds p ps is xs os) {input : InputDecl} (x : ParamConfig) :
    (∃ y, x.validate xs ps input = .ok y) ↔ WellFormedParameter p input.name x := by
  simp only [ParamConfig.validate, exists_require_bind, WellFormedParameter, decide_eq_true_eq]
  refine and_congr Iff.rfl ?_
  rw [exists_bind_ok, ← h.checkIndex]
  simp only [← h.parsers]
  change (∃ a, _ ∧ _) ↔ _ ∧ ∃ y, mapGet ps (parserOrString x.parser) = some y ∧ _
  rw [exists_and_right]
  refine and_congr Iff.rfl ?_
  cases hp : mapGet ps (parserOrString x.parser) with
  | none => simp
  | some y => simp [exists_require_bind]

theorem MatchConfig.validate_iff (h : Holds p ps is xs os) {input : InputDecl} (m : MatchConfig) :
    (∃ y, m.validate xs input = .ok y) ↔ Searchable p m.childIndex input.name m.childProperty := by
  simp only [MatchConfig.validate]
  rw [exists_bind_of (fun _ => ⟨_, rfl⟩), h.checkIndex]

theorem validateLevel_iff (h : Holds p ps is xs os) {inputName : String} {isArray : Bool} {limit : Nat} {sort : List SortConfig} {matching : List MatchConfig}
    {rs : List (String × Relationship)} :
    (∃ y, validateLevel xs is inputName isArray sort matching = .ok y) ↔ WellFormedRelationship p (.mk inputName isArray limit sort matching rs) := by
  simp only [validateLevel, exists_require_bind, WellFormedRelationship, ← h.input]
  cases hi : mapGet is inputName with
  | none => simp
  | some input =>
    have hn : input.name = inputName := ((h.inputs _ _).1 hi).2
    have hs : (∃ l', validateList SortConfig.validate SortConfig.property "sort: property is used twice for sorting" [] sort = .ok l') ↔ (sort.map SortConfig.property).Nodup := by
      rw [validateList_iff (fun x y h => (by cases h; rfl))]
      simp [SortConfig.validate]
    have hm : (∃ l', validateList (MatchConfig.validate xs input) MatchConfig.childProperty "childProperty: Duplicate filter on childProperty" [] matching = .ok l') ↔
        (matching.map MatchConfig.childProperty).Nodup ∧ ∀ m ∈ matching, Searchable p m.childIndex inputName m.childProperty := by
      rw [validateList_iff]
      · simp only [MatchConfig.validate_iff h, hn]
        exact ⟨fun ⟨a, b, _⟩ => ⟨b, a⟩, fun ⟨b, a⟩ => ⟨a, b, by simp⟩⟩
      · intro x y hy
        simp only [MatchConfig.validate, bind_ok, ok_inj] at hy
        obtain ⟨_, _, rfl⟩ := hy; rfl
    simp only [exists_bind_ok, exists_require, exists_ok, and_true, exists_and_right, hs, hm, Bool.not_eq_true', List.isEmpty_eq_false_iff,
      Option.isSome_some, true_and, Bool.or_eq_true, List.isEmpty_iff]

mutual
theorem Relationship.validate_iff (h : Holds p ps is xs os) : ∀ (r : Relationship),
    (∃ y, r.validate xs is = .ok y) ↔ ∀ q ∈ relationshipWithNested r, WellFormedRelationship p q
  | .mk inputName isArray limit sort matching rs => by
    have ih := validateRelationships_iff h rs
    simp only [Relationship.validate, exists_bind_ok, exists_ok, and_true, exists_and_right, ih, relationshipWithNested, List.forall_mem_cons]
    rw [validateLevel_iff h]
theorem validateRelationships_iff (h : Holds p ps is xs os) : ∀ (l : List (String × Relationship)),
    (∃ l', validateRelationships xs is l = .ok l') ↔ ∀ q ∈ relationshipsAll l, WellFormedRelationship p q
  | [] => by simp [validateRelationships, relationshipsAll]
  | (n, r) :: rest => by
    have h1 := Relationship.validate_iff h r
    have h2 := validateRelationships_iff h rest
    simp only [validateRelationships, exists_bind_ok, exists_ok, and_true, exists_and_right, h1, h2, relationshipsAll, List.forall_mem_append]
end

theorem OutputDecl.validate_iff (h : Holds p ps is xs os) (x : OutputDecl) :
    (∃ y, x.validate is xs ps = .ok y) ↔ x.name ≠ "" ∧ WellFormedOutput p x := by
  cases x with
  | graphql n => simp [OutputDecl.validate, exists_require_bind, OutputDecl.name, WellFormedOutput]
  | array n c =>
    simp only [OutputDecl.validate]
    rw [exists_bind_of (fun _ => ⟨_, rfl⟩)]
    simp only [ArrayConfig.validate, exists_require_bind, decide_eq_true_eq, OutputDecl.name, WellFormedOutput]
    refine and_congr Iff.rfl (and_congr Iff.rfl ?_)
    rw [← h.input]
    cases hi : mapGet is c.input with
    | none => simp
    | some input =>
      have hn : input.name = c.input := ((h.inputs _ _).1 hi).2
      simp only [Option.isSome_some, true_and]
      generalize hd : (if c.limit.default = 0 then 100 else c.limit.default) = d
      generalize hm : (if c.limit.max = 0 then 1000 else c.limit.max) = m
      by_cases hlt : d ≤ m
      · have hv : c.limit.validate = some { default := d, max := m, parameter := if c.limit.parameter = "" then "limit" else c.limit.parameter } := by
          simp only [LimitConfig.validate, hd, hm]
          exact if_neg (by simpa using hlt)
        rw [hv]
        simp only [exists_bind_ok, exists_ok, and_true, exists_and_right, validateRelationships_iff h, validateMap_ok, hlt, true_and]
        refine and_congr ?_ Iff.rfl
        refine forall_congr' fun k => forall_congr' fun y => forall_congr' fun _ => ?_
        rw [← hn, ← ParamConfig.validate_iff h]
        simp only [validateArrayParameter, exists_bind_ok, exists_require, exists_ok, and_true, exists_and_right, decide_eq_true_eq]
      · have hv : c.limit.validate = none := by
          simp only [LimitConfig.validate, hd, hm]
          exact if_pos (by simpa using hlt)
        rw [hv]
        simp [hlt]
  | object n c =>
    simp only [OutputDecl.validate]
    rw [exists_bind_of (fun _ => ⟨_, rfl⟩)]
    simp only [ObjectConfig.validate, exists_require_bind, decide_eq_true_eq, OutputDecl.name, WellFormedOutput, Bool.not_eq_true', List.isEmpty_eq_false_iff]
    refine and_congr Iff.rfl ?_
    rw [← h.input]
    cases hi : mapGet is c.input with
    | none => simp
    | some input =>
      have hn : input.name = c.input := ((h.inputs _ _).1 hi).2
      simp only [exists_bind_ok, exists_ok, and_true, exists_and_right, validateRelationships_iff h, validateMap_ok, true_and, Option.isSome_some,
        ParamConfig.validate_iff h, hn]
      exact ⟨fun ⟨a, b, c, d⟩ => ⟨b, a, c, d⟩, fun ⟨b, a, c, d⟩ => ⟨a, b, c, d⟩⟩

/-! ### Services -/

theorem validateHttps_iff (s : Option HttpsDecl) : (∃ y, validateHttps lib s = .ok y) ↔
    ∀ d, s = some d → d.certificatePath ≠ "" ∧ IsFile lib d.certificatePath ∧ d.privateKeyPath ≠ "" ∧ IsFile lib d.privateKeyPath := by
  cases s with
  | none => simp [validateHttps]
  | some d =>
    simp only [validateHttps, HttpsDecl.validate, exists_bind_of (fun _ => exists_ok _ |>.2 trivial), exists_require_bind, exists_checkFile_bind, exists_checkFile,
      decide_eq_true_eq, Option.some.injEq, forall_eq']

theorem ServiceDecl.validate_iff (h : Holds p ps is xs os) (x : ServiceDecl) :
    (∃ y, x.validate lib os = .ok y) ↔ x.name ≠ "" ∧ WellFormedService lib p x := by
  have hr : (∃ l', validateList (RouteDecl.validate os) RouteDecl.path "Duplicate path in array." [] x.routes = .ok l') ↔
      GoodNames (x.routes.map RouteDecl.path) ∧ ∀ r ∈ x.routes, r.output ≠ "" ∧ OutputName p r.output := by
    rw [validateList_iff]
    · simp only [RouteDecl.validate, exists_require_bind, exists_ok, and_true, decide_eq_true_eq, h.output, GoodNames, List.mem_map, not_exists, not_and]
      constructor
      · rintro ⟨a, b, _⟩; exact ⟨⟨b, fun r hr => (a r hr).2.1⟩, fun r hr => ⟨(a r hr).1, (a r hr).2.2⟩⟩
      · rintro ⟨⟨b, c⟩, a⟩; exact ⟨fun r hr => ⟨(a r hr).1, c r hr, (a r hr).2⟩, b, by simp⟩
    · intro r s hs
      simp only [RouteDecl.validate, bind_ok, require_ok, exists_const, ok_inj] at hs
      obtain ⟨_, _, _, rfl⟩ := hs; rfl
  simp only [ServiceDecl.validate, exists_require_bind, exists_bind_ok, exists_and_right, exists_ok, and_true, hr, validateHttps_iff, decide_eq_true_eq,
    Bool.not_eq_true', List.isEmpty_eq_false_iff, WellFormedService, Bool.or_eq_true]
  refine and_congr Iff.rfl ?_
  have e1 : (["application/json"].contains (if x.errorsType = "" then "application/json" else x.errorsType) = true) ↔ (x.errorsType = "" ∨ x.errorsType = "application/json") := by
    by_cases e : x.errorsType = ""
    · simp [e]
    · simp [e]
  have e2 : (x.https.isSome = true ∨ x.http.isSome = true) ↔ (x.http ≠ none ∨ x.https ≠ none) := by
    cases x.https <;> cases x.http <;> simp
  rw [e1, e2]
  constructor
  · rintro ⟨a, b, c, ⟨d, e⟩, f⟩; exact ⟨f, a, b, c, d, e⟩
  · rintro ⟨f, a, b, c, d, e⟩; exact ⟨a, b, c, ⟨d, e⟩, f⟩
end

/-! ### The values after validation -/

theorem validateList_value {α : Type} {f : α → Res α} {g : α → α} {name : α → String} {message : String} (hf : ∀ x y, f x = .ok y → y = g x) :
    ∀ {l l' : List α} {seen : List String}, validateList f name message seen l = .ok l' → l' = l.map g
  | [], _, _, h => by cases h; rfl
  | x :: rest, _, _, h => by
    simp only [validateList, bind_ok, require_ok, exists_const, ok_inj] at h
    obtain ⟨y, hy, _, r, hr, rfl⟩ := h
    rw [hf x y hy, validateList_value hf hr, List.map_cons]

theorem validateMap_value {α : Type} {f : String → α → Res α} {g : α → α} (hf : ∀ k x y, f k x = .ok y → y = g x) :
    ∀ {m m' : GoMap α}, validateMap f m = .ok m' → m' = m.map (fun e => (e.1, g e.2))
  | [], _, h => by cases h; rfl
  | (k, x) :: rest, _, h => by
    simp only [validateMap, bind_ok, ok_inj] at h
    obtain ⟨y, hy, r, hr, rfl⟩ := h
    rw [hf k x y hy, validateMap_value hf hr, List.map_cons]

section
variable {lib : ConfigLib} {ps : GoMap ParserDecl} {is : GoMap InputDecl} {xs : GoMap IndexDecl} {os : GoMap OutputDecl}

theorem ParserDecl.validate_value {x y : ParserDecl} (h : x.validate lib ps = .ok y) : y = completedParser x := by
  obtain ⟨name, kind⟩ := x
  cases kind with
  | split d r q =>
    cases d with
    | none => simp [ParserDecl.validate, bind_ok] at h
    | some d =>
      simp only [ParserDecl.validate, bind_ok, require_ok, exists_const, ok_inj] at h
      obtain ⟨_, _, _, rfl⟩ := h; rfl
  | string _ | integer _ | json | float _ _ | boolean _ _ =>
    simp only [ParserDecl.validate, bind_ok, require_ok, exists_const, ok_inj] at h
    first
    | (obtain ⟨_, _, _, rfl⟩ := h; rfl)
    | (obtain ⟨_, _, rfl⟩ := h; rfl)
    | (obtain ⟨_, rfl⟩ := h; rfl)

mutual
theorem XmlPropDecl.validate_value {b : Bool} : ∀ {x y : XmlPropDecl}, x.validate lib ps b = .ok y → y = completedXml x
  | .mk name type parser xpath items properties, q, h => by
    simp only [XmlPropDecl.validate, bind_ok, require_ok, exists_const] at h
    obtain ⟨_, _, h⟩ := h
    rw [completedXml]
    have ht : (if type = "" then "primitive" else type) = orText type "primitive" := rfl
    simp only [ht] at h
    generalize orText type "primitive" = t at h ⊢
    by_cases h1 : t = "primitive"
    · rw [if_pos h1] at h
      simp only [bind_ok, require_ok, exists_const, ok_inj, Option.isNone_iff_eq_none, List.isEmpty_iff] at h
      obtain ⟨_, rfl, rfl, rfl⟩ := h
      rw [if_pos h1]; rfl
    · rw [if_neg h1] at h ⊢
      by_cases h2 : t = "array"
      · rw [if_pos h2] at h
        simp only [bind_ok, require_ok, exists_const, ok_inj, List.isEmpty_iff] at h
        obtain ⟨_, rfl, i, hi, rfl⟩ := h
        rw [validateXmlItems_value hi]; rfl
      · rw [if_neg h2] at h
        by_cases h3 : t = "object"
        · rw [if_pos h3] at h
          simp only [bind_ok, require_ok, exists_const, ok_inj, Option.isNone_iff_eq_none] at h
          obtain ⟨_, rfl, _, l, hl, rfl⟩ := h
          rw [validateXmlProperties_value hl]; rfl
        · rw [if_neg h3] at h; cases h
theorem validateXmlItems_value : ∀ {i j : Option XmlPropDecl}, validateXmlItems lib ps i = .ok j → j = completedItems i
  | none, _, h => by simp [validateXmlItems] at h
  | some x, _, h => by
    simp only [validateXmlItems, bind_ok, ok_inj] at h
    obtain ⟨y, hy, rfl⟩ := h
    rw [XmlPropDecl.validate_value hy, completedItems]
theorem validateXmlProperties_value : ∀ {seen : List String} {l l' : List XmlPropDecl}, validateXmlProperties lib ps seen l = .ok l' → l' = completedProperties l
  | _, [], _, h => by simp only [validateXmlProperties, ok_inj] at h; rw [← h, completedProperties]
  | _, x :: rest, _, h => by
    simp only [validateXmlProperties, bind_ok, require_ok, exists_const, ok_inj] at h
    obtain ⟨y, hy, _, r, hr, rfl⟩ := h
    rw [XmlPropDecl.validate_value hy, validateXmlProperties_value hr, completedProperties]
end

theorem InputDecl.validate_value {x y : InputDecl} (h : x.validate lib ps = .ok y) : y = completedInput x := by
  cases x with
  | csv c =>
    simp only [InputDecl.validate, bind_ok, ok_inj] at h
    obtain ⟨d, hd, rfl⟩ := h
    have key : ∀ {b : Bool} {x y : Res Unit} {r : Res CsvDecl}, (if b = true then x >>= fun _ => r else y >>= fun _ => r) = .ok d → r = .ok d := by
      intro b x y r h
      split at h
      · rw [bind_ok] at h; obtain ⟨_, _, h⟩ := h; exact h
      · rw [bind_ok] at h; obtain ⟨_, _, h⟩ := h; exact h
    unfold CsvDecl.validate at hd
    rw [require_bind] at hd
    have hd := key hd.2
    simp only [bind_ok, require_ok, checkFile_ok, exists_const, ok_inj] at hd
    obtain ⟨_, _, l, hl, rfl⟩ := hd
    rw [validateList_value (g := fun c => { c with parser := orText c.parser "string" }) ?_ hl]
    · rfl
    · intro x y hy
      simp only [ColumnDecl.validate, bind_ok, require_ok, exists_const, ok_inj] at hy
      obtain ⟨_, _, rfl⟩ := hy; rfl
  | xml c =>
    simp only [InputDecl.validate, XmlDecl.validate, bind_ok, require_ok, checkFile_ok, exists_const, ok_inj] at h
    obtain ⟨d, ⟨_, _, _, _, l, hl, rfl⟩, rfl⟩ := h
    rw [validateXmlProperties_value hl]; rfl
  | json c =>
    simp only [InputDecl.validate, JsonDecl.validate, bind_ok, require_ok, checkFile_ok, exists_const, ok_inj] at h
    obtain ⟨d, ⟨_, _, rfl⟩, rfl⟩ := h
    rfl

theorem IndexDecl.validate_value {x y : IndexDecl} (h : x.validate lib is = .ok y) : y = completedIndex lib x := by
  cases x with
  | map c =>
    simp only [IndexDecl.validate, MapDecl.validate, bind_ok, require_ok, exists_const, ok_inj] at h
    obtain ⟨d, ⟨_, _, l, hl, rfl⟩, rfl⟩ := h
    rw [validateList_id hl]; rfl
  | wildcard c =>
    simp only [IndexDecl.validate, WildcardDecl.validate, bind_ok, require_ok, exists_const, ok_inj] at h
    obtain ⟨d, ⟨_, _, _, _, _, l, hl, rfl⟩, rfl⟩ := h
    rw [validateList_id hl]; rfl
  | sqlite c =>
    simp only [IndexDecl.validate, SqliteDecl.validate, bind_ok, require_ok, exists_const, ok_inj] at h
    obtain ⟨d, ⟨_, _, _, l, hl, rfl⟩, rfl⟩ := h
    rw [validateList_value (g := fun q => { q with collate := if q.collate = "" then "BINARY" else toUpper lib q.collate }) ?_ hl]
    · rfl
    · intro x y hy
      simp only [SqlitePropertyDecl.validate, bind_ok, require_ok, exists_const, ok_inj] at hy
      obtain ⟨_, _, rfl⟩ := hy; rfl
  | fts5 c =>
    simp only [IndexDecl.validate, Fts5Decl.validate, bind_ok, require_ok, exists_const, ok_inj] at h
    obtain ⟨d, ⟨_, _, _, l, hl, rfl⟩, rfl⟩ := h
    rw [validateList_id hl]; rfl
  | noop n =>
    simp only [IndexDecl.validate, bind_ok, require_ok, exists_const, ok_inj] at h
    obtain ⟨_, rfl⟩ := h; rfl

theorem ParamConfig.validate_value {input : InputDecl} {x y : ParamConfig} (h : x.validate xs ps input = .ok y) : y = completedParameter x := by
  simp only [ParamConfig.validate, bind_ok, require_ok, exists_const] at h
  obtain ⟨_, _, _, h⟩ := h
  cases hp : mapGet ps (parserOrString x.parser) with
  | none => rw [hp] at h; cases h
  | some q =>
    rw [hp] at h
    simp only [bind_ok, require_ok, exists_const, ok_inj] at h
    obtain ⟨_, rfl⟩ := h; rfl

theorem validateLevel_value {inputName : String} {isArray : Bool} {sort sort' : List SortConfig} {matching matching' : List MatchConfig}
    (h : validateLevel xs is inputName isArray sort matching = .ok (sort', matching')) :
    sort' = sort.map (fun s => { s with ascending := some (s.ascending.getD true) }) ∧
    matching' = matching.map (fun m => { m with childIndex := orText m.childIndex "default" }) := by
  simp only [validateLevel, bind_ok, require_ok, exists_const] at h
  obtain ⟨_, h⟩ := h
  cases hi : mapGet is inputName with
  | none => rw [hi] at h; cases h
  | some input =>
    rw [hi] at h
    simp only [bind_ok, require_ok, exists_const, ok_inj, Prod.mk.injEq] at h
    obtain ⟨s, hs, _, m, hm, rfl, rfl⟩ := h
    refine ⟨validateList_value (fun x y hy => ?_) hs, validateList_value (fun x y hy => ?_) hm⟩
    · cases hy; rfl
    · simp only [MatchConfig.validate, bind_ok, ok_inj] at hy
      obtain ⟨_, _, rfl⟩ := hy; rfl

mutual
theorem Relationship.validate_value : ∀ {x y : Relationship}, x.validate xs is = .ok y → y = completedRelationship x
  | .mk inputName isArray limit sort matching rs, q, h => by
    simp only [Relationship.validate, bind_ok, ok_inj] at h
    obtain ⟨⟨s, m⟩, h1, l, h2, rfl⟩ := h
    obtain ⟨rfl, rfl⟩ := validateLevel_value h1
    rw [validateRelationships_value h2, completedRelationship]
theorem validateRelationships_value : ∀ {l l' : List (String × Relationship)}, validateRelationships xs is l = .ok l' → l' = completedRelationships l
  | [], _, h => by simp only [validateRelationships, ok_inj] at h; rw [← h, completedRelationships]
  | (n, r) :: rest, _, h => by
    simp only [validateRelationships, bind_ok, ok_inj] at h
    obtain ⟨r', h1, l, h2, rfl⟩ := h
    rw [Relationship.validate_value h1, validateRelationships_value h2, completedRelationships]
end

theorem OutputDecl.validate_value {x y : OutputDecl} (h : x.validate is xs ps = .ok y) : y = completedOutput x := by
  cases x with
  | graphql n =>
    simp only [OutputDecl.validate, bind_ok, require_ok, exists_const, ok_inj] at h
    obtain ⟨_, rfl⟩ := h; rfl
  | array n c =>
    simp only [OutputDecl.validate, ArrayConfig.validate, bind_ok, require_ok, exists_const, ok_inj] at h
    obtain ⟨d, ⟨_, _, h⟩, rfl⟩ := h
    cases hi : mapGet is c.input with
    | none => rw [hi] at h; cases h
    | some input =>
      rw [hi] at h
      cases hl : c.limit.validate with
      | none => rw [hl] at h; cases h
      | some limit =>
        rw [hl] at h
        simp only [bind_ok, ok_inj] at h
        obtain ⟨parameters, h1, rs, h2, rfl⟩ := h
        rw [validateRelationships_value h2, validateMap_value (g := completedParameter) ?_ h1]
        · simp only [LimitConfig.validate] at hl
          by_cases hc : (if c.limit.default = 0 then 100 else c.limit.default) > (if c.limit.max = 0 then 1000 else c.limit.max)
          · rw [if_pos hc] at hl; cases hl
          · rw [if_neg hc, Option.some.injEq] at hl
            rw [← hl]; rfl
        · intro k x y hy
          simp only [validateArrayParameter, bind_ok, require_ok, exists_const, ok_inj] at hy
          obtain ⟨z, hz, _, _, rfl⟩ := hy
          exact ParamConfig.validate_value hz
  | object n c =>
    simp only [OutputDecl.validate, ObjectConfig.validate, bind_ok, require_ok, exists_const, ok_inj] at h
    obtain ⟨d, ⟨_, _, _, h⟩, rfl⟩ := h
    cases hi : mapGet is c.input with
    | none => rw [hi] at h; cases h
    | some input =>
      rw [hi] at h
      simp only [bind_ok, ok_inj] at h
      obtain ⟨parameters, h1, rs, h2, rfl⟩ := h
      rw [validateRelationships_value h2, validateMap_value (g := completedParameter) (fun k x y hy => ParamConfig.validate_value hy) h1]
      rfl

theorem ServiceDecl.validate_value {x y : ServiceDecl} (h : x.validate lib os = .ok y) : y = completedService x := by
  simp only [ServiceDecl.validate, bind_ok, require_ok, exists_const, ok_inj] at h
  obtain ⟨_, _, s, hs, _, l, hl, _, rfl⟩ := h
  have e : s = x.https.map (fun d => { d with listen := orText d.listen "127.0.0.1:0" }) := by
    cases hx : x.https with
    | none => rw [hx] at hs; cases hs; rfl
    | some d =>
      rw [hx] at hs
      simp only [validateHttps, HttpsDecl.validate, bind_ok, require_ok, checkFile_ok, exists_const, ok_inj] at hs
      obtain ⟨d', ⟨_, _, _, _, rfl⟩, rfl⟩ := hs; rfl
  have e' : l = x.routes := by
    rw [validateList_value (g := id) (fun r s hs => ?_) hl, List.map_id]
    simp only [RouteDecl.validate, bind_ok, require_ok, exists_const, ok_inj] at hs
    obtain ⟨_, _, _, rfl⟩ := hs; rfl
  rw [e, e']; rfl
end

/-! ### The whole configuration -/

/-- The entries of a map that holds the components. -/
theorem all_components {α : Type} {name : α → String} {declared defaults : List α} {m : GoMap α} {Q : α → Prop} (hn : (m.map (·.1)).Nodup)
    (h : ∀ n x, mapGet m n = some x ↔ IsComponent name declared defaults n x) (hd : ∀ x ∈ defaults, Q x) :
    (∀ k x, (k, x) ∈ m → Q x) ↔ ∀ x ∈ declared, Q x := by
  constructor
  · intro hm x hx
    exact hm (name x) x (mapGet_mem ((h _ _).2 (.inl ⟨hx, rfl⟩)))
  · intro hq k x hx
    rcases (h k x).1 (mapGet_nodup_mem hn hx) with ⟨h1, _⟩ | ⟨_, h1, _⟩
    · exact hq x h1
    · exact hd x h1

/-- The default components are always accepted. -/
theorem builtin_wellFormed (lib : ConfigLib) (p : ParsedConfig) : ∀ x ∈ builtinParsers, x.name ≠ "" ∧ WellFormedParser lib p x := by
  intro x hx
  simp only [builtinParsers, List.mem_cons, List.not_mem_nil, or_false] at hx
  rcases hx with rfl | rfl | rfl | rfl | rfl <;> simp [WellFormedParser]

end Rodb
