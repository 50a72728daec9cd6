import Verif.Proofs.Parser
/-
  C30 C31 C32 C33 C34 C35: the parsers.
-/
namespace Rodb
open Spec

/-- **C31** Removing a set of characters from a text (valid UTF-8) deletes exactly the characters of the set and
keeps the others in order. -/
theorem C31_remove_characters (text chars : List Char) :
    removeCharacters (utf8 text) chars = utf8 (text.filter (fun c => decide (c ∉ chars))) := by
  rw [removeCharacters_utf8]
  congr 2
  funext c
  by_cases h : c ∈ chars <;> simp [h]

example : removeCharacters (utf8 ['1', '€', '2', 'é', '€']) ['€', ','] = utf8 ['1', '2', 'é'] := by
  rw [C31_remove_characters]; decide

/-- **C31** On any bytes, even invalid UTF-8, removing ASCII characters deletes exactly their bytes. -/
theorem C31_remove_ascii (s : Bytes) (chars : List Char) (h : ∀ c ∈ chars, c.toNat < 128) :
    removeCharacters s chars = s.filter (fun b => decide (∀ c ∈ chars, c.toNat ≠ b.toNat)) := by
  rw [removeCharacters_ascii chars s h]
  congr 1
  funext b
  rw [Bool.eq_iff_iff]
  simp

example : removeCharacters [0xff, 32, 49, 44, 50] [' ', ','] = [0xff, 49, 50] := by
  rw [C31_remove_ascii _ _ (by decide)]; decide

/-- **C30** The integer parser returns `i` exactly for the texts which, without the ignored characters, are an
optionally signed digit sequence of value `i`, `i` being a 64-bit integer; it fails on all other texts. -/
theorem C30_integer_parser (ignore text : List Char) :
    (∀ i, integerParse ignore (utf8 text) = .ok (.int i) ↔ IntegerText (utf8 (text.filter (fun c => decide (c ∉ ignore)))) i) ∧
    ((∀ i, ¬ IntegerText (utf8 (text.filter (fun c => decide (c ∉ ignore)))) i) → ∃ msg, integerParse ignore (utf8 text) = .error (.err msg)) := by
  unfold integerParse
  rw [C31_remove_characters]
  constructor
  · intro i
    rw [← atoi_iff]
    cases h : atoi (utf8 (text.filter (fun c => decide (c ∉ ignore)))) <;> simp
  · intro h
    cases h' : atoi (utf8 (text.filter (fun c => decide (c ∉ ignore)))) with
    | none => exact ⟨_, rfl⟩
    | some i => exact absurd ((atoi_iff _ _).mp h') (h i)

/-- **C30** Round-trip: the decimal text of every 64-bit integer, with ignored characters inserted anywhere, is
parsed as that integer. -/
theorem C30_integer_round_trip (ignore text : List Char) (i : Int) (hi : Int64Range i)
    (h : utf8 (text.filter (fun c => decide (c ∉ ignore))) = intText i) : integerParse ignore (utf8 text) = .ok (.int i) := by
  rw [(C30_integer_parser ignore text).1, h]
  exact intText_spec i hi

example : integerParse [',', ' '] (utf8 ['-', '1', ',', '2', '3', '4']) = .ok (.int (-1234)) ∧
    intText (-1234) = utf8 ['-', '1', '2', '3', '4'] ∧
    (∃ msg, integerParse [] (utf8 ['9', '2', '2', '3', '3', '7', '2', '0', '3', '6', '8', '5', '4', '7', '7', '5', '8', '0', '8']) = .error (.err msg)) := by
  refine ⟨(C30_integer_parser _ _).1 _ |>.mpr ?_, by decide +kernel, _, rfl⟩
  exact ⟨by unfold Int64Range; decide, utf8 ['1', '2', '3', '4'], ⟨by decide, by decide⟩, .inr ⟨by decide, by decide⟩⟩

/-- **C65** The float parser reads the text without the ignored characters and with every decimal separator replaced
by a point, and returns what the number syntax of the library gives for it. -/
theorem C65_float_parser (lib : ParserLib) (ignore text : List Char) (separator : Char) :
    floatParse lib (String.utf8EncodeChar separator) ignore (utf8 text) =
      (lib.parseFloat (utf8 ((text.filter (fun c => decide (c ∉ ignore))).map (fun c => if c = separator then '.' else c)))).map Value.float := by
  have hmap : ∀ l : List Char, l.flatMap (fun d => if d = separator then ['.'] else [d]) = l.map (fun c => if c = separator then '.' else c) := by
    intro l
    induction l with
    | nil => rfl
    | cons a l ih => simp only [List.flatMap_cons, ih, List.map_cons]; split <;> rfl
  have hdot : utf8 ['.'] = [46] := by decide
  unfold floatParse
  simp only [C31_remove_characters]
  have hif : (if String.utf8EncodeChar separator ≠ [46] then
      replaceAll (utf8 (text.filter (fun c => decide (c ∉ ignore)))) (String.utf8EncodeChar separator) [46]
      else utf8 (text.filter (fun c => decide (c ∉ ignore)))) =
      utf8 ((text.filter (fun c => decide (c ∉ ignore))).map (fun c => if c = separator then '.' else c)) := by
    split
    · rw [← hdot, replaceAll_utf8, hmap]
    · rename_i h
      have : separator = '.' := by
        have h' : utf8 [separator] = utf8 ['.'] := by rw [hdot]; simpa [utf8] using h
        simpa using utf8_inj h'
      subst this
      congr 1
      generalize text.filter (fun c => decide (c ∉ ignore)) = l
      induction l with
      | nil => rfl
      | cons a l ih =>
        simp only [List.map_cons, ← ih]
        split
        · rename_i ha; rw [ha]
        · rfl
  rw [hif]
  generalize lib.parseFloat _ = r
  cases r <;> rfl

example : ((['1', ' ', '0', ',', '5'].filter (fun c => decide (c ∉ [' ']))).map (fun c => if c = ',' then '.' else c)) = ['1', '0', '.', '5'] := by
  decide

/-- **C32** The boolean parser returns true exactly on the texts listed in trueValues, false exactly on those listed
in falseValues only, and an error on all others. -/
theorem C32_boolean_parser (trueValues falseValues : List Bytes) (value : Bytes) :
    (booleanParse trueValues falseValues value = .ok (.bool true) ↔ value ∈ trueValues) ∧
    (booleanParse trueValues falseValues value = .ok (.bool false) ↔ value ∈ falseValues ∧ value ∉ trueValues) ∧
    ((∃ msg, booleanParse trueValues falseValues value = .error (.err msg)) ↔ value ∉ trueValues ∧ value ∉ falseValues) := by
  unfold booleanParse
  by_cases h1 : isInArray value trueValues = true
  · have h2 := (isInArray_iff _ _).mp h1
    rw [if_pos h1]
    simp [h2]
  · have h2 : value ∉ trueValues := fun h => h1 ((isInArray_iff _ _).mpr h)
    rw [if_neg h1]
    by_cases h3 : isInArray value falseValues = true
    · have h4 := (isInArray_iff _ _).mp h3
      rw [if_pos h3]
      simp [h2, h4]
    · have h4 : value ∉ falseValues := fun h => h3 ((isInArray_iff _ _).mpr h)
      rw [if_neg h3]
      simp [h2, h4]

example : booleanParse [[121]] [[110], [121]] [121] = .ok (.bool true) ∧ booleanParse [[121]] [[110], [121]] [110] = .ok (.bool false) := by
  exact ⟨rfl, rfl⟩

/-- **C33** Splitting a text by a non-empty delimiter cuts it at each delimiter from left to right: the pieces do not
contain the delimiter, joining them with the delimiter restores the text, and they are determined by this. -/
theorem C33_split_pieces (lib : ParserLib) (value delimiter : Bytes) (h : delimiter ≠ []) :
    IsSplit delimiter value ((Delimiter.literal delimiter).pieces lib value) ∧
    delimiter.intercalate ((Delimiter.literal delimiter).pieces lib value) = value ∧
    (∀ piece ∈ (Delimiter.literal delimiter).pieces lib value, ¬ delimiter <:+: piece) ∧
    (∀ pieces, IsSplit delimiter value pieces → pieces = (Delimiter.literal delimiter).pieces lib value) := by
  have heq : (Delimiter.literal delimiter).pieces lib value = splitAux delimiter 0 [] value := by
    cases delimiter with
    | nil => exact absurd rfl h
    | cons d ds => rfl
  have hs := splitAux_isSplit h value.length value [] (Nat.le_refl _) (by simp)
  rw [heq]
  exact ⟨hs, IsSplit.join hs, IsSplit.free h hs, fun _ hp => IsSplit.unique hp hs⟩

namespace ParserExample
def lib : ParserLib :=
  { parseFloat := fun _ => .error (.err "not a number"), unmarshal := fun _ => .error (.err "not json"), explode := fun s => s.map (fun b => [b]) }
def parsers : GoMap ParserConfig := [("int", .integer []), ("list", .split (.literal [44]) "int")]
end ParserExample

example : (Delimiter.literal [44, 44]).pieces ParserExample.lib [49, 44, 44, 44, 50, 44, 44] = [[49], [44, 50], []] := by decide

/-- **C33** The split parser returns one element per piece, in order, each parsed by the configured parser; it
fails as soon as one piece does, with the failure of the first such piece. -/
theorem C33_split_elements (lib : ParserLib) (parsers : GoMap ParserConfig) (fuel : Nat) (delimiter : Delimiter) (name : String)
    (inner : ParserConfig) (hin : mapGet parsers name = some inner) (value : Bytes) :
    (∀ v, parse lib parsers (fuel + 1) (.split delimiter name) value = .ok v ↔
      ∃ vs : List Value, v = .arr vs ∧ vs.length = (delimiter.pieces lib value).length ∧
        ∀ i (h : i < (delimiter.pieces lib value).length) (h' : i < vs.length),
          parse lib parsers fuel inner (delimiter.pieces lib value)[i] = .ok vs[i]) ∧
    (∀ e, parse lib parsers (fuel + 1) (.split delimiter name) value = .error e ↔
      ∃ pre p post, delimiter.pieces lib value = pre ++ p :: post ∧
        (∀ q ∈ pre, ∃ v, parse lib parsers fuel inner q = .ok v) ∧ parse lib parsers fuel inner p = .error e) := by
  simp only [parse, hin]
  constructor
  · intro v
    cases h : parsePieces (parse lib parsers fuel inner) (delimiter.pieces lib value) with
    | error e =>
      simp only [reduceCtorEq, false_iff]
      rintro ⟨vs, _, h1⟩
      rw [parsePieces_ok.mpr h1] at h
      cases h
    | ok vs =>
      simp only [Except.ok.injEq]
      constructor
      · rintro rfl; exact ⟨vs, rfl, parsePieces_ok.mp h⟩
      · rintro ⟨ws, rfl, h1⟩
        rw [parsePieces_ok.mpr h1] at h
        cases h
        rfl
  · intro e
    rw [← parsePieces_error]
    cases h : parsePieces (parse lib parsers fuel inner) (delimiter.pieces lib value) <;> simp

example : parse ParserExample.lib ParserExample.parsers 1 (.split (.literal [44]) "int") [49, 44, 45, 50] = .ok (.arr [.int 1, .int (-2)]) ∧
    (∃ msg, parse ParserExample.lib ParserExample.parsers 1 (.split (.literal [44]) "int") [49, 44, 120] = .error (.err msg)) := by
  refine ⟨by rfl, _, rfl⟩

/-- **C33** With an empty delimiter and the plain string parser, the result is an array of non-empty strings which make up
the text when put together, provided that the library cuts the text into characters (always so for valid UTF-8). -/
theorem C33_empty_delimiter (lib : ParserLib) (parsers : GoMap ParserConfig) (name : String)
    (hin : mapGet parsers name = some (.string none)) (fuel : Nat) (value : Bytes)
    (hjoin : (lib.explode value).flatten = value) (hne : ∀ c ∈ lib.explode value, c ≠ []) :
    ∃ strings : List Bytes, parse lib parsers (fuel + 1) (.split (.literal []) name) value = .ok (.arr (strings.map .str)) ∧
      strings.flatten = value ∧ ∀ s ∈ strings, s ≠ [] := by
  have hstr : ∀ pieces : List Bytes, parsePieces (parse lib parsers fuel (.string none)) pieces = .ok (pieces.map .str) := by
    intro pieces
    induction pieces with
    | nil => rfl
    | cons p ps ih =>
      have h1 : parse lib parsers fuel (.string none) p = .ok (.str p) := by cases fuel <;> rfl
      simp only [parsePieces, bind, Except.bind, h1, ih, List.map_cons]
  refine ⟨lib.explode value, ?_, hjoin, hne⟩
  simp only [parse, hin, Delimiter.pieces, hstr]

example : mapGet ([("s", .string none)] : GoMap ParserConfig) "s" = some (.string none) ∧
    (ParserExample.lib.explode [49, 50]).flatten = [49, 50] ∧ (∀ c ∈ ParserExample.lib.explode [49, 50], c ≠ []) :=
  ⟨rfl, by decide, by decide⟩

/-- **C34** (partial) When the parsers can be ordered so that split parsers only use earlier ones, parsing terminates:
some depth of nested calls is enough for all the parsers and all texts.
Missing: parsers that use each other in a cycle, which the validation accepts (`C34_false`). -/
theorem C34_parsing_terminates_partial (lib : ParserLib) (parsers : GoMap ParserConfig) (hlib : LibTotal lib parsers)
    (order : String → Nat) (horder : ∀ name d p, (name, ParserConfig.split d p) ∈ parsers → order p < order name) :
    ∃ depth : Nat, ∀ name cfg value, (name, cfg) ∈ parsers → parse lib parsers depth cfg value ≠ .error .diverge := by
  obtain ⟨m, hm⟩ : ∃ m, ∀ p ∈ parsers, order p.1 ≤ m := by
    clear horder hlib
    induction parsers with
    | nil => exact ⟨0, by simp⟩
    | cons p ps ih =>
      obtain ⟨m, hm⟩ := ih
      refine ⟨max m (order p.1), ?_⟩
      intro q hq
      rcases List.mem_cons.mp hq with rfl | hq
      · omega
      · have := hm q hq; omega
  exact ⟨m + 1, fun name cfg value hmem => parse_total hlib order horder (m + 1) name cfg value hmem (by have := hm _ hmem; simp only at this; omega)⟩

example : LibTotal ParserExample.lib ParserExample.parsers ∧ validParsers ParserExample.parsers = true ∧
    ∃ order : String → Nat, ∀ name d p, (name, ParserConfig.split d p) ∈ ParserExample.parsers → order p < order name := by
  refine ⟨⟨by intro s; simp [ParserExample.lib], by intro s; simp [ParserExample.lib], ?_⟩, by rfl, fun n => if n = "list" then 1 else 0, ?_⟩
  · intro p hp f hf
    simp only [ParserExample.parsers, List.mem_cons, List.not_mem_nil, or_false] at hp
    rcases hp with rfl | rfl <;> cases hf
  · intro name d p h
    simp only [ParserExample.parsers, List.mem_cons, List.not_mem_nil, or_false, Prod.mk.injEq, reduceCtorEq, and_false, false_or,
      ParserConfig.split.injEq] at h
    rw [h.1, h.2.2]
    decide

/-- **C67** The validation accepts exactly the configurations in which every split parser names a parser of the list,
every boolean parser has a text for true and one for false, and every float parser has a decimal separator. -/
theorem C67_accepted_parsers (parsers : GoMap ParserConfig) :
    validParsers parsers = true ↔
      (∀ name d p, (name, ParserConfig.split d p) ∈ parsers → ∃ cfg, (p, cfg) ∈ parsers) ∧
      (∀ name t f, (name, ParserConfig.boolean t f) ∈ parsers → t ≠ [] ∧ f ≠ []) ∧
      (∀ name s i, (name, ParserConfig.float s i) ∈ parsers → s ≠ []) := by
  unfold validParsers
  rw [List.all_eq_true]
  constructor
  · intro h
    refine ⟨?_, ?_, ?_⟩
    · intro name d p hm
      have h1 := h _ hm
      simp only [Option.isSome_iff_exists] at h1
      obtain ⟨cfg, hc⟩ := h1
      exact ⟨cfg, mapGet_mem hc⟩
    · intro name t f hm
      have h1 := h _ hm
      simp only [Bool.and_eq_true, Bool.not_eq_true', List.isEmpty_eq_false_iff] at h1
      exact h1
    · intro name sep i hm
      have h1 := h _ hm
      simp only [Bool.not_eq_true', List.isEmpty_eq_false_iff] at h1
      exact h1
  · rintro ⟨h1, h2, h3⟩ ⟨name, cfg⟩ hm
    cases cfg with
    | split d p =>
      obtain ⟨cfg, hc⟩ := h1 name d p hm
      cases hg : mapGet parsers p with
      | some _ => simp [hg]
      | none => exact absurd hc (mapGet_none_not_mem hg cfg)
    | boolean t f => simpa using h2 name t f hm
    | float sep i => simpa using h3 name sep i hm
    | string _ => rfl
    | integer _ => rfl
    | json => rfl

example : validParsers ParserExample.parsers = true ∧ validParsers [("list", .split (.literal [44]) "nothing")] = false ∧
    validParsers [("bool", .boolean [[121]] [])] = false ∧ validParsers [("float", .float [] [])] = false := ⟨rfl, rfl, rfl, rfl⟩

/-- **C67** With an accepted configuration, a split parser always finds the parser of its pieces: on a text that is one
piece, it answers with what some parser of the list under the configured name makes of that piece. -/
theorem C67_references_resolve (lib : ParserLib) (parsers : GoMap ParserConfig) (hvalid : validParsers parsers = true)
    (name : String) (d : Delimiter) (p : String) (hm : (name, ParserConfig.split d p) ∈ parsers) (fuel : Nat) (value : Bytes)
    (hone : d.pieces lib value = [value]) :
    ∃ cfg, (p, cfg) ∈ parsers ∧
      parse lib parsers (fuel + 1) (.split d p) value = (parse lib parsers fuel cfg value).map (fun v => .arr [v]) := by
  obtain ⟨cfg', hc'⟩ := ((C67_accepted_parsers parsers).mp hvalid).1 name d p hm
  cases hg : mapGet parsers p with
  | none => exact absurd hc' (mapGet_none_not_mem hg cfg')
  | some cfg =>
    refine ⟨cfg, mapGet_mem hg, ?_⟩
    simp only [parse, hg, hone, parsePieces, bind, Except.bind]
    cases parse lib parsers fuel cfg value <;> rfl

example : validParsers ParserExample.parsers = true ∧ ("list", ParserConfig.split (.literal [44]) "int") ∈ ParserExample.parsers ∧
    (Delimiter.literal [44]).pieces ParserExample.lib [49] = [[49]] := ⟨rfl, by simp [ParserExample.parsers], rfl⟩

/-- **C34** The depth only bounds the computation: a result obtained with some depth is the result with any
greater one. -/
theorem C34_depth_irrelevant (lib : ParserLib) (parsers : GoMap ParserConfig) (depth k : Nat) (cfg : ParserConfig) (value : Bytes)
    (h : parse lib parsers depth cfg value ≠ .error .diverge) : parse lib parsers (depth + k) cfg value = parse lib parsers depth cfg value := by
  induction k with
  | zero => rfl
  | succ k ih => rw [← Nat.add_assoc, parse_mono _ _ _ (by rw [ih]; exact h), ih]

example : parse ParserExample.lib ParserExample.parsers 0 (.integer []) [49] ≠ .error .diverge := by
  intro h; cases h

/-- **C34** is false: a split parser that names itself passes the validation, and parsing any text with it
never ends, whatever the depth of calls allowed. -/
theorem C34_false : ∃ parsers : GoMap ParserConfig, validParsers parsers = true ∧
    ∀ (lib : ParserLib) (depth : Nat) (value : Bytes),
      mapGet parsers "loop" = some (.split (.literal [44]) "loop") ∧
      parse lib parsers depth (.split (.literal [44]) "loop") value = .error .diverge := by
  refine ⟨[("loop", .split (.literal [44]) "loop")], by rfl, ?_⟩
  intro lib depth
  induction depth with
  | zero => intro value; exact ⟨rfl, rfl⟩
  | succ depth ih =>
    intro value
    refine ⟨rfl, ?_⟩
    have hne := splitAux_ne_nil [44] value 0 []
    have hp : (Delimiter.literal [44]).pieces lib value = splitAux [44] 0 [] value := rfl
    simp only [parse, mapGet, if_true, hp]
    cases hs : splitAux [44] 0 [] value with
    | nil => exact absurd hs hne
    | cons q qs =>
      simp only [parsePieces, bind, Except.bind, (ih q).2]

namespace CharsetExample
/-- A shift-code charset, in the manner of ISO-2022: 0x0E switches to the second set (letters + 128), 0x0F back. -/
def shiftStep : Bool → Bytes → Bool × Bytes
  | s, [] => (s, [])
  | s, b :: rest =>
    if b = 0x0E then shiftStep true rest
    else if b = 0x0F then shiftStep false rest
    else ((shiftStep s rest).1, (if s then b + 128 else b) :: (shiftStep s rest).2)
def shift : Decoder Bool := { init := false, step := shiftStep }
/-- A single-byte charset, in the manner of ISO-8859-1. -/
def latin : Decoder Unit := { init := (), step := fun _ bs => ((), bs.flatMap (fun b => if b < 128 then [b] else [0xC0 + b / 64, 0x80 + b % 64])) }
end CharsetExample

/-- **C35** (partial) With a decoder that keeps no state between chunks (single-byte charsets), every conversion
that completes gives what it would give alone, whatever the number of concurrent requests and their schedule.
Missing: decoders with a state, for which it is false (`C35_false`). -/
theorem C35_stateless_concurrent_partial {σ : Type} (d : Decoder σ) (hd : ∀ s s' b, (d.step s b).2 = (d.step s' b).2)
    (texts : List (List Bytes)) (schedule : List Nat) (shared : σ) (i : Nat) (chunks : List Bytes) (hi : texts[i]? = some chunks)
    (c : Conversion) (hc : (decodeRun d schedule shared (texts.map (fun t => { ops := conversion t, out := [] })))[i]? = some c)
    (hdone : c.ops = []) : c.out = decodeAlone d d.init chunks := by
  have hf : ∀ s b, (d.step s b).2 = (fun b => (d.step d.init b).2) b := fun s b => hd s _ b
  have hinv := congrArg (fun l => l[i]?) (decodeRun_invariant hf schedule shared (texts.map (fun t => { ops := conversion t, out := [] })))
  simp only [List.getElem?_map, hc, hi, Option.map_some, Option.some.injEq, feeds_conversion, List.nil_append] at hinv
  rw [hdone] at hinv
  simp only [feeds, List.flatMap_nil, List.append_nil] at hinv
  rw [hinv, decodeAlone_stateless hf]

example : (decodeRun CharsetExample.latin [0, 1, 0, 1] () [{ ops := conversion [[97, 0xE9]], out := [] }, { ops := conversion [[98]], out := [] }]).map
    Conversion.out = [[97, 0xC3, 0xA9], [98]] := by decide

/-- **C35** With any decoder, conversions that do not overlap are right, whatever the earlier ones left behind. -/
theorem C35_serial_conversions {σ : Type} (d : Decoder σ) (cs : List Conversion) (shared : σ) (i : Nat) (chunks : List Bytes)
    (h : cs[i]? = some { ops := conversion chunks, out := [] }) :
    (decodeRun d (List.replicate (conversion chunks).length i) shared cs)[i]? = some { ops := [], out := decodeAlone d d.init chunks } := by
  have hlen : (conversion chunks).length = chunks.length + 1 := by simp [conversion]
  obtain ⟨hlt, _⟩ := List.getElem?_eq_some_iff.mp h
  rw [hlen, decodeRun_alone chunks shared cs h]
  simp [hlt]

example : (decodeRun CharsetExample.shift [0, 0, 0, 1, 1] true
    [{ ops := conversion [[0x0E], [97]], out := [] }, { ops := conversion [[98]], out := [] }]).map Conversion.out = [[97 + 128], [98]] := by decide

/-- **C35** is false for decoders with a state: two overlapping conversions, of which the first ends with a wrong
text. -/
theorem C35_false : ∃ (σ : Type) (d : Decoder σ) (a b : List Bytes) (schedule : List Nat) (c c' : Conversion),
    decodeRun d schedule d.init [{ ops := conversion a, out := [] }, { ops := conversion b, out := [] }] = [c, c'] ∧
    c.ops = [] ∧ c'.ops = [] ∧ c.out ≠ decodeAlone d d.init a :=
  ⟨Bool, CharsetExample.shift, [[0x0E], [97]], [[98]], [0, 0, 1, 0, 1], _, _, rfl, rfl, rfl, by decide⟩

end Rodb
