import Verif.Proofs.Records
/-
  C27 C28 C29 C64 C66: looking up dotted paths in values and records.
-/
namespace Rodb
open Spec

/-- **C27** The keys of a dotted path are its pieces between the dots. -/
theorem C27_path_keys (path : String) :
    ['.'].intercalate ((splitPath path).map String.toList) = path.toList ∧ ∀ key ∈ splitPath path, '.' ∉ key.toList := by
  refine ⟨by rw [splitPath_toList]; exact (splitDots_spec _).1, ?_⟩
  intro key hk
  have : key.toList ∈ (splitPath path).map String.toList := List.mem_map_of_mem hk
  rw [splitPath_toList] at this
  exact (splitDots_spec _).2 _ this

example : splitPath "a..b1" = ["a", "", "b1"] := by decide

/-- **C27** Looking up a path gives the value found by following it, or null if it leads to a missing key or past
the end of an array; it is an error exactly if the path goes on below a primitive or below an array with a key that
is not an integer. -/
theorem C27_lookup (v : Value) (path : List String) :
    (∀ w, getSubValue v path = .ok w ↔ AtPath v path w ∨ (w = .null ∧ Missing v path)) ∧
    ((∃ msg, getSubValue v path = .error (.err msg)) ↔ Blocked v path) :=
  ⟨(getSubValue_spec path v).ok, (getSubValue_spec path v).err⟩

/-- **C27** The same for the lookup of the JSON input. -/
theorem C27_json_lookup (v : Value) (path : List String) :
    (∀ w, jsonGetSubValue v path = .ok w ↔ AtPath v path w ∨ (w = .null ∧ Missing v path)) ∧
    ((∃ msg, jsonGetSubValue v path = .error (.err msg)) ↔ Blocked v path) :=
  ⟨(jsonGetSubValue_spec path v).ok, (jsonGetSubValue_spec path v).err⟩

/-- **C27** The two lookups agree. -/
theorem C27_lookups_agree (v : Value) (path : List String) (w : Value) :
    getSubValue v path = .ok w ↔ jsonGetSubValue v path = .ok w := by
  rw [(getSubValue_spec path v).ok, (jsonGetSubValue_spec path v).ok]

namespace PathExample
def value : Value := .obj [("a", .arr [.int 1, .obj [("b", .str [120])]]), ("n", .null)]
theorem one : IndexText "1" 1 := by
  unfold IndexText
  rw [← atoi_iff]
  decide +kernel
end PathExample

example : getSubValue PathExample.value ["a", "1", "b"] = .ok (.str [120]) ∧ AtPath PathExample.value ["a", "1", "b"] (.str [120]) ∧
    getSubValue PathExample.value ["a", "2", "b"] = .ok .null ∧ Missing PathExample.value ["a", "2", "b"] ∧
    Blocked PathExample.value ["n", "b"] := by
  have h2 : getSubValue PathExample.value ["a", "2", "b"] = .ok .null := by rfl
  refine ⟨by rfl, .key rfl (.index PathExample.one rfl (.key rfl (.here _))), h2, ?_, .null, "b", ⟨["n"], [], rfl, .key rfl (.here _)⟩, .inl (by simp)⟩
  refine ⟨_, "2", ⟨["a"], ["b"], rfl, .key rfl (.here _)⟩, .inr ⟨_, 2, rfl, ?_, by decide⟩⟩
  unfold IndexText
  rw [← atoi_iff]
  decide +kernel

/-- **C28** (partial) A lookup panics exactly when the path goes on below an array with a negative integer; otherwise
it returns a value or an error.
Missing: negative indexes, for which it is false (`C28_false`). -/
theorem C28_panics_iff_negative_partial (v : Value) (path : List String) :
    ((∃ msg, getSubValue v path = .error (.panic msg)) ↔ NegativeIndex v path) ∧
    ((∃ msg, jsonGetSubValue v path = .error (.panic msg)) ↔ NegativeIndex v path) ∧
    (¬ NegativeIndex v path → (∃ w, getSubValue v path = .ok w) ∨ (∃ msg, getSubValue v path = .error (.err msg))) ∧
    (¬ NegativeIndex v path → (∃ w, jsonGetSubValue v path = .ok w) ∨ (∃ msg, jsonGetSubValue v path = .error (.err msg))) := by
  have key : ∀ {r : Res Value}, LookupSpec v path r → ¬ NegativeIndex v path → (∃ w, r = .ok w) ∨ (∃ msg, r = .error (.err msg)) := by
    intro r hr hn
    cases h : r with
    | ok w => exact .inl ⟨w, rfl⟩
    | error e =>
      cases e with
      | err msg => exact .inr ⟨msg, rfl⟩
      | panic msg => exact absurd (hr.panic.mp ⟨msg, h⟩) hn
      | diverge => exact absurd h hr.diverge
  exact ⟨(getSubValue_spec path v).panic, (jsonGetSubValue_spec path v).panic, key (getSubValue_spec path v), key (jsonGetSubValue_spec path v)⟩

/-- A path without negative index. -/
example : ¬ NegativeIndex PathExample.value ["a", "1", "b"] := by
  rw [← (C28_panics_iff_negative_partial _ _).1]
  rintro ⟨msg, h⟩
  cases h

/-- **C28** is false: a negative index panics, in both lookups. -/
theorem C28_false : ∃ (v : Value) (path : String) (msg : String),
    getSubValue v (splitPath path) = .error (.panic msg) ∧ jsonGetSubValue v (splitPath path) = .error (.panic msg) ∧
    (jsonRecord [("list", v)] 0).get "list.-1" = .error (.panic msg) :=
  ⟨.arr [.int 1], "-1", "index out of range", by rfl, by rfl, by rfl⟩

/-- **C29** For an XML record whose full conversion `m` succeeds, with different names in each object: a path that
leads to a value of `m` gives that value; conversely the value obtained is the one found in `m`, or null if the path
leads to a missing key, past an array or below a null; an error is only returned for a path that goes on below a
primitive (or null) of `m` or has a wrong array index, or whose first key is not a property. -/
theorem C29_xml_get_agrees {N : Type} (env : XmlEnv) (properties : List (XmlProp N)) (node : N) (position : Int)
    (hvalid : validXmlProps properties = true) (hnames : (properties.map XmlProp.name).Nodup) (m : GoMap Value)
    (hall : (xmlRecord env properties node position).all = .ok m) (path : String) :
    (∀ w, AtPath (.obj m) (splitPath path) w → (xmlRecord env properties node position).get path = .ok w) ∧
    (∀ w, (xmlRecord env properties node position).get path = .ok w →
      AtPath (.obj m) (splitPath path) w ∨
        (w = .null ∧ (Missing (.obj m) (splitPath path) ∨ ∃ k, Stops (.obj m) (splitPath path) .null k))) ∧
    (∀ msg, (xmlRecord env properties node position).get path = .error (.err msg) →
      Blocked (.obj m) (splitPath path) ∨ ∃ k rest, splitPath path = k :: rest ∧ k ∉ properties.map XmlProp.name) ∧
    (∀ msg, (xmlRecord env properties node position).get path = .error (.panic msg) → NegativeIndex (.obj m) (splitPath path)) := by
  have hall' : xmlObject env properties node [] = .ok m := hall
  obtain ⟨h1, h2⟩ := xmlSubProps_spec env properties hvalid hnames node [] m hall'
  have hnonempty : "" ∉ properties.map XmlProp.name := by
    clear h1 h2 hall hall' hnames
    induction properties with
    | nil => simp
    | cons p ps ih =>
      simp only [validXmlProps, Bool.and_eq_true, decide_eq_true_eq] at hvalid
      simp only [List.map_cons, List.mem_cons, not_or]
      exact ⟨fun h => hvalid.1.1 h.symm, ih hvalid.2⟩
  cases hs : splitPath path with
  | nil => exact absurd hs (splitPath_ne_nil path)
  | cons k rest =>
    by_cases hk : k ∈ properties.map XmlProp.name
    · obtain ⟨v, hv, hspec⟩ := h2 k hk rest (.error (.err "The path does not exist in this record."))
      have hne : path ≠ "" := by
        rintro rfl
        rw [splitPath_empty] at hs
        cases hs
        exact hnonempty hk
      have hget : (xmlRecord env properties node position).get path =
          xmlSubProperty env properties node k rest (.error (.err "The path does not exist in this record.")) := by
        simp only [xmlRecord, if_neg hne, hs]
      rw [hget]
      rw [mapGet_eq_lookup] at hv
      have := hspec.step (.inl ⟨m, rfl, hv⟩ : (∃ m', Value.obj m = .obj m' ∧ m'.lookup k = some v) ∨ _)
      exact ⟨this.at_, this.ok, fun msg h => .inl (this.err msg h), this.panic⟩
    · have hget : ∃ msg, (xmlRecord env properties node position).get path = .error (.err msg) := by
        simp only [xmlRecord, hs]
        split
        · exact ⟨_, rfl⟩
        · rw [xmlSubProperty_absent env hk]; exact ⟨_, rfl⟩
      obtain ⟨msg, hget⟩ := hget
      rw [hget]
      have hlook : m.lookup k = none := by rw [← mapGet_eq_lookup, h1 k hk]; rfl
      refine ⟨?_, by simp, fun _ _ => .inr ⟨k, rest, rfl, hk⟩, by simp⟩
      intro w h
      rcases atPath_cons_iff.mp h with ⟨m', u, he, h3, _⟩ | ⟨l, i, u, he, _⟩
      · cases he; rw [hlook] at h3; cases h3
      · cases he

namespace XmlExample
/-- Nodes of a small document: a record with two children that hold numbers. -/
inductive Node where
  | root
  | child (n : Nat)
def lib : ParserLib := { parseFloat := fun _ => .error (.err ""), unmarshal := fun _ => .error (.err ""), explode := fun _ => [] }
def parsers : GoMap ParserConfig := [("string", .string none), ("list", .split (.literal [44]) "string")]
def env : XmlEnv := .ofParsers lib parsers 2 (fun _ => 0)
def props : List (XmlProp Node) :=
  [.array "kids" (fun _ => [.child 1, .child 2]) (.primitive "" (fun n => match n with | .child k => .str [48 + UInt8.ofNat k] | .root => .other) "string"),
   .object "none" (fun _ => []) [.primitive "x" (fun _ => .str []) "string"],
   .object "sub" (fun n => [n]) [.primitive "words" (fun _ => .str [97, 44, 98]) "list"]]
end XmlExample

example : validXmlProps XmlExample.props = true ∧ (XmlExample.props.map XmlProp.name).Nodup ∧
    (xmlRecord XmlExample.env XmlExample.props .root 0).all =
      .ok [("kids", .arr [.str [49], .str [50]]), ("none", .null), ("sub", .obj [("words", .arr [.str [97], .str [98]])])] ∧
    (xmlRecord XmlExample.env XmlExample.props .root 0).get "kids.1" = .ok (.str [50]) ∧
    (xmlRecord XmlExample.env XmlExample.props .root 0).get "sub.words.0" = .ok (.str [97]) ∧
    (xmlRecord XmlExample.env XmlExample.props .root 0).get "none.x" = .ok .null := by
  refine ⟨by rfl, by decide, by rfl, by rfl, by rfl, by rfl⟩

/-- **C66** A primitive property of an XML record that has a value has one of the type of its parser: a string for a string
parser, an integer, a number, a boolean, or an array for a split parser. A JSON parser is only used on a text. When
the XPath expression selects nodes, the value is exactly their XML text, and only a string parser is accepted. -/
theorem C66_xml_primitive_type {N : Type} (lib : ParserLib) (parsers : GoMap ParserConfig) (depth : Nat) (floatToInt : GoFloat → Int) (name parser : String)
    (eval : N → XPathResult) (node : N) (cfg : ParserConfig) (hp : mapGet parsers parser = some cfg) (v : Value)
    (h : xmlAllValues (.ofParsers lib parsers depth floatToInt) (.primitive name eval parser) node = .ok v) :
    (∀ c, cfg = .string c → ∃ s, v = .str s) ∧ (∀ i, cfg = .integer i → ∃ n, v = .int n) ∧
    (∀ s i, cfg = .float s i → ∃ f, v = .float f) ∧ (∀ t f, cfg = .boolean t f → ∃ b, v = .bool b) ∧
    (∀ d p, cfg = .split d p → ∃ l, v = .arr l) ∧ (cfg = .json → ∃ s, eval node = .str s) ∧
    (∀ xml, eval node = .nodes xml → v = .str xml ∧ ∃ c, cfg = .string c) := by
  have hf : mapGet (XmlEnv.ofParsers lib parsers depth floatToInt).functions parser = some (parse lib parsers depth cfg) := by
    simp only [XmlEnv.ofParsers]
    rw [mapGet_mapValues (fun q : ParserConfig => parse lib parsers depth q), hp]
    rfl
  have ht : (XmlEnv.ofParsers lib parsers depth floatToInt).types parser = some cfg.type := by simp [XmlEnv.ofParsers, hp]
  simp only [xmlAllValues] at h
  cases he : eval node with
  | str s =>
    simp only [he, XmlEnv.primitiveValue, XmlEnv.stringValue, hf] at h
    refine ⟨?_, ?_, ?_, ?_, ?_, fun _ => ⟨s, rfl⟩, by simp⟩
    · rintro c rfl
      have h' : stringParse c s = .ok v := by cases hd : depth <;> simpa [hd, parse] using h
      unfold stringParse at h'
      split at h'
      · cases h'; exact ⟨_, rfl⟩
      · split at h'
        · cases h'
        · cases h'; exact ⟨_, rfl⟩
    · rintro i rfl
      have h' : integerParse i s = .ok v := by cases hd : depth <;> simpa [hd, parse] using h
      unfold integerParse at h'
      split at h'
      · cases h'; exact ⟨_, rfl⟩
      · cases h'
    · rintro sep i rfl
      have h' : floatParse lib sep i s = .ok v := by cases hd : depth <;> simpa [hd, parse] using h
      simp only [floatParse] at h'
      split at h'
      · cases h'; exact ⟨_, rfl⟩
      · cases h'
    · rintro t f rfl
      have h' : booleanParse t f s = .ok v := by cases hd : depth <;> simpa [hd, parse] using h
      unfold booleanParse at h'
      split at h'
      · cases h'; exact ⟨_, rfl⟩
      · split at h'
        · cases h'; exact ⟨_, rfl⟩
        · cases h'
    · rintro d p rfl
      cases hd : depth with
      | zero => simp [hd, parse] at h
      | succ n =>
        simp only [hd, parse] at h
        split at h
        · cases h
        · split at h
          · cases h
          · cases h; exact ⟨_, rfl⟩
  | num f =>
    simp only [he, XmlEnv.primitiveValue, XmlEnv.numericValue, ht] at h
    cases cfg <;> simp_all [ParserConfig.type]
    · exact ⟨_, h.symm⟩
    · exact ⟨_, h.symm⟩
  | bool b =>
    simp only [he, XmlEnv.primitiveValue, XmlEnv.boolValue, ht] at h
    cases cfg <;> simp_all [ParserConfig.type]
    cases b
    · exact .inl h.symm
    · exact .inr h.symm
  | nodes x =>
    simp only [he, XmlEnv.primitiveValue, XmlEnv.nodesValue, ht] at h
    cases cfg <;> simp_all [ParserConfig.type]
    exact ⟨_, h.symm⟩
  | other =>
    simp [he, XmlEnv.primitiveValue] at h

example : mapGet XmlExample.parsers "string" = some (.string none) ∧
    xmlAllValues XmlExample.env (.primitive "a" (fun _ => .nodes [60, 97, 47, 62]) "string") XmlExample.Node.root = .ok (.str [60, 97, 47, 62]) ∧
    xmlAllValues XmlExample.env (.primitive "a" (fun _ => .str [97, 44, 98]) "list") XmlExample.Node.root = .ok (.arr [.str [97], .str [98]]) :=
  ⟨rfl, rfl, rfl⟩

/-- **C64** For a CSV record whose full conversion `m` succeeds, with different non-empty column names: looking up a
path in the record is looking it up in `m`, except that an unknown column is an error. -/
theorem C64_csv_get_agrees (columns : List CsvColumn) (data : List Bytes) (position : Int)
    (hne : ∀ c ∈ columns, c.name ≠ "") (hnd : (columns.map (·.name)).Nodup) (m : GoMap Value)
    (hall : (csvRecord columns data position).all = .ok m) (path : String) :
    (∀ w, (csvRecord columns data position).get path = .ok w ↔
      (∃ k rest, splitPath path = k :: rest ∧ k ∈ columns.map (·.name)) ∧
      (AtPath (.obj m) (splitPath path) w ∨ (w = .null ∧ Missing (.obj m) (splitPath path)))) ∧
    ((∃ msg, (csvRecord columns data position).get path = .error (.err msg)) ↔
      Blocked (.obj m) (splitPath path) ∨ (∃ k rest, splitPath path = k :: rest ∧ k ∉ columns.map (·.name))) ∧
    ((∃ msg, (csvRecord columns data position).get path = .error (.panic msg)) ↔ NegativeIndex (.obj m) (splitPath path)) := by
  have hall' : csvAll columns data columns [] = .ok m := hall
  obtain ⟨h1, h2⟩ := csvAll_spec hnd hall'
  cases hs : splitPath path with
  | nil => exact absurd hs (splitPath_ne_nil path)
  | cons k rest =>
    by_cases hk : k ∈ columns.map (·.name)
    · obtain ⟨c, hc, rfl⟩ := List.mem_map.mp hk
      obtain ⟨v, hv, hm⟩ := h2 c hc
      have hnep : path ≠ "" := by
        rintro rfl
        rw [splitPath_empty] at hs
        simp only [List.cons.injEq] at hs
        exact hne c hc hs.1.symm
      have hget : (csvRecord columns data position).get path = getSubValue v rest := by
        simp only [csvRecord, if_neg hnep, hs, hv]
      rw [hget]
      rw [mapGet_eq_lookup] at hm
      have hspec := (getSubValue_spec rest v).step
        (.inl ⟨m, rfl, hm⟩ : (∃ m', Value.obj m = .obj m' ∧ m'.lookup c.name = some v) ∨ _)
      refine ⟨?_, ?_, hspec.panic⟩
      · intro w
        rw [hspec.ok w]
        exact ⟨fun h => ⟨⟨c.name, rest, rfl, hk⟩, h⟩, fun h => h.2⟩
      · rw [hspec.err]
        constructor
        · exact .inl
        · rintro (h | ⟨k', rest', he, hk'⟩)
          · exact h
          · cases he; exact absurd hk hk'
    · have hget : ∃ msg, (csvRecord columns data position).get path = .error (.err msg) := by
        simp only [csvRecord, hs]
        split
        · exact ⟨_, rfl⟩
        · obtain ⟨msg, hm⟩ := (csvGetColumn_spec hnd data).2 k hk
          rw [hm]; exact ⟨_, rfl⟩
      obtain ⟨msg, hget⟩ := hget
      rw [hget]
      have hlook : m.lookup k = none := by rw [← mapGet_eq_lookup, h1 k hk]; rfl
      have hneg : ¬ NegativeIndex (.obj m) (k :: rest) := by
        rw [← (LookupSpec.missingKey hlook).panic]
        rintro ⟨_, h⟩; cases h
      refine ⟨?_, ?_, ?_⟩
      · intro w
        constructor
        · intro h; cases h
        · rintro ⟨⟨k', rest', he, hk'⟩, _⟩
          cases he; exact absurd hk' hk
      · constructor
        · intro _; exact .inr ⟨k, rest, rfl, hk⟩
        · intro _; exact ⟨msg, rfl⟩
      · constructor
        · rintro ⟨_, h⟩; cases h
        · intro h; exact absurd h hneg

/-- **C64** For a JSON record, looking up a path is looking it up in the document, except that the empty path is an
error. -/
theorem C64_json_get_agrees (data : GoMap Value) (position : Int) (path : String) (hp : path ≠ "") :
    (jsonRecord data position).all = .ok data ∧
    (∀ w, (jsonRecord data position).get path = .ok w ↔
      AtPath (.obj data) (splitPath path) w ∨ (w = .null ∧ Missing (.obj data) (splitPath path))) ∧
    ((∃ msg, (jsonRecord data position).get path = .error (.err msg)) ↔ Blocked (.obj data) (splitPath path)) ∧
    ((∃ msg, (jsonRecord data position).get path = .error (.panic msg)) ↔ NegativeIndex (.obj data) (splitPath path)) := by
  have hget : (jsonRecord data position).get path = jsonGetSubValue (.obj data) (splitPath path) := by
    simp only [jsonRecord, if_neg hp]
  rw [hget]
  have h := jsonGetSubValue_spec (splitPath path) (.obj data)
  exact ⟨rfl, h.ok, h.err, h.panic⟩

namespace CsvExample
def lib : ParserLib :=
  { parseFloat := fun _ => .error (.err ""), unmarshal := fun s => .ok (.arr [.str s]), explode := fun _ => [] }
def columns : List CsvColumn := [{ name := "id", parse := integerParse [] }, { name := "tags", parse := parse lib [] 0 .json }]
end CsvExample

example : (∀ c ∈ CsvExample.columns, c.name ≠ "") ∧ (CsvExample.columns.map (·.name)).Nodup ∧
    (csvRecord CsvExample.columns [[49], [97]] 0).all = .ok [("id", .int 1), ("tags", .arr [.str [97]])] ∧
    (csvRecord CsvExample.columns [[49], [97]] 0).get "tags.0" = .ok (.str [97]) := by
  refine ⟨by decide, by decide, by rfl, by rfl⟩

end Rodb
