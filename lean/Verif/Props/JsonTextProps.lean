import Verif.Proofs.JsonFiles
import Verif.Props.ServiceProps
/-
  C84 C85: the JSON texts that are sent, and those that are read.
-/
namespace Rodb
open Spec

/-! ### The responses -/

/-- **C84** The body of a response is a JSON text (RFC 8259) and a newline; the text stands for the data, if no object has two members with the same key and all the texts are
valid UTF-8. -/
theorem C84_body_is_json_text (formatFloat : Int → Bytes) (hfmt : FormatContract formatFloat) (v : Value) (body : Bytes) (h : encodeJson formatFloat v = .ok body) :
    ∃ v' text, body = text ++ [10] ∧ JsonText JsonChar (WrittenNumber formatFloat) v' text ∧ (DistinctKeys v → DistinctKeys v' ∧ (ValidTexts v → SameJson v v')) := by
  simp only [encodeJson, bind_ok, ok_inj] at h
  obtain ⟨text, ht, rfl⟩ := h
  obtain ⟨v', h1, h2⟩ := encodeValue_text hfmt v ht
  exact ⟨v', text, rfl, h1, fun hd => ⟨h2.1 hd, h2.2.2.1 hd⟩⟩

/-- **C84** The encoder writes a text for every value, and fails exactly on those with a number that JSON cannot write. So the theorems that assume this hold of rodb with the
modelled encoder. -/
theorem C84_encoder_contract (formatFloat : Int → Bytes) : EncoderContract (encodeJson formatFloat) := by
  intro v
  rcases encodeValue_cases formatFloat v with ⟨h1, h2⟩ | ⟨h1, t, h2⟩
  · exact ⟨fun _ => ⟨"json: unsupported value", by rw [encodeJson, h2]; rfl⟩, fun h => absurd h1 h⟩
  · exact ⟨fun h => absurd h h1, fun _ => ⟨t ++ [10], by rw [encodeJson, h2]; rfl, by simp⟩⟩

/-- **C84** The bytes of a response depend only on the data: values that hold the same are written in the same way, whatever the order of their members. -/
theorem C84_same_data_same_bytes (formatFloat : Int → Bytes) (v w : Value) (h : SameJson v w) (hv : DistinctKeys v) (hw : DistinctKeys w) :
    encodeJson formatFloat v = encodeJson formatFloat w := by
  unfold encodeJson
  rw [encodeValue_same formatFloat v w h hv hw]

theorem errorJson_text (num : Value → Bytes → Prop) (message : String) :
    JsonText JsonChar num (.obj [("error", .str (utf8 message.toList))]) (errorJson message) := by
  have h := JsonMembers.last (char := JsonChar) (num := num) (key := "error") no_spaces (encodeString_utf8 _) no_spaces no_spaces (.string (encodeString_utf8 message.toList)) no_spaces
  have := JsonText.members h
  simpa [errorJson] using this

/-- **C84** Every response of a service: the JSON text of the data and a newline, with status 200; or the JSON text of an object with only a member `error`, with status 404 or
500; or nothing, with status 200, which is only sent if the data has a number that JSON cannot write. -/
theorem C84_every_response (formatFloat : Int → Bytes) (hfmt : FormatContract formatFloat) (find : Regex → List Char → Option (List (Option (List Char)))) (routes : List Route)
    (request : Request) (response : Response)
    (h : clientGets (handleRequest ⟨find, encodeJson formatFloat, errorJson⟩ "application/json" routes request) = some response) :
    (response.status = 200 ∧ ∃ route ∈ routes, ∃ params payload data, route.output.handle params payload = .data data ∧
      ((∃ v' text, response.body = text ++ [10] ∧ JsonText JsonChar (WrittenNumber formatFloat) v' text ∧ (DistinctKeys data → DistinctKeys v' ∧ (ValidTexts data → SameJson data v'))) ∨
       (response.body = [] ∧ HasNonFinite data))) ∨
    ((response.status = 404 ∨ response.status = 500) ∧ ∃ message : String,
      JsonText JsonChar (WrittenNumber formatFloat) (.obj [("error", .str (utf8 message.toList))]) response.body) := by
  have herr : ∀ status message, clientGets (.header "X-Powered-By" "RODB (https://rodb-io.github.io/rodb/)" ::
      sendErrorResponse ⟨find, encodeJson formatFloat, errorJson⟩ "application/json" status message, .returned) = some response → (status = 404 ∨ status = 500) →
      (response.status = 404 ∨ response.status = 500) ∧ ∃ message : String,
        JsonText JsonChar (WrittenNumber formatFloat) (.obj [("error", .str (utf8 message.toList))]) response.body := by
    intro status message h hs
    simp only [sendErrorResponse, if_true, clientGets, writeResponse, Option.some.injEq] at h
    subst h
    exact ⟨hs, message, by simpa using errorJson_text _ message⟩
  have hfail : ∀ e : Fail, clientGets (.header "X-Powered-By" "RODB (https://rodb-io.github.io/rodb/)" ::
      (sendFailure ⟨find, encodeJson formatFloat, errorJson⟩ "application/json" e).1, (sendFailure ⟨find, encodeJson formatFloat, errorJson⟩ "application/json" e).2) = some response →
      (response.status = 404 ∨ response.status = 500) ∧ ∃ message : String,
        JsonText JsonChar (WrittenNumber formatFloat) (.obj [("error", .str (utf8 message.toList))]) response.body := by
    intro e h
    cases e with
    | err m => exact herr 500 m h (.inr rfl)
    | panic m => simp [sendFailure, clientGets] at h
    | diverge => simp [sendFailure, clientGets] at h
  simp only [handleRequest] at h
  cases hm : getMatchingRoute ⟨find, encodeJson formatFloat, errorJson⟩ request routes with
  | none =>
    rw [hm] at h
    exact .inr (herr 404 _ h (.inl rfl))
  | some route =>
    rw [hm] at h
    have hroute : route ∈ routes := by
      clear h
      induction routes with
      | nil => simp [getMatchingRoute] at hm
      | cons r routes ih =>
        simp only [getMatchingRoute] at hm
        split at hm
        · cases hm; exact .head _
        · exact .tail _ (ih hm)
    simp only [serveRoute] at h
    split at h
    · exact .inr (hfail _ h)
    · rename_i payload _
      split at h
      · exact .inr (hfail _ h)
      · rename_i params _
        cases ha : route.output.handle params payload with
        | error e => rw [ha] at h; exact .inr (hfail _ h)
        | notFound => rw [ha] at h; exact .inr (herr 404 _ h (.inl rfl))
        | data v =>
          rw [ha] at h
          simp only [sendAnswer] at h
          refine .inl ?_
          split at h
          · rename_i text ht
            simp only [clientGets, writeResponse, Option.some.injEq] at h
            subst h
            exact ⟨rfl, route, hroute, params, payload, v, ha, .inl (by simpa using C84_body_is_json_text formatFloat hfmt v text ht)⟩
          · rename_i e he
            simp only [clientGets, writeResponse, Option.some.injEq] at h
            subst h
            refine ⟨rfl, route, hroute, params, payload, v, ha, .inr ⟨rfl, ?_⟩⟩
            apply Classical.byContradiction
            intro hn
            obtain ⟨text, ht, _⟩ := (C84_encoder_contract formatFloat v).2 hn
            have he : encodeJson formatFloat v = .error e := he
            rw [ht] at he
            cases he

/-- **C84** is false without valid UTF-8: different texts are written in the same way, as U+FFFD. -/
theorem C84_false (formatFloat : Int → Bytes) : encodeJson formatFloat (.str [255]) = encodeJson formatFloat (.str [254]) ∧ ¬ SameJson (.str [255]) (.str [254]) :=
  ⟨by rfl, fun h => by have := h []; simp [look] at this⟩

namespace JsonExample
/-- Floats that are whole numbers. -/
def format : Int → Bytes := intText
theorem format_contract : FormatContract format := intText_number
def parse (s : Bytes) : Res GoFloat := match atoi s with | some i => .ok (.fin i) | none => .error (.err "")
/-- The characters é, <, a quote and a newline. -/
def data : Value := .obj [("b", .str [195, 169, 60, 34, 10]), ("a", .arr [.int 12, .null, .bool true, .float (.fin (-3)), .obj []])]
/-- The text {"a":[12,null,true,-3,{}],"b":"é<\"\n"} with the escapes, and a newline. -/
def body : Bytes := [123, 34, 97, 34, 58, 91, 49, 50, 44, 110, 117, 108, 108, 44, 116, 114, 117, 101, 44, 45, 51, 44, 123, 125, 93, 44, 34, 98, 34, 58, 34, 195, 169,
  92, 117, 48, 48, 51, 99, 92, 34, 92, 110, 34, 125, 10]
theorem encoded : encodeJson format data = .ok body := by decide +kernel
end JsonExample

/-- The hypotheses and the conclusion on a value with everything. -/
example : encodeJson JsonExample.format JsonExample.data = .ok JsonExample.body ∧
    ∃ v' text, JsonExample.body = text ++ [10] ∧ JsonText JsonChar (WrittenNumber JsonExample.format) v' text ∧
      (DistinctKeys JsonExample.data → DistinctKeys v' ∧ (ValidTexts JsonExample.data → SameJson JsonExample.data v')) :=
  ⟨JsonExample.encoded, C84_body_is_json_text _ JsonExample.format_contract _ _ JsonExample.encoded⟩

example : ValidTexts JsonExample.data := by
  refine .obj fun k v h => ?_
  simp only [List.mem_cons, Prod.mk.injEq, List.not_mem_nil, or_false] at h
  rcases h with ⟨_, rfl⟩ | ⟨_, rfl⟩
  · exact .str (cs := ['é', '<', '"', '\n'])
  · refine .arr fun v h => ?_
    simp only [List.mem_cons, List.not_mem_nil, or_false] at h
    rcases h with rfl | rfl | rfl | rfl | rfl
    · exact .int
    · exact .null
    · exact .bool
    · exact .float
    · exact .obj (by simp)

example : DistinctKeys JsonExample.data := by
  refine .obj (by decide) fun k v h => ?_
  simp only [List.mem_cons, Prod.mk.injEq, List.not_mem_nil, or_false] at h
  rcases h with ⟨_, rfl⟩ | ⟨_, rfl⟩
  · exact .str
  · refine .arr fun v h => ?_
    simp only [List.mem_cons, List.not_mem_nil, or_false] at h
    rcases h with rfl | rfl | rfl | rfl | rfl
    · exact .int
    · exact .null
    · exact .bool
    · exact .float
    · exact .obj (by simp) (by simp)

/-! ### The files and the texts that are read -/

/-- **C85** A JSON file: objects one after the other, written in any way that JSON allows, with spaces anywhere. The scan hands out exactly these objects, in order (the last
member counts where a key is there twice), at increasing positions, and fetching each position gives the same record. Arrays and objects are nested at most 10000 times. -/
theorem C85_json_file (parseFloat : Bytes → Res GoFloat) (docs : List (GoMap Value)) (content : Bytes) (hfile : JsonFile JsonChar (ReadNumber parseFloat) (docs.map .obj) content)
    (hnested : ∀ m ∈ docs, Nested 10000 (.obj m)) :
    ∃ records : List Rec, jsonScan (jsonDecoder parseFloat) content = .ok (records.map .ok) ∧ (records.map Rec.position).Pairwise (· < ·) ∧
      (∀ r ∈ records, jsonFetch (jsonDecoder parseFloat) content r.position = .ok r) ∧ records.length = docs.length ∧
      ∀ (i : Nat) m r, docs[i]? = some m → records[i]? = some r →
        ∃ data, r = jsonRecord data r.position ∧ LastWins (.obj m) (.obj data) ∧ (DistinctKeys (.obj m) → data = m) := by
  obtain ⟨L, tail, rfl, h1, h2, h3⟩ := jsonFile_docs hfile hnested 0
  obtain ⟨g1, g2, g3⟩ := C40_json_scan_all_documents _ _ _ _ h2 h3
  refine ⟨L.map (fun x => jsonRecord x.2.2 x.2.1), ?_, ?_, ?_, by simp, ?_⟩
  · rw [g1, List.map_map, List.map_map]
    rfl
  · rw [List.map_map, List.pairwise_map]
    rw [List.map_map, List.pairwise_map] at g3
    exact g3.imp (fun h => by simpa [jsonRecord] using h)
  · intro r hr
    obtain ⟨x, hx, rfl⟩ := List.mem_map.mp hr
    exact g2 x.2 (List.mem_map_of_mem hx)
  · intro i m r hm hr
    rw [List.getElem?_map] at hm hr
    cases hi : L[i]? with
    | none => rw [hi] at hm; cases hm
    | some x =>
      rw [hi] at hm hr
      cases hm
      cases hr
      have hx := h1 x (List.mem_of_getElem? hi)
      exact ⟨_, rfl, hx.1, fun hd => by have := hx.2.1 hd; injection this⟩

/-- **C85** Only JSON texts are read: if a scan reports no error, then the file is a sequence of JSON texts of objects (or `null`), which are the records that were handed out,
and after that only spaces, or a closing bracket or brace too many (see `C40_false`). What is not valid UTF-8 and half surrogate pairs are read as U+FFFD. -/
theorem C85_only_json (parseFloat : Bytes → Res GoFloat) (content : Bytes) :
    ∃ l, jsonScan (jsonDecoder parseFloat) content = .ok l ∧
      ((∀ e, .error e ∉ l) → ∃ (L : List (Value × Nat × GoMap Value)) (text tail : Bytes), content = text ++ tail ∧ (Blank tail ∨ StartsClosing tail) ∧
        l = L.map (fun x => .ok (jsonRecord x.2.2 x.2.1)) ∧ JsonFile LenientChar (ReadNumber parseFloat) (L.map (·.1)) text ∧
        ∀ x ∈ L, Nested 10000 x.1 ∧ (LastWins x.1 (.obj x.2.2) ∨ x.1 = .null ∧ x.2.2 = [])) := by
  obtain ⟨docs, tail, l, h1, h2, _, h3⟩ := C40_json_nothing_lost_partial (jsonDecoder parseFloat) jsonDecoder_progress content
  refine ⟨l, h2, fun hok => ?_⟩
  obtain ⟨rfl, h4⟩ := h3 hok
  obtain ⟨L, text, rfl, g1, g2, g3⟩ := jsonDocs_file h1
  refine ⟨L, text, tail, g1, h4, by simp [List.map_map], g2, fun x hx => ⟨(g3 x hx).1, ?_⟩⟩
  rcases (g3 x hx).2 with h | h
  · exact .inl h.1
  · exact .inr h

/-- **C85** The JSON parser reads every JSON text, with spaces around it, as the value it stands for. -/
theorem C85_parser_reads (parseFloat : Bytes → Res GoFloat) (v : Value) (before text after : Bytes) (h : JsonText JsonChar (ReadNumber parseFloat) v text)
    (hnested : Nested 10000 v) (hb : Spaces before) (ha : Spaces after) :
    ∃ w, unmarshalJson parseFloat (before ++ text ++ after) = .ok w ∧ LastWins v w ∧ (DistinctKeys v → w = v) := by
  obtain ⟨w, h1, h2⟩ := unmarshal_text h hnested hb ha
  exact ⟨w, h2, h1.1, h1.2.1⟩

/-- **C85** The JSON parser reads nothing else. -/
theorem C85_parser_strict (parseFloat : Bytes → Res GoFloat) (s : Bytes) (w : Value) (h : unmarshalJson parseFloat s = .ok w) :
    ∃ before text v after, s = before ++ text ++ after ∧ Spaces before ∧ Spaces after ∧ JsonText LenientChar (ReadNumber parseFloat) v text ∧ Nested 10000 v ∧ LastWins v w := by
  obtain ⟨before, text, v, after, h1, h2, h3, h4, h5, h6⟩ := unmarshal_sound h
  exact ⟨before, text, v, after, h1, h2, h3, h4, h5, h6.1⟩

/-- **C85** What rodb writes is read by rodb as the same data, except that integers become floats. -/
theorem C85_written_is_read (formatFloat : Int → Bytes) (hfmt : FormatContract formatFloat) (parseFloat : Bytes → Res GoFloat) (v : Value) (body : Bytes)
    (h : encodeJson formatFloat v = .ok body) (hkeys : DistinctKeys v) (htexts : ValidTexts v) (hnested : Nested 10000 v)
    (hnumbers : AllNumbers (Rereadable formatFloat parseFloat) v) :
    ∃ v' w, SameJson v v' ∧ ReadBack parseFloat v' w ∧ unmarshalJson parseFloat body = .ok w := by
  simp only [encodeJson, bind_ok, ok_inj] at h
  obtain ⟨text, ht, rfl⟩ := h
  obtain ⟨v', h1, h2⟩ := encodeValue_text hfmt v ht
  obtain ⟨w, g1, g2, g3, g4⟩ := readBack_text h1 (h2.2.2.2 _ hnumbers)
  obtain ⟨w', k1, k2⟩ := unmarshal_text (s := []) (s' := [10]) g2 (g3 _ (h2.2.1 _ hnested)) no_spaces (by intro b hb; simp at hb; simp [hb])
  rw [k1.2.1 (g4 (h2.1 hkeys))] at k2
  exact ⟨v', w, h2.2.2.1 hkeys htexts, g1, k2⟩

namespace JsonExample
def document : GoMap Value := [("k", .str [195, 169]), ("n", .float (.fin 12)), ("k", .arr [.bool false])]
/-- The text {"k" : "é",\n"n":12, "k":[false]} -/
def text : Bytes := [123, 34, 107, 34, 32, 58, 32, 34, 92, 117, 48, 48, 101, 57, 34, 44, 10, 34, 110, 34, 58, 49, 50, 44, 32, 34, 107, 34, 58, 91, 102, 97, 108, 115, 101, 93, 125]
theorem is_text : JsonText JsonChar (ReadNumber parse) (.obj document) text := by
  have key : ∀ c : Char, 32 ≤ c.toNat → c ≠ '"' → c ≠ '\\' → ∀ b, String.utf8EncodeChar c = [b] → JsonString JsonChar [c] [34, b, 34] := by
    intro c h1 h2 h3 b hb
    refine ⟨[b], ?_, rfl⟩
    have := JsonChars.cons (.plain h1 h2 h3) .nil (char := JsonChar)
    rwa [hb] at this
  have sp1 : Spaces [32] := by unfold Spaces; decide
  have sp2 : Spaces [10] := by unfold Spaces; decide
  refine JsonText.members (t := [34, 107, 34, 32, 58, 32, 34, 92, 117, 48, 48, 101, 57, 34, 44, 10, 34, 110, 34, 58, 49, 50, 44, 32, 34, 107, 34, 58, 91, 102, 97, 108, 115, 101, 93]) ?_
  refine JsonMembers.cons (key := "k") (s := []) (k := [34, 107, 34]) (s' := [32]) (s'' := [32]) (t := [34, 92, 117, 48, 48, 101, 57, 34]) (s''' := []) no_spaces
    (key 'k' (by decide) (by decide) (by decide) _ (by decide)) sp1 sp1 (.string (cs := ['é']) ⟨[92, 117, 48, 48, 101, 57], ?_, rfl⟩) no_spaces ?_
  · refine JsonChars.cons (t := [92, 117, 48, 48, 101, 57]) (.number (s := [48, 48, 101, 57]) ⟨48, 48, 101, 57, 0, 0, 14, 9, rfl, ?_, ?_, ?_, ?_, rfl⟩) .nil <;> (unfold IsHex; decide)
  refine JsonMembers.cons (key := "n") (s := [10]) (k := [34, 110, 34]) (s' := []) (s'' := []) (t := [49, 50]) (s''' := []) sp2
    (key 'n' (by decide) (by decide) (by decide) _ (by decide)) no_spaces no_spaces (.number ?_ ⟨.fin 12, rfl, by decide +kernel⟩) no_spaces ?_
  · exact ⟨[], [49, 50], [], [], rfl, .inl rfl, .inr ⟨⟨by simp, by decide⟩, by simp⟩, .inl rfl, .inl rfl⟩
  · exact JsonMembers.last (key := "k") (s := [32]) (k := [34, 107, 34]) (s' := []) (s'' := []) (t := [91, 102, 97, 108, 115, 101, 93]) (s''' := []) sp1
      (key 'k' (by decide) (by decide) (by decide) _ (by decide)) no_spaces no_spaces
      (.elements (t := [102, 97, 108, 115, 101]) (.last (s := []) (t := [102, 97, 108, 115, 101]) (s' := []) no_spaces .false no_spaces)) no_spaces
theorem is_file : JsonFile JsonChar (ReadNumber parse) ([document, []].map .obj) ([32] ++ text ++ ([] ++ [123, 125] ++ [10, 10])) :=
  .doc (by unfold Spaces; decide) is_text (.doc no_spaces (.noMember (s := []) no_spaces) (.done (by unfold Spaces; decide)))
theorem nested : ∀ m ∈ [document, []], Nested 10000 (.obj m) := by
  intro m hm
  simp only [List.mem_cons, List.not_mem_nil, or_false] at hm
  rcases hm with rfl | rfl
  · refine .obj fun k v h => ?_
    simp only [document, List.mem_cons, Prod.mk.injEq, List.not_mem_nil, or_false] at h
    rcases h with ⟨_, rfl⟩ | ⟨_, rfl⟩ | ⟨_, rfl⟩
    · exact .str
    · exact .float
    · exact .arr (fun v hv => by rw [List.mem_singleton.mp hv]; exact .bool)
  · exact .obj (by simp)
end JsonExample

/-- A file with two objects: an escaped character, a number and a key twice in the first one, nothing in the second one. -/
example : ∃ records : List Rec, jsonScan (jsonDecoder JsonExample.parse) ([32] ++ JsonExample.text ++ ([] ++ [123, 125] ++ [10, 10])) = .ok (records.map .ok) ∧ records.length = 2 ∧
    records.map Rec.position = [1, 38] := by
  obtain ⟨records, h1, _, _, h4, _⟩ := C85_json_file _ _ _ JsonExample.is_file JsonExample.nested
  refine ⟨records, h1, h4, ?_⟩
  have : (match jsonScan (jsonDecoder JsonExample.parse) ([32] ++ JsonExample.text ++ ([] ++ [123, 125] ++ [10, 10])) with
    | .ok l => l.map (fun r => match r with | .ok r => r.position | .error _ => 0)
    | .error _ => []) = [1, 38] := by decide +kernel
  rw [h1] at this
  simpa [List.map_map, Function.comp_def] using this

example : unmarshalJson JsonExample.parse JsonExample.text = .ok (.obj [("k", .arr [.bool false]), ("n", .float (.fin 12))]) := by rfl

/-- What is written for the value above is read again, with the integer 12 as a float. -/
example : unmarshalJson JsonExample.parse JsonExample.body =
    .ok (.obj [("a", .arr [.float (.fin 12), .null, .bool true, .float (.fin (-3)), .obj []]), ("b", .str [195, 169, 60, 34, 10])]) := by rfl

/-- Refused: a zero at the start of a number, a comma too many, a control character in a string, a quote too few, an unknown escape, something after the value. -/
example : ([[48, 49], [91, 49, 44, 93], [34, 9, 34], [34, 97], [34, 92, 97, 34], [49, 32, 50]].map (unmarshalJson JsonExample.parse)).all (fun r => match r with | .ok _ => false | .error _ => true) = true := by
  decide +kernel

example : AllNumbers (Rereadable JsonExample.format JsonExample.parse) (.arr [.int 12, .float (.fin (-3))]) := by
  refine .arr fun v h => ?_
  simp only [List.mem_cons, List.not_mem_nil, or_false] at h
  rcases h with rfl | rfl
  · exact .int ⟨fun i hi => by cases hi; exact ⟨.fin 12, by decide +kernel⟩, fun k hk => (nomatch hk)⟩
  · exact .float ⟨fun i hi => (nomatch hi), fun k hk => by cases hk; decide +kernel⟩

end Rodb
