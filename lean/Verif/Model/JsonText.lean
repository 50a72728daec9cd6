import Verif.Model.Inputs
import Verif.Model.Fts5
/-
  encoding/json (Go 1.16, go.mod:3), as rodb uses it: `Encoder.Encode` for the responses (json_array.go:130-140, json_object.go:113-123), `Marshal` for the errors
  (http.go:235-237), `Decoder.Decode` into a `map[string]interface{}` for the inputs (pkg/input/json.go:78-81, 136-141) and `Unmarshal` into an `interface{}` for the JSON parser
  (pkg/parser/json.go:31-35). Only the shortest decimal text of a finite float and `strconv.ParseFloat` are left as parameters.
-/
namespace Rodb

/-- `utf8.DecodeRune`: the character at the start of the bytes, none if they do not start with a valid one (`RuneError` with a size of 1). -/
def decodeRune (s : Bytes) : Option Char := s.toByteArray.utf8DecodeChar? 0

/-- The character U+FFFD. -/
def replacementChar : Char := '�'

/-- `hex[n]`, encoding/json/encode.go. -/
def hexDigit (n : Nat) : UInt8 := if n < 10 then UInt8.ofNat (48 + n) else UInt8.ofNat (87 + n)

/-- encode.go `encodeState.string` with `escapeHTML`, a byte below 128: as it is if `htmlSafeSet` has it, and escaped otherwise. Used by json_array.go:135. -/
def quoteAscii (b : UInt8) : Bytes :=
  if b = 34 ∨ b = 92 then [92, b]
  else if b = 10 then [92, 110]
  else if b = 13 then [92, 114]
  else if b = 9 then [92, 116]
  else if b.toNat < 32 ∨ b = 38 ∨ b = 60 ∨ b = 62 then [92, 117, 48, 48, hexDigit (b.toNat / 16), hexDigit (b.toNat % 16)]
  else [b]

/-- encode.go `encodeState.string`, a valid character outside of ASCII: U+2028 and U+2029 are escaped. Used by json_array.go:135. -/
def quoteRune (c : Char) : Bytes :=
  if c = ' ' ∨ c = ' ' then [92, 117, 50, 48, 50, hexDigit (c.toNat % 16)] else String.utf8EncodeChar c

/-- encode.go `encodeState.string`, between the quotes: a byte that is not part of a valid character is replaced by U+FFFD. The fuel is the number of bytes. Used by
json_array.go:135. -/
def quoteBytes : Nat → Bytes → Bytes
  | 0, _ => []
  | _ + 1, [] => []
  | fuel + 1, b :: rest =>
    if b.toNat < 128 then quoteAscii b ++ quoteBytes fuel rest
    else
      match decodeRune (b :: rest) with
      | none => [92, 117, 102, 102, 102, 100] ++ quoteBytes fuel rest
      | some c => quoteRune c ++ quoteBytes fuel ((b :: rest).drop c.utf8Size)

/-- encode.go `encodeState.string`. Used by json_array.go:135. -/
def encodeString (s : Bytes) : Bytes := [34] ++ quoteBytes s.length s ++ [34]

/-- The texts with a comma between them. -/
def joinCommas : List Bytes → Bytes
  | [] => []
  | [t] => t
  | t :: u :: rest => t ++ [44] ++ joinCommas (u :: rest)

/-- The insertion of a member among members sorted by their keys. -/
def insertMember (e : Bytes × Bytes) : List (Bytes × Bytes) → List (Bytes × Bytes)
  | [] => [e]
  | e' :: rest => if e'.1 < e.1 then e' :: insertMember e rest else e :: e' :: rest

/-- encode.go `mapEncoder.encode`: the members are sorted by their keys, compared byte by byte. Used by json_array.go:135. -/
def sortMembers : List (Bytes × Bytes) → List (Bytes × Bytes)
  | [] => []
  | e :: rest => insertMember e (sortMembers rest)

mutual
/-- encode.go, the encoders of the dynamic types of json_array.go:125-135. `formatFloat` is the text of a finite float (`floatEncoder`). Simplifications: the message of the
error does not name the value; the members are encoded before they are sorted, which gives the same text and fails for the same values. -/
def encodeValue (formatFloat : Int → Bytes) : Value → Res Bytes
  | .null => .ok [110, 117, 108, 108]
  | .bool true => .ok [116, 114, 117, 101]
  | .bool false => .ok [102, 97, 108, 115, 101]
  | .int i => .ok (utf8 (itoa i))
  | .float (.fin k) => .ok (formatFloat k)
  | .float _ => .error (.err "json: unsupported value")
  | .str s => .ok (encodeString s)
  | .arr l => do
    let texts ← encodeElements formatFloat l
    .ok ([91] ++ joinCommas texts ++ [93])
  | .obj m => do
    let members ← encodeMembers formatFloat m
    .ok ([123] ++ joinCommas ((sortMembers members).map (fun e => encodeString e.1 ++ [58] ++ e.2)) ++ [125])

/-- encode.go `arrayEncoder.encode`, the elements. Used by json_array.go:135. -/
def encodeElements (formatFloat : Int → Bytes) : List Value → Res (List Bytes)
  | [] => .ok []
  | v :: rest => do
    let text ← encodeValue formatFloat v
    let texts ← encodeElements formatFloat rest
    .ok (text :: texts)

/-- encode.go `mapEncoder.encode`, the members. Used by json_array.go:135. -/
def encodeMembers (formatFloat : Int → Bytes) : List (String × Value) → Res (List (Bytes × Bytes))
  | [] => .ok []
  | (k, v) :: rest => do
    let text ← encodeValue formatFloat v
    let members ← encodeMembers formatFloat rest
    .ok ((utf8 k.toList, text) :: members)
end

/-- stream.go `Encoder.Encode` (json_array.go:135, json_object.go:118): the text, then a newline. -/
def encodeJson (formatFloat : Int → Bytes) (v : Value) : Res Bytes := do
  let text ← encodeValue formatFloat v
  .ok (text ++ [10])

/-- http.go:235-237: `json.Marshal` of the map with the error message. -/
def errorJson (message : String) : Bytes :=
  [123] ++ encodeString (utf8 "error".toList) ++ [58] ++ encodeString (utf8 message.toList) ++ [125]

/-! ### Reading -/

/-- decode.go `getu4`, the value of a hexadecimal digit. Used by pkg/input/json.go:137. -/
def hexValue (b : UInt8) : Option Nat :=
  if 48 ≤ b.toNat ∧ b.toNat ≤ 57 then some (b.toNat - 48)
  else if 97 ≤ b.toNat ∧ b.toNat ≤ 102 then some (b.toNat - 87)
  else if 65 ≤ b.toNat ∧ b.toNat ≤ 70 then some (b.toNat - 55)
  else none

/-- decode.go `getu4`, after the `\u`. Used by pkg/input/json.go:137. -/
def readHex4 : Bytes → Option (Nat × Bytes)
  | a :: b :: c :: d :: rest =>
    match hexValue a, hexValue b, hexValue c, hexValue d with
    | some a, some b, some c, some d => some (((a * 16 + b) * 16 + c) * 16 + d, rest)
    | _, _, _, _ => none
  | _ => none

/-- decode.go `unquoteBytes`: the escape after the first half of a surrogate pair, if it is the second half. Used by pkg/input/json.go:137. -/
def secondHalf (high : Nat) : Bytes → Option (Char × Bytes)
  | 92 :: 117 :: rest =>
    match readHex4 rest with
    | some (low, rest) =>
      if high < 0xDC00 ∧ 0xDC00 ≤ low ∧ low < 0xE000 then some (Char.ofNat (0x10000 + (high - 0xD800) * 0x400 + (low - 0xDC00)), rest) else none
    | none => none
  | _ => none

/-- scanner.go `stateInStringEsc` and decode.go `unquoteBytes`: the escapes with one letter. Used by pkg/input/json.go:137. -/
def simpleEscape (e : UInt8) : Option Char :=
  if e = 34 then some '"' else if e = 92 then some '\\' else if e = 47 then some '/'
  else if e = 98 then some '\x08' else if e = 102 then some '\x0c' else if e = 110 then some '\n'
  else if e = 114 then some '\r' else if e = 116 then some '\t' else none

/-- scanner.go `stateInString` and decode.go `unquoteBytes`, after the opening quote: the characters and what follows the closing quote, none if the text is refused. A byte that
is not part of a valid character, and half of a surrogate pair alone, are read as U+FFFD. The fuel is the number of bytes. Used by pkg/input/json.go:137. -/
def readString : Nat → Bytes → Option (List Char × Bytes)
  | 0, _ => none
  | _ + 1, [] => none
  | fuel + 1, b :: rest =>
    if b = 34 then some ([], rest)
    else if b = 92 then
      match rest with
      | [] => none
      | e :: rest =>
        if e = 117 then
          match readHex4 rest with
          | none => none
          | some (u, rest) =>
            if 0xD800 ≤ u ∧ u < 0xE000 then
              match secondHalf u rest with
              | some (c, rest) => (readString fuel rest).map (fun r => (c :: r.1, r.2))
              | none => (readString fuel rest).map (fun r => (replacementChar :: r.1, r.2))
            else (readString fuel rest).map (fun r => (Char.ofNat u :: r.1, r.2))
        else
          match simpleEscape e with
          | none => none
          | some c => (readString fuel rest).map (fun r => (c :: r.1, r.2))
    else if b.toNat < 32 then none
    else
      match decodeRune (b :: rest) with
      | some c => (readString fuel ((b :: rest).drop c.utf8Size)).map (fun r => (c :: r.1, r.2))
      | none => (readString fuel rest).map (fun r => (replacementChar :: r.1, r.2))

/-- A byte between `0` and `9`. -/
def isAsciiDigit (b : UInt8) : Bool := decide (48 ≤ b.toNat ∧ b.toNat ≤ 57)

/-- scanner.go `stateNeg`, `state0`, `state1`: the digits before the point. Used by pkg/input/json.go:137. -/
def readIntPart : Bytes → Option (Bytes × Bytes)
  | [] => none
  | d :: rest =>
    if d = 48 then some ([48], rest)
    else if isAsciiDigit d then some (d :: rest.takeWhile isAsciiDigit, rest.dropWhile isAsciiDigit)
    else none

/-- At least one digit. -/
def readDigits (s : Bytes) : Option (Bytes × Bytes) :=
  if s.takeWhile isAsciiDigit = [] then none else some (s.takeWhile isAsciiDigit, s.dropWhile isAsciiDigit)

/-- scanner.go `stateDot`, `stateDot0`. Used by pkg/input/json.go:137. -/
def readFraction : Bytes → Option (Bytes × Bytes)
  | 46 :: rest => (readDigits rest).map (fun r => (46 :: r.1, r.2))
  | s => some ([], s)

/-- scanner.go `stateESign`. Used by pkg/input/json.go:137. -/
def readSign : Bytes → Bytes × Bytes
  | 43 :: rest => ([43], rest)
  | 45 :: rest => ([45], rest)
  | s => ([], s)

/-- scanner.go `stateE`, `stateESign`, `stateE0`. Used by pkg/input/json.go:137. -/
def readExponent : Bytes → Option (Bytes × Bytes)
  | [] => some ([], [])
  | b :: rest =>
    if b = 101 ∨ b = 69 then (readDigits (readSign rest).2).map (fun r => (b :: (readSign rest).1 ++ r.1, r.2))
    else some ([], b :: rest)

/-- scanner.go, the number after its sign. Used by pkg/input/json.go:137. -/
def readUnsigned (s : Bytes) : Option (Bytes × Bytes) :=
  match readIntPart s with
  | none => none
  | some (i, s) =>
    match readFraction s with
    | none => none
    | some (f, s) =>
      match readExponent s with
      | none => none
      | some (e, s) => some (i ++ f ++ e, s)

/-- scanner.go `stateBeginValue`, a number: its text and what follows. Used by pkg/input/json.go:137. -/
def readNumber : Bytes → Option (Bytes × Bytes)
  | 45 :: rest => (readUnsigned rest).map (fun r => (45 :: r.1, r.2))
  | s => readUnsigned s

/-- The bytes after a text they start with. -/
def afterText : Bytes → Bytes → Option Bytes
  | [], s => some s
  | b :: text, c :: s => if b = c then afterText text s else none
  | _ :: _, [] => none

mutual
/-- scanner.go `stateBeginValue` and decode.go `valueInterface`: the value at the start of the bytes, after some spaces, and what follows it; none for any error. `depth` is how
many arrays and objects may still be opened (`maxNestingDepth`, 10000 at the start). The fuel is twice the number of bytes plus one. Used by pkg/input/json.go:137 and
pkg/parser/json.go:33. -/
def readValue (parseFloat : Bytes → Res GoFloat) : Nat → Nat → Bytes → Option (Value × Bytes)
  | 0, _, _ => none
  | fuel + 1, depth, s =>
    match s.dropWhile isJsonSpace with
    | [] => none
    | b :: rest =>
      if b = 123 then
        match depth with
        | 0 => none
        | depth + 1 =>
          match rest.dropWhile isJsonSpace with
          | 125 :: rest => some (.obj [], rest)
          | rest => (readMembers parseFloat fuel depth rest).map (fun r => (.obj (r.1.foldl (fun m e => mapSet m e.1 e.2) []), r.2))
      else if b = 91 then
        match depth with
        | 0 => none
        | depth + 1 =>
          match rest.dropWhile isJsonSpace with
          | 93 :: rest => some (.arr [], rest)
          | rest => (readElements parseFloat fuel depth rest).map (fun r => (.arr r.1, r.2))
      else if b = 34 then (readString rest.length rest).map (fun r => (.str (utf8 r.1), r.2))
      else if b = 110 then (afterText [117, 108, 108] rest).map (fun r => (.null, r))
      else if b = 116 then (afterText [114, 117, 101] rest).map (fun r => (.bool true, r))
      else if b = 102 then (afterText [97, 108, 115, 101] rest).map (fun r => (.bool false, r))
      else
        match readNumber (b :: rest) with
        | none => none
        | some (text, rest) =>
          match parseFloat text with
          | .ok f => some (.float f, rest)
          | .error _ => none

/-- decode.go `arrayInterface`: at least one element, then the closing bracket. Used by pkg/input/json.go:137. -/
def readElements (parseFloat : Bytes → Res GoFloat) : Nat → Nat → Bytes → Option (List Value × Bytes)
  | 0, _, _ => none
  | fuel + 1, depth, s =>
    match readValue parseFloat fuel depth s with
    | none => none
    | some (v, rest) =>
      match rest.dropWhile isJsonSpace with
      | 93 :: rest => some ([v], rest)
      | 44 :: rest => (readElements parseFloat fuel depth rest).map (fun r => (v :: r.1, r.2))
      | _ => none

/-- decode.go `objectInterface`: at least one member, then the closing brace. Used by pkg/input/json.go:137. -/
def readMembers (parseFloat : Bytes → Res GoFloat) : Nat → Nat → Bytes → Option (List (String × Value) × Bytes)
  | 0, _, _ => none
  | fuel + 1, depth, s =>
    match s.dropWhile isJsonSpace with
    | 34 :: rest =>
      match readString rest.length rest with
      | none => none
      | some (key, rest) =>
        match rest.dropWhile isJsonSpace with
        | 58 :: rest =>
          match readValue parseFloat fuel depth rest with
          | none => none
          | some (v, rest) =>
            match rest.dropWhile isJsonSpace with
            | 125 :: rest => some ([(String.ofList key, v)], rest)
            | 44 :: rest => (readMembers parseFloat fuel depth rest).map (fun r => ((String.ofList key, v) :: r.1, r.2))
            | _ => none
        | _ => none
    | _ => none
end

/-- pkg/input/json.go:78-81, 136-141: `Decode(&data)`, where `data` is a `map[string]interface{}`: only an object, or `null` which gives no member, can be decoded. How many
bytes are read on an error does not count, since nothing is read after. -/
def jsonDecoder (parseFloat : Bytes → Res GoFloat) : JsonDecoder := fun s =>
  match readValue parseFloat (2 * s.length + 1) 10000 s with
  | some (.obj m, rest) => (.doc m, s.length - rest.length)
  | some (.null, rest) => (.doc [], s.length - rest.length)
  | _ => (.bad, 0)

/-- pkg/parser/json.go:31-35: `json.Unmarshal` into an `interface{}`. -/
def unmarshalJson (parseFloat : Bytes → Res GoFloat) (s : Bytes) : Res Value :=
  match readValue parseFloat (2 * s.length + 1) 10000 s with
  | some (v, rest) => if rest.all isJsonSpace then .ok v else .error (.err "invalid character after top-level value")
  | none => .error (.err "invalid JSON")

end Rodb
