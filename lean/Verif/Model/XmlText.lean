import Verif.Model.Inputs
import Verif.Model.JsonText
/-
  The lexer of encoding/xml (Go 1.16, `Decoder.rawToken` with Strict off), which xml.go:72-76 and 137-141 read the files with. This is a model of a library, not of code of /repo.

  The reading of a part of a token gives what was read and the bytes that are left, or nothing if there is a syntax error or the file ends.
-/
namespace Rodb

/-- `Decoder.space`: the bytes it skips. -/
def isXmlSpace (b : UInt8) : Bool := b = 32 || b = 9 || b = 10 || b = 13

/-- `Decoder.space`. -/
def skipXmlSpace (left : Bytes) : Bytes := left.dropWhile isXmlSpace

/-- Letters of ASCII. -/
def isXmlLetter (b : UInt8) : Bool := (65 ≤ b.toNat && b.toNat ≤ 90) || (97 ≤ b.toNat && b.toNat ≤ 122)

/-- Digits of ASCII. -/
def isXmlDigit (b : UInt8) : Bool := 48 ≤ b.toNat && b.toNat ≤ 57

/-- `isNameByte`, or a byte of a character outside of ASCII: what `Decoder.readName` takes. -/
def isNameByte (b : UInt8) : Bool := isXmlLetter b || isXmlDigit b || b = 95 || b = 58 || b = 46 || b = 45 || 128 ≤ b.toNat

/-- `isName`, and no prefix. Simplification: names with characters outside of ASCII or with a colon are refused. -/
def isPlainName : Bytes → Bool
  | [] => false
  | b :: rest => (isXmlLetter b || b = 95) && rest.all (fun b => isXmlLetter b || isXmlDigit b || b = 95 || b = 46 || b = 45)

/-- Bytes of ASCII as a text. -/
def asciiText (bytes : Bytes) : String := String.ofList (bytes.map (fun b => Char.ofNat b.toNat))

/-- `Decoder.name` and `Decoder.nsname`. -/
def xmlName (left : Bytes) : Option (String × Bytes) :=
  match left.dropWhile isNameByte with
  | [] => none
  | b :: rest => if isPlainName (left.takeWhile isNameByte) then some (asciiText (left.takeWhile isNameByte), b :: rest) else none

/-- The bytes before the first occurrence of `mark`, and those after it. -/
def upTo (mark : Bytes) : Bytes → Option (Bytes × Bytes)
  | [] => none
  | b :: rest => if mark.isPrefixOf (b :: rest) then some ([], (b :: rest).drop mark.length) else (upTo mark rest).map (fun r => (b :: r.1, r.2))

/-- The number that hexadecimal digits (or decimal ones, for `base` 10) stand for. -/
def digitsNumber (base : Nat) (digits : Bytes) : Nat :=
  digits.foldl (fun n b => base * n + (if b.toNat ≤ 57 then b.toNat - 48 else if b.toNat ≤ 70 then b.toNat - 55 else b.toNat - 87)) 0

/-- `'0' <= b && b <= '9' || base == 16 && ...`. -/
def isDigitOf (base : Nat) (b : UInt8) : Bool := isXmlDigit b || (base = 16 && ((97 ≤ b.toNat && b.toNat ≤ 102) || (65 ≤ b.toNat && b.toNat ≤ 70)))

/-- `string(rune(n))`. -/
def runeText (n : Nat) : Bytes := String.utf8EncodeChar (if n.isValidChar then Char.ofNat n else replacementChar)

/-- `Decoder.text`, after `&#` or `&#x` (`before`): the character, or what is written there if it is none. -/
def xmlCharRef (base : Nat) (before : Bytes) (left : Bytes) : Option (Bytes × Bytes) :=
  let digits := left.takeWhile (isDigitOf base)
  match left.dropWhile (isDigitOf base) with
  | [] => none
  | b :: rest =>
    if b ≠ 59 then some (before ++ digits, b :: rest)
    else if digits ≠ [] ∧ digitsNumber base digits ≤ 0x10FFFF then some (runeText (digitsNumber base digits), rest)
    else some (before ++ digits ++ [59], rest)

/-- The names that are known without being declared: `entity`. -/
def xmlEntity (name : Bytes) : Option UInt8 :=
  if name = [108, 116] then some 60
  else if name = [103, 116] then some 62
  else if name = [97, 109, 112] then some 38
  else if name = [97, 112, 111, 115] then some 39
  else if name = [113, 117, 111, 116] then some 34
  else none

/-- `Decoder.text`, after `&`, a name. -/
def xmlEntityRef (left : Bytes) : Option (Bytes × Bytes) :=
  let name := left.takeWhile isNameByte
  match left.dropWhile isNameByte with
  | [] => none
  | b :: rest =>
    if b ≠ 59 then some (38 :: name, b :: rest)
    else
      match xmlEntity name with
      | some c => some ([c], rest)
      | none => some (38 :: name ++ [59], rest)

/-- `Decoder.text`, after `&`. What stands for no character is kept as it is written. -/
def xmlEscape (left : Bytes) : Option (Bytes × Bytes) :=
  match left with
  | [] => none
  | 35 :: 120 :: rest => xmlCharRef 16 [38, 35, 120] rest
  | 35 :: rest => xmlCharRef 10 [38, 35] rest
  | _ => xmlEntityRef left

/-- `Decoder.text`, its loop outside of CDATA sections: up to `<`, the quote or the end of the file. `b0` and `b1` are the last two bytes. The fuel is the number of bytes plus one. -/
def textLoop (quote : Option UInt8) : Nat → UInt8 → UInt8 → Bytes → Option (Bytes × Bytes)
  | 0, _, _, _ => none
  | _ + 1, _, _, [] => some ([], [])
  | fuel + 1, b0, b1, b :: rest =>
    if b0 = 93 ∧ b1 = 93 ∧ b = 62 then none
    else if b = 60 then (if quote.isSome then none else some ([], b :: rest))
    else if quote = some b then some ([], rest)
    else if b = 38 then
      match xmlEscape rest with
      | none => none
      | some (text, rest) => (textLoop quote fuel 0 0 rest).map (fun r => (text ++ r.1, r.2))
    else if b = 13 then (textLoop quote fuel b1 b rest).map (fun r => (10 :: r.1, r.2))
    else if b1 = 13 ∧ b = 10 then textLoop quote fuel b1 b rest
    else (textLoop quote fuel b1 b rest).map (fun r => (b :: r.1, r.2))

/-- `isInCharacterRange`. -/
def isXmlChar (c : Char) : Bool :=
  c.toNat = 9 || c.toNat = 10 || c.toNat = 13 || (0x20 ≤ c.toNat && c.toNat ≤ 0xD7FF) || (0xE000 ≤ c.toNat && c.toNat ≤ 0xFFFD) || (0x10000 ≤ c.toNat && c.toNat ≤ 0x10FFFF)

/-- `Decoder.text`, the check of the characters at its end. -/
def xmlCharsOk (data : Bytes) : Bool :=
  match decodeUtf8 data with
  | none => false
  | some text => text.toList.all isXmlChar

/-- `Decoder.text` outside of CDATA sections. -/
def xmlText (quote : Option UInt8) (left : Bytes) : Option (Bytes × Bytes) :=
  match textLoop quote (left.length + 1) 0 0 left with
  | none => none
  | some (data, rest) => if xmlCharsOk data then some (data, rest) else none

/-- `Decoder.text` in CDATA sections: line ends are rewritten. -/
def xmlLines : Bytes → Bytes
  | 13 :: 10 :: rest => 10 :: xmlLines rest
  | b :: rest => (if b = 13 then 10 else b) :: xmlLines rest
  | [] => []

/-- `Decoder.attrval`. -/
def xmlAttrVal (left : Bytes) : Option (Bytes × Bytes) :=
  match left with
  | [] => none
  | q :: rest =>
    if q = 34 ∨ q = 39 then xmlText (some q) rest
    else
      match left.dropWhile (fun b => isXmlLetter b || isXmlDigit b || b = 95 || b = 58 || b = 45) with
      | [] => none
      | b :: after => some (left.takeWhile (fun b => isXmlLetter b || isXmlDigit b || b = 95 || b = 58 || b = 45), b :: after)

/-- `Decoder.rawToken`, after the name of a start tag: the attributes, and whether the tag is self-closing. An attribute without `=` has its name as its value. The fuel is the number of
bytes plus one. -/
def xmlAttributes : Nat → Bytes → Option (List (String × Bytes) × Bool × Bytes)
  | 0, _ => none
  | fuel + 1, left =>
    match skipXmlSpace left with
    | [] => none
    | 47 :: 62 :: rest => some ([], true, rest)
    | 62 :: rest => some ([], false, rest)
    | b :: left =>
      if b = 47 then none
      else
        match xmlName (b :: left) with
        | none => none
        | some (name, rest) =>
          match skipXmlSpace rest with
          | [] => none
          | 61 :: rest =>
            match xmlAttrVal (skipXmlSpace rest) with
            | none => none
            | some (value, rest) => (xmlAttributes fuel rest).map (fun r => ((name, value) :: r.1, r.2))
          | c :: rest => (xmlAttributes fuel (c :: rest)).map (fun r => ((name, utf8 name.toList) :: r.1, r.2))

/-- `procInst`. -/
def procInst (param data : Bytes) : Bytes :=
  match upTo (param ++ [61]) data with
  | some (_, q :: rest) => if q = 34 ∨ q = 39 then (match upTo [q] rest with | some (value, _) => value | none => []) else []
  | _ => []

/-- `Decoder.rawToken`, the checks of `<?xml ...?>`. Simplification: another encoding than UTF-8, for which the library looks for a decoder, is refused. -/
def xmlDeclarationOk (data : Bytes) : Bool :=
  let version := procInst (utf8 "version".toList) data
  let encoding := procInst (utf8 "encoding".toList) data
  (version = [] || version = utf8 "1.0".toList) &&
    (encoding = [] || encoding.map (fun b => if 65 ≤ b.toNat ∧ b.toNat ≤ 90 then b + 32 else b) = utf8 "utf-8".toList)

/-- `Decoder.rawToken`, after `<?`. -/
def xmlInstruction (left : Bytes) : Option (XmlRaw × Bytes) :=
  match xmlName left with
  | none => none
  | some (target, rest) =>
    match upTo [63, 62] (skipXmlSpace rest) with
    | none => none
    | some (data, rest) => if target = "xml" ∧ xmlDeclarationOk data = false then none else some (.other (.instruction target) data, rest)

/-- `Decoder.rawToken`, a directive after its first byte: up to a `>` outside of quotes and of other pairs of `<` and `>`; comments in it become spaces. The fuel is the number of bytes
plus one. -/
def directiveLoop : Nat → Option UInt8 → Nat → Bytes → Option (Bytes × Bytes)
  | 0, _, _, _ => none
  | _ + 1, _, _, [] => none
  | fuel + 1, some q, depth, b :: rest => (directiveLoop fuel (if b = q then none else some q) depth rest).map (fun r => (b :: r.1, r.2))
  | fuel + 1, none, depth, b :: rest =>
    if b = 62 then
      if depth = 0 then some ([], rest) else (directiveLoop fuel none (depth - 1) rest).map (fun r => (b :: r.1, r.2))
    else if b = 34 ∨ b = 39 then (directiveLoop fuel (some b) depth rest).map (fun r => (b :: r.1, r.2))
    else if b = 60 then
      if [33, 45, 45].isPrefixOf rest then
        match upTo [45, 45, 62] (rest.drop 3) with
        | none => none
        | some (_, rest) => (directiveLoop fuel none depth rest).map (fun r => (32 :: r.1, r.2))
      else (directiveLoop fuel none (depth + 1) rest).map (fun r => (b :: r.1, r.2))
    else (directiveLoop fuel none depth rest).map (fun r => (b :: r.1, r.2))

/-- `Decoder.rawToken`, after `<!`: a comment, a CDATA section or a directive. -/
def xmlBang (left : Bytes) : Option (XmlRaw × Bytes) :=
  match left with
  | [] => none
  | b :: rest =>
    if b = 45 then
      match rest with
      | 45 :: rest =>
        match upTo [45, 45] rest with
        | some (data, 62 :: rest) => some (.other .comment data, rest)
        | _ => none
      | _ => none
    else if b = 91 then
      if (utf8 "CDATA[".toList).isPrefixOf rest then
        match upTo [93, 93, 62] (rest.drop 6) with
        | none => none
        | some (data, rest) => if xmlCharsOk (xmlLines data) then some (.other .cdata (xmlLines data), rest) else none
      else none
    else (directiveLoop (rest.length + 1) none 0 rest).map (fun r => (.other .directive (b :: r.1), r.2))

/-- `Decoder.rawToken`, an end tag after `</`. -/
def xmlEndTag (left : Bytes) : Option (XmlRaw × Bytes) :=
  match xmlName left with
  | none => none
  | some (name, rest) =>
    match skipXmlSpace rest with
    | 62 :: rest => some (.stop name, rest)
    | _ => none

/-- `Decoder.rawToken`, a start tag after `<`. -/
def xmlStartTag (left : Bytes) : Option (XmlRaw × Bytes) :=
  match xmlName left with
  | none => none
  | some (name, rest) => (xmlAttributes (rest.length + 1) rest).map (fun r => (.start name r.1 r.2.1, r.2.2))

/-- `Decoder.rawToken`. -/
def xmlToken (left : Bytes) : Option (XmlRaw × Bytes) :=
  match left with
  | [] => none
  | b :: rest =>
    if b ≠ 60 then (xmlText none (b :: rest)).map (fun r => (.other .text r.1, r.2))
    else
      match rest with
      | 47 :: rest => xmlEndTag rest
      | 63 :: rest => xmlInstruction rest
      | 33 :: rest => xmlBang rest
      | _ => xmlStartTag rest

/-- All the tokens, each with its number of bytes. The fuel is the number of bytes plus one. -/
def xmlTokens : Nat → Bytes → List (XmlRaw × Nat) × XmlEnd
  | 0, _ => ([], .eof)
  | _ + 1, [] => ([], .eof)
  | fuel + 1, b :: left =>
    match xmlToken (b :: left) with
    | none => ([], .bad "XML syntax error")
    | some (t, rest) => ((t, (b :: left).length - rest.length) :: (xmlTokens fuel rest).1, (xmlTokens fuel rest).2)

/-- The lexer. -/
def xmlLexer : XmlLexer := fun left => xmlTokens (left.length + 1) left

end Rodb
