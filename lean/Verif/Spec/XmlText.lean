import Verif.Spec.XmlInput
/-
  Specification vocabulary: how XML documents are written (XML 1.0; UTF-8, without namespaces and without declarations of entities).
-/
namespace Rodb.Spec

/-- The bytes of a text. -/
def xmlBytes (s : String) : Bytes := utf8 s.toList

/-- The characters that are allowed in a document. -/
def XmlChar (c : Char) : Prop := c = '\t' ∨ c = '\n' ∨ c = '\r' ∨ (32 ≤ c.toNat ∧ c.toNat ≠ 0xFFFE ∧ c.toNat ≠ 0xFFFF)

/-- The names of elements and attributes: ASCII letters, digits and `_`, `-`, `.`, beginning with a letter or `_`. -/
def XmlName (name : String) : Prop :=
  ∃ c rest, name.toList = c :: rest ∧ (c.isAlpha = true ∨ c = '_') ∧ ∀ d ∈ rest, d.isAlphanum = true ∨ d = '_' ∨ d = '-' ∨ d = '.'

/-- Spaces, tabs and ends of lines. -/
def Blanks (w : Bytes) : Prop := ∀ b ∈ w, b = 32 ∨ b = 9 ∨ b = 10 ∨ b = 13

/-- The digit with the value `d`. -/
def DigitByte (base d : Nat) (b : UInt8) : Prop := d < base ∧ (d < 10 ∧ b.toNat = 48 + d ∨ 10 ≤ d ∧ (b.toNat = 55 + d ∨ b.toNat = 87 + d))

/-- The number that some digits stand for. -/
inductive XmlNumber (base : Nat) : Nat → Bytes → Prop where
  | one {d : Nat} {b : UInt8} : DigitByte base d b → XmlNumber base d [b]
  | more {n d : Nat} {b : UInt8} {w : Bytes} : XmlNumber base n w → DigitByte base d b → XmlNumber base (base * n + d) (w ++ [b])

/-- How a character is written in a text, or in a value between quotes: as itself, by the name of an entity, or by its number. The end of a line can also be written as on Windows. -/
inductive WrittenChar (quote : Option Char) : Char → Bytes → Prop where
  | plain {c : Char} : XmlChar c → c ≠ '<' → c ≠ '&' → c ≠ '\r' → quote ≠ some c → WrittenChar quote c (utf8 [c])
  | line : WrittenChar quote '\n' (xmlBytes "\r\n")
  | lt : WrittenChar quote '<' (xmlBytes "&lt;")
  | gt : WrittenChar quote '>' (xmlBytes "&gt;")
  | amp : WrittenChar quote '&' (xmlBytes "&amp;")
  | apos : WrittenChar quote '\'' (xmlBytes "&apos;")
  | quot : WrittenChar quote '"' (xmlBytes "&quot;")
  | decimal {c : Char} {w : Bytes} : XmlChar c → XmlNumber 10 c.toNat w → WrittenChar quote c (xmlBytes "&#" ++ w ++ xmlBytes ";")
  | hexadecimal {c : Char} {w : Bytes} : XmlChar c → XmlNumber 16 c.toNat w → WrittenChar quote c (xmlBytes "&#x" ++ w ++ xmlBytes ";")

/-- How the characters of a text are written, or those of a value between quotes. -/
inductive WrittenChars (quote : Option Char) : List Char → Bytes → Prop where
  | nil : WrittenChars quote [] []
  | cons {c : Char} {cs : List Char} {w w' : Bytes} : WrittenChar quote c w → WrittenChars quote cs w' → WrittenChars quote (c :: cs) (w ++ w')

/-- `]]>` is only allowed at the end of a CDATA section (encoding/xml also refuses it in the values of attributes). -/
def NoSectionEnd (w : Bytes) : Prop := ¬ xmlBytes "]]>" <:+: w

/-- How the characters in a CDATA section are written. -/
inductive WrittenSection : List Char → Bytes → Prop where
  | nil : WrittenSection [] []
  | plain {c : Char} {cs : List Char} {w : Bytes} : XmlChar c → c ≠ '\r' → WrittenSection cs w → WrittenSection (c :: cs) (utf8 [c] ++ w)
  | line {cs : List Char} {w : Bytes} : WrittenSection cs w → WrittenSection ('\n' :: cs) (xmlBytes "\r\n" ++ w)

/-- How the attributes of a tag are written, up to its `>` or `/>`. -/
inductive WrittenAttributes : List (String × Bytes) → Bytes → Prop where
  | nil {s : Bytes} : Blanks s → WrittenAttributes [] s
  | cons {name : String} {value : List Char} {attr : List (String × Bytes)} {q : Char} {s s' s'' w w' : Bytes} :
      Blanks s → s ≠ [] → XmlName name → Blanks s' → Blanks s'' → (q = '"' ∨ q = '\'') → WrittenChars (some q) value w → NoSectionEnd w → WrittenAttributes attr w' →
      WrittenAttributes ((name, utf8 value) :: attr) (s ++ xmlBytes name ++ s' ++ xmlBytes "=" ++ s'' ++ utf8 [q] ++ w ++ utf8 [q] ++ w')

/-- What the declaration at the beginning of a document says. -/
def DeclarationText (data : Bytes) : Prop :=
  ∃ version ∈ ["version=\"1.0\"", "version='1.0'"],
  ∃ encoding ∈ ["", " encoding=\"UTF-8\"", " encoding='UTF-8'", " encoding=\"utf-8\"", " encoding='utf-8'"],
  ∃ standalone ∈ ["", " standalone=\"yes\"", " standalone='yes'", " standalone=\"no\"", " standalone='no'"], data = xmlBytes (version ++ encoding ++ standalone)

/-- What a document type declaration says, without declarations in it: anything but quotes, `<` and `>`, and texts between quotes. -/
inductive DoctypeText : Bytes → Prop where
  | nil : DoctypeText []
  | plain {b : UInt8} {w : Bytes} : b ∉ xmlBytes "\"'<>" → DoctypeText w → DoctypeText (b :: w)
  | quoted {q : UInt8} {s w : Bytes} : q ∈ xmlBytes "\"'" → q ∉ s → DoctypeText w → DoctypeText (q :: (s ++ q :: w))

/-- The nodes begin with a text. -/
def BeginsWithText : List XmlNode → Prop
  | .other .text _ :: _ => True
  | _ => False

/-- How the nodes of a document are written. -/
inductive XmlWritten : List XmlNode → Bytes → Prop where
  | nil : XmlWritten [] []
  | text {c : Char} {cs : List Char} {nodes : List XmlNode} {w w' : Bytes} :
      WrittenChars none (c :: cs) w → NoSectionEnd w → XmlWritten nodes w' → ¬ BeginsWithText nodes → XmlWritten (.other .text (utf8 (c :: cs)) :: nodes) (w ++ w')
  | cdata {cs : List Char} {nodes : List XmlNode} {w w' : Bytes} :
      WrittenSection cs w → NoSectionEnd w → XmlWritten nodes w' → XmlWritten (.other .cdata (utf8 cs) :: nodes) (xmlBytes "<![CDATA[" ++ w ++ xmlBytes "]]>" ++ w')
  | comment {data : Bytes} {nodes : List XmlNode} {w' : Bytes} :
      ¬ xmlBytes "--" <:+: data ++ xmlBytes "-" → XmlWritten nodes w' → XmlWritten (.other .comment data :: nodes) (xmlBytes "<!--" ++ data ++ xmlBytes "-->" ++ w')
  | instruction {target : String} {data s : Bytes} {nodes : List XmlNode} {w' : Bytes} :
      XmlName target → target ≠ "xml" → Blanks s → (s ≠ [] ∨ data = []) → (∀ b ∈ data.head?, ¬ Blanks [b]) → ¬ xmlBytes "?>" <:+: data → XmlWritten nodes w' →
      XmlWritten (.other (.instruction target) data :: nodes) (xmlBytes "<?" ++ xmlBytes target ++ s ++ data ++ xmlBytes "?>" ++ w')
  | declaration {data : Bytes} {nodes : List XmlNode} {w' : Bytes} :
      DeclarationText data → XmlWritten nodes w' → XmlWritten (.other (.instruction "xml") data :: nodes) (xmlBytes "<?xml " ++ data ++ xmlBytes "?>" ++ w')
  | doctype {data : Bytes} {nodes : List XmlNode} {w' : Bytes} :
      DoctypeText data → XmlWritten nodes w' → XmlWritten (.other .directive (xmlBytes "DOCTYPE" ++ data) :: nodes) (xmlBytes "<!DOCTYPE" ++ data ++ xmlBytes ">" ++ w')
  | closed {name : String} {attr : List (String × Bytes)} {nodes : List XmlNode} {w w' : Bytes} :
      XmlName name → WrittenAttributes attr w → XmlWritten nodes w' → XmlWritten (.element name attr [] :: nodes) (xmlBytes "<" ++ xmlBytes name ++ w ++ xmlBytes "/>" ++ w')
  | element {name : String} {attr : List (String × Bytes)} {children nodes : List XmlNode} {w s inner w' : Bytes} :
      XmlName name → WrittenAttributes attr w → XmlWritten children inner → Blanks s → XmlWritten nodes w' →
      XmlWritten (.element name attr children :: nodes) (xmlBytes "<" ++ xmlBytes name ++ w ++ xmlBytes ">" ++ inner ++ xmlBytes "</" ++ xmlBytes name ++ s ++ xmlBytes ">" ++ w')

mutual
/-- An element with proper names, attributes and content, or a text that is not empty. -/
def ProperNode : XmlNode → Prop
  | .element name attr children =>
    XmlName name ∧ (∀ a ∈ attr, XmlName a.1 ∧ ∃ cs, a.2 = utf8 cs ∧ ∀ c ∈ cs, XmlChar c) ∧ ProperNodes children
  | .other kind data => kind = .text ∧ ∃ cs, cs ≠ [] ∧ data = utf8 cs ∧ ∀ c ∈ cs, XmlChar c
/-- Elements and texts; no text is followed by another one, as they would be one text. -/
def ProperNodes : List XmlNode → Prop
  | [] => True
  | node :: nodes => ProperNode node ∧ ProperNodes nodes ∧ (BeginsWithText [node] → ¬ BeginsWithText nodes)
end

end Rodb.Spec
