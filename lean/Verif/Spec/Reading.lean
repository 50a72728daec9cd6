import Verif.Spec.Running
import Verif.Spec.Added
import Verif.Spec.Text
/-
  Specification vocabulary: what the declared parsers read.
-/
namespace Rodb.Spec

/-- The text of a setting, encoded. -/
def encoded (setting : String) : Bytes := utf8 setting.toList

/-- `f` reads an array: the values of all the pieces of a text, in the same order, each read by `g`; an error of a piece is one of the whole text. -/
def ReadsPieces (f g : Bytes → Res Value) (text : Bytes) (pieces : List Bytes) : Prop :=
  (∀ v, f text = .ok v ↔ ∃ vs : List Value, v = .arr vs ∧ vs.length = pieces.length ∧ ∀ i (h : i < pieces.length) (h' : i < vs.length), g pieces[i] = .ok vs[i]) ∧
  ∀ e, f text = .error e ↔ ∃ before piece after, pieces = before ++ piece :: after ∧ (∀ q ∈ before, ∃ v, g q = .ok v) ∧ g piece = .error e

/-- The functions with the names of the parsers read what the declarations of the parsers say. -/
structure ReadsAsDeclared (lib : StartLib) (p : ParsedConfig) (c : Config) (functions : GoMap (Bytes → Res Value)) : Prop where
  /-- Texts are what they are, ... -/
  text : ∀ n x, IsParser p n x → x.kind = .string "" → ∃ f, mapGet functions n = some f ∧ ∀ bytes, f bytes = .ok (.str bytes)
  /-- ... or converted from another encoding. -/
  converted : ∀ n x charset, IsParser p n x → x.kind = .string charset → charset ≠ "" → ∃ f convert, mapGet functions n = some f ∧ lib.charset charset = .ok convert ∧
    ∀ bytes, f bytes = (convert bytes).map .str
  /-- Integers are written in decimal, after the ignored characters have been removed; everything else is an error. -/
  integer : ∀ n x ignore, IsParser p n x → x.kind = .integer ignore → ∃ f, mapGet functions n = some f ∧ ∀ text : List Char,
    (∀ i, f (utf8 text) = .ok (.int i) ↔ IntegerText (utf8 (text.filter (fun ch => decide (ch ∉ ignore.toList)))) i) ∧
    ((∀ i, ¬ IntegerText (utf8 (text.filter (fun ch => decide (ch ∉ ignore.toList)))) i) → ∃ msg, f (utf8 text) = .error (.err msg))
  /-- Numbers, after the ignored characters have been removed and the decimal separator has been replaced by a dot. -/
  float : ∀ n x separator ignore s, IsParser p n x → x.kind = .float separator ignore → separator.toList = [s] → ∃ f, mapGet functions n = some f ∧ ∀ text : List Char,
    f (utf8 text) = (lib.parserLib.parseFloat (utf8 ((text.filter (fun ch => decide (ch ∉ ignore.toList))).map (fun ch => if ch = s then '.' else ch)))).map Value.float
  /-- Booleans are the texts of the lists; a text of both lists is true; a text of neither is an error. -/
  boolean : ∀ n x yes no, IsParser p n x → x.kind = .boolean yes no → ∃ f, mapGet functions n = some f ∧ ∀ bytes,
    (f bytes = .ok (.bool true) ↔ bytes ∈ yes.map encoded) ∧ (f bytes = .ok (.bool false) ↔ bytes ∈ no.map encoded ∧ bytes ∉ yes.map encoded) ∧
    ((∃ msg, f bytes = .error (.err msg)) ↔ bytes ∉ yes.map encoded ∧ bytes ∉ no.map encoded)
  /-- JSON is what the library reads. -/
  json : ∀ n x, IsParser p n x → x.kind = .json → ∃ f, mapGet functions n = some f ∧ ∀ bytes, f bytes = lib.parserLib.unmarshal bytes
  /-- The pieces between the delimiters are read by the parser that the split parser names. -/
  split : ∀ n x d regexp inner, IsParser p n x → x.kind = .split (some d) regexp inner → regexp ≠ some true → d ≠ "" → SplitsEnd c.parsers n →
    ∃ f g, mapGet functions n = some f ∧ mapGet functions inner = some g ∧ ∀ bytes, ∃ pieces, IsSplit (encoded d) bytes pieces ∧ ReadsPieces f g bytes pieces
  /-- The same for the pieces between the matches of a regular expression. -/
  splitRegexp : ∀ n x d inner, IsParser p n x → x.kind = .split (some d) (some true) inner → SplitsEnd c.parsers n →
    ∃ f g, mapGet functions n = some f ∧ mapGet functions inner = some g ∧ ∀ bytes, ReadsPieces f g bytes (lib.regexpSplit d bytes)

end Rodb.Spec
