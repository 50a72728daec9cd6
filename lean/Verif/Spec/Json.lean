import Verif.Spec.Text
import Verif.Spec.Relationship
import Verif.Model.JsonText
/-
  Specification vocabulary: the JSON texts (RFC 8259).
-/
namespace Rodb.Spec

/-- Spaces, tabulations and ends of lines. -/
def Spaces (s : Bytes) : Prop := ∀ b ∈ s, b = 32 ∨ b = 9 ∨ b = 10 ∨ b = 13

/-- A hexadecimal digit, upper or lower case, and its value. -/
def IsHex (b : UInt8) (n : Nat) : Prop :=
  (48 ≤ b.toNat ∧ b.toNat ≤ 57 ∧ n = b.toNat - 48) ∨ (97 ≤ b.toNat ∧ b.toNat ≤ 102 ∧ n = b.toNat - 97 + 10) ∨
    (65 ≤ b.toNat ∧ b.toNat ≤ 70 ∧ n = b.toNat - 65 + 10)

/-- Four hexadecimal digits and their value. -/
def IsHex4 (s : Bytes) (n : Nat) : Prop :=
  ∃ a b c d x y z t, s = [a, b, c, d] ∧ IsHex a x ∧ IsHex b y ∧ IsHex c z ∧ IsHex d t ∧ n = 4096 * x + 256 * y + 16 * z + t

/-- A character and one of the ways to write it in a JSON string: as it is, with a letter after a backslash, with its number, or with the two halves of a surrogate pair. -/
inductive JsonChar : Char → Bytes → Prop where
  | plain {c : Char} : 32 ≤ c.toNat → c ≠ '"' → c ≠ '\\' → JsonChar c (String.utf8EncodeChar c)
  | quote : JsonChar '"' [92, 34]
  | backslash : JsonChar '\\' [92, 92]
  | slash : JsonChar '/' [92, 47]
  | backspace : JsonChar '\x08' [92, 98]
  | formFeed : JsonChar '\x0c' [92, 102]
  | newline : JsonChar '\n' [92, 110]
  | return : JsonChar '\r' [92, 114]
  | tab : JsonChar '\t' [92, 116]
  | number {c : Char} {s : Bytes} : IsHex4 s c.toNat → JsonChar c ([92, 117] ++ s)
  | pair {c : Char} {s t : Bytes} {high low : Nat} : IsHex4 s high → IsHex4 t low → 0xD800 ≤ high → high < 0xDC00 → 0xDC00 ≤ low → low < 0xE000 →
    c.toNat = 0x10000 + (high - 0xD800) * 0x400 + (low - 0xDC00) → JsonChar c ([92, 117] ++ s ++ [92, 117] ++ t)

/-- The same, and also what stands for U+FFFD although it is not valid: a byte that is not ASCII, and half of a surrogate pair. -/
inductive LenientChar : Char → Bytes → Prop where
  | valid {c : Char} {t : Bytes} : JsonChar c t → LenientChar c t
  | byte {b : UInt8} : 128 ≤ b.toNat → LenientChar (Char.ofNat 0xFFFD) [b]
  | half {s : Bytes} {n : Nat} : IsHex4 s n → 0xD800 ≤ n → n < 0xE000 → LenientChar (Char.ofNat 0xFFFD) ([92, 117] ++ s)

/-- Characters and what writes them one after the other; `char` tells what writes each of them. -/
inductive JsonChars (char : Char → Bytes → Prop) : List Char → Bytes → Prop where
  | nil : JsonChars char [] []
  | cons {c : Char} {t : Bytes} {cs : List Char} {u : Bytes} : char c t → JsonChars char cs u → JsonChars char (c :: cs) (t ++ u)

/-- A text and how it is written between quotes. -/
def JsonString (char : Char → Bytes → Prop) (cs : List Char) (s : Bytes) : Prop := ∃ t, JsonChars char cs t ∧ s = [34] ++ t ++ [34]

/-- How a JSON number is written: an optional minus sign, digits without a useless zero at the start, then an optional fraction and an optional exponent. -/
def JsonNumber (s : Bytes) : Prop :=
  ∃ sign int fraction exponent, s = sign ++ int ++ fraction ++ exponent ∧ (sign = [] ∨ sign = [45]) ∧
    (int = [48] ∨ IsDigits int ∧ ∀ rest, int ≠ 48 :: rest) ∧
    (fraction = [] ∨ ∃ ds, IsDigits ds ∧ fraction = 46 :: ds) ∧
    (exponent = [] ∨ ∃ e sign ds, (e = 101 ∨ e = 69) ∧ (sign = [] ∨ sign = [43] ∨ sign = [45]) ∧ IsDigits ds ∧ exponent = e :: sign ++ ds)

mutual
/-- A value and a JSON text of it; `char` tells what writes the characters of the strings and `num` which texts stand for which numbers. The members of an object are those of the text, in their order. -/
inductive JsonText (char : Char → Bytes → Prop) (num : Value → Bytes → Prop) : Value → Bytes → Prop where
  | null : JsonText char num .null [110, 117, 108, 108]
  | true : JsonText char num (.bool true) [116, 114, 117, 101]
  | false : JsonText char num (.bool false) [102, 97, 108, 115, 101]
  | number {v : Value} {t : Bytes} : JsonNumber t → num v t → JsonText char num v t
  | string {cs : List Char} {t : Bytes} : JsonString char cs t → JsonText char num (.str (utf8 cs)) t
  | noElement {s : Bytes} : Spaces s → JsonText char num (.arr []) ([91] ++ s ++ [93])
  | elements {l : List Value} {t : Bytes} : JsonElements char num l t → JsonText char num (.arr l) ([91] ++ t ++ [93])
  | noMember {s : Bytes} : Spaces s → JsonText char num (.obj []) ([123] ++ s ++ [125])
  | members {m : GoMap Value} {t : Bytes} : JsonMembers char num m t → JsonText char num (.obj m) ([123] ++ t ++ [125])

/-- One or more elements, with commas between them and spaces anywhere. -/
inductive JsonElements (char : Char → Bytes → Prop) (num : Value → Bytes → Prop) : List Value → Bytes → Prop where
  | last {v : Value} {s t s' : Bytes} : Spaces s → JsonText char num v t → Spaces s' → JsonElements char num [v] (s ++ t ++ s')
  | cons {v : Value} {l : List Value} {s t s' u : Bytes} : Spaces s → JsonText char num v t → Spaces s' → JsonElements char num l u →
    JsonElements char num (v :: l) (s ++ t ++ s' ++ [44] ++ u)

/-- One or more members, with commas between them and spaces anywhere. -/
inductive JsonMembers (char : Char → Bytes → Prop) (num : Value → Bytes → Prop) : GoMap Value → Bytes → Prop where
  | last {key : String} {v : Value} {s k s' s'' t s''' : Bytes} : Spaces s → JsonString char key.toList k → Spaces s' → Spaces s'' → JsonText char num v t → Spaces s''' →
    JsonMembers char num [(key, v)] (s ++ k ++ s' ++ [58] ++ s'' ++ t ++ s''')
  | cons {key : String} {v : Value} {m : GoMap Value} {s k s' s'' t s''' u : Bytes} : Spaces s → JsonString char key.toList k → Spaces s' → Spaces s'' → JsonText char num v t →
    Spaces s''' → JsonMembers char num m u → JsonMembers char num ((key, v) :: m) (s ++ k ++ s' ++ [58] ++ s'' ++ t ++ s''' ++ [44] ++ u)
end

/-- No object in the value has two members with the same key. -/
inductive DistinctKeys : Value → Prop where
  | null : DistinctKeys .null
  | bool {b : Bool} : DistinctKeys (.bool b)
  | int {i : Int} : DistinctKeys (.int i)
  | float {f : GoFloat} : DistinctKeys (.float f)
  | str {s : Bytes} : DistinctKeys (.str s)
  | arr {l : List Value} : (∀ v ∈ l, DistinctKeys v) → DistinctKeys (.arr l)
  | obj {m : GoMap Value} : (m.map (·.1)).Nodup → (∀ k v, (k, v) ∈ m → DistinctKeys v) → DistinctKeys (.obj m)

/-- The value of the last member with that key. -/
def lastOf (m : GoMap Value) (key : String) : Option Value := m.reverse.lookup key

/-- The second value is the first one without the members that are followed by a member with the same key. -/
inductive LastWins : Value → Value → Prop where
  | null : LastWins .null .null
  | bool {b : Bool} : LastWins (.bool b) (.bool b)
  | int {i : Int} : LastWins (.int i) (.int i)
  | float {f : GoFloat} : LastWins (.float f) (.float f)
  | str {s : Bytes} : LastWins (.str s) (.str s)
  | arr {l l' : List Value} : l'.length = l.length → (∀ (i : Nat) v v', l[i]? = some v → l'[i]? = some v' → LastWins v v') → LastWins (.arr l) (.arr l')
  | obj {m m' : GoMap Value} : (m'.map (·.1)).Nodup → (∀ k, k ∈ m'.map (·.1) ↔ k ∈ m.map (·.1)) →
    (∀ k v v', lastOf m k = some v → (k, v') ∈ m' → LastWins v v') → LastWins (.obj m) (.obj m')

/-- Arrays and objects are not nested more than `depth` times in the value. -/
inductive Nested : Nat → Value → Prop where
  | null {depth : Nat} : Nested depth .null
  | bool {depth : Nat} {b : Bool} : Nested depth (.bool b)
  | int {depth : Nat} {i : Int} : Nested depth (.int i)
  | float {depth : Nat} {f : GoFloat} : Nested depth (.float f)
  | str {depth : Nat} {s : Bytes} : Nested depth (.str s)
  | arr {depth : Nat} {l : List Value} : (∀ v ∈ l, Nested depth v) → Nested (depth + 1) (.arr l)
  | obj {depth : Nat} {m : GoMap Value} : (∀ k v, (k, v) ∈ m → Nested depth v) → Nested (depth + 1) (.obj m)

/-- All the texts of the value are made of characters (they are valid UTF-8). -/
inductive ValidTexts : Value → Prop where
  | null : ValidTexts .null
  | bool {b : Bool} : ValidTexts (.bool b)
  | int {i : Int} : ValidTexts (.int i)
  | float {f : GoFloat} : ValidTexts (.float f)
  | str {cs : List Char} : ValidTexts (.str (utf8 cs))
  | arr {l : List Value} : (∀ v ∈ l, ValidTexts v) → ValidTexts (.arr l)
  | obj {m : GoMap Value} : (∀ k v, (k, v) ∈ m → ValidTexts v) → ValidTexts (.obj m)

/-- All the numbers of the value, integers and floats, satisfy `P`. -/
inductive AllNumbers (P : Value → Prop) : Value → Prop where
  | null : AllNumbers P .null
  | bool {b : Bool} : AllNumbers P (.bool b)
  | int {i : Int} : P (.int i) → AllNumbers P (.int i)
  | float {f : GoFloat} : P (.float f) → AllNumbers P (.float f)
  | str {s : Bytes} : AllNumbers P (.str s)
  | arr {l : List Value} : (∀ v ∈ l, AllNumbers P v) → AllNumbers P (.arr l)
  | obj {m : GoMap Value} : (∀ k v, (k, v) ∈ m → AllNumbers P v) → AllNumbers P (.obj m)

/-- The numbers as they are written: integers in decimal, and floats as `formatFloat` writes them. -/
def WrittenNumber (formatFloat : Int → Bytes) (v : Value) (t : Bytes) : Prop :=
  (∃ i, v = .int i ∧ t = intText i) ∨ (∃ k, v = .float (.fin k) ∧ t = formatFloat k)

/-- The numbers as they are read: all of them are floats. -/
def ReadNumber (parseFloat : Bytes → Res GoFloat) (v : Value) (t : Bytes) : Prop := ∃ f, v = .float f ∧ parseFloat t = .ok f

/-- What is written for the number can be read: as a float for an integer, and as the same float for a float. -/
def Rereadable (formatFloat : Int → Bytes) (parseFloat : Bytes → Res GoFloat) (v : Value) : Prop :=
  (∀ i, v = .int i → ∃ f, parseFloat (intText i) = .ok f) ∧ (∀ k, v = .float (.fin k) → parseFloat (formatFloat k) = .ok (.fin k))

/-- The second value is the first one with its integers read as floats. -/
inductive ReadBack (parseFloat : Bytes → Res GoFloat) : Value → Value → Prop where
  | null : ReadBack parseFloat .null .null
  | bool {b : Bool} : ReadBack parseFloat (.bool b) (.bool b)
  | int {i : Int} {f : GoFloat} : parseFloat (intText i) = .ok f → ReadBack parseFloat (.int i) (.float f)
  | float {k : Int} : ReadBack parseFloat (.float (.fin k)) (.float (.fin k))
  | str {s : Bytes} : ReadBack parseFloat (.str s) (.str s)
  | arr {l : List (Value × Value)} : (∀ x ∈ l, ReadBack parseFloat x.1 x.2) → ReadBack parseFloat (.arr (l.map (·.1))) (.arr (l.map (·.2)))
  | obj {m : List (String × Value × Value)} : (∀ x ∈ m, ReadBack parseFloat x.2.1 x.2.2) →
    ReadBack parseFloat (.obj (m.map (fun x => (x.1, x.2.1)))) (.obj (m.map (fun x => (x.1, x.2.2))))

/-- JSON texts one after the other, with spaces anywhere around them. -/
inductive JsonFile (char : Char → Bytes → Prop) (num : Value → Bytes → Prop) : List Value → Bytes → Prop where
  | done {s : Bytes} : Spaces s → JsonFile char num [] s
  | doc {v : Value} {docs : List Value} {s t rest : Bytes} : Spaces s → JsonText char num v t → JsonFile char num docs rest → JsonFile char num (v :: docs) (s ++ t ++ rest)

/-- What `formatFloat` must do: write JSON numbers. -/
def FormatContract (formatFloat : Int → Bytes) : Prop := ∀ k, JsonNumber (formatFloat k)

end Rodb.Spec
