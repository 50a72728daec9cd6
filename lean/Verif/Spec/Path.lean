import Verif.Model.Text
import Verif.Spec.Text
/-
  Specification vocabulary: what is found at a path in a value.
-/
namespace Rodb.Spec

/-- The key is the text of the integer `i`. -/
def IndexText (key : String) (i : Int) : Prop := IntegerText (utf8 key.toList) i

/-- The value `w` is found in `v` by following the keys of `path`: keys of objects, indexes of arrays. -/
inductive AtPath : Value → List String → Value → Prop where
  | here (v : Value) : AtPath v [] v
  | key {m : List (String × Value)} {k : String} {v w : Value} {path : List String} :
    m.lookup k = some v → AtPath v path w → AtPath (.obj m) (k :: path) w
  | index {l : List Value} {k : String} {i : Nat} {v w : Value} {path : List String} :
    IndexText k i → l[i]? = some v → AtPath v path w → AtPath (.arr l) (k :: path) w

/-- Following the path stops at the value `u`, with the key `k` that comes next. -/
def Stops (v : Value) (path : List String) (u : Value) (k : String) : Prop :=
  ∃ followed rest, path = followed ++ k :: rest ∧ AtPath v followed u

/-- The path leads to a missing key of an object or past the end of an array. -/
def Missing (v : Value) (path : List String) : Prop :=
  ∃ u k, Stops v path u k ∧
    ((∃ m, u = .obj m ∧ m.lookup k = none) ∨ (∃ l, ∃ i : Nat, u = .arr l ∧ IndexText k i ∧ l.length ≤ i))

/-- The path goes on below a value that is neither an object nor an array, or below an array with something
else than an integer. -/
def Blocked (v : Value) (path : List String) : Prop :=
  ∃ u k, Stops v path u k ∧
    (((∀ m, u ≠ .obj m) ∧ (∀ l, u ≠ .arr l)) ∨ (∃ l, u = .arr l ∧ ∀ i, ¬ IndexText k i))

/-- The path goes on below an array with a negative integer. -/
def NegativeIndex (v : Value) (path : List String) : Prop :=
  ∃ u k, Stops v path u k ∧ ∃ l, ∃ i : Int, u = .arr l ∧ IndexText k i ∧ i < 0

end Rodb.Spec
