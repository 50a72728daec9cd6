import Verif.Spec.Service
/-
  Specification vocabulary: the paths of routes as regular expressions, in the syntax of Go's regexp, with placeholders.
-/
namespace Rodb.Spec

/-- A character that stands for itself, outside of brackets. -/
def Ordinary (c : Char) : Prop := c ∉ ['\\', '.', '+', '*', '?', '(', ')', '|', '[', '{', '^', '$']

/-- A character after a backslash stands for itself if it is an ASCII character, but no letter or digit. -/
def Quotable (c : Char) : Prop := c.toNat < 128 ∧ ¬ ('0' ≤ c ∧ c ≤ '9') ∧ ¬ ('a' ≤ c ∧ c ≤ 'z') ∧ ¬ ('A' ≤ c ∧ c ≤ 'Z') ∧ c ≠ '{'

/-- A character inside of brackets. -/
inductive BracketChar : Char → List Char → Prop where
  | plain {c} : c ∉ ['\\', '[', ']', '{'] → BracketChar c [c]
  | quoted {c} : Quotable c → BracketChar c ['\\', c]

/-- What is inside of brackets: characters and ranges of characters. A hyphen after a character makes a range, unless it is the last one. -/
inductive Brackets : List (Char × Char) → List Char → Prop where
  | nil : Brackets [] []
  | one {c w rs u} : BracketChar c w → Brackets rs u → u.head? ≠ some '-' → Brackets ((c, c) :: rs) (w ++ u)
  | range {lo hi v w rs u} : BracketChar lo v → BracketChar hi w → lo ≤ hi → Brackets rs u → Brackets ((lo, hi) :: rs) (v ++ '-' :: w ++ u)
  | hyphen {c w} : BracketChar c w → Brackets [(c, c), ('-', '-')] (w ++ ['-'])

/-- The parts of a regular expression: a list of alternatives, each a list of items; the items, each with a repetition sign or without. -/
inductive Part where
  | alternatives (l : List (List Regex))
  | items (l : List Regex)
  | item (r : Regex)
  | atom (r : Regex)

/-- Several alternatives. -/
def altList : List (List Regex) → Regex
  | [] => .empty
  | [items] => catList items
  | items :: rest => .alt (catList items) (altList rest)

/-- How the parts are written. `hole name r`: a placeholder of this name stands for what `r` matches. -/
inductive PathWritten (hole : List Char → Regex → Prop) : Part → List Char → Prop where
  | ordinary {c} : Ordinary c → PathWritten hole (.atom (.chr c)) [c]
  | quoted {c} : Quotable c → PathWritten hole (.atom (.chr c)) ['\\', c]
  | any : PathWritten hole (.atom .any) ['.']
  | start : PathWritten hole (.atom .bol) ['^']
  | stop : PathWritten hole (.atom .eol) ['$']
  | brackets {ranges text} : Brackets ranges text → ranges ≠ [] → text.head? ≠ some '^' → PathWritten hole (.atom (.cls false ranges.reverse)) ('[' :: text ++ [']'])
  | notBrackets {ranges text} : Brackets ranges text → ranges ≠ [] → PathWritten hole (.atom (.cls true ranges.reverse)) ('[' :: '^' :: text ++ [']'])
  | group {l text} : PathWritten hole (.alternatives l) text → PathWritten hole (.atom (.group (altList l))) ('(' :: text ++ [')'])
  | parentheses {l text} : PathWritten hole (.alternatives l) text → PathWritten hole (.atom (altList l)) ('(' :: '?' :: ':' :: text ++ [')'])
  | placeholder {name r} : name ≠ [] → '}' ∉ name → hole name r → PathWritten hole (.atom (.group r)) ('{' :: name ++ ['}'])
  | once {r text} : PathWritten hole (.atom r) text → PathWritten hole (.item r) text
  | star {r text l} : PathWritten hole (.atom r) text → l = [] ∨ l = ['?'] → PathWritten hole (.item (.star r)) (text ++ '*' :: l)
  | plus {r text l} : PathWritten hole (.atom r) text → l = [] ∨ l = ['?'] → PathWritten hole (.item (.plus r)) (text ++ '+' :: l)
  | opt {r text l} : PathWritten hole (.atom r) text → l = [] ∨ l = ['?'] → PathWritten hole (.item (.opt r)) (text ++ '?' :: l)
  | nil : PathWritten hole (.items []) []
  | cons {r l a b} : PathWritten hole (.item r) a → PathWritten hole (.items l) b → PathWritten hole (.items (r :: l)) (a ++ b)
  | last {l a} : PathWritten hole (.items l) a → PathWritten hole (.alternatives [l]) a
  | more {l ls a b} : PathWritten hole (.items l) a → PathWritten hole (.alternatives ls) b → PathWritten hole (.alternatives (l :: ls)) (a ++ '|' :: b)

/-- A placeholder stands for the texts that the pattern of the parser of this parameter matches. -/
def Placeholder (output : OutputApi) (name : List Char) (r : Regex) : Prop :=
  output.hasParameter (String.ofList name) = true ∧
  ∃ parser, output.parameterParser (String.ofList name) = .ok parser ∧ parser.config.primitive = true ∧ compilePattern parser.pattern = some r

/-- The request paths that a path with these alternatives stands for: what one of them matches. The first one matches a text at the start of the request path, the last one a text at its end; if there is
only one alternative, it matches the whole request path. -/
def PathStandsFor (alternatives : List (List Regex)) (requested : List Char) : Prop :=
  ∃ (i : Nat) (items : List Regex), alternatives[i]? = some items ∧ ∃ before s after captures, requested = before ++ s ++ after ∧ (i = 0 → before = []) ∧ (i + 1 = alternatives.length → after = []) ∧
    Matches (catList items) before s after captures

end Rodb.Spec
