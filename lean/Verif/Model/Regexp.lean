/-
  The part of Go's regexp syntax that routes and parsers use (package regexp/syntax, not in /repo): texts are lists
  of characters, that is valid UTF-8.
-/
namespace Rodb

/-- A regular expression. `group` is a capturing group; groups are numbered by their opening parenthesis. -/
inductive Regex where
  | empty
  | chr (c : Char)
  | any
  | cls (negated : Bool) (ranges : List (Char × Char))
  | cat (a b : Regex)
  | alt (a b : Regex)
  | star (a : Regex)
  | plus (a : Regex)
  | opt (a : Regex)
  | group (a : Regex)
  | bol
  | eol
  deriving DecidableEq, Repr

/-- How many capturing groups the expression has. -/
def Regex.groups : Regex → Nat
  | .cat a b => a.groups + b.groups
  | .alt a b => a.groups + b.groups
  | .star a => a.groups
  | .plus a => a.groups
  | .opt a => a.groups
  | .group a => a.groups + 1
  | _ => 0

/-- A concatenation. -/
def catList : List Regex → Regex
  | [] => .empty
  | r :: rs => .cat r (catList rs)

/-- The part of the pattern inside the innermost open parenthesis: the finished alternatives and the items of the current
one, both in reverse order. -/
structure Frame where
  capturing : Bool
  alternatives : List Regex
  items : List Regex
  deriving DecidableEq

/-- What has just been read. `opened`: an opening parenthesis. `flagged`: "(?". `repeated`: a repetition operator, after
which "?" makes it lazy. `lazied`: that. `escaped`: a backslash. The rest is inside of brackets: at the start, after
"[^", between two elements, after a character, after a character and a hyphen; with or without a backslash. -/
inductive Mode where
  | normal | opened | flagged | repeated | lazied | escaped
  | clsStart
  | clsFirst (negated : Bool)
  | clsNext (negated : Bool) (ranges : List (Char × Char))
  | clsChar (negated : Bool) (ranges : List (Char × Char)) (lo : Char)
  | clsDash (negated : Bool) (ranges : List (Char × Char)) (lo : Char)
  | clsEscape (negated : Bool) (ranges : List (Char × Char))
  | clsDashEscape (negated : Bool) (ranges : List (Char × Char)) (lo : Char)
  deriving DecidableEq

/-- The state of the parser of patterns. -/
structure PatternState where
  stack : List Frame
  top : Frame
  mode : Mode
  deriving DecidableEq

/-- The regular expression of a closed part. -/
def Frame.close (f : Frame) : Regex :=
  f.alternatives.foldl (fun acc r => .alt r acc) (catList f.items.reverse)

def newFrame : Frame := { capturing := true, alternatives := [], items := [] }

/-- Add an item. -/
def PatternState.push (s : PatternState) (r : Regex) : PatternState :=
  { s with top := { s.top with items := r :: s.top.items }, mode := .normal }

/-- Apply a repetition operator to the last item; there must be one. -/
def PatternState.repeatLast (s : PatternState) (op : Regex → Regex) : Option PatternState :=
  match s.top.items with
  | [] => none
  | r :: rest => some { s with top := { s.top with items := op r :: rest }, mode := .repeated }

/-- ASCII letters and digits. -/
def isAlnum (c : Char) : Bool :=
  (decide ('0' ≤ c) && decide (c ≤ '9')) || (decide ('a' ≤ c) && decide (c ≤ 'z')) || (decide ('A' ≤ c) && decide (c ≤ 'Z'))

/-- Characters that a backslash makes literal. -/
def isEscapable (c : Char) : Bool := decide (c.toNat < 128) && !isAlnum c

/-- One character of the pattern, outside of brackets and not after a backslash. -/
def normalStep (s : PatternState) (c : Char) : Option PatternState :=
  if c = '(' then some { stack := s.top :: s.stack, top := newFrame, mode := .opened }
  else if c = ')' then
    match s.stack with
    | [] => none
    | f :: rest =>
      let r := if s.top.capturing then .group s.top.close else s.top.close
      some { stack := rest, top := { f with items := r :: f.items }, mode := .normal }
  else if c = '|' then
    some { s with top := { s.top with alternatives := catList s.top.items.reverse :: s.top.alternatives, items := [] }, mode := .normal }
  else if c = '*' then s.repeatLast .star
  else if c = '+' then s.repeatLast .plus
  else if c = '?' then s.repeatLast .opt
  else if c = '.' then some (s.push .any)
  else if c = '^' then some (s.push .bol)
  else if c = '$' then some (s.push .eol)
  else if c = '[' then some { s with mode := .clsStart }
  else if c = '\\' then some { s with mode := .escaped }
  else if c = '{' then none
  else some (s.push (.chr c))

/-- One character between two elements inside of brackets. -/
def classElement (s : PatternState) (negated : Bool) (ranges : List (Char × Char)) (c : Char) : Option PatternState :=
  if c = '\\' then some { s with mode := .clsEscape negated ranges }
  else if c = '[' then none
  else some { s with mode := .clsChar negated ranges c }

/-- One character of the pattern. `none` stands both for an error of `regexp.Compile` and for syntax that is not modelled: flags,
named groups, counted repetitions, classes named by a backslash or by "[:", and a bare "{" (which
Go takes literally when no repetition follows). -/
def patternStep (s : PatternState) (c : Char) : Option PatternState :=
  match s.mode with
  | .normal => normalStep s c
  | .opened => if c = '?' then some { s with mode := .flagged } else normalStep s c
  | .flagged => if c = ':' then some { s with top := { s.top with capturing := false }, mode := .normal } else none
  | .repeated =>
    if c = '?' then some { s with mode := .lazied }
    else if c = '*' ∨ c = '+' then none
    else normalStep s c
  | .lazied => if c = '?' ∨ c = '*' ∨ c = '+' then none else normalStep s c
  | .escaped => if isEscapable c then some (s.push (.chr c)) else none
  | .clsStart =>
    if c = '^' then some { s with mode := .clsFirst true }
    else if c = ']' then some { s with mode := .clsChar false [] ']' }
    else classElement s false [] c
  | .clsFirst negated => if c = ']' then some { s with mode := .clsChar negated [] ']' } else classElement s negated [] c
  | .clsNext negated ranges => if c = ']' then some (s.push (.cls negated ranges)) else classElement s negated ranges c
  | .clsChar negated ranges lo =>
    if c = ']' then some (s.push (.cls negated ((lo, lo) :: ranges)))
    else if c = '-' then some { s with mode := .clsDash negated ranges lo }
    else classElement s negated ((lo, lo) :: ranges) c
  | .clsDash negated ranges lo =>
    if c = ']' then some (s.push (.cls negated (('-', '-') :: (lo, lo) :: ranges)))
    else if c = '\\' then some { s with mode := .clsDashEscape negated ranges lo }
    else if c = '[' then none
    else if lo ≤ c then some { s with mode := .clsNext negated ((lo, c) :: ranges) } else none
  | .clsEscape negated ranges => if isEscapable c then some { s with mode := .clsChar negated ranges c } else none
  | .clsDashEscape negated ranges lo =>
    if isEscapable c then (if lo ≤ c then some { s with mode := .clsNext negated ((lo, c) :: ranges) } else none) else none

/-- Several characters. -/
def patternRun : PatternState → List Char → Option PatternState
  | s, [] => some s
  | s, c :: cs =>
    match patternStep s c with
    | none => none
    | some s' => patternRun s' cs

def PatternState.start : PatternState := { stack := [], top := newFrame, mode := .normal }

/-- A pattern may end here: not inside of brackets or parentheses, and not after a backslash. -/
def Mode.complete : Mode → Bool
  | .normal | .repeated | .lazied => true
  | _ => false

/-- `regexp.Compile`, for the modelled syntax. -/
def compilePattern (pattern : List Char) : Option Regex :=
  match patternRun .start pattern with
  | none => none
  | some s => if s.stack.isEmpty && s.mode.complete then some s.top.close else none

/-- The characters that `regexp.QuoteMeta` escapes. -/
def isMeta (c : Char) : Bool := c ∈ ['\\', '.', '+', '*', '?', '(', ')', '|', '[', ']', '{', '}', '^', '$']

/-- `regexp.QuoteMeta`. -/
def quoteMeta (s : List Char) : List Char := s.flatMap (fun c => if isMeta c then ['\\', c] else [c])

end Rodb
