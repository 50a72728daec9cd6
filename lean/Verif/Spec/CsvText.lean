import Verif.Model.CsvText
/-
  Specification vocabulary: CSV files as they are usually written (RFC 4180).
-/
namespace Rodb.Spec

/-- Every quote is doubled. -/
def doubleQuotes : Bytes → Bytes
  | [] => []
  | b :: rest => if b = 34 then 34 :: 34 :: doubleQuotes rest else b :: doubleQuotes rest

/-- How a cell is written: as it is if it has no delimiter, quote or line end, or between quotes with its quotes doubled. -/
inductive CellText (comma : UInt8) : Bytes → Bytes → Prop where
  | plain {cell : Bytes} : (∀ b ∈ cell, b ≠ comma ∧ b ≠ 34 ∧ b ≠ 10 ∧ b ≠ 13) → CellText comma cell cell
  | quoted {cell : Bytes} : CellText comma cell (34 :: doubleQuotes cell ++ [34])

/-- How a row is written: its cells with the delimiter between them. -/
inductive RowText (comma : UInt8) : List Bytes → Bytes → Prop where
  | one {cell text : Bytes} : CellText comma cell text → RowText comma [cell] text
  | cons {cell text rest : Bytes} {cells : List Bytes} : CellText comma cell text → RowText comma cells rest →
    RowText comma (cell :: cells) (text ++ comma :: rest)

/-- The end of a line. -/
def LineEnd (e : Bytes) : Prop := e = [10] ∨ e = [13, 10]

/-- How a table is written: a line for each row, and empty lines. The last line need not have an end. -/
inductive CsvText (comma : UInt8) : List (List Bytes) → Bytes → Prop where
  | done : CsvText comma [] []
  | blank {rows : List (List Bytes)} {e rest : Bytes} : LineEnd e → CsvText comma rows rest → CsvText comma rows (e ++ rest)
  | row {cells : List Bytes} {rows : List (List Bytes)} {text e rest : Bytes} : RowText comma cells text → text ≠ [] → LineEnd e →
    CsvText comma rows rest → CsvText comma (cells :: rows) (text ++ e ++ rest)
  | last {cells : List Bytes} {text : Bytes} : RowText comma cells text → text ≠ [] → CsvText comma [cells] text

/-- The line ends `\r\n` become `\n`. -/
def unixLines : Bytes → Bytes
  | [] => []
  | [b] => [b]
  | a :: b :: rest => if a = 13 ∧ b = 10 then 10 :: unixLines rest else a :: unixLines (b :: rest)

/-- A byte that can be a delimiter. -/
def GoodDelimiter (comma : UInt8) : Prop := comma ≠ 34 ∧ comma ≠ 10 ∧ comma ≠ 13 ∧ comma ≠ 0

/-- What is before a cell in its row: nothing, or other cells and a delimiter. -/
inductive CellsBefore (comma : UInt8) : Bytes → Prop where
  | none : CellsBefore comma []
  | some {cells : List Bytes} {text : Bytes} : RowText comma cells text → CellsBefore comma (text ++ [comma])

/-- A line with a misplaced quote: inside a cell that does not begin with a quote, or followed by other text inside a cell between quotes. -/
inductive Misquoted (comma : UInt8) : Bytes → Prop where
  | bare {text x y : Bytes} : CellsBefore comma text → (∀ b ∈ x, b ≠ comma ∧ b ≠ 34 ∧ b ≠ 10 ∧ b ≠ 13) → x ≠ [] → Misquoted comma (text ++ x ++ 34 :: y)
  | after {text cell : Bytes} {b : UInt8} {y : Bytes} : CellsBefore comma text → b ≠ 34 → b ≠ comma → Misquoted comma (text ++ (34 :: doubleQuotes cell) ++ 34 :: b :: y)

end Rodb.Spec
