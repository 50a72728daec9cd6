import Verif.Spec.Running
import Verif.Spec.CsvText
import Verif.Spec.Path
import Verif.Model.Inputs
/-
  Specification vocabulary: what a CSV file of the machine means for a declared input.
-/
namespace Rodb.Spec

/-- The columns of a CSV input: those that are declared, whose values are texts by default; or, to be detected, texts with the names in the first row. -/
def FileColumns (d : CsvDecl) (table : List (List Bytes)) (columns : List ColumnDecl) : Prop :=
  if d.autodetectColumns = true
  then ∃ (names : List String) (rest : List (List Bytes)), table = names.map (fun name => utf8 name.toList) :: rest ∧ columns = names.map (fun name => { name := name, parser := "string" })
  else columns = d.columns.map (fun c => { c with parser := orText c.parser "string" })

/-- The file of the input `d` is a well written CSV file with these columns and these rows: all of its rows, or without the first one if it is to be ignored, which must
have a cell for every column. The default delimiter is a comma. -/
def CsvFile (files : Files) (d : CsvDecl) (columns : List ColumnDecl) (rows : List (List Bytes)) : Prop :=
  ∃ content comma written table, files.content d.path = some content ∧ utf8 (orText d.delimiter ",").toList = [comma] ∧ GoodDelimiter comma ∧
    CsvText comma written content ∧ table = written.map (fun cells => cells.map unixLines) ∧ FileColumns d table columns ∧
    (if d.ignoreFirstRow = true then ∃ header, table = header :: rows ∧ header.length = columns.length else rows = table)

/-- The object of a row: for each column its value, which is null if there is no cell, or else what the parser of the column reads in the cell. Further cells are ignored. -/
def RowReads (functions : GoMap (Bytes → Res Value)) : List ColumnDecl → List Bytes → GoMap Value → Prop
  | [], _, object => object = []
  | c :: columns, [], object => ∃ rest, RowReads functions columns [] rest ∧ object = (c.name, .null) :: rest
  | c :: columns, cell :: cells, object => ∃ parse value rest, mapGet functions c.parser = some parse ∧ parse cell = .ok value ∧
      RowReads functions columns cells rest ∧ object = (c.name, value) :: rest

/-- The objects of all the rows. -/
def RowsRead (functions : GoMap (Bytes → Res Value)) (columns : List ColumnDecl) : List (List Bytes) → List (GoMap Value) → Prop
  | [], objects => objects = []
  | cells :: rows, objects => ∃ object rest, RowReads functions columns cells object ∧ RowsRead functions columns rows rest ∧ objects = object :: rest

/-- The value at a dotted path of the object; it is null where the path leads to a missing key or beyond the end of an array. -/
def ValueAt (object : GoMap Value) (path : String) (v : Value) : Prop :=
  AtPath (.obj object) (splitPath path) v ∨ (v = .null ∧ Missing (.obj object) (splitPath path))

open Classical in
/-- The object has that value at that path. -/
noncomputable def hasValueAt (object : GoMap Value) (path : String) (v : Value) : Bool := decide (∃ x, ValueAt object path x ∧ sameValue x v = true)

/-- A path to a column, or inside of its values. -/
def InColumn (columns : List ColumnDecl) (path : String) : Prop := ∃ column rest, splitPath path = column :: rest ∧ column ∈ columns.map (·.name)

/-- The file of the CSV input `d` is well written and its parsers read `objects` in it; what is asked or indexed are paths that can be followed in all of them. Map indexes are
on values that are not arrays or objects. -/
structure CsvContent (files : Files) (p : ParsedConfig) (functions : GoMap (Bytes → Res Value)) (d : CsvDecl) (asked : List String) (objects : List (GoMap Value)) : Prop where
  file : ∃ columns rows, CsvFile files d columns rows ∧ RowsRead functions columns rows objects ∧
    (∀ q ∈ asked, InColumn columns q ∧ ∀ o ∈ objects, ∃ v, ValueAt o q v) ∧
    ∀ m, .map m ∈ p.indexes → m.input = d.name → ∀ q ∈ m.properties, InColumn columns q ∧ ∀ o ∈ objects, ∃ v, ValueAt o q v ∧ Scalar v
  finite : ∀ o ∈ objects, ¬ HasNonFinite (.obj o)

/-- The same, and the indexes of the input are full scans or map indexes. -/
structure CsvData (files : Files) (p : ParsedConfig) (functions : GoMap (Bytes → Res Value)) (d : CsvDecl) (asked : List String) (objects : List (GoMap Value)) : Prop
    extends CsvContent files p functions d asked objects where
  equality : ∀ i ∈ p.indexes, inputOfIndex i = some d.name → FindsEqual i

end Rodb.Spec
