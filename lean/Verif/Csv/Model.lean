import Verif.Libc.Model
import Verif.Param.Model
import Verif.Table.Model
import Verif.Tools.Model

/-!
# Model of writing tables

Models `write_table` of `/repo/src/modules/cross-level/table-cl.c`, the way the text of a table is cut into
lines and items by `read_table`, and the file that `force-hist` writes. Numbers are rational.
-/

namespace Verif.Csv

open Verif.Str (Out)

/-- table_t, as far as `write_table` uses it; `none`: no names. -/
structure Tab where
  colNames : Option (List (List Char))
  rowNames : Option (List (List Char))
  rows : List (List ℚ)
  mask : List Bool

/-- `fprintf("%.2f", v)` of libc. -/
def fmt2 (v : ℚ) : List Char :=
  let n := (Libc.roundEven (|v| * 100)).toNat
  (if v < 0 then ['-'] else []) ++ (Libc.decDigits (n / 100) ++ '.' :: Libc.padDigits 2 n)

/-- table-cl.c:426-427 and 436-437, in `write_table`: the items of a line, and the end of the line. There is
at least one column. -/
def items (sep : List Char) : List (List Char) → List Char
  | [] => ['\n']
  | [c] => c ++ ['\n']
  | c :: cs => c ++ sep ++ items sep cs

/-- table-cl.c:422-429, in `write_table`: the line of column names. -/
def header (sep : List Char) (t : Tab) : List Char :=
  match t.colNames with
  | none => []
  | some names => (if t.rowNames.isSome then "rowname".toList ++ sep else []) ++ items sep names

/-- table-cl.c:431-439, in `write_table`: a row. -/
def row (sep : List Char) (skip : Bool) (t : Tab) (r : Nat) : List Char :=
  if skip && !t.mask.getD r false then []
  else
    (match t.rowNames with
      | none => []
      | some names => names.getD r [] ++ sep) ++ items sep ((t.rows.getD r []).map fmt2)

/-- table-cl.c:411-444 `write_table`: the content of the file. -/
def writeTable (sep : List Char) (skip : Bool) (t : Tab) : List Char :=
  header sep t ++ (List.range t.rows.length).flatMap (row sep skip t)

/-- table-cl.c:42: blank, comma, tab. -/
def isSep (c : Char) : Bool := c = ' ' || c = ',' || c = '\t'

/-- table-cl.c:81-90, 105 and 128, in `read_table`: the lines of the file, and their items. -/
def cut (text : List Char) : List (List String) :=
  (Libc.fgetsAll 65536 text).map fun l =>
    (Param.tokens isSep (Libc.cutAt (fun c => c = '\r' || c = '\n') l)).map String.ofList

/-- table-cl.c:37-181: `read_table` applied to the content of a file; `rd` is the rounding of a decimal number
to a double. -/
def readText (rd : ℚ → ℚ) (rowNames colNames : Bool) (text : List Char) : Out (Table.St ℚ) :=
  Table.readTable (fun s => Libc.atof rd s.toList) rowNames colNames (cut text)

/-- force-hist.c:180-183 and 207-209: the table of `force-hist`, with the counts `c`. -/
def histTab (c : Nat → Nat) : Tab where
  colNames := some ["class".toList, "count".toList]
  rowNames := none
  rows := (List.range Tools.length).map fun (k : Nat) => [((k : Int) - Tools.offset : Int), (c k : ℚ)]
  mask := (List.range Tools.length).map fun (k : Nat) => !decide (c k = 0)

/-- force-hist.c:173-211: the file that `force-hist` writes. -/
def histFile (nodata : Option ℚ) (pixels : List Int) : Out (List Char) :=
  match nodata with
  | none => .exit
  | some nd =>
    (Index.short nd).bind fun nd =>
    (Tools.count nd pixels fun _ => 0).bind fun c => .ok (writeTable [','] true (histTab c))

end Verif.Csv
