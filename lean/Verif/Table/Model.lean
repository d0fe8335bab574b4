import Verif.Stats.Model

/-!
# Model of tables

Models `/repo/src/modules/cross-level/table-cl.c:37-221`. A file is a list of lines, a line the list of its
items (separated by blanks, commas, tabs). Simplifications: lines longer than 65535 characters (which
`fgets` would split) and names longer than 1023 characters (which end the program) do not occur; allocation
does not fail.
-/

namespace Verif.Table

open Verif.Str (Out)

variable {K : Type} [Field K]

/-- State of `read_table` while reading; `rows` are the rows of `table.data` up to `row`. -/
structure St (K : Type) where
  line : Nat
  row : Nat
  ncol : Nat
  names : List String
  rows : List (List K)

/-- table-cl.c:95-102, 121-127: the first item is skipped if there are row names; it must not be the only one. -/
def strip (rowNames : Bool) : List String → Out (List String)
  | [] => .ok []
  | x :: xs => if rowNames then (if xs.isEmpty then .exit else .ok xs) else .ok (x :: xs)

/-- table-cl.c:81-164: one line. `atof` is a parameter. A line of column names that is counted as a row
leaves zeros in that row (the array is allocated with zeros). -/
def readLine (atof : String → K) (rowNames colNames : Bool) (s : St K) (items : List String) : Out (St K) :=
  (strip rowNames items).bind fun items =>
  let header := decide (s.row = 0) && colNames && decide (s.ncol = 0)
  let ncol := if s.row = 0 then items.length else s.ncol
  let counts := !colNames || decide (s.line > 0)
  let row := if counts then s.row + 1 else s.row
  if row > 0 ∧ items.length ≠ ncol then .exit
  else .ok
    { line := s.line + 1, row := row, ncol := ncol,
      names := if header then items else s.names,
      rows := if counts then s.rows ++ [if header then items.map fun _ => 0 else items.map atof] else s.rows }

/-- table-cl.c:81-164: all lines. -/
def readLines (atof : String → K) (rowNames colNames : Bool) : St K → List (List String) → Out (St K)
  | s, [] => .ok s
  | s, l :: ls => (readLine atof rowNames colNames s l).bind fun s => readLines atof rowNames colNames s ls

/-- table-cl.c:37-181: reading up to the statistics. An empty table cannot be re-allocated (program ends). -/
def readTable (atof : String → K) (rowNames colNames : Bool) (file : List (List String)) : Out (St K) :=
  (readLines atof rowNames colNames ⟨0, 0, 0, [], []⟩ file).bind fun s =>
  if s.row = 0 ∨ s.ncol = 0 then .exit else .ok s

/-- Statistics of a column. -/
structure Col (K : Type) where
  mean : K
  sd2 : K
  min : K
  max : K
  sum : K

/-- table-cl.c:187-202: loop over the rows of a column; state: minimum, maximum, sum. -/
def mmsLoop [LinearOrder K] : List K → K × K × K → K × K × K
  | [], s => s
  | x :: xs, (mn, mx, sm) => mmsLoop xs (if x < mn then x else mn, if x > mx then x else mx, sm + x)

/-- table-cl.c:184-215: statistics of a column (`sd2`: square of the standard deviation). -/
def colStats [LinearOrder K] (col : List K) : Col K :=
  let v := Verif.Stats.varLoop col (0, 0, 0)
  let m := mmsLoop col (32767, -32768, 0)
  { mean := v.2.1, sd2 := Verif.Stats.variance v.2.2 (v.1 : K), min := m.1, max := m.2.1, sum := m.2.2 }

end Verif.Table
