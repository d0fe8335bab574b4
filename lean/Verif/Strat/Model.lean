import Mathlib.Data.Rat.Defs
import Mathlib.Data.List.Basic
import Verif.Str.Model

/-!
# Model of the stratified sampling

`src/main/aux-level/force-stratified-sample.c`. Probabilities are exact rational numbers, the random numbers are part
of the input.
-/

namespace Verif.Strat

open Verif.Str (Out)

/-- A row of the table of sample sizes: class, requested number, number of pixels (column `count`).
Simplification: class and size are integers. -/
structure Stratum where
  cls : Int
  size : Nat
  count : Nat
deriving DecidableEq, Repr

/-- A pixel that is not nodata: class, random number drawn for it, column and row. -/
structure Pix where
  cls : Int
  rnd : ℚ
  col : Nat
  row : Nat
deriving DecidableEq, Repr

/-- force-stratified-sample.c:237-241: entry of the dictionary for a class: the last row of the table with this
class; all entries are initialised with 0. -/
def entry (tab : List Stratum) (c : Int) : Option Stratum := tab.reverse.find? fun s => s.cls = c

/-- force-stratified-sample.c:239. -/
def sizeOf (tab : List Stratum) (c : Int) : Nat := ((entry tab c).map (·.size)).getD 0

/-- force-stratified-sample.c:240: `size / count * 2`. `none`: infinite (`count` is 0 and `size` is not; 0/0 is not
a number, which fails all comparisons). -/
def accept (tab : List Stratum) (c : Int) (rnd : ℚ) : Bool :=
  match entry tab c with
  | none => decide (rnd ≤ 0)
  | some s =>
    if s.count = 0 then decide (s.size ≠ 0)
    else decide (rnd ≤ (s.size : ℚ) / s.count * 2)

/-- force-stratified-sample.c:254: capacity of the sample table. -/
def capacity (tab : List Stratum) : Nat := (tab.map (·.size)).sum * 10

/-- force-stratified-sample.c:285-314: pre-selection. State: samples stored (in the order in which they were stored),
pixels counted (`_DICT_COUNT_`, all classes in one list). -/
def preStep (tab : List Stratum) (st : List Pix × List Pix) (p : Pix) : List Pix × List Pix :=
  if accept tab p.cls p.rnd then
    (if st.1.length < capacity tab then st.1 ++ [p] else st.1, st.2 ++ [p])
  else st

/-- force-stratified-sample.c:285-314. -/
def preselect (tab : List Stratum) (image : List Pix) : List Pix × List Pix := image.foldl (preStep tab) ([], [])

/-- force-stratified-sample.c:341-351: one row of the search for the largest random number; state: `max`,
`row_max`. -/
def maxStep (c : Int) (st : ℚ × Nat) (r : (Pix × Bool) × Nat) : ℚ × Nat :=
  if r.1.1.cls ≠ c then st
  else if !r.1.2 then st
  else if r.1.1.rnd > st.1 then (r.1.1.rnd, r.2) else st

/-- force-stratified-sample.c:338-351: the row that is removed. -/
def rowMax (c : Int) (rows : List Pix) (mask : List Bool) : Nat :=
  ((rows.zip mask).zipIdx.foldl (maxStep c) (-1, 0)).2

/-- force-stratified-sample.c:336-360: `n` samples of class `c` are removed. `mask` has as many elements as the table
has rows. -/
def thin (c : Int) (rows : List Pix) : Nat → List Bool → Out (List Bool)
  | 0, mask => .ok mask
  | n + 1, mask =>
    if rowMax c rows mask < mask.length then thin c rows n (mask.set (rowMax c rows mask) false) else .ub

/-- force-stratified-sample.c:330-362: all rows of the table of sample sizes. -/
def thinAll (tab : List Stratum) (rows counted : List Pix) : List Stratum → List Bool → Out (List Bool)
  | [], mask => .ok mask
  | s :: l, mask =>
    (thin s.cls rows ((counted.filter fun p => p.cls = s.cls).length - sizeOf tab s.cls) mask).bind
      (thinAll tab rows counted l)

/-- force-stratified-sample.c:255, 306: the mask after the pre-selection. -/
def mask0 (tab : List Stratum) (rows : List Pix) : List Bool :=
  rows.map (fun _ => true) ++ List.replicate (capacity tab - rows.length) false

/-- force-stratified-sample.c:411-436: the samples that are written. -/
def output (rows : List Pix) (mask : List Bool) : List Pix :=
  (rows.zip mask).filterMap fun r => if r.2 then some r.1 else none

/-- force-stratified-sample.c:214-436. -/
def sample (tab : List Stratum) (image : List Pix) : Out (List Pix) :=
  (thinAll tab (preselect tab image).1 (preselect tab image).2 tab (mask0 tab (preselect tab image).1)).bind
    fun mask => .ok (output (preselect tab image).1 mask)

/-- force-stratified-sample.c:303-304: coordinates of a sample; `ul`: corner of the image, `res`: signed pixel
size. -/
def coord (ul res : ℚ) (n : Nat) : ℚ := ul + n * res + res * (1 / 2)

end Verif.Strat
