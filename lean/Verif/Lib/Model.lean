import Verif.Index.Model
import Verif.Table.Model

/-!
# Model of the library completeness testing

`library_completeness` of `src/modules/higher-level/lib-hl.c` (179-287) for one pixel, and the rescaling of
the libraries (`read_libraries`, read-aux-hl.cpp:157-194).

Simplifications: exact arithmetic instead of `double`; `sq` is `sqrt`. A number that is not finite (division by a
standard deviation that is zero or, with one row, not a number) is `none`: sums with it are not finite, and
comparisons with it are false or do not change a minimum. All libraries have `nf` columns (this is checked: read-aux-hl.cpp:171,
lib-hl.c:196).
-/

namespace Verif.Lib

open Verif.Str (Out)
open Verif.Index (short)

/-- A library: rows of values of `nf` features. -/
abbrev Library := List (Nat → ℚ)

/-- The pixel: values and validity of the features. -/
structure Pixel where
  dat : Nat → Int
  msk : Nat → Bool

/-- table-cl.c:190-217 for column `f`; `none`: division by it is not finite. -/
def sd (sq : ℚ → ℚ) (lib : Library) (f : Nat) : Option ℚ :=
  if lib.length = 1 then none
  else
    let s := sq (Verif.Table.colStats (lib.map fun r => r f)).sd2
    if s = 0 then none else some s

/-- read-aux-hl.cpp:174-184 and lib-hl.c:243-247. -/
def scaled (rescale : Bool) (sq : ℚ → ℚ) (lib : Library) (f : Nat) (x : ℚ) : Option ℚ :=
  if rescale then (sd sq lib f).map fun s => (x - (Verif.Table.colStats (lib.map fun r => r f)).mean) / s
  else some x

/-- lib-hl.c:256-259: one feature; `mae` and `k`. -/
def addDiff (a b : Option ℚ) (s : Option ℚ × Nat) : Option ℚ × Nat :=
  (match s.1, a, b with
    | some m, some a, some b => some (m + |a - b|)
    | _, _, _ => none, s.2 + 1)

/-- lib-hl.c:252-265: `mae` of a row; `none`: the minimum remains. -/
def rowDist (rescale : Bool) (sq : ℚ → ℚ) (nf : Nat) (lib : Library) (px : Pixel) (row : Nat → ℚ) : Option ℚ :=
  let s := (List.range nf).foldl (fun s (f : Nat) =>
    if !px.msk f then s
    else addDiff (scaled rescale sq lib f (row f)) (scaled rescale sq lib f (px.dat f)) s) (some 0, 0)
  if s.2 = 0 then none else s.1.map fun m => m / s.2

/-- lib-hl.c:265. -/
def less (m : ℚ) : Option ℚ → ℚ
  | none => m
  | some d => if d < m then d else m

/-- lib-hl.c:240 and 250-267: `min_mae`. -/
def libMin (rescale : Bool) (sq : ℚ → ℚ) (nf : Nat) (lib : Library) (px : Pixel) : ℚ :=
  lib.foldl (fun m row => less m (rowDist rescale sq nf lib px row)) 32767

/-- lib-hl.c:270-271 and 275-276. -/
def write (rescale : Bool) (nodata : Int) (m : ℚ) : Out Int :=
  let m := if m < 32767 ∧ rescale then m * 1000 else m
  if m < 32767 then short m else .ok nodata

/-- lib-hl.c:223-278: one pixel. -/
def pixel (rescale exclude : Bool) (sq : ℚ → ℚ) (nf : Nat) (libs : List Library) (nodata : Int) (mask : Option Bool)
    (px : Pixel) : List (Out Int) :=
  if mask = some false ∨ (∃ f < nf, px.msk f = false) ∧ exclude then List.replicate (libs.length + 1) (.ok nodata)
  else
    let mins := libs.map fun l => libMin rescale sq nf l px
    mins.map (write rescale nodata) ++ [write rescale nodata (mins.foldl (fun a m => if m < a then m else a) 32767)]

end Verif.Lib
