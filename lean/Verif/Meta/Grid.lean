import Mathlib.Data.Rat.Floor
import Mathlib.Data.List.Infix
import Verif.Libc.Model
import Verif.Str.Model

/-!
# Model of the Sentinel-2 metadata reader (meta-ll.c): angle grids, image subset, offsets

Angles are exact rational numbers instead of `float`s. A read outside of a grid is `none`.
-/

namespace Verif.Meta.Grid

open Verif.Libc Verif.Str

/-- meta-ll.c:1370-1391: the value of a cell of `interpolate_sunview_grid`; `g` is the grid of
the angles at the corners, row by row. The row length used is `ny` (meta-ll.c:1375). -/
def interpCell (g : List ℚ) (ny : Nat) (nodata : ℚ) (i j : Nat) : Option ℚ :=
  (([(0, 0), (0, 1), (1, 0), (1, 1)] : List (Nat × Nat)).mapM fun c => g[(i + c.1) * ny + (j + c.2)]?).map
    fun vals =>
      let known := vals.filter fun a => a > 0
      if known = [] then nodata else known.sum / known.length

/-- meta-ll.c:1353-1398 `interpolate_sunview_grid`: the cells, row by row. -/
def interpGrid (g : List ℚ) (nx ny : Nat) (nodata : ℚ) : Option (List ℚ) :=
  ((List.range (ny - 1)).flatMap fun i => (List.range (nx - 1)).map fun j => (i, j)).mapM
    fun c => interpCell g ny nodata c.1 c.2

/-- meta-ll.c:1418-1440: the value of a cell of `collapse_view_grid`; `vals` are the values of
all bands and detectors. -/
def collapseCell (vals : List ℚ) (nodata : ℚ) : ℚ :=
  let known := vals.filter fun a => a ≠ nodata
  if known = [] then nodata else known.sum / known.length

/-- meta-ll.c:673 `svgrid`: size of a cell of the grid in metres. -/
def svgrid : Nat := 5000

/-- meta-ll.c:1101-1102: `while (fmod(k*svgrid, 60) != 0 && k > 0) k--`. -/
def alignDown : Nat → Nat
  | 0 => 0
  | k + 1 => if (k + 1) * svgrid % 60 ≠ 0 then alignDown k else k + 1

/-- meta-ll.c:1105: `while (fmod(k*svgrid, 60) != 0 && k < limit) k++`; at most `limit`
rounds. -/
def alignUp (limit : Nat) : Nat → Nat → Nat
  | 0, k => k
  | n + 1, k => if k * svgrid % 60 ≠ 0 ∧ k < limit then alignUp limit n (k + 1) else k

/-- The active part of the grid. -/
structure Box where
  left : Nat
  right : Nat
  top : Nat
  bottom : Nat
deriving DecidableEq, Repr

/-- meta-ll.c:1077-1093: the bounding box of the cells with angles; `nx`, `ny` count cells. -/
def bounds (valid : Nat → Nat → Bool) (nx ny : Nat) : Box :=
  ((List.range ny).flatMap fun i => (List.range nx).map fun j => (i, j)).foldl
    (fun b c => if valid c.1 c.2 then
        { left := if c.2 < b.left then c.2 else b.left
          right := if c.2 > b.right then c.2 else b.right
          top := if c.1 < b.top then c.1 else b.top
          bottom := if c.1 > b.bottom then c.1 else b.bottom }
      else b)
    { left := nx - 1, right := 0, top := ny - 1, bottom := 0 }

/-- meta-ll.c:1096-1110: the active part; without reprojection and tiling (`whole`) it is the
whole image. -/
def subset (valid : Nat → Nat → Bool) (nx ny : Nat) (whole : Bool) : Box :=
  let b := bounds valid nx ny
  let right := b.right + 1
  let bottom := b.bottom + 1
  let left := if b.left > 0 then b.left - 1 else b.left
  let left := alignDown left
  let top := alignDown b.top
  let right := alignUp (nx - 1) (nx - 1) right
  let bottom := alignUp (nx - 1) (nx - 1) bottom
  if whole then { left := 0, right := nx, top := 0, bottom := ny } else ⟨left, right, top, bottom⟩

/-- meta-ll.c:1113-1149: the active part in pixels of `res` metres; `none` if there is none
(the program ends). -/
def pixels (b : Box) (res ncols nrows : Nat) : Option Box :=
  if b.right ≤ b.left ∨ b.bottom ≤ b.top then none
  else some
    { left := b.left * svgrid / res
      top := b.top * svgrid / res
      right := if b.right * svgrid / res > ncols then ncols else b.right * svgrid / res
      bottom := if b.bottom * svgrid / res > nrows then nrows else b.bottom * svgrid / res }

/-! ## Radiometric offsets -/

/-- meta-ll.c:652 `separator`. -/
def sep (c : Char) : Bool := c = ' ' ∨ c = '=' ∨ c = '"' ∨ c = '<' ∨ c = '>'

/-- meta-ll.c:904-913: the words of the element up to its end. `toInt` and `toFloat` are
char_to_int and char_to_float (string-cl.c:209-242), which leave the variable as it is if the
word is not a number. The test of the band number, `b >= 0 || b < nb`, is always true. -/
def offsetLoop (toInt : List Char → Option ℤ) (toFloat : List Char → Option ℚ) :
    Nat → ℤ → List ℚ → List Char → Out (List ℚ)
  | 0, _, radd, _ => .ok radd
  | n + 1, b, radd, rest =>
    match strtok sep rest with
    | none => .ub
    | some (tok, r) =>
      if tok = "/RADIO_ADD_OFFSET".toList then .ok radd
      else if b < 0 then offsetLoop toInt toFloat n ((toInt tok).getD b) radd r
      else if b.toNat < radd.length then
        offsetLoop toInt toFloat n b (match toFloat tok with
          | some v => radd.set b.toNat v
          | none => radd) r
      else
        match toFloat tok with
        | some _ => .ub
        | none => offsetLoop toInt toFloat n b radd r

/-- meta-ll.c:727-926: a line of the top-level metadata whose first word is the offset. -/
def offsetLine (toInt : List Char → Option ℤ) (toFloat : List Char → Option ℚ) (radd : List ℚ)
    (buffer : List Char) : Out (List ℚ) :=
  match strtok sep buffer with
  | none => .ok radd
  | some (tag, rest) =>
    if tag = "RADIO_ADD_OFFSET".toList then offsetLoop toInt toFloat (buffer.length + 1) (-1) radd rest
    else .ok radd

end Verif.Meta.Grid
