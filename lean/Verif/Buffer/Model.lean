import Verif.Str.Model

/-!
# Model of buffering and majority filling

Models `/repo/src/modules/cross-level/imagefuns-cl.c:153-278`. Images are stored row by row in an array
of `nx * ny` elements.
-/

namespace Verif.Buffer

open Verif.Str (Out)

/-- Result of an `int` operation: overflow is undefined. -/
def int (x : Int) : Out Int := if -2147483648 ≤ x ∧ x ≤ 2147483647 then .ok x else .ub

/-- The two inner loops imagefuns-cl.c:186, for one `(x, y)` and the TRUE pixel in row `i`, column `j`:
elements of `tmp` in the order of the writes. -/
def draw (nx i j x y : Int) : List Int :=
  ((List.range (2 * y + 1).toNat).flatMap fun n : Nat => [nx * (i - y + n) + j + x, nx * (i - y + n) + j - x]) ++
  ((List.range (2 * x + 1).toNat).flatMap fun n : Nat => [nx * (i - x + n) + j + y, nx * (i - x + n) + j - y])

/-- imagefuns-cl.c:184-198, the `while` loop; `none` when the loop has not ended after `fuel` rounds. -/
def circle (nx i j : Int) : Nat → Int → Int → Int → Option (Out (List Int))
  | 0, x, y, _ => if x ≤ y then none else some (.ok [])
  | fuel + 1, x, y, d =>
    if x ≤ y then
      match int (if d < 0 then d + 4 * x + 6 else d + 4 * (x - y) + 10) with
      | .ok d' =>
        (circle nx i j fuel (x + 1) (if d < 0 then y else y - 1) d').map fun o =>
          o.bind fun ws => .ok (draw nx i j x y ++ ws)
      | _ => some .ub
    else some (.ok [])

/-- Rows or columns `r, …, n-r-1` -/
def inner (n r : Int) : List Int := (List.range (n - 2 * r).toNat).map fun k : Nat => r + k

/-- imagefuns-cl.c:170-200: the pixels that are considered. -/
def sources (img : Int → Bool) (nx ny r : Int) : List (Int × Int) :=
  (inner ny r).flatMap fun i => (inner nx r).filterMap fun j => if img (nx * i + j) then some (i, j) else none

/-- All writes to `tmp`, of one source pixel after the other. -/
def writesFor (nx r : Int) : List (Int × Int) → Option (Out (List Int))
  | [] => some (.ok [])
  | s :: ss =>
    match circle nx s.1 s.2 (r + 1).toNat 0 r (3 - r), writesFor nx r ss with
    | some a, some b => some (a.bind fun ws => b.bind fun ws' => .ok (ws ++ ws'))
    | _, _ => none

/-- The writes of all threads, in the order of a single thread. -/
def writes (img : Int → Bool) (nx ny r : Int) : Option (Out (List Int)) := writesFor nx r (sources img nx ny r)

/-- `tmp` (allocated with zeros, imagefuns-cl.c:161) after the given writes; undefined when a write is
outside of the array. -/
def store (nc : Int) : List Int → (Int → Bool) → Out (Int → Bool)
  | [], tmp => .ok tmp
  | p :: ps, tmp => if 0 ≤ p ∧ p < nc then store nc ps (fun k => if k = p then true else tmp k) else .ub

/-- imagefuns-cl.c:153-209 `buffer_`, with the writes of the threads happening in the order `order`. -/
def buffer (img : Int → Bool) (nx ny r : Int) (order : List Int) : Out (Int → Bool) :=
  if r ≤ 0 then .ok img else store (nx * ny) order fun _ => false

/-! ## Majority filling -/

/-- imagefuns-cl.c:258-271: number of TRUE neighbours at the time of the reads. -/
def count (nx ny : Int) (img : Int → Bool) (i j : Int) : Nat :=
  ([-1, 0, 1].flatMap fun ii => [-1, 0, 1].map fun jj =>
    if ii = 0 ∧ jj = 0 then 0
    else if i + ii < 0 ∨ i + ii ≥ ny ∨ j + jj < 0 ∨ j + jj ≥ nx then 0
    else if img ((i + ii) * nx + (j + jj)) then 1 else 0).sum

/-- imagefuns-cl.c:251-272: one iteration of the loops. -/
def fillPixel (nx ny : Int) (img : Int → Bool) (p : Int × Int) : Int → Bool :=
  if img (p.1 * nx + p.2) then img
  else if 5 ≤ count nx ny img p.1 p.2 then fun k => if k = p.1 * nx + p.2 then true else img k
  else img

/-- imagefuns-cl.c:247-248: the pixels in the order of a single thread. -/
def pixels (nx ny : Nat) : List (Int × Int) :=
  (List.range ny).flatMap fun i : Nat => (List.range nx).map fun j : Nat => ((i : Int), (j : Int))

/-- imagefuns-cl.c:240-278 `majorfill_`, with the iterations in the given order. Simplification: the
iterations of different threads are interleaved as a whole. -/
def majorfill (nx ny : Int) (order : List (Int × Int)) (img : Int → Bool) : Int → Bool :=
  order.foldl (fillPixel nx ny) img

end Verif.Buffer
