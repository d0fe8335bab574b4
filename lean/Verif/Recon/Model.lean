import Verif.Queue.Model

/-!
# Model of the greyscale reconstruction (flood fill)

Models `/repo/src/modules/cross-level/imagefuns-cl.c:728-848` on top of the coordinate queue.

Pixel `p = i*nx+j` is the pair `(i, j)`; the offsets `np1`, `np2` are pairs as well. An access outside of
the image is undefined, also if the flat index would fall into a neighbouring row (stricter than C).
-/

namespace Verif.Recon

open Verif.Queue (Q)

/-- Pixel: row, column. -/
abbrev Px := Int × Int
/-- Image; the content outside of the image is never used. -/
abbrev Img := Px → Int

/-- Result of the C function: `SUCCESS`, `FAILURE`, or undefined behaviour. -/
inductive Ret (α : Type) where
  | ok (a : α) | failure | ub

def Ret.bind {α β : Type} (x : Ret α) (f : α → Ret β) : Ret β :=
  match x with
  | .ok a => f a
  | .failure => .failure
  | .ub => .ub

/-- `p + o`. -/
def nb (p o : Px) : Px := (p.1 + o.1, p.2 + o.2)

/-- Is the pixel in the image? -/
def inside (nx ny : Nat) (p : Px) : Bool := decide (0 ≤ p.1 ∧ p.1 < ny ∧ 0 ≤ p.2 ∧ p.2 < nx)

/-- `A[p]`. -/
def load (nx ny : Nat) (A : Img) (p : Px) : Ret Int := if inside nx ny p then .ok (A p) else .ub

/-- `A[p] = v`. -/
def set (A : Img) (p : Px) (v : Int) : Img := fun q => if q = p then v else A q

/-- All pixels in raster order. -/
def pixels (nx ny : Nat) : List Px :=
  (List.range ny).flatMap fun a : Nat => (List.range nx).map fun b : Nat => ((a : Int), (b : Int))

/-- imagefuns-cl.c:763-764: the pixels in raster order, without the border. -/
def interior (nx ny : Nat) : List Px :=
  (List.range (ny - 2)).flatMap fun a : Nat =>
    (List.range (nx - 2)).map fun b : Nat => ((a : Int) + 1, (b : Int) + 1)

/-- imagefuns-cl.c:733. -/
def np1 : List Px := [(-1, -1), (-1, 0), (-1, 1), (0, -1)]
/-- imagefuns-cl.c:734. -/
def np2 : List Px := [(1, 1), (1, 0), (1, -1), (0, 1)]
/-- imagefuns-cl.c:819-821. -/
def np8 : List Px := [(-1, -1), (-1, 0), (-1, 1), (0, -1), (0, 1), (1, -1), (1, 0), (1, 1)]

/-- imagefuns-cl.c:744-747: maximum of the mask, from `SHRT_MIN`. -/
def maxMask (nx ny : Nat) (mask : Img) : Int :=
  (pixels nx ny).foldl (fun m p => if mask p > m then mask p else m) (-32768)

/-- imagefuns-cl.c:750-760: the initial marker image. -/
def init (nx ny : Nat) (mask marker : Img) : Img := fun p =>
  if inside nx ny p then
    if p.1 = 0 ∨ p.2 = 0 ∨ p.1 = (ny : Int) - 1 ∨ p.2 = (nx : Int) - 1 then mask p
    else maxMask nx ny mask
  else marker p

/-- imagefuns-cl.c:770-773, 788-791: minimum with the neighbours. -/
def minLoop (nx ny : Nat) (M : Img) (p : Px) : List Px → Int → Ret Int
  | [], m => .ok m
  | o :: os, m => (load nx ny M (nb p o)).bind fun v => minLoop nx ny M p os (if v < m then v else m)

/-- imagefuns-cl.c:767-775, 785-793: new marker of one pixel. -/
def lower (nx ny : Nat) (mask M : Img) (offs : List Px) (p : Px) : Ret Img :=
  (load nx ny M p).bind fun m0 =>
  (minLoop nx ny M p offs m0).bind fun m =>
  (load nx ny mask p).bind fun k => .ok (set M p (if m > k then m else k))

/-- imagefuns-cl.c:763-778: scan in raster order. -/
def raster (nx ny : Nat) (mask : Img) : List Px → Img → Ret Img
  | [], M => .ok M
  | p :: ps, M => (lower nx ny mask M np1 p).bind fun M => raster nx ny mask ps M

/-- `enqueue(&fifo, j, i)` for the pixel `(i, j)`. -/
def enq (q : Q) (p : Px) : Ret Q :=
  match Queue.enqueue q p.2 p.1 with
  | (.success _ _, q) => .ok q
  | (.failure, _) => .failure
  | (.ub, _) => .ub

/-- imagefuns-cl.c:795-806: put the pixel in the queue for each following pixel it may lower. -/
def enqLoop (nx ny : Nat) (mask M : Img) (p : Px) : List Px → Q → Ret Q
  | [], q => .ok q
  | o :: os, q =>
    (load nx ny M (nb p o)).bind fun v =>
    (load nx ny M p).bind fun u =>
    (load nx ny mask (nb p o)).bind fun k =>
    if v > u ∧ v > k then (enq q p).bind fun q => enqLoop nx ny mask M p os q
    else enqLoop nx ny mask M p os q

/-- imagefuns-cl.c:781-809: scan in anti-raster order. -/
def anti (nx ny : Nat) (mask : Img) : List Px → Img × Q → Ret (Img × Q)
  | [], s => .ok s
  | p :: ps, (M, q) =>
    (lower nx ny mask M np2 p).bind fun M =>
    (enqLoop nx ny mask M p np2 q).bind fun q => anti nx ny mask ps (M, q)

/-- imagefuns-cl.c:819-839: the neighbours of a pixel taken from the queue. -/
def visit (nx ny : Nat) (mask : Img) (p : Px) : List Px → Img × Q → Ret (Img × Q)
  | [], s => .ok s
  | o :: os, (M, q) =>
    (load nx ny M (nb p o)).bind fun v =>
    (load nx ny M p).bind fun u =>
    (load nx ny mask (nb p o)).bind fun k =>
    if v > u ∧ k ≠ v then
      (enq q (nb p o)).bind fun q => visit nx ny mask p os (set M (nb p o) (if u > k then u else k), q)
    else visit nx ny mask p os (M, q)

/-- imagefuns-cl.c:814-841: propagation; `none` if the fuel did not suffice. -/
def propagate (nx ny : Nat) (mask : Img) : Nat → Img × Q → Option (Ret Img)
  | 0, _ => none
  | fuel + 1, (M, q) =>
    match Queue.dequeue q with
    | (.failure, _) => some (.ok M)
    | (.ub, _) => some .ub
    | (.success j i, q) =>
      match visit nx ny mask (i, j) np8 (M, q) with
      | .ok s => propagate nx ny mask fuel s
      | .failure => some .failure
      | .ub => some .ub

/-- imagefuns-cl.c:728-848 `greyscale_reconstruction_`; result: the marker image. -/
def reconstruct (nx ny : Nat) (mask marker : Img) (fuel : Nat) : Option (Ret Img) :=
  match (raster nx ny mask (interior nx ny) (init nx ny mask marker)).bind fun M =>
      anti nx ny mask (interior nx ny).reverse (M, Queue.create (nx * ny / 2)) with
  | .ok s => propagate nx ny mask fuel s
  | .failure => some .failure
  | .ub => some .ub

end Verif.Recon
