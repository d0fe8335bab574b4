import Mathlib.Logic.Function.Iterate
import Mathlib.Data.Int.Init

/-!
# Texture

Model of texture-hl.c. OpenCV is not part of the repository: `morphologyEx` is modelled by its
documentation. Erosion and dilation are the smallest and largest value under the structuring element,
where positions outside of the image do not count (the default border value is the largest and the
smallest number of the data type); opening, closing, gradient, top hat and black hat are combined
from them; sums saturate to 16 bit. The structuring element `MORPH_ELLIPSE` is a list of offsets; its
shape is a parameter.
-/

namespace Verif.Texture

/-- The pixels that are read: rows `i0` to `i1`, columns `j0` to `j1` (exclusive). -/
structure Rect where
  i0 : ℤ
  i1 : ℤ
  j0 : ℤ
  j1 : ℤ

/-- A position in the image. -/
def inside (g : Rect) (i j : ℤ) : Bool := decide (g.i0 ≤ i ∧ i < g.i1 ∧ g.j0 ≤ j ∧ j < g.j1)

/-- The values under the structuring element. -/
def under (g : Rect) (el : List (ℤ × ℤ)) (f : ℤ → ℤ → ℤ) (i j : ℤ) : List ℤ :=
  (el.filter fun o => inside g (i + o.1) (j + o.2)).map fun o => f (i + o.1) (j + o.2)

/-- `MORPH_ERODE` (texture-hl.c:236). -/
def erode (g : Rect) (el : List (ℤ × ℤ)) (f : ℤ → ℤ → ℤ) : ℤ → ℤ → ℤ := fun i j => (under g el f i j).foldl min 32767

/-- `MORPH_DILATE` (texture-hl.c:237). -/
def dilate (g : Rect) (el : List (ℤ × ℤ)) (f : ℤ → ℤ → ℤ) : ℤ → ℤ → ℤ := fun i j => (under g el f i j).foldl max (-32768)

/-- `saturate_cast<short>`. -/
def sat (x : ℤ) : ℤ := max (-32768) (min 32767 x)

/-- The products (texture-hl.c:58). -/
inductive Product where
  | ero | dil | opn | cls | grd | tht | bht
  deriving DecidableEq

/-- texture-hl.c:236-242: `morphologyEx` with `iter` iterations. -/
def morph (g : Rect) (el : List (ℤ × ℤ)) (iter : Nat) (f : ℤ → ℤ → ℤ) : Product → ℤ → ℤ → ℤ
  | .ero => (erode g el)^[iter] f
  | .dil => (dilate g el)^[iter] f
  | .opn => (dilate g el)^[iter] ((erode g el)^[iter] f)
  | .cls => (erode g el)^[iter] ((dilate g el)^[iter] f)
  | .grd => fun i j => sat (((dilate g el)^[iter] f) i j - ((erode g el)^[iter] f) i j)
  | .tht => fun i j => sat (f i j - ((dilate g el)^[iter] ((erode g el)^[iter] f)) i j)
  | .bht => fun i j => sat (((erode g el)^[iter] ((dilate g el)^[iter] f)) i j - f i j)

/-- A feature: values, usability of the pixels (`msk`). -/
structure Feature where
  dat : ℤ → ℤ → ℤ
  msk : ℤ → ℤ → Bool

/-- quality-hl.c:127-133 `screen_qai`: outside of the processing mask no pixel is usable. -/
def screen (mask : ℤ → ℤ → Bool) (f : Feature) : Feature := { f with msk := fun i j => mask i j && f.msk i j }

/-- texture-hl.c:244-270: the value of a product at a pixel. The processing mask is imported
(texture-hl.c:198-204), but not used. -/
def texture (g : Rect) (el : List (ℤ × ℤ)) (iter : Nat) (exclude : Bool) (nodata : ℤ) (mask : ℤ → ℤ → Bool)
    (f : Feature) (q : Product) (i j : ℤ) : ℤ :=
  if !(screen mask f).msk i j && exclude then nodata else morph g el iter f.dat q i j

/-- param-hl.c:1097-1098: halo that is read around a block of a tile, in pixels, for a radius of
`r` pixels. -/
def halo (r iter : Nat) : Nat := r * iter

/-- The image that is read for a block: the block with the halo, within the data. -/
def readRect (whole block : Rect) (h : ℤ) : Rect :=
  ⟨max whole.i0 (block.i0 - h), min whole.i1 (block.i1 + h), max whole.j0 (block.j0 - h), min whole.j1 (block.j1 + h)⟩

end Verif.Texture
