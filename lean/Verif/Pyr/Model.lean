import Mathlib.Analysis.Real.Sqrt
import Mathlib.Algebra.Order.Floor.Ring
import Verif.Qai.Model
import Verif.Str.Model
import Verif.Index.Model
import Verif.Coreg.Model

/-!
Model of the preparation of the matching in the co-registration: the image pyramids, the step of the
grid of dense matching, and the range within which the matching windows may be enlarged
(src/modules/lower-level/coreg-ll.c). One layer of a pyramid is `Verif.Coreg.pyramidLayer`.
-/

namespace Verif.Pyr

open Verif.Str (Out)
open Verif.Index (truncQ)
open Verif.Qai (Flag)

/-- coreg-ll.c:134 and 335: the pixel is not used. -/
def unused (q : BitVec 16) : Bool :=
  Verif.Qai.get .off q ≠ 0 || Verif.Qai.get .shd q ≠ 0 || decide (Verif.Qai.get .cld q > 0)

/-- coreg-ll.c:326-338: the finest layer. The pixels are independent of each other, so that the order in
which threads visit them does not matter. -/
def bottom (image : List Int) (qai : List (BitVec 16)) (nodata : Int) : List Int :=
  List.zipWith (fun v q => if unused q then nodata else v) image qai

/-- One layer of a pyramid (coreg-ll.c:314-316): columns, rows and pixels. -/
structure Layer where
  nx : Nat
  ny : Nat
  px : List Int
deriving DecidableEq, Repr

/-- coreg-ll.c:347-352: the coarser layers, each one from the layer before. `f s` and `w s` are weights and
width of the Gaussian filter for the scale `s` (coreg-ll.c:405-406). The new sizes (coreg-ll.c:398-399) are
divided in `float`: exact for images of less than 2^24 rows and columns. -/
def coarser (nodata : Int) (f : Nat → Nat → ℚ) (w : Nat → Nat) : List Nat → Layer → Out (List Layer)
  | [], _ => .ok []
  | s :: scales, l =>
    (Verif.Coreg.pyramidLayer l.px l.nx l.ny nodata (f s) (w s) s).bind fun px =>
      (coarser nodata f w scales ⟨l.nx / s, l.ny / s, px⟩).bind fun ls => .ok (⟨l.nx / s, l.ny / s, px⟩ :: ls)

/-- coreg-ll.c:312-376, `build_pyramids`, with the number of layers and the scales at coreg-ll.c:154-159. -/
def buildPyramids (image : List Int) (qai : List (BitVec 16)) (nx ny : Nat) (nodata : Int)
    (f : Nat → Nat → ℚ) (w : Nat → Nat) : Out (List Layer) :=
  (coarser nodata f w [2, 2, 2] ⟨nx, ny, bottom image qai nodata⟩).bind fun ls =>
    .ok (⟨nx, ny, bottom image qai nodata⟩ :: ls)

/-- coreg-ll.c:126-139: number of clear pixels that are bright enough in both images. -/
def landPixels (target base : List Int) (qai : List (BitVec 16)) (thr : Int) : Nat :=
  (List.range qai.length).countP (fun p =>
    !unused (qai.getD p 0) && decide (target.getD p 0 > thr) && decide (base.getD p 0 > thr))

/-- coreg-ll.c:141-147: step of the grid of dense matching. `float` and `double` are exact here. -/
def denseStep (nx ny nland : Nat) : Int :=
  let s := truncQ ((min nx ny : Nat) / (366 / 10) + 1 / 2)
  let s := if s ≠ 0 then s else 1
  let s := truncQ ((nland : ℚ) / ((nx * ny : Nat) : ℚ) * s)
  if s < 3 then 3 else s

/-- coreg-ll.c:271-278, `cumulative_scale`. -/
def cumulativeScale (toplayer : Nat) (scales : List Nat) : Nat := (scales.take toplayer).foldl (· * ·) 1

/-- coreg-ll.c:890 and 1526: range for the enlargement of the window at a scale. `sqrt` is exact here. -/
noncomputable def enlarge (maxH : Nat) (scale : Nat) : Int := ⌊(maxH : ℝ) * Real.sqrt scale + 1 / 2⌋

/-- coreg-ll.c:871-886: the scale between `layer` and the top layer in depth-first matching; the loop goes
down from the layer below the top. -/
def depthScale (scales : List Nat) (toplayer layer : Nat) : Nat :=
  ((List.range (toplayer - layer)).map (fun n => scales.getD (toplayer - 1 - n + 1) 0)).foldl (· * ·) 1

/-- coreg-ll.c:890, with `max_h_` of the caller (coreg-ll.c:186). -/
noncomputable def depthRange (maxH : Nat) (scales : List Nat) (toplayer layer : Nat) : Int :=
  enlarge maxH (depthScale scales toplayer layer)

/-- coreg-ll.c:1522-1526, with `max_h_` of the caller (coreg-ll.c:233). -/
noncomputable def denseRange (maxH : Nat) (scales : List Nat) (toplayer layer : Nat) : Int :=
  enlarge maxH (cumulativeScale toplayer scales / cumulativeScale layer scales)

end Verif.Pyr
