import Verif.Ccl.Props

/-! # Segmentation: concrete cases -/

namespace Verif.Ccl

open Spec

/-- An image from text. -/
def ofRows (rows : List (List Bool)) : Image :=
  ⟨rows.length, (rows.headD []).length, fun p => ((rows.getD p.1.toNat []).getD p.2.toNat false)⟩

/-- A ring with a pixel in its hole, a segment that meets only at the bottom, and a diagonal. -/
def picture : Image := ofRows
  [[true,  true,  true,  true,  true,  false, true,  false, true],
   [true,  false, false, false, true,  false, true,  false, true],
   [true,  false, true,  false, true,  false, true,  true,  true],
   [true,  false, false, false, true,  false, false, false, false],
   [true,  true,  true,  true,  true,  false, true,  false, false],
   [false, false, false, false, false, false, false, true,  false]]

/-- `c85_segments`: the ring is 1, the U is 2 in both of its arms, the pixel in the hole is 3, the diagonal is 4. -/
example : (components picture 100 (fun _ => 0)).map (fun r => (r.1, (pixels picture).map r.2)) =
    some (4, [1, 1, 1, 1, 1, 0, 2, 0, 2,
              1, 0, 0, 0, 1, 0, 2, 0, 2,
              1, 0, 3, 0, 1, 0, 2, 2, 2,
              1, 0, 0, 0, 1, 0, 0, 0, 0,
              1, 1, 1, 1, 1, 0, 4, 0, 0,
              0, 0, 0, 0, 0, 0, 0, 4, 0]) := by decide +kernel

/-- `c86_objects_partial`: with a minimum of two pixels, the pixel in the hole is removed and the diagonal becomes
object 3; the ring has one pixel less than in the image. -/
example : (objects picture 2 100).map (fun o => (o.nobj, (pixels picture).map o.obj, [o.size 1, o.size 2, o.size 3])) =
    some (3, [0, 1, 1, 1, 1, 0, 2, 0, 2,
              1, 0, 0, 0, 1, 0, 2, 0, 2,
              1, 0, 0, 0, 1, 0, 2, 2, 2,
              1, 0, 0, 0, 1, 0, 0, 0, 0,
              1, 1, 1, 1, 1, 0, 3, 0, 0,
              0, 0, 0, 0, 0, 0, 0, 3, 0], [15, 7, 2]) := by decide +kernel

/-- `c86_corner_violated`: three pixels in the corner are lost, the same three pixels elsewhere are an object. -/
example : (ofRows [[true, true, false], [true, false, false]]).SetAt (0, 0) ∧
    ((objects (ofRows [[true, true, false], [true, false, false]]) 3 100).map fun o => o.nobj) = some 0 ∧
    ((objects (ofRows [[false, true, true], [false, true, false]]) 3 100).map fun o => o.nobj) = some 1 := by
  refine ⟨⟨by decide, by decide⟩, by decide +kernel, by decide +kernel⟩

end Verif.Ccl
