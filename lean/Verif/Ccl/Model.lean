import Mathlib.Algebra.Group.Prod
import Mathlib.Algebra.Group.Int.Defs

/-!
# Model of the segmentation of binary images

`connectedcomponents_`, `ccl_tracer`, `ccl_contourtrace` and `binary_to_objects` of
`src/modules/cross-level/imagefuns-cl.c`.

Simplifications: the arrays are indexed by row and column (`p = i*nx+j` in the code, `y*nx+x` for positions
inside of the image); `dir` is an element of `Fin 8`, whose addition is modulo 8. The loop of
`ccl_contourtrace` has no bound in the code: here it has `fuel`, and `none` is returned if it has not ended
by then.
-/

namespace Verif.Ccl

/-- Row and column. -/
abbrev Px := Int × Int

/-- The image: number of rows and columns, and the values. -/
structure Image where
  ny : Nat
  nx : Nat
  px : Px → Bool

/-- `y>=0 && y<ny && x>=0 && x<nx`. -/
def Image.inside (m : Image) (p : Px) : Bool :=
  decide (0 ≤ p.1) && decide (p.1 < m.ny) && decide (0 ≤ p.2) && decide (p.2 < m.nx)

/-- imagefuns-cl.c:541-549: the value of a position, 0 outside of the image. -/
def Image.val (m : Image) (p : Px) : Bool := m.inside p && m.px p

/-- imagefuns-cl.c:533: `neighbor`. -/
def vec : Fin 8 → Px
  | 0 => (0, 1)
  | 1 => (1, 1)
  | 2 => (1, 0)
  | 3 => (1, -1)
  | 4 => (0, -1)
  | 5 => (-1, -1)
  | 6 => (-1, 0)
  | 7 => (-1, 1)

/-- Assignment to one element. -/
def set (a : Px → Int) (p : Px) (v : Int) : Px → Int := fun q => if q = p then v else a q

/-- imagefuns-cl.c:531-567 `ccl_tracer`; the first number is the number of remaining tries. -/
def tracer (m : Image) : Nat → Px → Fin 8 → (Px → Int) → Px × Fin 8 × (Px → Int)
  | 0, c, dir, ccl => (c, dir, ccl)
  | n + 1, c, dir, ccl =>
    let p := c + vec dir
    if m.val p then (p, dir, ccl)
    else tracer m n c (dir + 1) (if m.inside p then set ccl p (-1) else ccl)

/-- imagefuns-cl.c:587-607: the loop of `ccl_contourtrace`; `s` is the first, `f` the second point. -/
def follow (m : Image) (label : Int) (s f : Px) : Nat → Px → Fin 8 → Bool → (Px → Int) → Option (Px → Int)
  | 0, _, _, _, _ => none
  | fuel + 1, c, dir, stop, ccl =>
    let t := tracer m 7 c (dir + 6) (set ccl c label)
    if t.1 = s then follow m label s f fuel t.1 t.2.1 true t.2.2
    else if stop then
      if t.1 = f then some t.2.2
      else follow m label s f fuel t.1 t.2.1 false t.2.2
    else follow m label s f fuel t.1 t.2.1 false t.2.2

/-- imagefuns-cl.c:573-610 `ccl_contourtrace`. -/
def contour (m : Image) (fuel : Nat) (s : Px) (label : Int) (dir : Fin 8) (ccl : Px → Int) : Option (Px → Int) :=
  let t := tracer m 7 s dir ccl
  if t.1 ≠ s then follow m label s t.1 fuel t.1 t.2.1 false t.2.2 else some t.2.2

/-- The variables of `connectedcomponents_`. -/
structure Scan where
  k : Int
  label : Int
  ccl : Px → Int

/-- imagefuns-cl.c:483-513: one pixel. -/
def visit (m : Image) (fuel : Nat) (i j : Int) (st : Scan) : Option Scan :=
  let p : Px := (i, j)
  if m.px p then
    if st.label ≠ 0 then some { st with ccl := set st.ccl p st.label }
    else if st.ccl p = 0 then
      (contour m fuel p (st.k + 1) 0 st.ccl).map fun ccl => ⟨st.k + 1, st.k + 1, set ccl p (st.k + 1)⟩
    else some { st with label := st.ccl p }
  else if st.label ≠ 0 then
    if st.ccl p = 0 then
      (contour m fuel (i, j - 1) st.label 1 st.ccl).map fun ccl => ⟨st.k, 0, ccl⟩
    else some { st with label := 0 }
  else some st

/-- imagefuns-cl.c:480: one row. -/
def row (m : Image) (fuel : Nat) (st : Scan) (i : Nat) : Option Scan :=
  (List.range m.nx).foldlM (fun st (j : Nat) => visit m fuel i j st) { st with label := 0 }

/-- imagefuns-cl.c:475-525 `connectedcomponents_`: the number of segments and the labels. -/
def components (m : Image) (fuel : Nat) (ccl : Px → Int) : Option (Int × (Px → Int)) :=
  ((List.range m.ny).foldlM (row m fuel) ⟨0, 0, ccl⟩).map fun st =>
    (st.k, fun p => if m.inside p ∧ st.ccl p < 0 then 0 else st.ccl p)

/-- The pixels in the order of the loop `for (p=0; p<nc; p++)`. -/
def pixels (m : Image) : List Px :=
  (List.range m.ny).flatMap fun (i : Nat) => (List.range m.nx).map fun (j : Nat) => ((i : Int), (j : Int))

/-- imagefuns-cl.c:646-650 and 665-669: count the pixels of each object, `CCS[id-1]++`; `none` if the index is
out of the bounds of the array of `no` elements. -/
def sizes (m : Image) (no : Int) (ccl : Px → Int) : Option (Int → Int) :=
  (pixels m).foldlM (fun a p =>
    if m.px p then
      if 1 ≤ ccl p ∧ ccl p ≤ no then some (fun l => if l = ccl p then a l + 1 else a l) else none
    else some a) (fun _ => 0)

/-- The results of `binary_to_objects`; `size id` is `SIZE[id-1]`. -/
structure Objects where
  image : Image
  nobj : Int
  obj : Px → Int
  size : Int → Int

/-- imagefuns-cl.c:640: `image[0] = false`. -/
def clip (m : Image) : Image := { m with px := fun p => if p = (0, 0) then false else m.px p }

/-- imagefuns-cl.c:652-656: `if (CCS[id-1] < nmin) image[p] = 0`. -/
def sift (m : Image) (nmin : Int) (ccl : Px → Int) (ccs : Int → Int) : Image :=
  { m with px := fun p => if m.px p && decide (ccs (ccl p) < nmin) then false else m.px p }

/-- imagefuns-cl.c:624-684 `binary_to_objects`; `none` if a contour has not ended by `fuel`, or if an index is
out of bounds. Where no object is left, `OBJ` and `SIZE` are not defined (they are freed in the code); here
they are 0. Simplification: `nx*ny >= 1`, as `image[0]` is written. -/
def objects (m : Image) (nmin : Int) (fuel : Nat) : Option Objects :=
  (components (clip m) fuel (fun _ => 0)).bind fun r =>
    if r.1 > 0 then
      (sizes (clip m) r.1 r.2).bind fun ccs =>
        (components (sift (clip m) nmin r.2 ccs) fuel (fun _ => 0)).bind fun r2 =>
          if r2.1 > 0 then
            (sizes (sift (clip m) nmin r.2 ccs) r2.1 r2.2).bind fun ccs2 =>
              some ⟨sift (clip m) nmin r.2 ccs, r2.1,
                fun p => if (sift (clip m) nmin r.2 ccs).px p then r2.2 p else 0, ccs2⟩
          else some ⟨sift (clip m) nmin r.2 ccs, r2.1, fun _ => 0, fun _ => 0⟩
    else some ⟨clip m, r.1, fun _ => 0, fun _ => 0⟩

end Verif.Ccl
