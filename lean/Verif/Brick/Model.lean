import Mathlib.Data.Rat.Floor
import Mathlib.Data.Int.Cast.Lemmas
import Verif.Qai.Model

/-!
# Model of image bricks

`src/modules/cross-level/brick_base-cl.c` and `src/modules/cross-level/brick_io-cl.cpp`.
-/

namespace Verif.Brick

/-! ## Cropping -/

/-- enum-cl.h, data types of a brick with pixel values. -/
inductive DataType where
  | short | small | float | int | ushort
deriving DecidableEq, Repr

/-- A sequence of assignments `out[d] = src[s]` for the pairs `(d, s)` in order; `none` is an
access outside of one of the arrays. -/
def copyPairs {V : Type} (src : List V) : List (Nat × Nat) → List V → Option (List V)
  | [], out => some out
  | (d, s) :: rest, out =>
    match src[s]? with
    | none => none
    | some v => if d < out.length then copyPairs src rest (out.set d v) else none

/-- brick_base-cl.c:466-467 and the like: rows `i`, columns `j` in loop order. -/
def cells (ny_ nx_ : Nat) : List (Nat × Nat) :=
  (List.range ny_).flatMap fun i => (List.range nx_).map fun j => (i, j)

/-- brick_base-cl.c:468-469 (SHORT) and 476-477, 484-485, 492-493, 500-501 (all others):
(index in the cropped brick, index in the source) of cell `(i, j)`. -/
def cropIndex (dt : DataType) (nx nx_ pix : Nat) (ij : Nat × Nat) : Nat × Nat :=
  match dt with
  | .short =>
    let p_ := ij.1 * nx_ + ij.2
    let p := (ij.1 + pix) * nx + (ij.2 + pix)
    (p_, p)
  | _ =>
    let p := ij.1 * nx_ + ij.2
    let p_ := (ij.1 + pix) * nx + (ij.2 + pix)
    (p_, p)

/-- brick_base-cl.c:388-520 `crop_brick`, one band. `pix = (int)(radius/resolution)` is given;
`nx - 2*pix` and `ny - 2*pix` are assumed not to be negative. The new band is allocated with
zeros. `none` is undefined behaviour. -/
def cropBand {V : Type} (zero : V) (dt : DataType) (nx ny pix : Nat) (band : List V) : Option (List V) :=
  let nx_ := nx - 2 * pix
  let ny_ := ny - 2 * pix
  copyPairs band ((cells ny_ nx_).map (cropIndex dt nx nx_ pix)) (List.replicate (nx_ * ny_) zero)

/-! ## Conversion of pixel positions -/

/-- `nx`, `ny` and `geotran[_GT_RES_]` (a `double`) of a brick. -/
structure Grid where
  nx : ℤ
  ny : ℤ
  res : ℚ
deriving DecidableEq, Repr

/-- `floor(i*from->geotran[_GT_RES_]/to->geotran[_GT_RES_])`: the product and the quotient are
rounded to a `double` by `rd`. -/
def scale (rd : ℚ → ℚ) (src dst : Grid) (i : ℤ) : ℤ := ⌊rd (rd ((i : ℚ) * src.res) / dst.res)⌋

/-- brick_base-cl.c:770-776 `convert_brick_ji2ji` (row, column). -/
def ji2ji (rd : ℚ → ℚ) (src dst : Grid) (i j : ℤ) : ℤ × ℤ :=
  (scale rd src dst i, scale rd src dst j)

/-- brick_base-cl.c:790-797 `convert_brick_ji2jip`. -/
def ji2jip (rd : ℚ → ℚ) (src dst : Grid) (i j : ℤ) : ℤ × ℤ × ℤ :=
  let i_to := scale rd src dst i
  let j_to := scale rd src dst j
  (i_to, j_to, i_to * dst.nx + j_to)

/-- brick_base-cl.c:749-757 `convert_brick_ji2p`. -/
def ji2p (rd : ℚ → ℚ) (src dst : Grid) (i j : ℤ) : ℤ :=
  let i_to := scale rd src dst i
  let j_to := scale rd src dst j
  i_to * dst.nx + j_to

/-- brick_base-cl.c:701-712 `convert_brick_p2ji`; `floor` is applied to an integer quotient. -/
def p2ji (rd : ℚ → ℚ) (src dst : Grid) (p : ℤ) : ℤ × ℤ :=
  let i_from := Int.tdiv p src.nx
  let i_to := scale rd src dst i_from
  let j_from := p - i_from * src.nx
  let j_to := scale rd src dst j_from
  (i_to, j_to)

/-- brick_base-cl.c:725-738 `convert_brick_p2jip`. -/
def p2jip (rd : ℚ → ℚ) (src dst : Grid) (p : ℤ) : ℤ × ℤ × ℤ :=
  let i_from := Int.tdiv p src.nx
  let i_to := scale rd src dst i_from
  let j_from := p - i_from * src.nx
  let j_to := scale rd src dst j_from
  (i_to, j_to, i_to * dst.nx + j_to)

/-- brick_base-cl.c:678-689 `convert_brick_p2p`. -/
def p2p (rd : ℚ → ℚ) (src dst : Grid) (p : ℤ) : ℤ :=
  let i_from := Int.tdiv p src.nx
  let i_to := scale rd src dst i_from
  let j_from := p - i_from * src.nx
  let j_to := scale rd src dst j_from
  i_to * dst.nx + j_to

/-! ## Chunk-wise output -/

/-- Content of one band of the output file: row, column → value. -/
abbrev Image (V : Type) := Nat → Nat → V

/-- One call of `write_brick` in chunk mode: chunk coordinates and pixel values. -/
structure ChunkWrite (V : Type) where
  x : Nat
  y : Nat
  pixels : Nat → V

/-- `GDALRasterIO(GF_Write)` of a block of `cx * cy` pixels at (`x*cx`, `y*cy`),
brick_io-cl.cpp:346-352 and 358-402. -/
def writeBlock {V : Type} (cx cy : Nat) (w : ChunkWrite V) (img : Image V) : Image V := fun r c =>
  let xoff := w.x * cx
  let yoff := w.y * cy
  if (yoff ≤ r ∧ r < yoff + cy) ∧ (xoff ≤ c ∧ c < xoff + cx) then
    w.pixels ((r - yoff) * cx + (c - xoff))
  else img r c

/-- brick_io-cl.cpp:328-402 in mode OPEN_CHUNK: the file (`none`: does not exist) is opened for
update if it exists and this is not chunk (0,0); otherwise it is created (filled with `zero`).
`none` as result: invalid chunk, FAILURE. -/
def writeChunk {V : Type} (zero : V) (cols rows cx cy : Nat) (file : Option (Image V))
    (w : ChunkWrite V) : Option (Option (Image V)) :=
  let fp : Image V := match file with
    | some img => if w.x > 0 ∨ w.y > 0 then img else fun _ _ => zero
    | none => fun _ _ => zero
  if w.x ≥ cols ∨ w.y ≥ rows then none
  else some (some (writeBlock cx cy w fp))

/-- A sequence of calls; stops at the first failure. -/
def writeChunks {V : Type} (zero : V) (cols rows cx cy : Nat) :
    Option (Image V) → List (ChunkWrite V) → Option (Option (Image V))
  | file, [] => some file
  | file, w :: ws =>
    match writeChunk zero cols rows cx cy file w with
    | none => none
    | some file => writeChunks zero cols rows cx cy file ws

/-! ## Mosaicking -/

/-- The modes in which an existing file is read back, brick_io-cl.cpp:261 and 307-308. -/
inductive Mode where
  | update | merge | qaiMerge
deriving DecidableEq, Repr

/-- brick_io-cl.cpp:300-315, one pixel of a band of 16-bit type. The values fit into the
`float` variables exactly; `(now+old)/2.0` is cut towards zero by `set_brick`
(brick_base-cl.c:2433). -/
def mosaicPixel (mode : Mode) (nodata now old : ℤ) : ℤ :=
  if now ≠ nodata ∧ old ≠ nodata then
    match mode with
    | .merge => Int.tdiv (now + old) 2
    | .qaiMerge => (Qai.mergeCall (BitVec.ofInt 16 now) (BitVec.ofInt 16 old)).toInt
    | .update => now
  else if now = nodata ∧ old ≠ nodata then old
  else now

/-- A pixel of the file after a sequence of writes (`none`: no file yet). -/
def mosaicHistory (mode : Mode) (nodata : ℤ) : Option ℤ → List ℤ → Option ℤ
  | file, [] => file
  | none, now :: rest => mosaicHistory mode nodata (some now) rest
  | some old, now :: rest => mosaicHistory mode nodata (some (mosaicPixel mode nodata now old)) rest

/-! ## Locks -/

/-- The steps of `write_brick` that matter for locking. -/
inductive Op where
  /-- `CPLLockFile`, failure is followed by `return FAILURE` -/
  | lock (name : String)
  /-- `CPLUnlockFile(lock)`: releases the lock taken last -/
  | unlock
  /-- an operation whose failure is followed by `return FAILURE` -/
  | may
deriving DecidableEq, Repr

/-- Execution: `ok i` tells whether step `i` succeeds. Result: SUCCESS?, locks still held. -/
def run (ok : Nat → Bool) : Nat → List Op → List String → Bool × List String
  | _, [], held => (true, held)
  | i, .lock name :: ops, held => if ok i then run ok (i + 1) ops (name :: held) else (false, held)
  | i, .unlock :: ops, held => run ok (i + 1) ops held.tail
  | i, .may :: ops, held => if ok i then run ok (i + 1) ops held else (false, held)

/-- brick_io-cl.cpp:239-506, one output file: two file name checks (243, 249), the lock (254),
`k ≥ 1` operations that can fail (270-448: reading an existing file, creating or opening, chunk
check, writing, copying, metadata), unlock (468), provenance (471-505). -/
def fileOps (name prov : String) (k : Nat) (provenance : Bool) : List Op :=
  [.may, .may, .lock name] ++ List.replicate k .may ++ [.unlock] ++
    (if provenance then [.lock prov, .may, .unlock] else [])

/-- brick_io-cl.cpp:46-520 `write_brick`: `pre` checks before any lock (158-219), the directory
lock (224-229; the result of `createdir` is not checked), the provenance name (235), the files. -/
def writeBrickOps (pre : Nat) (dir prov : String) (files : List (String × Nat)) (provenance : Bool) :
    List Op :=
  List.replicate pre .may ++ [.lock dir, .unlock, .may] ++
    files.flatMap fun f => fileOps f.1 prov f.2 provenance

end Verif.Brick
