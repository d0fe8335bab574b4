import Verif.Buffer.Model
import Verif.Stats.Model
import Verif.Index.Model
import Mathlib.Analysis.SpecialFunctions.Log.Basic
import Mathlib.Algebra.Order.Floor.Ring
import Mathlib.Analysis.SpecialFunctions.Trigonometric.Basic

/-!
# Model of the masks and of the calibration of Level 1 data

`src/modules/lower-level/read-ll.c`: `bounds_level1`, `impulse_noise_level1` and `convert_level1`. Simplifications: reading
(`read_level1`) is left out, digital numbers are given; standard deviations, reflectance and temperature of Landsat are exact (real numbers); the
reflectance of Sentinel-2 is modelled with the roundings of `float`, since they decide the result.
-/

namespace Verif.L1

open Verif.Str (Out)

/-! ## Void and saturated pixels -/

/-- What one pixel contributes, read-ll.c:191-204: `off_[p]`, the saturation flag, and the increment of `tvalid`. -/
structure Scan where
  off : Bool
  sat : Bool
  tvalid : Nat
deriving DecidableEq, Repr

/-- read-ll.c:193-204: the loop over the bands; `dn` are the digital numbers of the pixel. `temp` and `cirrus` are the numbers of these bands
(-1: there is none). -/
def scan (dn : Nat → Nat) (temp cirrus : Int) (sat : Nat) : List Nat → Scan
  | [] => ⟨false, false, 0⟩
  | b :: bs =>
    if (b : Int) ≠ cirrus ∧ dn b = 0 then ⟨true, false, 0⟩
    else if (b : Int) ≠ temp ∧ dn b ≥ sat then ⟨false, true, 0⟩
    else
      let r := scan dn temp cirrus sat bs
      { r with tvalid := r.tvalid + if (b : Int) = temp then 1 else 0 }

/-- The digital numbers: band, pixel. -/
abbrev Dn := Nat → Nat → Nat

def pixel (dn : Dn) (temp cirrus : Int) (sat nb p : Nat) : Scan := scan (fun b => dn b p) temp cirrus sat (List.range nb)

/-- read-ll.c:210: width of the buffer in pixels. -/
def offWidth : Nat := 1

/-- read-ll.c:210: the writes of `buffer_` for the pixels that are off. -/
def offWrites (dn : Dn) (temp cirrus : Int) (sat nb nx ny : Nat) : Option (Out (List Int)) :=
  Buffer.writes (fun p : Int => (pixel dn temp cirrus sat nb p.toNat).off) nx ny offWidth

/-- read-ll.c:191-211: the pixels that are set `off`; `buf`: `bufnodata`, `order`: order of the writes in `buffer_` (see `Buffer.buffer`). -/
def offMap (dn : Dn) (temp cirrus : Int) (sat nb nx ny : Nat) (buf : Bool) (order : List Int) : Out (Int → Bool) :=
  let off := fun p : Int => (pixel dn temp cirrus sat nb p.toNat).off
  if buf then Buffer.buffer off nx ny offWidth order else .ok off

/-- read-ll.c:214-215: is the image rejected? -/
def rejected (dn : Dn) (temp cirrus : Int) (sat nb nc : Nat) : Bool :=
  decide (temp ≥ 0) && decide (((List.range nc).map fun p => (pixel dn temp cirrus sat nb p).tvalid).sum = 0)

/-! ## Impulse noise -/

noncomputable section

/-- read-ll.c:308-312: `maxsd-max2sd`. -/
def excess (s0 s1 s2 : ℝ) : ℝ :=
  let m : ℝ × ℝ := (s0, s0)
  let m := if s1 > m.1 then (s1, m.1) else m
  let m := if s2 > m.1 then (s2, m.1) else m
  m.1 - m.2

/-- The values of a band at the pixels of the 3 x 3 window that are not `off`, in the order of the loops (read-ll.c:285-292). -/
def around (off : Int × Int → Bool) (dn : Int × Int → ℝ) (q : Int × Int) : List ℝ :=
  (((List.range 3).flatMap fun (a : Nat) => (List.range 3).map fun (b : Nat) => (q.1 + a - 1, q.2 + b - 1)).filter fun r => !off r).map dn

/-- read-ll.c:282-306: the standard deviation of a band. (With one pixel only, it is the square root of 0/0 in the program, which is not a number, and all
comparisons are false; zero here, with the same result.) -/
def sd (off : Int × Int → Bool) (dn : Int × Int → ℝ) (q : Int × Int) : ℝ :=
  let l := around off dn q
  let s := Stats.varLoop l (0, 0, 0)
  Stats.standdev s.2.2 s.1

/-- read-ll.c:278-314: one pixel; `dn k` are blue, green and red. -/
def noisePixel (dn : Nat → Int × Int → ℝ) (off : Int × Int → Bool) (q : Int × Int) : Int × Int → Bool :=
  if off q then off
  else if excess (sd off (dn 0) q) (sd off (dn 1) q) (sd off (dn 2) q) > 15 then fun r => if r = q then true else off r
  else off

/-- The pixels that have eight neighbours, read-ll.c:275-276. -/
def interior (ny nx : Nat) : List (Int × Int) :=
  (List.range (ny - 2)).flatMap fun (i : Nat) => (List.range (nx - 2)).map fun (j : Nat) => ((i : Int) + 1, (j : Int) + 1)

/-- read-ll.c:245-322 `impulse_noise_level1`; `bits`: `meta->dtype`, `on`: `pl2->impulse`. -/
def noise (bits : Nat) (on : Bool) (dn : Nat → Int × Int → ℝ) (ny nx : Nat) (off : Int × Int → Bool) : Int × Int → Bool :=
  if bits ≠ 8 ∨ on = false then off else (interior ny nx).foldl (noisePixel dn) off

/-! ## Landsat -/

/-- Conversion of a number to an integer. -/
def truncR (x : ℝ) : Int := if 0 ≤ x then ⌊x⌋ else ⌈x⌉

/-- Conversion of a `float` to `short`. -/
def shortR (x : ℝ) : Out Int := if -32768 ≤ truncR x ∧ truncR x ≤ 32767 then .ok (truncR x) else .ub

/-- `cal_t`, meta-ll.h:45-54; `rfl`: `rmul` and `radd` if they are known (not `fill`); `E0` from `atc`. -/
structure Cal where
  lmax : ℝ
  lmin : ℝ
  qmax : ℝ
  qmin : ℝ
  rfl : Option (ℝ × ℝ)
  k1 : ℝ
  k2 : ℝ
  E0 : ℝ

/-- read-ll.c:420-421, 432: radiance. -/
def Cal.radiance (k : Cal) (dn : ℝ) : ℝ := (k.lmax - k.lmin) / (k.qmax - k.qmin) * (dn - k.qmin) + k.lmin

/-- read-ll.c:437: brightness temperature in kelvin. -/
def Cal.kelvin (k : Cal) (dn : ℝ) : ℝ := k.k2 / Real.log (k.k1 / k.radiance dn + 1)

/-- read-ll.c:437-442: band of the temperature. -/
def temperature (k : Cal) (dn : ℝ) : Out Int :=
  let tmp := k.kelvin dn * 100
  if tmp < 32767 then shortR tmp else .ok 32767

/-- read-ll.c:449-455: `tmp`, for the cosine `c` of the zenith angle of the sun. `d`: distance of the sun. -/
def Cal.reflectance (k : Cal) (d c dn : ℝ) : ℝ :=
  match k.rfl with
  | none => k.radiance dn * (Real.pi * d * d) / (k.E0 * c)
  | some (mul, add) => (add + mul * dn) / c

/-- `FLT_MIN`. -/
def fltMin : ℝ := 1 / 2 ^ 126

/-- What a band is. -/
inductive Kind where
  | temp
  | cirrus
  | other
deriving DecidableEq

/-- One band of one pixel, read-ll.c:429-466: value and flag `off`. Divisions by zero are excluded by the theorems (zenith angle of 90 degrees). -/
def band (k : Cal) (kind : Kind) (d c dn : ℝ) (off : Bool) : Out Int × Bool :=
  if off then (.ok (-9999), off)
  else match kind with
    | .temp => (temperature k dn, off)
    | .cirrus => if k.reflectance d c dn < fltMin then (.ok 0, off) else (shortR (k.reflectance d c dn * 10000), off)
    | .other => if k.reflectance d c dn < fltMin then (.ok (-9999), true) else (shortR (k.reflectance d c dn * 10000), off)

/-- read-ll.c:414-474: all bands of one pixel, one after the other; the flag is the one of `QAI`. -/
def landsat (d c : ℝ) : List (Cal × Kind × ℝ) → Bool → List (Out Int) × Bool
  | [], off => ([], off)
  | (k, kind, dn) :: bs, off =>
    let r := band k kind d c dn off
    let s := landsat d c bs r.2
    (r.1 :: s.1, s.2)

end

/-! ## Sentinel-2 -/

/-- read-ll.c:395-404: one band of one pixel; the scale of the result is 10000. `flt` rounds to `float`. The flag `off` is not looked at. -/
def sentinel (flt : ℚ → ℚ) (scale : ℚ) (radd : ℚ) (dn : Nat) : Out Int :=
  Index.short (flt (flt (flt (dn + radd) / scale) * 10000))

end Verif.L1
