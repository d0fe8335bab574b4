import Mathlib.Data.Rat.Floor
import Verif.Str.Model

/-!
# Model of src/modules/higher-level/interpolate-hl.c (one pixel)

A time series is the list of its observations: date (continuous days `ce`) and value. Pixels are
independent of each other (each thread writes its own column), so one pixel is modelled. Dates are
non-negative and below 2^24, hence exact as `float`. The rounding of `float` arithmetic is the
parameter `rd` (any rounding to nearest), that of `double` arithmetic `rd2`.
-/

namespace Verif.Interp

open Verif.Str (Out)

/-- Date and value. -/
abbrev Obs := Int × Int

/-- C conversion of a floating-point number to an integer: truncation towards zero. -/
def trunc (q : ℚ) : Int := if 0 ≤ q then ⌊q⌋ else ⌈q⌉

/-! ## interpolate_none -/

/-- interpolate-hl.c:57-74 `interpolate_none`: `tsi` becomes a copy of `tss` (`nt` steps, one pixel). -/
def interpolateNone : List Int → List Int
  | [] => []
  | v :: vs => v :: interpolateNone vs

/-! ## interpolate_linear -/

/-- The neighbours found so far and the carried-over search start. -/
structure Nb where
  xl : Int
  xr : Int
  yl : Int
  yr : Int
  tl : Nat

/-- interpolate-hl.c:113-133: search of the previous and next point, at index `t`. -/
def scanLin (nodata x : Int) : List Obs → Nat → Nb → Nb
  | [], _, s => s
  | (c, v) :: ts, t, s =>
    if v = nodata then scanLin nodata x ts (t + 1) s
    else if c < x then scanLin nodata x ts (t + 1) { s with xl := c, yl := v, tl := t }
    else if c = x then { s with xl := x, xr := x, yl := v, yr := v, tl := t }
    else if c > x then { s with xr := c, yr := v }
    else scanLin nodata x ts (t + 1) s

/-- interpolate-hl.c:135-148: set nodata, copy value or interpolate. -/
def linValue (rd : ℚ → ℚ) (nodata x : Int) (s : Nb) : ℚ :=
  if s.xl < 0 ∧ s.xr < 0 then nodata
  else if s.xl < 0 then s.yr
  else if s.xr < 0 then s.yl
  else if s.xl = s.xr then (s.yl + s.yr) / 2
  else rd (rd (rd (s.yl * (s.xr - x)) + rd (s.yr * (x - s.xl))) / (s.xr - s.xl))

/-- interpolate-hl.c:105-150: the loop over the interpolation dates. The sentinel of the dates is
`INT_MIN`. -/
def linLoop (rd : ℚ → ℚ) (nodata : Int) (series : List Obs) : List Int → Nat → List Int
  | [], _ => []
  | x :: xs, tl =>
    let s := scanLin nodata x (series.drop tl) tl ⟨-2147483648, -2147483648, nodata, nodata, tl⟩
    trunc (linValue rd nodata x s) :: linLoop rd nodata series xs s.tl

/-- interpolate-hl.c:86-158 `interpolate_linear` for one unmasked pixel. -/
def interpolateLinear (rd : ℚ → ℚ) (nodata : Int) (series : List Obs) (dates : List Int) : List Int :=
  linLoop rd nodata series dates 0

/-! ## interpolate_moving -/

/-- interpolate-hl.c:195-214: search start, sum and number of the points in the window. -/
def scanMov (nodata x m : Int) : List Obs → Nat → Nat × Int × Int → Nat × Int × Int
  | [], _, s => s
  | (c, v) :: ts, t, (tl, sum, num) =>
    if v = nodata then scanMov nodata x m ts (t + 1) (tl, sum, num)
    else if x - c > m then scanMov nodata x m ts (t + 1) (t, sum, num)
    else if c - x > m then (tl, sum, num)
    else scanMov nodata x m ts (t + 1) (tl, sum + v, num + 1)

/-- interpolate-hl.c:189-223: the loop over the interpolation dates; the sums of shorts are exact as
`double`, the quotient is rounded. -/
def movLoop (rd2 : ℚ → ℚ) (nodata m : Int) (series : List Obs) : List Int → Nat → List Int
  | [], _ => []
  | x :: xs, tl =>
    let s := scanMov nodata x m (series.drop tl) tl (tl, 0, 0)
    (if s.2.2 > 0 then trunc (rd2 (s.2.1 / s.2.2)) else nodata) :: movLoop rd2 nodata m series xs s.1

/-- interpolate-hl.c:171-231 `interpolate_moving` for one unmasked pixel. -/
def interpolateMoving (rd2 : ℚ → ℚ) (nodata m : Int) (series : List Obs) (dates : List Int) : List Int :=
  movLoop rd2 nodata m series dates 0

/-! ## interpolate_rbf -/

/-- One kernel of `rbf_t`: table of weights, cut-off, weight of the complete window. -/
structure Kern where
  table : List ℚ
  maxCe : Int
  maxW : ℚ

/-- interpolate-hl.c:393-412: state of the loop over the bins: sum, cut-off, weight. -/
def cutLoop (w : Int → ℚ) (cutoff : ℚ) (hbin : Int) : List Int → ℚ × Int × ℚ → ℚ × Int × ℚ
  | [], s => s
  | bin :: bins, (sum, maxCe, maxW) =>
    let dce := bin - hbin
    if dce ≥ 0 then
      let sum := sum + w dce
      if sum ≤ cutoff / 2 then cutLoop w cutoff hbin bins (sum, dce, maxW + w dce)
      else cutLoop w cutoff hbin bins (sum, maxCe, maxW)
    else cutLoop w cutoff hbin bins (sum, maxCe, maxW)

/-- interpolate-hl.c:385-420: one kernel. `w` is the Gaussian weight by distance, an external function
(`exp`); its sums are exact here. -/
def mkKern (w : Int → ℚ) (cutoff : ℚ) (nbin hbin : Int) : Kern :=
  let bins := (List.range nbin.toNat).map (fun i : Nat => (i : Int))
  let r := cutLoop w cutoff hbin bins (0, 0, 0)
  { table := bins.map fun bin => w (bin - hbin)
    maxCe := r.2.1
    maxW := r.2.2 * 2 }

/-- interpolate-hl.c:371-383: number of bins and half kernel size from the last sigma. -/
def rbfBins (sigmaLast : Int) : Int × Int :=
  let nbin := 8 * sigmaLast
  let nbin := if nbin % 2 = 0 then nbin + 1 else nbin
  (nbin, (nbin - 1) / 2)

/-- interpolate-hl.c:363-423 `rbf_kernel`; `w sigma dce` is the weight. -/
def rbfKernel (w : Int → Int → ℚ) (cutoff : ℚ) (sigmas : List Int) : Int × List Kern :=
  let b := rbfBins (sigmas.getLastD 0)
  (b.2, sigmas.map fun s => mkKern (w s) cutoff b.1 b.2)

/-- Reading `kernel[k][idx]`: undefined outside of the table. -/
def readAt (table : List ℚ) (idx : Int) : Out ℚ :=
  if idx < 0 then .ub else
    match table[idx.toNat]? with
    | some w => .ok w
    | none => .ub

/-- interpolate-hl.c:296-314: search start and weighted sums of one kernel. -/
def scanRbf (nodata x hbin : Int) (k : Kern) : List Obs → Nat → Nat × ℚ × ℚ → Out (Nat × ℚ × ℚ)
  | [], _, s => .ok s
  | (c, v) :: ts, t, (tl, syw, sw) =>
    if x - c > k.maxCe then scanRbf nodata x hbin k ts (t + 1) (t, syw, sw)
    else if c - x > k.maxCe then .ok (tl, syw, sw)
    else if v = nodata then scanRbf nodata x hbin k ts (t + 1) (tl, syw, sw)
    else (readAt k.table (c - x + hbin)).bind fun w =>
      scanRbf nodata x hbin k ts (t + 1) (tl, syw + v * w, sw + w)

/-- interpolate-hl.c:294-316: all kernels; result: new search starts and weighted sums. -/
def scanKerns (nodata x hbin : Int) (series : List Obs) :
    List Kern → List Nat → Out (List (Nat × ℚ × ℚ))
  | k :: ks, tl :: tls =>
    (scanRbf nodata x hbin k (series.drop tl) tl (tl, 0, 0)).bind fun r =>
      (scanKerns nodata x hbin series ks tls).bind fun rs => .ok (r :: rs)
  | _, _ => .ok []

/-- interpolate-hl.c:318-329: the ensemble sums. A division by a zero window weight gives an infinite
or undefined number, which ends in an undefined conversion to short. -/
def ensemble : List Kern → List (Nat × ℚ × ℚ) → ℚ × ℚ → Out (ℚ × ℚ)
  | k :: ks, (_, syw, sw) :: rs, (kd, d) =>
    if sw > 0 then
      if k.maxW = 0 then .ub
      else ensemble ks rs (kd + syw / k.maxW, d + sw / k.maxW)
    else ensemble ks rs (kd, d)
  | _, _, s => .ok s

/-- interpolate-hl.c:289-340: the loop over the interpolation dates. -/
def rbfLoop (nodata hbin : Int) (kerns : List Kern) (series : List Obs) :
    List Int → List Nat → Out (List Int)
  | [], _ => .ok []
  | x :: xs, tls =>
    (scanKerns nodata x hbin series kerns tls).bind fun rs =>
      (ensemble kerns rs (0, 0)).bind fun e =>
        (rbfLoop nodata hbin kerns series xs (rs.map (·.1))).bind fun ys =>
          .ok ((if e.2 > 0 then trunc (e.1 / e.2) else nodata) :: ys)

/-- interpolate-hl.c:258-356 `interpolate_rbf` for one unmasked pixel, in exact arithmetic. -/
def interpolateRbf (w : Int → Int → ℚ) (cutoff : ℚ) (sigmas : List Int) (nodata : Int)
    (series : List Obs) (dates : List Int) : Out (List Int) :=
  let r := rbfKernel w cutoff sigmas
  rbfLoop nodata r.1 r.2 series dates (List.replicate r.2.length 0)

end Verif.Interp
