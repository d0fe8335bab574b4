import Mathlib.Analysis.Real.Sqrt
import Mathlib.Analysis.SpecialFunctions.Log.Basic
import Verif.Fold.Model
import Verif.Stats.Model
import Verif.Date.Model

/-!
# Model of the best available pixel compositing (one pixel)

`src/modules/higher-level/bap-hl.c`, `level3` of `src/modules/higher-level/level3-hl.c`, and the
BAP part of `parse_param_higher` in `src/modules/higher-level/param-hl.c`.

Floating-point numbers are real numbers, all arithmetic is exact; a number that is not a number (0/0) is
`none`. `exp` is a parameter. `exp` of minus infinity is 0.
-/

namespace Verif.Bap

open Verif.Str (Out)
open Verif.Fold (truncR shortOf)
open Classical

/-- higher-level/param-hl.h:75-83 `par_scr_t`: the scores of an observation. -/
structure Score where
  t : Option ℝ
  d : Option ℝ
  y : Option ℝ
  c : Option ℝ
  h : Option ℝ
  r : Option ℝ
  v : Option ℝ

/-- The weights: the same C structure. -/
structure Wgt where
  d : ℝ
  y : ℝ
  c : ℝ
  h : ℝ
  r : ℝ
  v : ℝ
  t : ℝ

/-- cross-level/enum-cl.h: type of the scoring function. -/
inductive Typ where
  | gauss | des | asc
deriving DecidableEq

/-- The part of `par_bap_t` (param-hl.h:86-130) that is used. `ds`: DOY_SCORE, `dt`: DOY_STATIC. -/
structure Par where
  yt : Int
  yr : Int
  yn : Nat
  yf : ℝ
  d0 : ℝ
  d1 : ℝ
  d2 : ℝ
  t0 : Int
  t1 : Int
  t2 : Int
  offsea : Bool
  useCloudy : Bool
  useHazy : Bool
  add : Bool
  dreq : ℝ
  hreq : ℝ
  vreq : ℝ
  typ : Typ
  w : Wgt

/-- bap-hl.h `target_t`: the three target dates of a year, and the parameters of the scoring function. -/
structure Target where
  ce0 : Int
  ce1 : Int
  ce2 : Int
  a : ℝ
  b : ℝ

/-- An observation of the pixel: validity, date, auxiliary values, correlation, water flag, reflectance.
`sw2`, `nir`: reflectance in the bands of these domains. -/
structure Obs where
  msk : Bool
  ce : Int
  doy : Int
  year : Int
  qai : Int
  sensor : Int
  dst : Int
  hot : Int
  vzn : Int
  cor : ℝ
  water : Bool
  sw2 : Int
  nir : Int
  dat : List Int

/-! ## Parameters -/

/-- param-hl.c:1128-1136: sum of the positive weights. -/
noncomputable def totalWeight (w : Wgt) : ℝ :=
  (if w.d > 0 then w.d else 0) + (if w.y > 0 then w.y else 0) + (if w.c > 0 then w.c else 0) +
  (if w.h > 0 then w.h else 0) + (if w.r > 0 then w.r else 0) + (if w.v > 0 then w.v else 0)

/-- param-hl.c:1128-1155 (part): weights, number of years, type of the scoring function (which keeps its
initial value if no case applies). `.exit`: the parameters are refused. -/
noncomputable def parse (p : Par) : Out Par :=
  let w := if p.add then { p.w with t := totalWeight p.w } else p.w
  if p.w.d = 0 ∧ p.w.y = 0 ∧ p.w.c = 0 ∧ p.w.h = 0 ∧ p.w.r = 0 ∧ p.w.v = 0 then .exit
  else .ok
    { p with
      w := w
      yn := (p.yr * 2 + 1).toNat
      typ := if p.d1 > p.d0 ∧ p.d1 > p.d2 then .gauss
        else if p.d0 > p.d2 then .des
        else if p.d2 > p.d0 then .asc
        else p.typ }

/-! ## Targets -/

/-- bap-hl.c:177-188: target dates of year number `y` in the compositing period. -/
def staticDates (p : Par) (y : Nat) : Int × Int × Int :=
  (if p.t0 > p.t1 then Date.doy2ce p.t0 (p.yt - p.yr + y - 1) else Date.doy2ce p.t0 (p.yt - p.yr + y),
   Date.doy2ce p.t1 (p.yt - p.yr + y),
   if p.t2 < p.t1 then Date.doy2ce p.t2 (p.yt - p.yr + y + 1) else Date.doy2ce p.t2 (p.yt - p.yr + y))

/-- bap-hl.c:145-146: `|x| / sqrt(-2 log(q))`; the root is infinite for `q = 0`, then the result is 0. -/
noncomputable def sigma (x : Int) (q : ℝ) : ℝ :=
  if q = 0 then 0 else |(x : ℝ) / Real.sqrt (-2 * Real.log q)|

/-- bap-hl.c:126-154 `target_function` for one year; the parameters of the logistic function are found by
the GSL library (bap-hl.c:40-113), a parameter here. -/
noncomputable def targetFunction (logistic : Int → Int → Par → ℝ × ℝ) (p : Par) (c : Int × Int × Int) : Target :=
  match p.typ with
  | .gauss => ⟨c.1, c.2.1, c.2.2, sigma (c.1 - c.2.1) (p.d0 / p.d1), sigma (c.2.2 - c.2.1) (p.d2 / p.d1)⟩
  | _ => let ab := logistic (c.1 - c.2.1) (c.2.2 - c.2.1) p; ⟨c.1, c.2.1, c.2.2, ab.1, ab.2⟩

/-- bap-hl.c:168-196 `compile_target_static`. -/
noncomputable def targetStatic (logistic : Int → Int → Par → ℝ × ℝ) (p : Par) : List Target :=
  (List.range p.yn).map fun y => targetFunction logistic p (staticDates p y)

/-! ## Scores -/

/-- bap-hl.c:526-530: the target with the closest central date (the first one of equals).
Simplification: the distances are below `INT_MAX`. -/
def closest (ce : Int) (t0 : Target) (ts : List Target) : Target :=
  ts.foldl (fun b t => if (ce - t.ce1).natAbs < (ce - b.ce1).natAbs then t else b) t0

/-- Conversion of a floating-point number to `int`: undefined if out of range. -/
noncomputable def intOf (x : ℝ) : Out Int := if |x| < 2147483648 then .ok (truncR x) else .ub

/-- bap-hl.c:555, 567, 591, 615: length of a slice; division by zero gives infinity, whose conversion is
undefined. -/
noncomputable def slice (p : Par) (len : Int) : Out Int :=
  if ((p.yr : ℝ) + 1) * p.yf = 0 then .ub else intOf ((len : ℝ) / (((p.yr : ℝ) + 1) * p.yf))

/-- bap-hl.c:551-569: `base * exp(num / (-2 s s))`. -/
noncomputable def tail (exp : ℝ → ℝ) (base : ℝ) (num : Int) (s : ℝ) : Option ℝ :=
  if s = 0 then (if num = 0 then none else some 0) else some (base * exp ((num : ℝ) / (-2 * s * s)))

/-- bap-hl.c:556, 568: `dy*slice*dy*slice`, undefined if it overflows. -/
def sqDist (dy sl : Int) : Out Int :=
  if (dy * sl * dy * sl).natAbs < 2147483648 then .ok (dy * sl * dy * sl) else .ub

/-- bap-hl.c:545-624: DOY score, year score, temporal distance. -/
noncomputable def temporal (exp : ℝ → ℝ) (p : Par) (tg : Target) (o : Obs) : Out (Option ℝ × Option ℝ × Int) :=
  let dist := o.ce - tg.ce1
  let dy := ((o.year - p.yt).natAbs : Int)
  match p.typ with
  | .gauss =>
    if o.ce < tg.ce1 then
      (slice p (tg.ce1 - tg.ce0)).bind fun sl => (sqDist dy sl).bind fun q =>
      .ok (tail exp p.d1 (dist * dist) tg.a, tail exp p.d1 q tg.a, dist)
    else
      (slice p (tg.ce2 - tg.ce1)).bind fun sl => (sqDist dy sl).bind fun q =>
      .ok (tail exp p.d1 (dist * dist) tg.b, tail exp p.d1 q tg.b, dist)
  | .des =>
    if o.ce < tg.ce0 then .ok (some 0, some 0, o.ce - tg.ce0)
    else
      (slice p (tg.ce1 - tg.ce0)).bind fun sl =>
      .ok (some (p.d0 / (1 + exp (tg.a * dist + tg.b))),
           some (p.d0 / (1 + exp (tg.a * (tg.ce0 + dy * sl - tg.ce1 : Int) + tg.b))), o.ce - tg.ce0)
  | .asc =>
    if o.ce > tg.ce2 then .ok (some 0, some 0, o.ce - tg.ce2)
    else
      (slice p (tg.ce2 - tg.ce1)).bind fun sl =>
      .ok (some (p.d2 / (1 + exp (tg.a * dist + tg.b))),
           some (p.d2 / (1 + exp (tg.a * (tg.ce2 - dy * sl - tg.ce1 : Int) + tg.b))), o.ce - tg.ce2)

/-- bap-hl.c:634-638: cloud distance score. -/
noncomputable def cloudScore (exp : ℝ → ℝ) (p : Par) (o : Obs) : ℝ :=
  if p.w.c > 0 then 1 / (1 + exp ((-10 / p.dreq) * ((o.dst : ℝ) - p.dreq / 2))) else 0

/-- bap-hl.c:640-644: haze score. -/
noncomputable def hazeScore (exp : ℝ → ℝ) (p : Par) (o : Obs) : ℝ :=
  if p.w.h > 0 then 1 / (1 + exp ((10 / 200) * ((o.hot : ℝ) + p.hreq * -1))) else 0

/-- bap-hl.c:646-650: correlation score. -/
noncomputable def corrScore (exp : ℝ → ℝ) (p : Par) (o : Obs) : ℝ :=
  if p.w.r > 0 then 1 / (1 + exp ((-10 / (0.5 * 2 / 3)) * (o.cor - 0.5 * 4 / 3))) else 0

/-- bap-hl.c:652-659: view zenith score. -/
noncomputable def viewScore (exp : ℝ → ℝ) (p : Par) (o : Obs) : ℝ :=
  if p.w.v > 0 then
    let vz := (o.vzn : ℝ) * 0.01
    if vz < 0 ∨ vz > 180 then 0 else 1 / (1 + exp (10 / p.vreq * (vz - p.vreq / 2)))
  else 0

/-- bap-hl.c:666-671: a term of the sum. -/
noncomputable def addTerm (acc : Option ℝ) (w : ℝ) (s : Option ℝ) : Option ℝ :=
  if w > 0 then acc.bind fun a => s.map fun x => a + w * x else acc

/-- bap-hl.c:674-679: a factor of the product. -/
noncomputable def mulTerm (acc : Option ℝ) (w : ℝ) (s : Option ℝ) : Option ℝ :=
  if w > 0 then acc.bind fun a => s.map fun x => a * (w * x) else acc

/-- bap-hl.c:665-680: total score. -/
noncomputable def total (p : Par) (s : Score) : Option ℝ :=
  if p.add then
    (addTerm (addTerm (addTerm (addTerm (addTerm (addTerm (some 0) p.w.d s.d) p.w.y s.y) p.w.c s.c) p.w.h s.h)
      p.w.r s.r) p.w.v s.v).bind fun x => if p.w.t = 0 then none else some (x / p.w.t)
  else
    mulTerm (mulTerm (mulTerm (mulTerm (mulTerm (mulTerm (some 1) p.w.d s.d) p.w.y s.y) p.w.c s.c) p.w.h s.h)
      p.w.r s.r) p.w.v s.v

/-- bap-hl.c:532-535: a target before 1900 is corrupt. -/
def corrupt (tg : Target) : Prop := tg.ce0 < 693500 ∨ tg.ce1 < 693500 ∨ tg.ce2 < 693500

/-- bap-hl.c:508-690: one observation. `old` is what the arrays `score` and `tdist` contain before: they are
allocated once per thread and are not cleared between pixels. -/
noncomputable def scoreObs (exp : ℝ → ℝ) (p : Par) (t0 : Target) (ts : List Target) (o : Obs)
    (old : Score × Int) : Out (Score × Int) :=
  if !o.msk then .ok ({ old.1 with t := some 0 }, old.2)
  else
    let tg := closest o.ce t0 ts
    if corrupt tg then .ok ({ old.1 with t := some (if p.add then 0 else 1) }, old.2)
    else (temporal exp p tg o).bind fun x =>
      let s : Score :=
        { t := none
          d := if p.w.d = 0 then some 0 else x.1
          y := if p.w.y = 0 then some 0 else x.2.1
          c := some (cloudScore exp p o)
          h := some (hazeScore exp p o)
          r := some (corrScore exp p o)
          v := some (viewScore exp p o) }
      .ok ({ s with t := total p s }, x.2.2)

/-- bap-hl.c:508: loop over the observations. -/
noncomputable def scoreAll (exp : ℝ → ℝ) (p : Par) (t0 : Target) (ts : List Target) :
    List (Obs × Score × Int) → Out (List (Obs × Score × Int))
  | [] => .ok []
  | (o, old) :: l =>
    (scoreObs exp p t0 ts o old).bind fun s => (scoreAll exp p t0 ts l).bind fun r => .ok ((o, s) :: r)

/-- bap-hl.c:322-337 `pixel_is_water`. The quotient of the two `float` counters is compared with 0.9;
modelled exactly. -/
def isWater (os : List Obs) : Prop :=
  let n := (os.filter (·.msk)).length
  let w := (os.filter fun o => o.msk && o.water).length
  n > 0 ∧ 10 * w > 9 * n

/-- bap-hl.c:454-483 `water_score` for one observation, if both bands exist. -/
noncomputable def waterObs (scale : ℝ) (o : Obs) (s : Score) : Score :=
  if !o.msk then s
  else
    let x := (scale - o.sw2) / scale
    { s with t := some (if o.nir < o.sw2 then x / 2 else x) }

/-- Comparison `x < c` of C: false if `x` is not a number. -/
def lt (x : Option ℝ) (c : ℝ) : Prop := ∃ a, x = some a ∧ a < c

/-- bap-hl.c:417-443 `haze_stats`: mean, and whether the standard deviation exceeds 0.01 (for one
observation it is 0/0, for none it is -1). A haze score is always a number. Simplification: the conversion
to `float` is exact. -/
noncomputable def hazeStats (p : Par) (l : List (Obs × Score × Int)) : Prop :=
  let hs := (l.filter fun x => x.1.msk && !(decide (!p.offsea ∧ lt x.2.1.d 0.01))).map fun x => x.2.1.h.getD 0
  let v := Stats.varLoop hs (0, 0, 0)
  v.1 > 0 ∧ v.2.1 > 0.01 ∧ v.1 ≠ 1 ∧ Stats.standdev v.2.2 (v.1 : ℝ) > 0.01

/-! ## Compositing -/

/-- bap-hl.c:719-724, 818-823: observations that are not considered. `hz`: `hmean > 0.01 && hsd > 0.01`. -/
noncomputable def skipped (p : Par) (hz : Prop) (o : Obs) (s : Score) : Bool :=
  !o.msk || decide (!p.offsea ∧ lt s.d 0.01) || decide (!p.useHazy ∧ p.w.h > 0 ∧ lt s.h 0.01 ∧ hz) ||
  decide (!p.useCloudy ∧ p.w.c > 0 ∧ lt s.c 0.01)

/-- bap-hl.c:717-734: number of candidates, best observation. State: n, best score, best observation. -/
noncomputable def select (p : Par) (hz : Prop) :
    List (Obs × Score × Int) → Nat × ℝ × Option (Obs × Score × Int) → Nat × ℝ × Option (Obs × Score × Int)
  | [], s => s
  | x :: l, (n, best, at_) =>
    if skipped p hz x.1 x.2.1 then select p hz l (n, best, at_)
    else
      match x.2.1.t with
      | some a => if a > best then select p hz l (n + 1, a, some x) else select p hz l (n + 1, best, at_)
      | none => select p hz l (n + 1, best, at_)

/-- The products of a pixel: reflectance, information (QAI, number, DOY, year, difference, sensor), scores
(total, DOY, year, distance, haze, correlation, view zenith). -/
structure Pixel where
  bap : List Int
  inf : List Int
  scr : List Int

/-- bap-hl.c:741-749: the scores as `short`; for water only the total score is written (the others keep the
initial 0). -/
noncomputable def scrOut (water : Prop) (s : Score) : Out (List Int) :=
  let k := fun x : Option ℝ => shortOf (x.map (· * 10000))
  (k s.t).bind fun t =>
  if water then .ok [t, 0, 0, 0, 0, 0, 0]
  else (k s.d).bind fun d => (k s.y).bind fun y => (k s.c).bind fun c => (k s.h).bind fun h =>
    (k s.r).bind fun r => (k s.v).bind fun v => .ok [t, d, y, c, h, r, v]

/-- bap-hl.c:767-781. -/
def nodataPixel (nb : Nat) (nodata : Int) : Pixel :=
  ⟨List.replicate nb nodata, [1, 0, nodata, nodata, nodata, nodata], List.replicate 7 nodata⟩

/-- bap-hl.c:711-785 `bap_compositing`, all products requested. Without a best observation the index is
-1: the arrays are accessed outside of their bounds. Simplification: the integer values fit into `short`. -/
noncomputable def composite (p : Par) (hz water : Prop) (nb : Nat) (nodata : Int) (l : List (Obs × Score × Int)) :
    Out Pixel :=
  match select p hz l (0, -1, none) with
  | (n, _, at_) =>
    if n > 0 then
      match at_ with
      | none => .ub
      | some x =>
        (scrOut water x.2.1).bind fun scr =>
        .ok ⟨x.1.dat, [x.1.qai, n, x.1.doy, x.1.year, x.2.2, x.1.sensor + 1], scr⟩
    else .ok (nodataPixel nb nodata)

/-- level3-hl.c:329-346: one pixel of the composite (`SELECT = TRUE`); the second result are the arrays
`score` and `tdist` after it. `water_score` has no effect if the bands do not exist. -/
noncomputable def pixel (exp : ℝ → ℝ) (p : Par) (t0 : Target) (ts : List Target) (bands : Bool) (scale : ℝ)
    (nb : Nat) (nodata : Int) (os : List Obs) (old : List (Score × Int)) : Out (Pixel × List (Score × Int)) :=
  (scoreAll exp p t0 ts (os.zip old)).bind fun l =>
  let l := if bands ∧ isWater os then l.map fun x => (x.1, waterObs scale x.1 x.2.1, x.2.2) else l
  (composite p (hazeStats p l) (isWater os) nb nodata l).bind fun r => .ok (r, l.map (·.2))

/-- level3-hl.c:321-353: the pixels of one thread, one after the other, with the arrays of the thread. -/
noncomputable def run (exp : ℝ → ℝ) (p : Par) (t0 : Target) (ts : List Target) (bands : Bool) (scale : ℝ)
    (nb : Nat) (nodata : Int) : List (List Obs) → List (Score × Int) → Out (List Pixel)
  | [], _ => .ok []
  | os :: l, old =>
    (pixel exp p t0 ts bands scale nb nodata os old).bind fun r =>
    (run exp p t0 ts bands scale nb nodata l r.2).bind fun rs => .ok (r.1 :: rs)

/-! ## Weighting -/

/-- bap-hl.c:815-846: the sums: number of candidates; sum of the total scores and weighted sum of the bands
(`none`: not a number). The sums of the other scores are not modelled. -/
noncomputable def weigh (p : Par) (hz : Prop) :
    List (Obs × Score × Int) → Nat × Option (ℝ × List ℝ) → Nat × Option (ℝ × List ℝ)
  | [], s => s
  | x :: l, (n, s) =>
    if skipped p hz x.1 x.2.1 then weigh p hz l (n, s)
    else weigh p hz l (n + 1, s.bind fun s => x.2.1.t.map fun t =>
      (s.1 + t, s.2.zipWith (fun a (b : Int) => a + (b : ℝ) * t) x.1.dat))

/-- Conversion of all bands. -/
noncomputable def shorts : List ℝ → Out (List Int)
  | [] => .ok []
  | x :: l => (shortOf (some x)).bind fun v => (shorts l).bind fun r => .ok (v :: r)

/-- bap-hl.c:803-900 `bap_weighting`, reflectance only; `bapOn`: the reflectance product is requested (else its
pointer is NULL, and is used nevertheless in line 896). -/
noncomputable def weighting (p : Par) (hz : Prop) (nb : Nat) (nodata : Int) (bapOn : Bool)
    (l : List (Obs × Score × Int)) : Out (List Int) :=
  if !bapOn then (if nb = 0 then .ok [] else .ub)
  else
    match (weigh p hz l (0, some (0, List.replicate nb 0))).2 with
    | some (tot, sums) => if tot > 0 then shorts (sums.map (· / tot)) else .ok (List.replicate nb nodata)
    | none => .ok (List.replicate nb nodata)

/-! ## Correlation -/

/-- bap-hl.c:367-383: correlation of two observations; `none`: nodata (-9999). -/
noncomputable def corr (x y : List Int) : Option ℝ :=
  let xm := (x.map fun v : Int => (v : ℝ)).sum / x.length
  let ym := (y.map fun v : Int => (v : ℝ)).sum / y.length
  let cv := (x.zipWith (fun a b : Int => ((a : ℝ) - xm) * (b - ym)) y).sum
  let xv := (x.map fun a : Int => ((a : ℝ) - xm) * (a - xm)).sum
  let yv := (y.map fun b : Int => ((b : ℝ) - ym) * (b - ym)).sum
  if Real.sqrt (xv * yv) = 0 then none else some (cv / Real.sqrt (xv * yv))

/-- bap-hl.c:390-400: the first column of the row is replaced by the mean of the absolute correlations.
State: sum, number, first column. -/
noncomputable def corrLoop (t : Nat) : List (Option ℝ) → Nat → ℝ × Nat × ℝ → ℝ × Nat × ℝ
  | [], _, s => s
  | c :: l, u, (xm, ym, cur) =>
    if t = u then corrLoop t l (u + 1) (xm, ym, cur)
    else match c with
      | none => corrLoop t l (u + 1) (xm, ym, cur)
      | some x => corrLoop t l (u + 1) (xm + |x|, ym + 1, (xm + |x|) / ((ym + 1 : Nat) : ℝ))

/-- bap-hl.c:352-403 `corr_matrix`: what observation number `t` gets; `row`: its correlation with each
observation (`none` for pairs with an invalid observation). -/
noncomputable def corrMean (t : Nat) (row : List (Option ℝ)) : ℝ :=
  (corrLoop t row 0 (0, 0, if t = 0 then 0 else (row.headD none).getD (-9999))).2.2

/-- bap-hl.c:358-388: the row of the matrix of observation number `t`, from validity and reflectance of all
observations. -/
noncomputable def corrRow (obs : List (Bool × List Int)) (t : Nat) : List (Option ℝ) :=
  obs.map fun o => if (obs[t]?.getD (false, [])).1 ∧ o.1 then corr (obs[t]?.getD (false, [])).2 o.2 else none

end Verif.Bap
