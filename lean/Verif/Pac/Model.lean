import Verif.Date.Model
import Verif.Stats.Model
import Verif.Str.Model

/-!
# Targets of phenology-adaptive compositing

Models `compile_target_adaptive` in `src/modules/higher-level/bap-hl.c` for one pixel, without the scoring functions
(`target_function`, modelled in Bap). `rf` rounds to float.

Simplifications: the regression is exact (C36, C51 are stated for exact arithmetic as well); dates are integers below 2^24,
which are exact as floats. -/

namespace Verif.Pac
open Verif.Str (Out)

/-- The parameters: LSP_1ST_YEAR, LSP_START, LSP_THRESHOLD, first year and number of years of the compositing period
(bap-hl.c:212), nodata value of the phenology. -/
structure Par where
  y0 : Int
  start : Int
  thr : ℚ
  y1 : Int
  yn : Nat
  nodata : Int

/-- bap-hl.c:226-231, 239-243: the date of a year, if there is a plausible one. -/
def date (p : Par) (yr dat : Int) : Option Int :=
  let v := if dat = p.nodata then p.nodata else dat + p.start - 1
  let y := Date.ce2year v
  let v := if y < yr - 1 ∨ y > yr + 1 then p.nodata else v
  if v = p.nodata then none else some v

/-- bap-hl.c:226-243 for all years, with the year. -/
def dates (p : Par) (dat : List Int) : List (Int × Option Int) :=
  dat.zipIdx.map fun x => (p.y0 + x.2, date p (p.y0 + x.2) x.1)

/-- The years with a date. -/
def points (l : List (Int × Option Int)) : List (ℚ × ℚ) := l.filterMap fun x => x.2.map fun v => ((x.1 : ℚ), (v : ℚ))

/-- bap-hl.c:234-264: slope and intercept; if there is no date, the variables keep what they had (`prev`; `none`: they
have no value yet). -/
def line (prev : Option (ℚ × ℚ)) (pts : List (ℚ × ℚ)) : Option (ℚ × ℚ) :=
  let r := Stats.covarLoop pts (0, ⟨0, 0, 0, 0, 0⟩)
  if r.1 > 1 then some (Stats.linregCoefs r.2.mx r.2.my r.2.cv r.2.vx)
  else if r.1 = 1 then some (365, r.2.my - r.2.mx * 365)
  else prev

/-- bap-hl.c:266-276, 282: does the root mean squared error exceed the threshold (which is not negative)? Without dates
it is not a number. -/
def poor (thr : ℚ) (c : Option (ℚ × ℚ)) (pts : List (ℚ × ℚ)) : Bool :=
  match c with
  | none => false
  | some (slope, intercept) =>
    let sum := (pts.map fun q => (q.2 - Stats.linregPredict q.1 slope intercept) * (q.2 - Stats.linregPredict q.1 slope intercept)).sum
    decide (pts.length ≠ 0 ∧ sum / pts.length > thr * thr)

/-- bap-hl.c:283-285, 296-298: the date on the line. -/
def predict (rf : ℚ → ℚ) (c : Option (ℚ × ℚ)) (yr : Int) : Out ℚ :=
  match c with
  | none => .ub
  | some (slope, intercept) =>
    let v := Stats.linregPredict (yr : ℚ) slope intercept
    .ok (rf (if v < 0 ∨ v > 2147483647 then 0 else v))

/-- bap-hl.c:279-288: one year of the phenology. -/
def repair (rf : ℚ → ℚ) (c : Option (ℚ × ℚ)) (bad : Bool) (x : Int × Option Int) : Out ℚ :=
  match x.2, bad with
  | some v, false => .ok v
  | _, _ => predict rf c x.1

/-- All or nothing. -/
def all (f : α → Out β) : List α → Out (List β)
  | [] => .ok []
  | x :: xs => (f x).bind fun y => (all f xs).bind fun ys => .ok (y :: ys)

/-- bap-hl.c:224-305: one of the three dates in all years of the compositing period, and slope and intercept
afterwards. -/
def feature (rf : ℚ → ℚ) (p : Par) (prev : Option (ℚ × ℚ)) (dat : List Int) : Out (List ℚ × Option (ℚ × ℚ)) :=
  let l := dates p dat
  let pts := points l
  let c := line prev pts
  (all (repair rf c (poor p.thr c pts)) l).bind fun series =>
    (all (fun y : Nat =>
      let yr := p.y1 + y
      if yr < p.y0 ∨ yr ≥ p.y0 + dat.length then predict rf c yr
      else match series[(y + (p.y1 - p.y0)).toNat]? with
        | some v => .ok v
        | none => .ub) (List.range p.yn)).bind fun r => .ok (r, c)

/-- bap-hl.c:208-313 `compile_target_adaptive`: the dates of the three features, one after the other. -/
def targets (rf : ℚ → ℚ) (p : Par) : Option (ℚ × ℚ) → List (List Int) → Out (List (List ℚ))
  | _, [] => .ok []
  | prev, dat :: rest => (feature rf p prev dat).bind fun r => (targets rf p r.2 rest).bind fun rs => .ok (r.1 :: rs)

end Verif.Pac
