import Mathlib.Analysis.SpecialFunctions.Complex.Arg
import Mathlib.Algebra.BigOperators.Group.List.Basic
import Verif.Date.Model

/-!
# Polarmetrics: averaged vectors and the adaptive start of the phenological year

Models the parts of `src/modules/higher-level/polar-hl.c` that use angles: `polar_coords`, `polar_vector`,
`ce_from_polar_vector`, the start of the phenological year, the averaged vectors of a season and
`identify_variable_seasons`. The other parts are in `Verif.Polar`.

Simplifications: real numbers instead of float and double (the conversion between days and radians with its roundings is
C64), `atan2(y, x)` is the argument of `x + i y`. -/

namespace Verif.Avec
open Real Verif.Date

/-- One step of the time series: day of the year, year since the first one, value, season, share of the season's sum that is
reached: polar-hl.c:32-42 `polar_t`. -/
structure Step where
  doy : Int
  year : Int
  val : ℝ
  season : Int
  cum : ℝ

/-- polar-hl.c:413: the angle of a step. -/
noncomputable def Step.rad (p : Step) : ℝ := (p.doy : ℝ) / 365 * 2 * π

/-- polar-hl.c:77: the date of a step. -/
def Step.ce (p : Step) : Int := doy2ce p.doy p.year

/-- polar-hl.c:78. -/
noncomputable def Step.pcx (p : Step) : ℝ := p.val * cos p.rad
/-- polar-hl.c:79. -/
noncomputable def Step.pcy (p : Step) : ℝ := p.val * sin p.rad

/-- polar-hl.c:71, 93, 186, 443: the day of an angle that is not negative. -/
noncomputable def day (r : ℝ) : Int := ⌊r * 365 / (2 * π)⌋

/-- polar-hl.c:85-104 `polar_vector`: angle. -/
noncomputable def angle (x y : ℝ) : ℝ :=
  let r := Complex.arg ⟨x, y⟩
  if r ≤ 0 then r + 2 * π else r

/-- polar-hl.c:85-104 `polar_vector`: length. -/
noncomputable def size (x y : ℝ) : ℝ := √(x * x + y * y)

/-- polar-hl.c:422-423, 431-432 (and 169-176, 500-501, 541-542, and so on): averaged coordinate. -/
noncomputable def meanX (l : List Step) : ℝ := (l.map Step.pcx).sum / l.length
/-- As `meanX`. -/
noncomputable def meanY (l : List Step) : ℝ := (l.map Step.pcy).sum / l.length

/-- Angle of the averaged vector: polar-hl.c:177, 435, 548-550. -/
noncomputable def mean (l : List Step) : ℝ := angle (meanX l) (meanY l)
/-- Length of the averaged vector: polar-hl.c:177, 435, 548-550. -/
noncomputable def meanSize (l : List Step) : ℝ := size (meanX l) (meanY l)

/-- polar-hl.c:179-183, 438-442: the diametric opposite. -/
noncomputable def opposite (a : ℝ) : ℝ := if a < π then a + π else a - π

/-- polar-hl.c:428-443: the start of the phenological year. -/
noncomputable def start (l : List Step) : ℝ := opposite (mean l)

/-- polar-hl.c:107-119 `ce_from_polar_vector`. -/
def dateOf (thetaDoy s doy : Int) : Int := if doy > thetaDoy then doy2ce doy s else doy2ce doy (s + 1)

/-- polar-hl.c:466-470, 497-501, 512-515, 526-529: the steps of season `s` between two thresholds. -/
noncomputable def window (s : Int) (lo hi : ℝ) (l : List Step) : List Step := by
  classical exact l.filter fun p => p.season = s ∧ lo ≤ p.cum ∧ p.cum < hi

/-- polar-hl.c:541-554: date of the averaged vector of a window; `none`: 0/0, undefined as a day. -/
noncomputable def windowDate (thetaDoy s : Int) (w : List Step) : Option Int :=
  if w.length = 0 then none else some (dateOf thetaDoy s (day (mean w)))

/-- polar-hl.c:164-173: the steps of season `s`, from `i0` on. -/
def seasonSteps (s : Int) : List Step → List Step
  | [] => []
  | p :: l => if p.season < s then seasonSteps s l else if p.season > s then [] else p :: seasonSteps s l

/-- polar-hl.c:164-173: `i0` after the loop. -/
def rest (s : Int) (l0 : List Step) : List Step → List Step
  | [] => l0
  | p :: l => if p.season > s then p :: l else rest s l0 l

/-- polar-hl.c:179-197: the fine-tuned start of season `s`; `a`: angle of its averaged vector, `theta`: angle of the
start of the phenological year. -/
noncomputable def fineStart (theta a : ℝ) (s : Int) : Int :=
  let doy := day (opposite a)
  if a - π < 0 ∧ a - theta ≥ 0 then doy2ce doy (s - 1)
  else if a - π > 0 ∧ a - theta < 0 then doy2ce doy (s + 1)
  else doy2ce doy s

/-- polar-hl.c:159-199: the fine-tuned starts of `n` seasons from season `s` on; `none`: a season without steps (0/0,
undefined as a day). -/
noncomputable def fineStarts (theta : ℝ) : Nat → Int → List Step → Option (List Int)
  | 0, _, _ => some []
  | n + 1, s, l =>
    let w := seasonSteps s l
    if w.length = 0 then none
    else (fineStarts theta n (s + 1) (rest s l l)).map fun r => fineStart theta (mean w) s :: r

/-- polar-hl.c:217 (exact). -/
def steps (istep shift : Int) : Nat := (shift.natAbs / istep.toNat)

/-- polar-hl.c:220-237: the difference of the season is noted at the start of a season. -/
def mark (ni i : Nat) (istep shift : Int) (diff : Nat → Int) : Nat → Int :=
  (List.range (steps istep shift)).foldl (fun diff ii =>
    if shift > 0 then (if i + ii ≥ ni then diff else Function.update diff (i + ii) (-1))
    else (if i < ii + 1 then diff else Function.update diff (i - ii - 1) 1)) diff

/-- polar-hl.c:204-241: the loop from step `i` on, whose predecessor has season `s`. -/
def walk (ni : Nat) (istep ns thetaDoy : Int) (fine : Int → Int) : Nat → Int → List Int → (Nat → Int) → (Nat → Int)
  | _, _, [], diff => diff
  | i, s, q :: qs, diff =>
    if q ≠ s then
      if q ≥ ns then diff
      else walk ni istep ns thetaDoy fine (i + 1) q qs (mark ni i istep (fine q - doy2ce thetaDoy q) diff)
    else walk ni istep ns thetaDoy fine (i + 1) s qs diff

/-- polar-hl.c:202-244: the new seasons. -/
def shifted (istep ns thetaDoy : Int) (fine : Int → Int) : List Int → List Int
  | [] => []
  | q :: qs =>
    let diff := walk (qs.length + 1) istep ns thetaDoy fine 1 q qs fun _ => 0
    (q :: qs).zipIdx.map fun x => x.1 + diff x.2

/-- polar-hl.c:142-251 `identify_variable_seasons` with ADAPTIVE: fine-tuned starts and new seasons. -/
noncomputable def adaptive (istep : Int) (ns : Nat) (theta : ℝ) (l : List Step) : Option (List Int × List Int) :=
  (fineStarts theta ns 0 l).map fun fine =>
    (fine, shifted istep ns (day theta) (fun s => fine.getD s.toNat 0) (l.map Step.season))

end Verif.Avec
