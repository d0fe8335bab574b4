import Mathlib.Analysis.SpecialFunctions.Exp
import Mathlib.Analysis.SpecialFunctions.Log.Basic
import Mathlib.Analysis.SpecialFunctions.Pow.Real
import Mathlib.Analysis.SpecialFunctions.Trigonometric.Arctan
import Mathlib.Analysis.Real.Sqrt

/-!
# Model of the critical t values

`tscore` of `src/modules/cross-level/stats-cl.c` and the functions it calls. Numbers are real; the constants are the
decimal numbers.
-/

namespace Verif.Tscore

/-- enum-cl.h:94: the tail types. -/
inductive Tail where
  | left
  | two
  | right
deriving DecidableEq, Repr

/-- stats-cl.c:474-483 `tscore_tail2left`. -/
noncomputable def tail2left (p : ℝ) (tail : Tail) (negative : Bool) : ℝ :=
  match tail with
  | .left => p
  | .right => 1 - p
  | .two => if negative then 1 - (1 - p / 2) else 1 - p / 2

/-- stats-cl.c:492-497 `tscore_left2twotail`. -/
noncomputable def left2twotail (p : ℝ) (negative : Bool) : ℝ :=
  2 * (1 - (if negative then 1 - p else p))

/-- stats-cl.c:507-514 `tscore_tail2twotail`. -/
noncomputable def tail2twotail (p : ℝ) (tail : Tail) (negative : Bool) : ℝ :=
  left2twotail (tail2left p tail negative) negative

/-- stats-cl.c:521-531 `tscore_Norm_p`. -/
noncomputable def normP (z : ℝ) : ℝ :=
  let az := |z|
  let p := (((((0.0000053830 * az + 0.0000488906) * az + 0.0000380036) * az + 0.0032776263) * az + 0.0211410061) * az
    + 0.0498673470) * az + 1
  (p ^ 16)⁻¹

/-- stats-cl.c:538-554 `tscore_Norm_z`. -/
noncomputable def normZ (p : ℝ) : ℝ :=
  if p > 0.42 then
    let r := √(-Real.log (0.5 - p))
    (((2.3212128 * r + 4.8501413) * r - 2.2979648) * r - 2.7871893) / ((1.6370678 * r + 3.5438892) * r + 1)
  else
    let r := p * p
    p * (((-25.4410605 * r + 41.3911977) * r - 18.6150006) * r + 2.5066282) /
      ((((3.1308291 * r - 21.0622410) * r + 23.0833674) * r - 8.4735109) * r + 1)

/-- stats-cl.c:564-600 `tscore_Hills_inv_t`. -/
noncomputable def hill (p : ℝ) (idf : Int) : ℝ :=
  let df : ℝ := idf
  if df = 1 then Real.cos (p * Real.pi / 2) / Real.sin (p * Real.pi / 2)
  else if df = 2 then √(2 / (p * (2 - p)) - 2)
  else
    let a := 1 / (df - 0.5)
    let b := 48 / (a * a)
    let c := ((20700 * a / b - 98) * a - 16) * a + 96.36
    let d := ((94.5 / (b + c) - 3) / b + 1) * √(a * Real.pi * 0.5) * df
    let x := d * p
    let y := x ^ (2 / df)
    if y > 0.05 + a then
      let x := normZ (0.5 * (1 - p))
      let y := x * x
      let c := if df < 5 then c + 0.3 * (df - 4.5) * (x + 0.6) else c
      let c := (((0.05 * d * x - 5) * x - 7) * x - 2) * x + b + c
      let y := (((((0.4 * y + 6.3) * y + 36) * y + 94.5) / c - y - 3) / b + 1) * x
      let y := a * y * y
      let y := if y > 0.002 then Real.exp y - 1 else 0.5 * y * y + y
      √(df * y)
    else
      let y := ((1 / (((df + 6) / (df * y) - 0.089 * d - 0.822) * (df + 2) * 3) + 0.5 / (df + 4)) * y - 1) *
        (df + 1) / (df + 2) + 1 / y
      √(df * y)

/-- stats-cl.c:610-627 `tscore_T_z`. -/
noncomputable def tz (t : ℝ) (df : Int) : ℝ :=
  let a9 : ℝ := df - 0.5
  let b9 := 48 * a9 * a9
  let t9 := t * t / df
  let z8 := if t9 ≥ 0.04 then a9 * Real.log (1 + t9) else a9 * (((1 - t9 * 0.75) * t9 / 3 - 0.5) * t9 + 1) * t9
  let p7 := ((0.4 * z8 + 3.3) * z8 + 24) * z8 + 85.5
  let b7 := 0.8 * z8 ^ 2 + 100 + b9
  (1 + (-p7 / b7 + z8 + 3) / b9) * √z8

/-- stats-cl.c:636-657 `tscore_T_p`. -/
noncomputable def tp (t : ℝ) (df : Int) : ℝ :=
  let abst := |t|
  let tsq := t * t
  if df = 1 then 1 - 2 * Real.arctan abst / Real.pi
  else if df = 2 then 1 - abst / √(tsq + 2)
  else if df = 3 then 1 - 2 * (Real.arctan (abst / √3) + abst * √3 / (tsq + 3)) / Real.pi
  else if df = 4 then 1 - abst * (1 + 2 / (tsq + 4)) / √(tsq + 4)
  else normP (tz abst df)

/-- stats-cl.c:454-458, in `tscore`: the loop; `none`: it does not end. -/
noncomputable def search (p0 : ℝ) (df : Int) (p1 : ℝ) : Option ℝ :=
  if |tp (hill p1 df) df - p0| > 0.0001 then search p0 df (p1 - (tp (hill p1 df) df - p0))
  else some (hill p1 df)
partial_fixpoint

/-- stats-cl.c:445-448, in `tscore`. -/
noncomputable def negative (p : ℝ) (tail : Tail) : Bool :=
  decide ((tail = .left ∧ p < 0.5) ∨ (tail = .right ∧ p > 0.5))

/-- stats-cl.c:438-464 `tscore`: `none` if the loop does not end, `some none` for failure. -/
noncomputable def tscore (p : ℝ) (df : Int) (tail : Tail) : Option (Option ℝ) :=
  if p ≤ 0 ∨ p ≥ 1 ∨ df < 1 then some none
  else
    let p0 := tail2twotail p tail (negative p tail)
    (search p0 df p0).bind fun t => some (some (if negative p tail then -t else t))

/-- stats-cl.c:412-427 `slope_significant`, with a positive standard error. -/
noncomputable def significant (p : ℝ) (tail : Tail) (n : Int) (b b0 seb : ℝ) : Option Int :=
  (tscore p (n - 2) tail).bind fun r =>
    match r with
    | none => some 0
    | some tcrit =>
      let t := (b - b0) / seb
      if tail = .left ∧ t ≤ tcrit then some (-1)
      else if tail = .right ∧ t ≥ tcrit then some 1
      else if tail = .two ∧ t ≤ -tcrit then some (-1)
      else if tail = .two ∧ t ≥ tcrit then some 1
      else some 0

end Verif.Tscore
