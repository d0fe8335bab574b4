import Verif.Str.Model
import Mathlib.Analysis.SpecialFunctions.Exp

/-!
Dependency of AOD on elevation: src/modules/lower-level/aod-ll.c `aod_elev_dependency`, `aod_elevation_minimizer`. Arithmetic
is that of real numbers. The search for the minimum is done by GSL and is a parameter.
-/

namespace Verif.Elev

open Verif.Str (Out)

/-- A dark target: elevation and AOD in the green band (`darkobj_t`). -/
structure Target where
  valid : Bool
  z : ℝ
  aod : ℝ

/-- aod-ll.c:741-886 of `aod_from_target`: targets without a fit become invalid, the others are counted. `fit` is the
estimation of AOD of one target. The counter is a sum over all threads, which does not depend on their order. -/
noncomputable def estimate (fit : Target → Option ℝ) : List Target → List Target × Nat
  | [] => ([], 0)
  | t :: ts =>
    let r := estimate fit ts
    if !t.valid then (t :: r.1, r.2)
    else match fit t with
      | none => ({ t with valid := false } :: r.1, r.2)
      | some a => ({ t with aod := a } :: r.1, r.2 + 1)

/-- aod-ll.c:987-1012: elevation and AOD of the valid targets are written behind `acc` into arrays with `n` elements. -/
noncomputable def gather (n : Nat) : List Target → List (ℝ × ℝ) → Out (List (ℝ × ℝ))
  | [], acc => .ok acc
  | t :: ts, acc =>
    if !t.valid then gather n ts acc
    else if acc.length < n then gather n ts (acc ++ [(t.z, t.aod)])
    else .ub

/-- aod-ll.c:969, 990, 999, 1008. -/
noncomputable def lowest (d : List (ℝ × ℝ)) : ℝ := d.foldl (fun m t => if t.1 < m then t.1 else m) 2147483648

/-- aod-ll.c:970, 991, 1000, 1009. -/
noncomputable def highest (d : List (ℝ × ℝ)) : ℝ := d.foldl (fun m t => if t.1 > m then t.1 else m) (-2147483648)

/-- aod-ll.c:957-1080 of `aod_elev_dependency`: the scale height. `search` is the minimum that GSL finds, `none` if it
has none in the interval (GSL_EINVAL). -/
noncomputable def scaleHeight (search : List (ℝ × ℝ) → Option ℝ) (demMin demMax : ℝ) (wat shd veg : List Target)
    (nwat nshd nveg : Nat) : Out ℝ :=
  let n := nwat + nshd + nveg
  if n > 3 ∧ demMax - demMin > 1 / 10 then
    (gather n (wat ++ shd ++ veg) []).bind fun d =>
      if highest d - lowest d > 1 / 10 then
        match search d with
        | none => .ok 1000
        | some m => .ok (if m < 6 / 5 then 6 / 5 else m)
      else .ok 1000
  else .ok 1000

/-- aod-ll.c:1765-1779 of `compile_aod`: estimation for water and vegetation; shadow targets are disabled
(aod-ll.c:185-189, 692-695). -/
noncomputable def run (search : List (ℝ × ℝ) → Option ℝ) (fitW fitV : Target → Option ℝ) (demMin demMax : ℝ)
    (wat veg : List Target) : Out ℝ :=
  let w := estimate fitW wat
  let v := estimate fitV veg
  scaleHeight search demMin demMax w.1 [] v.1 w.2 0 v.2

/-- aod-ll.c:915-947 `aod_elevation_minimizer` for the scale height `x`. -/
noncomputable def objective (d : List (ℝ × ℝ)) (x : ℝ) : ℝ :=
  let n : ℝ := d.length
  let xm := (d.map fun t => t.1).sum / n
  let ym := (d.map fun t => t.2 / Real.exp (-t.1 / x)).sum / n
  let cv := (d.map fun t => (t.1 - xm) * (t.2 / Real.exp (-t.1 / x) - ym)).sum / n
  let vr := (d.map fun t => (t.1 - xm) * (t.1 - xm)).sum / n
  |cv / vr|

end Verif.Elev
