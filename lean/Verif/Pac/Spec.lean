import Verif.Pac.Model
import Verif.Stats.Spec

/-!
# What the targets of phenology-adaptive compositing should be -/

namespace Verif.Pac.Spec
open Verif.Stats.Spec (sse)

/-- In year `yr` the phenology `dat` (days since LSP_START, one value per year from LSP_1ST_YEAR on) has the date `v` (days
since the year 0), which is in that year, the one before or the one after. -/
def Observed (p : Par) (dat : List Int) (yr v : Int) : Prop :=
  ∃ k d, dat[k]? = some d ∧ yr = p.y0 + (k : Nat) ∧ d ≠ p.nodata ∧ v = p.start + d - 1 ∧
    365 * (yr - 1) < v ∧ v ≤ 365 * (yr + 2)

/-- As rational numbers. -/
def rat (obs : List (Int × Int)) : List (ℚ × ℚ) := obs.map fun q => ((q.1 : ℚ), (q.2 : ℚ))

/-- `a + b * year` is the line through the observations: of best fit, or, if there is only one, that of the same day in
each year. -/
def IsLine (obs : List (Int × Int)) (a b : ℚ) : Prop :=
  (2 ≤ obs.length → ∀ a' b', sse (rat obs) a b ≤ sse (rat obs) a' b') ∧
  (obs.length = 1 → b = 365 ∧ ∀ q ∈ obs, (q.2 : ℚ) = a + 365 * q.1)

/-- A date, or 0. -/
def clip (v : ℚ) : ℚ := if 0 ≤ v ∧ v ≤ 2147483647 then v else 0

/-- The targets `t` follow from the phenology `dat`. -/
def Good (rf : ℚ → ℚ) (p : Par) (dat : List Int) (t : List ℚ) : Prop :=
  t.length = p.yn ∧ ∃ obs : List (Int × Int), obs.Nodup ∧ (∀ yr v, (yr, v) ∈ obs ↔ Observed p dat yr v) ∧
    ∃ a b, IsLine obs a b ∧
      (∀ (y : Nat) v, y < p.yn → (p.y1 + y, v) ∈ obs → sse (rat obs) a b ≤ obs.length * p.thr ^ 2 →
        t[y]? = some (v : ℚ)) ∧
      ∀ y : Nat, y < p.yn → (∀ v, (p.y1 + (y : Int), v) ∉ obs) ∨ obs.length * p.thr ^ 2 < sse (rat obs) a b →
        t[y]? = some (rf (clip (a + b * ((p.y1 + y : Int) : ℚ))))

end Verif.Pac.Spec
