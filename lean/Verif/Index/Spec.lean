import Mathlib.Analysis.SpecialFunctions.Exp
import Mathlib.Analysis.Real.Sqrt
import Mathlib.Analysis.SpecialFunctions.Trigonometric.Basic

/-!
# What an index value is

The formulas are those of `docs/source/components/higher-level/tsa/indices.rst`; the reflectances are
integers, scaled by 10000.
-/

namespace Verif.Index.Spec

/-- `v` is the integer part of `y` (towards zero). -/
def IntegerPart (v : Int) (y : ℝ) : Prop := |(v : ℝ)| ≤ |y| ∧ |y| < |(v : ℝ)| + 1 ∧ 0 ≤ (v : ℝ) * y

/-- `v` is the integer part of a number that differs from `x` by at most `e`. -/
def Stored (e : ℝ) (v : Int) (x : ℝ) : Prop := ∃ y : ℝ, |y - x| ≤ e ∧ IntegerPart v y

/-- A 16 bit integer. -/
def Short (b : Int) : Prop := -32768 ≤ b ∧ b ≤ 32767

/-- (A - B) / (A + B) -/
noncomputable def normDiff (a b : Int) : ℝ := ((a : ℝ) - b) / (a + b)

/-- The indices that are normalised differences. -/
def normDiffs : List String := ["NDVI", "NBR", "NDTI", "NDBI", "NDWI", "MNDWI", "NDMI", "NDSI", "NDRE1",
  "NDRE2", "NDVIre1", "NDVIre2", "NDVIre3", "NDVIre2n", "NDVIre3n", "CCI"]

/-- The indices with resistance terms are the quotient of a numerator and a denominator (of NIR, RED and
BLUE as fractions):
EVI = G * (NIR - RED) / (NIR + C1 * RED - C2 * BLUE + L) with G = 2.5, C1 = 6, C2 = 7.5, L = 1,
ARVI = (NIR - RB) / (NIR + RB), SAVI = (NIR - RED) / (NIR + RED + L) * (1 + L),
SARVI = (NIR - RB) / (NIR + RB + L) * (1 + L), with RB = RED - (BLUE - RED) and L = 0.5,
EVI2 = 2.4 * (NIR - RED) / (NIR + RED + 1). -/
inductive Resistant : String → (ℝ → ℝ → ℝ → ℝ) → (ℝ → ℝ → ℝ → ℝ) → Prop
  | evi : Resistant "EVI" (fun n r _ => 2.5 * (n - r)) (fun n r b => n + 6 * r - 7.5 * b + 1)
  | arvi : Resistant "ARVI" (fun n r b => n - (r - (b - r))) (fun n r b => n + (r - (b - r)))
  | savi : Resistant "SAVI" (fun n r _ => (n - r) * (1 + 0.5)) (fun n r _ => n + r + 0.5)
  | sarvi : Resistant "SARVI" (fun n r b => (n - (r - (b - r))) * (1 + 0.5))
      (fun n r b => n + (r - (b - r)) + 0.5)
  | evi2 : Resistant "EVI2" (fun n r _ => 2.4 * (n - r)) (fun n r _ => n + r + 1)

/-- kNDVI = (1 - k) / (1 + k), k = exp(-(NIR - RED)^2 / (2 sigma^2)), sigma = (NIR + RED) / 2. -/
noncomputable def kndvi (n r : ℝ) : ℝ :=
  (1 - Real.exp (-(n - r) ^ 2 / (2 * ((n + r) / 2) ^ 2))) /
    (1 + Real.exp (-(n - r) ^ 2 / (2 * ((n + r) / 2) ^ 2)))

/-- MSRre = ((NIR / RE) - 1) / sqrt((NIR / RE) + 1). -/
noncomputable def msr (n e : ℝ) : ℝ := (n / e - 1) / Real.sqrt (n / e + 1)

/-- The tasseled cap components. -/
noncomputable def tcb (b g r n s1 s2 : ℝ) : ℝ :=
  0.2043 * b + 0.4158 * g + 0.5524 * r + 0.5741 * n + 0.3124 * s1 + 0.2303 * s2
noncomputable def tcg (b g r n s1 s2 : ℝ) : ℝ :=
  -0.1603 * b - 0.2819 * g - 0.4934 * r + 0.7940 * n - 0.0002 * s1 - 0.1446 * s2
noncomputable def tcw (b g r n s1 s2 : ℝ) : ℝ :=
  0.0315 * b + 0.2021 * g + 0.3102 * r + 0.1594 * n - 0.6806 * s1 - 0.6109 * s2

/-- The tasseled cap indices. -/
inductive Cap : String → (ℝ → ℝ → ℝ → ℝ → ℝ → ℝ → ℝ) → Prop
  | bright : Cap "TC-BRIGHT" tcb
  | green : Cap "TC-GREEN" tcg
  | wet : Cap "TC-WET" tcw
  | disturbance : Cap "TC-DI" (fun b g r n s1 s2 => tcb b g r n s1 s2 - (tcg b g r n s1 s2 + tcw b g r n s1 s2))

/-- Height of SWIR1 (1610 nm) above the line between NIR (864 nm) and SWIR2 (2186 nm). -/
noncomputable def contRem (s1 n s2 : ℝ) : ℝ :=
  s1 - (n * (2186 - 1610) + s2 * (1610 - 864)) / (2186 - 864)

end Verif.Index.Spec
