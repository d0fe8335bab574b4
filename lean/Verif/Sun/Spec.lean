import Verif.Float
import Mathlib.Analysis.SpecialFunctions.Trigonometric.Basic

/-! # Specification: the Gregorian calendar, and the direction to a star -/

namespace Verif.Sun.Spec

def Leap (y : ℕ) : Prop := y % 4 = 0 ∧ (y % 100 ≠ 0 ∨ y % 400 = 0)

instance (y : ℕ) : Decidable (Leap y) := by unfold Leap; infer_instance

def yearLength (y : ℕ) : ℤ := if Leap y then 366 else 365

/-- Days of the years before year `y`, from year 0 on. -/
def daysBefore : ℕ → ℤ
  | 0 => 0
  | y + 1 => daysBefore y + yearLength y

def monthLength (y m : ℕ) : ℤ :=
  if m = 2 then (if Leap y then 29 else 28) else if m = 4 ∨ m = 6 ∨ m = 9 ∨ m = 11 then 30 else 31

/-- Days of the months of year `y` before month `m`. -/
def monthsBefore (y : ℕ) : ℕ → ℤ
  | 0 => 0
  | 1 => 0
  | m + 1 => monthsBefore y m + monthLength y m

def ValidDate (y m : ℕ) (d : ℤ) : Prop := 1 ≤ m ∧ m ≤ 12 ∧ 1 ≤ d ∧ d ≤ monthLength y m

/-- The number of a day. -/
def dayNumber (y m : ℕ) (d : ℤ) : ℤ := daysBefore y + monthsBefore y m + d

/-- The Julian day of 0:00: the one of 1 January 2000 is 2451544.5. -/
def julian (y m : ℕ) (d : ℤ) : ℚ := 4903089 / 2 + (dayNumber y m d - dayNumber 2000 1 1 : ℤ)

/-- `z` (zenith) and `a` (azimuth, clockwise from north), in radians, are the direction of a star with declination `δ` and hour angle `h`
at latitude `φ`: the components up, north and east. -/
def Direction (φ δ h z a : ℝ) : Prop :=
  Real.cos z = Real.sin φ * Real.sin δ + Real.cos φ * Real.cos δ * Real.cos h ∧
  Real.sin z * Real.cos a = Real.cos φ * Real.sin δ - Real.sin φ * Real.cos δ * Real.cos h ∧
  Real.sin z * Real.sin a = - (Real.cos δ * Real.sin h)

end Verif.Sun.Spec
