import Verif.Lib.Model
import Verif.Stats.Spec
import Mathlib.Algebra.BigOperators.Group.Finset.Basic
import Mathlib.Order.Bounds.Basic

/-! # Specification: distance to a library -/

namespace Verif.Lib.Spec

/-- The features that are valid at the pixel. -/
def valid (nf : Nat) (px : Pixel) : Finset Nat := (Finset.range nf).filter fun f => px.msk f = true

/-- The sample standard deviation of a feature in the library (`sq` is the square root). -/
def sdev (sq : ℚ → ℚ) (lib : Library) (f : Nat) : ℚ :=
  sq (Verif.Stats.Spec.moment 2 (lib.map fun r => r f) / (lib.length - 1))

/-- The unit of a feature: its standard deviation if the features are rescaled. -/
def unit (rescale : Bool) (sq : ℚ → ℚ) (lib : Library) (f : Nat) : ℚ := if rescale then sdev sq lib f else 1

/-- The mean absolute difference between the pixel and a row of the library, over the valid features. -/
def meanDiff (rescale : Bool) (sq : ℚ → ℚ) (nf : Nat) (lib : Library) (px : Pixel) (row : Nat → ℚ) : ℚ :=
  (∑ f ∈ valid nf px, |row f - px.dat f| / unit rescale sq lib f) / (valid nf px).card

/-- The factor of the written numbers. -/
def factor (rescale : Bool) : ℚ := if rescale then 1000 else 1

/-- The pixel is tested: not masked, and no invalid feature excludes it. -/
def Tested (exclude : Bool) (nf : Nat) (mask : Option Bool) (px : Pixel) : Prop :=
  mask ≠ some false ∧ (exclude = true → ∀ f < nf, px.msk f = true)

/-- The library can be used: it has a row, and if the features are rescaled it has two and the standard
deviation of every valid feature is positive. -/
def Usable (rescale : Bool) (sq : ℚ → ℚ) (nf : Nat) (lib : Library) (px : Pixel) : Prop :=
  lib ≠ [] ∧ (rescale = true → 2 ≤ lib.length ∧ ∀ f ∈ valid nf px, 0 < sdev sq lib f)

end Verif.Lib.Spec
