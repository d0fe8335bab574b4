import Verif.Noise.Model
import Mathlib.Data.Rat.Defs
import Mathlib.Algebra.Order.Ring.Unbundled.Rat
import Mathlib.Algebra.Order.Field.Rat

/-!
# Specification of the noise screening
-/

namespace Verif.Noise.Spec

/-- What is used about floating point numbers: comparison of residuals with 0, and that 0 divided by the
root of a zero mean is not a number, so not larger than anything. -/
structure Ieee {F : Type} (o : Ops F) : Prop where
  gt_zero : ∀ k, o.gt (o.half k) (o.half 0) = true ↔ 0 < k
  sq_zero : o.sq (o.half 0) = o.half 0
  add_zero : o.add (o.half 0) (o.half 0) = o.half 0
  divn_zero : ∀ n, 0 < n → o.divn (o.half 0) n = o.half 0
  sqrt_zero : o.sqrt (o.half 0) = o.half 0
  nan : ∀ x, o.gt (o.div (o.half 0) (o.half 0)) x = false

/-- `l`, `m`, `r` are consecutive valid observations. -/
def Triplet (msk : Nat → Bool) (nt : Nat) (x : Nat × Nat × Nat) : Prop :=
  (x.1 < x.2.1 ∧ x.2.1 < x.2.2 ∧ x.2.2 < nt) ∧ (msk x.1 = true ∧ msk x.2.1 = true ∧ msk x.2.2 = true) ∧
  (∀ t, x.1 < t → t < x.2.1 → msk t = false) ∧ (∀ t, x.2.1 < t → t < x.2.2 → msk t = false)

/-- Linear interpolation between the observations `(cl, yl)` and `(cr, yr)` at `c`. -/
def interpolate (cl yl cr yr c : Int) : ℚ := yl + ((yr : ℚ) - yl) / (cr - cl) * (c - cl)

end Verif.Noise.Spec
