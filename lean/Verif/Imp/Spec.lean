import Mathlib.Data.Rat.Floor
import Mathlib.Data.Set.Card

/-!
# What the ImproPhe products should contain
-/

namespace Verif.Imp.Spec

/-- `v` is the integer part of `x` (towards zero). -/
def IntegerPart (v : Int) (x : ℚ) : Prop := v = if 0 ≤ x then ⌊x⌋ else ⌈x⌉

/-- The mean of a list of integers. -/
def mean (l : List Int) : ℚ := (l.sum : ℚ) / l.length

/-- A day is in the season from day `a` to the day before `b`; if `a` is after `b`, the season goes over the turn of the
year. -/
def InSeason (a b doy : Int) : Prop := (a < b ∧ a ≤ doy ∧ doy < b) ∨ (b < a ∧ (a ≤ doy ∨ doy < b))

/-- The pixel (i', j') is at most `h` pixels away from (i, j). -/
def Within (h : Nat) (i j i' j' : Int) : Prop := (i' - i) ^ 2 + (j' - j) ^ 2 ≤ (h : Int) ^ 2

/-- The pixel is in an image with `nx` columns and `ny` rows. -/
def InImage (nx ny : Nat) (i j : Int) : Prop := 0 ≤ i ∧ i < ny ∧ 0 ≤ j ∧ j < nx

/-- Mean absolute difference of two pixels in the first `n` bands. -/
def difference (d : Nat → Int → Int → ℚ) (n : Nat) (i j i' j' : Int) : ℚ :=
  ((List.range n).map fun b => |d b i j - d b i' j'|).sum / n

/-- The cut-offs, from strict to loose. -/
def cutoff (c : Nat) : ℚ := [1/40, 1/20, 1/10, 1/5, 2/5].getD c 0

end Verif.Imp.Spec
