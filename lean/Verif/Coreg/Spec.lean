import Mathlib.Data.Rat.Defs
import Mathlib.Algebra.BigOperators.Group.Finset.Basic
import Mathlib.Algebra.BigOperators.Group.List.Basic
import Mathlib.Algebra.Order.Field.Rat
import Mathlib.Data.Rat.Floor

/-!
Specification of the co-registration: what a user expects of linear equations, fitted transformations,
resampled images and image pyramids, without reference to the model.
-/

namespace Verif.Coreg.Spec

/-- `x` solves the `n` equations with coefficients `A` and right hand sides `B`. -/
def Solves (n : Nat) (A : Nat → Nat → ℚ) (B x : Nat → ℚ) : Prop :=
  ∀ i, i < n → ∑ j ∈ Finset.range n, A i j * x j = B i

/-- `A` is singular: a vector that is not zero is mapped to zero. -/
def Singular (n : Nat) (A : Nat → Nat → ℚ) : Prop :=
  ∃ y : Nat → ℚ, (∃ j, j < n ∧ y j ≠ 0) ∧ Solves n A (fun _ => 0) y

/-- Shift of a point. -/
def shift (a b x y : ℚ) : ℚ × ℚ := (x + a, y + b)

/-- Affine transformation of a point. -/
def affine (a0 a1 a2 b0 b1 b2 x y : ℚ) : ℚ × ℚ := (a0 + a1 * x + a2 * y, b0 + b1 * x + b2 * y)

/-- Second order polynomial of a point; `a` and `b` are the coefficients of 1, x, y, x², xy, y². -/
def quadratic (a b : Nat → ℚ) (x y : ℚ) : ℚ × ℚ :=
  (a 0 + a 1 * x + a 2 * y + a 3 * x ^ 2 + a 4 * (x * y) + a 5 * y ^ 2,
   b 0 + b 1 * x + b 2 * y + b 3 * x ^ 2 + b 4 * (x * y) + b 5 * y ^ 2)

/-- Sum over the points `(x1, y1, x2, y2)` of the squared distances between the image of the first
position under `T` and the second position. -/
def misfit (T : ℚ → ℚ → ℚ × ℚ) (pts : List (ℚ × ℚ × ℚ × ℚ)) : ℚ :=
  (pts.map (fun p => ((T p.1 p.2.1).1 - p.2.2.1) ^ 2 + ((T p.1 p.2.1).2 - p.2.2.2) ^ 2)).sum

/-- The four pixels (column, row) around a position, with their bilinear weights. -/
def corners (x y : ℚ) : List (Int × Int × ℚ) :=
  [(⌊x⌋, ⌊y⌋, (1 - Int.fract x) * (1 - Int.fract y)), (⌊x⌋ + 1, ⌊y⌋, Int.fract x * (1 - Int.fract y)),
   (⌊x⌋, ⌊y⌋ + 1, (1 - Int.fract x) * Int.fract y), (⌊x⌋ + 1, ⌊y⌋ + 1, Int.fract x * Int.fract y)]

/-- Value and weight of those of the four pixels that have data. -/
def around (val : Int → Int → Option Int) (x y : ℚ) : List (Int × ℚ) :=
  (corners x y).filterMap (fun q => (val q.1 q.2.1).map (fun v => (v, q.2.2)))

/-- Total weight. -/
def weight (l : List (Int × ℚ)) : ℚ := (l.map (fun v => v.2)).sum

/-- Weighted mean. -/
def wmean (l : List (Int × ℚ)) : ℚ := (l.map (fun v => (v.1 : ℚ) * v.2)).sum / weight l

/-- Weighted sum over the pixels of an image with `H` rows and `W` columns in the square of half width `h`
around row `i` and column `j`; `g dr dc r c` with `dr = r - i + h` and `dc = c - j + h`. -/
def windowSum (W H h i j : Nat) (g : Nat → Nat → Nat → Nat → ℚ) : ℚ :=
  ∑ r ∈ Finset.range H, ∑ c ∈ Finset.range W,
    if i ≤ r + h ∧ r ≤ i + h ∧ j ≤ c + h ∧ c ≤ j + h then g (r + h - i) (c + h - j) r c else 0

/-- Inner product of two patches. -/
def inner (a b : List Int) : ℚ := ((a.zip b).map (fun v => (v.1 : ℚ) * v.2)).sum

/-- Mean of a patch. -/
def mean (a : List Int) : ℚ := (a.map (fun (v : Int) => (v : ℚ))).sum / a.length

/-- Sum of the products of the deviations from the means. -/
def covSum (a b : List Int) : ℚ :=
  ((a.zip b).map (fun v => ((v.1 : ℚ) - mean a) * ((v.2 : ℚ) - mean b))).sum

end Verif.Coreg.Spec
