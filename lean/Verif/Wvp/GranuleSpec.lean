import Verif.Wvp.Granule

/-!
# Specification: granules on the globe
-/

namespace Verif.Wvp.Spec

open Verif.Wvp (Ring Line)

/-- On which side of the line from corner `i` to corner `j` a point lies (negative: on the
right). -/
def side (r : Ring) (i j : Fin 4) (px py : ℚ) : ℚ := (r.x j - r.x i) * (py - r.y i) - (r.y j - r.y i) * (px - r.x i)

/-- The point lies in the interior of the quadrilateral whose corners are given clockwise. -/
def Interior (r : Ring) (px py : ℚ) : Prop := side r 0 1 px py < 0 ∧ side r 1 2 px py < 0 ∧ side r 2 3 px py < 0 ∧ side r 3 0 px py < 0

/-- Corners in the order upper left, upper right, lower right, lower left. -/
def Ordered (r : Ring) : Prop :=
  r.x 0 < r.x 1 ∧ r.x 3 < r.x 2 ∧ r.x 0 < r.x 2 ∧ r.y 3 < r.y 0 ∧ r.y 2 < r.y 1 ∧ r.y 2 < r.y 0

/-- The frame of 1.5 x 1.5 degrees around a location. -/
def InFrame (lat lon px py : ℚ) : Prop := |px - lon| ≤ 3 / 4 ∧ |py - lat| ≤ 3 / 4

/-- The table gives the corners of granule `t` (longitudes without jump at the date line,
less than 180 degrees wide) with longitudes between -180 and 180, starting with the upper
left corner (Terra) or with the lower right corner (Aqua). -/
def Describes (l : Line) (t : Ring) : Prop :=
  Ordered t ∧ (∀ i j, |t.x i - t.x j| < 180) ∧ (∀ g, |l.ring.x g| ≤ 180) ∧
    ∃ k : Fin 4 → ℤ, (∀ g, l.ring.x g = t.x g + 360 * k g ∧ l.ring.y g = t.y g) ∨
      (∀ g, l.ring.x g = t.x (g + 2) + 360 * k g ∧ l.ring.y g = t.y (g + 2))

/-- Granule of the day side, away from the poles. -/
def Usable (l : Line) : Prop := l.day = true ∧ ¬ (l.w = -180 ∧ l.e = 180) ∧ |l.n| ≤ 89 ∧ |l.s| ≤ 89

/-- The granule overlaps the frame, on the globe (longitudes modulo 360 degrees). -/
def Overlaps (t : Ring) (lat lon : ℚ) : Prop := ∃ (px py : ℚ) (k : ℤ), InFrame lat lon px py ∧ Interior t (px + 360 * k) py

/-- The granule contains the frame, on the globe. -/
def Contains (t : Ring) (lat lon : ℚ) : Prop := ∃ k : ℤ, ∀ px py, InFrame lat lon px py → Interior t (px + 360 * k) py

end Verif.Wvp.Spec
