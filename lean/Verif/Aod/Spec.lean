import Mathlib.Data.Real.Basic
import Mathlib.Algebra.Order.Floor.Ring
import Mathlib.Data.Rat.Floor
import Verif.Libc.Model

/-! # Aerosol estimation: what is expected -/

namespace Verif.Aod.Spec

/-- Mean of a function on a list. -/
def mean (l : List (Int × Int)) (f : Int × Int → ℚ) : ℚ := (l.map f).sum / l.length

/-- All positions of an image. -/
def Inside (ny nx : Nat) (p : Int × Int) : Prop := 0 ≤ p.1 ∧ p.1 < ny ∧ 0 ≤ p.2 ∧ p.2 < nx

/-- `l` lists exactly the positions of the image with a property, each once. -/
def Lists (ny nx : Nat) (P : Int × Int → Prop) (l : List (Int × Int)) : Prop :=
  l.Nodup ∧ ∀ p, p ∈ l ↔ Inside ny nx p ∧ P p

/-- The cell of a grid in which a pixel is; both start at the same corner. `n` pixels are one cell. -/
def cellOf (n : Int) (p : Int × Int) : Int × Int := (p.1 / n, p.2 / n)

/-- The reflectance does not increase from a band to a later one. -/
def NonIncreasing (earlier later : Nat → Prop) (v : Nat → Int) : Prop :=
  ∀ a b, a < b → earlier a → later b → v b ≤ v a

/-- Sum of squared residuals of the line with intercept `a` and slope `s`. -/
def sse (pts : List (ℝ × ℝ)) (a s : ℝ) : ℝ := (pts.map fun p => (p.2 - (a + s * p.1)) ^ 2).sum

/-- A site with external AOD: longitude, latitude and the coefficients. -/
structure Site where
  x : ℚ
  y : ℚ
  co : ℚ × ℚ × ℚ

/-- A word of a line. -/
def Word (w : List Char) : Prop := w ≠ [] ∧ ' ' ∉ w ∧ '\n' ∉ w

/-- A line of the file (without its end) that describes a site: five numbers, separated by blanks. -/
def LineOf (rd : ℚ → ℚ) (line : List Char) (s : Site) : Prop :=
  ∃ x y a b c : List Char, (Word x ∧ Word y ∧ Word a ∧ Word b ∧ Word c) ∧
    line = x ++ ' ' :: (y ++ ' ' :: (a ++ ' ' :: (b ++ ' ' :: c))) ∧
    Libc.atof rd x = s.x ∧ Libc.atof rd y = s.y ∧ Libc.atof rd a = s.co.1 ∧ Libc.atof rd b = s.co.2.1 ∧
    Libc.atof rd (c ++ ['\n']) = s.co.2.2

/-- Squared distance in degrees. -/
def dist2 (cx cy : ℚ) (s : Site) : ℚ := (cx - s.x) ^ 2 + (cy - s.y) ^ 2

end Verif.Aod.Spec
