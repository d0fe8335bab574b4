import Verif.Topo.Model

/-!
# Specification of the topographic derivatives
-/

namespace Verif.Topo.Spec

open Real

/-- A plane that rises by `p` per unit to the east and by `q` per unit to the north, sampled on a grid of the resolution `res`; the rows go from north
to south, the columns from west to east. -/
def plane (z0 p q res : ℝ) (row col : Fin 3) : ℝ := z0 + p * (((col : ℕ) : ℝ) - 1) * res - q * (((row : ℕ) : ℝ) - 1) * res

/-- Unit vector to the sun: east, north, up; zenith `z`, azimuth `a` clockwise from north. -/
noncomputable def sun (z a : ℝ) : ℝ × ℝ × ℝ := (sin z * sin a, sin z * cos a, cos z)

/-- Unit normal of the plane. -/
noncomputable def normal (p q : ℝ) : ℝ × ℝ × ℝ := (-p / √(p ^ 2 + q ^ 2 + 1), -q / √(p ^ 2 + q ^ 2 + 1), 1 / √(p ^ 2 + q ^ 2 + 1))

/-- Scalar product. -/
def dot (a b : ℝ × ℝ × ℝ) : ℝ := a.1 * b.1 + a.2.1 * b.2.1 + a.2.2 * b.2.2

end Verif.Topo.Spec
