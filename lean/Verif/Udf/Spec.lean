import Verif.Udf.Model

/-!
# Specification of arrays and observations
-/

namespace Verif.Udf.Spec

/-- What a user may see of band `b` (data bands first, then auxiliary bands) at pixel `p` of an image. -/
def observed (im : Img) (nbMain : Nat) (nodata : Int) (b p : Nat) : Int :=
  if im.msk p = true then (if b < nbMain then im.dat b p else im.aux (b - nbMain) p) else nodata

/-- Element `[t, b, y, x]` of a numpy array with `nb` bands, `ny` rows and `nx` columns. -/
def numpyAt (l : List Int) (nb ny nx t b y x : Nat) : Option Int := l[((t * nb + b) * ny + y) * nx + x]?

/-- Element `[t, b, y, x]` of an R array with `nt` time steps, `nb` bands and `ny` rows (from 0). -/
def rAt (l : List Int) (nt nb ny t b y x : Nat) : Option Int := l[t + nt * (b + nb * (y + ny * x))]?

/-- Time steps and bands of a pixel. -/
def matrix (ims : Nat → Img) (d : Dim) (nodata : Int) (p : Nat) : List (List Int) :=
  (List.range d.nt).map fun t => (List.range (d.nbMain + d.nbAux)).map fun b => observed (ims t) d.nbMain nodata b p

/-- The same with missing values. -/
def matrixNA (ims : Nat → Img) (d : Dim) (nodata : Int) (p : Nat) : List (List (Option Int)) :=
  (matrix ims d nodata p).map fun l => l.map fun v => if v = nodata then none else some v

end Verif.Udf.Spec
