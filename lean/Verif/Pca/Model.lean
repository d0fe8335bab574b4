import Mathlib.Algebra.BigOperators.Group.Finset.Basic
import Mathlib.Algebra.BigOperators.Fin
import Mathlib.Data.Rat.Defs
import Mathlib.Algebra.Order.Ring.Rat

/-!
# Model of the principal component analysis

`pca` of `src/modules/cross-level/pca-cl.c` (49-206). Simplifications: exact arithmetic; the rows of the matrices are named by the
pixel instead of by the counter `k`, which is increased at the same pixels in both loops (107-109, 180-188); the solver
(`gsl_eigen_symmv`, `gsl_eigen_symmv_sort`) is a parameter that returns eigenvalues and a matrix whose columns are the
eigenvectors.
-/

namespace Verif.Pca

/-- The image: `inp b p` is band `b` of pixel `p`. -/
structure Image (nb nc : Nat) where
  inp : Fin nb → Fin nc → Int
  masked : Fin nc → Bool
  nodata : Int

variable {nb nc : Nat}

/-- pca-cl.c:71-85: `NODATA`. -/
def Image.invalid (m : Image nb nc) (p : Fin nc) : Bool := m.masked p || decide (∃ b, m.inp b p = m.nodata)

/-- pca-cl.c:84: `nk`. -/
def Image.nk (m : Image nb nc) : Nat := (Finset.univ.filter fun p => m.invalid p = false).card

/-- pca-cl.c:76-87: `mean`. The value is added before it is known whether all bands are valid. -/
def Image.mean (m : Image nb nc) (b : Fin nb) : ℚ :=
  (∑ p, if m.masked p = false ∧ m.inp b p ≠ m.nodata then (m.inp b p : ℚ) else 0) / m.nk

/-- pca-cl.c:105-109: `GINP`. -/
def Image.centred (m : Image nb nc) (p : Fin nc) (b : Fin nb) : ℚ := m.inp b p - m.mean b

/-- pca-cl.c:121-122: `covm`. -/
def Image.cov (m : Image nb nc) (a b : Fin nb) : ℚ :=
  (1 / ((m.nk : ℚ) - 1)) * ∑ p ∈ Finset.univ.filter fun p => m.invalid p = false, m.centred p a * m.centred p b

/-- What the solver returns. -/
structure Solution (nb : Nat) where
  eval : Fin nb → ℚ
  evec : Fin nb → Fin nb → ℚ

/-- pca-cl.c:158-165: `numcomp`; the eigenvalues as a list, `total` is their sum. If it is zero, the share is not a number, and
the comparison is false (here the quotient is zero). -/
def search (minvar total : ℚ) : List ℚ → ℚ → Nat → Option Nat
  | [], _, _ => none
  | e :: l, cum, b => if (cum + e) / total > minvar then some (b + 1) else search minvar total l (cum + e) (b + 1)

/-- pca-cl.c:155-166. -/
def numcomp (minvar : ℚ) (s : Solution nb) : Nat :=
  if minvar < 1 then (search minvar (∑ b, s.eval b) (List.ofFn s.eval) 0 0).getD nb else nb

/-- pca-cl.c:177: `GPCA`, the product of `GINP` and the transposed `evec`. -/
def Image.projected (m : Image nb nc) (s : Solution nb) (p : Fin nc) (b : Fin nb) : ℚ := ∑ j, m.centred p j * s.evec b j

/-- pca-cl.c:49-206: band `b` of the result; `none` if it is not kept. -/
def Image.pca (m : Image nb nc) (solve : (Fin nb → Fin nb → ℚ) → Solution nb) (minvar : ℚ) (b : Fin nb) (p : Fin nc) : Option ℚ :=
  let s := solve m.cov
  if b.val ≥ numcomp minvar s then none
  else if m.invalid p then some m.nodata
  else some (m.projected s p b)

end Verif.Pca
