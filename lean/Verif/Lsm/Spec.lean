import Verif.Ccl.Spec
import Verif.Lsm.Model

/-! # Specification: patches, kernels and edges

Stated with the parameters `Par` and the input `Chunk` only. -/

namespace Verif.Lsm.Spec

open Verif.Ccl.Spec

/-- The position is in the chunk. -/
def InGrid (c : Chunk) (p : Int × Int) : Prop := 0 ≤ p.1 ∧ p.1 < c.ny ∧ 0 ≤ p.2 ∧ p.2 < c.nx

/-- The pixel takes part: it is in the processing mask, if there is one, and the feature is valid there, or
invalid features are not excluded. -/
def Allowed (par : Par) (c : Chunk) (p : Int × Int) : Prop :=
  (∀ m, c.mask = some m → m p = true) ∧ (par.exclude = true → c.msk p = true)

/-- The value satisfies the query. -/
def Satisfies (x : Int) : Query → Int → Prop
  | .eq, t => x = t
  | .gt, t => t < x
  | .ge, t => t ≤ x
  | .lt, t => x < t
  | .le, t => x ≤ t

/-- The pixels of the class. The first pixel of the chunk never is (see C86). -/
def InClass (par : Par) (c : Chunk) (p : Int × Int) : Prop :=
  (InGrid c p ∧ Allowed par c p ∧ Satisfies (c.dat p) par.query par.threshold) ∧ p ≠ (0, 0)

/-- The pixels of patches that are large enough. -/
def InPatch (par : Par) (c : Chunk) (p : Int × Int) : Prop :=
  InClass par c p ∧ par.minpatch ≤ segmentSize (InClass par c) p

/-- `q` is in the square around `p`. -/
def InSquare (par : Par) (p q : Int × Int) : Prop :=
  p.1 - par.radius ≤ q.1 ∧ q.1 ≤ p.1 + par.radius ∧ p.2 - par.radius ≤ q.2 ∧ q.2 ≤ p.2 + par.radius

/-- `q` is in the kernel around `p`. -/
def InKernel (par : Par) (p q : Int × Int) : Prop :=
  InSquare par p q ∧ (par.circle = true → (q.1 - p.1) ^ 2 + (q.2 - p.2) ^ 2 ≤ (par.radius : Int) ^ 2)

/-- The patch pixels in the kernel around `p`. -/
def InView (par : Par) (c : Chunk) (p q : Int × Int) : Prop := InKernel par p q ∧ InPatch par c q

/-- `q` and `q'` share an edge: they are neighbours in a row or in a column. -/
def Beside (q q' : Int × Int) : Prop :=
  (q.1 = q'.1 ∧ (q'.2 = q.2 + 1 ∨ q'.2 = q.2 - 1)) ∨ (q.2 = q'.2 ∧ (q'.1 = q.1 + 1 ∨ q'.1 = q.1 - 1))

/-- An edge in the kernel around `p`: from a patch pixel to a pixel of the square that belongs to no patch. -/
def IsEdge (par : Par) (c : Chunk) (p q q' : Int × Int) : Prop :=
  InView par c p q ∧ Beside q q' ∧ InSquare par p q' ∧ InGrid c q' ∧ ¬ InPatch par c q'

/-- `x` and `y` belong to the same patch. -/
def SamePatch (par : Par) (c : Chunk) (x y : Int × Int) : Prop := Connected (InClass par c) x y

/-- `T` has one pixel of each patch that is in the kernel around `p`. -/
structure OnePerPatch (par : Par) (c : Chunk) (p : Int × Int) (T : Finset (Int × Int)) : Prop where
  view : ∀ x ∈ T, InView par c p x
  one : ∀ x ∈ T, ∀ y ∈ T, SamePatch par c x y → x = y
  all : ∀ q, InView par c p q → ∃ x ∈ T, SamePatch par c x q

/-- The number of pixels of the patch of `x` in the kernel around `p`. -/
noncomputable def patchSize (par : Par) (c : Chunk) (p x : Int × Int) : Nat :=
  Set.ncard {q | InView par c p q ∧ SamePatch par c x q}

/-- The number of edges of the patch of `x` in the kernel around `p`. -/
noncomputable def patchEdges (par : Par) (c : Chunk) (p x : Int × Int) : Nat :=
  Set.ncard {e : (Int × Int) × (Int × Int) | IsEdge par c p e.1 e.2 ∧ SamePatch par c x e.1}

/-- The number of edges in the kernel around `p`. -/
noncomputable def allEdges (par : Par) (c : Chunk) (p : Int × Int) : Nat :=
  Set.ncard {e : (Int × Int) × (Int × Int) | IsEdge par c p e.1 e.2}

end Verif.Lsm.Spec
