import Mathlib.Algebra.Order.Field.Rat
import Verif.Strat.Model

/-!
# Specification of the stratified sampling
-/

namespace Verif.Strat.Spec

/-- The pixel is pre-selected: its class is listed and its random number does not exceed twice the requested
fraction of the pixels of the class. -/
def Chosen (tab : List Stratum) (p : Pix) : Prop := ∃ s ∈ tab, s.cls = p.cls ∧ p.rnd * s.count ≤ 2 * s.size

instance (tab : List Stratum) (p : Pix) : Decidable (Chosen tab p) := by unfold Chosen; infer_instance

/-- The pixels of the image that are pre-selected. -/
def chosen (tab : List Stratum) (image : List Pix) : List Pix := image.filter fun p => Chosen tab p

/-- Number of pixels of a class. -/
def number (c : Int) (l : List Pix) : Nat := (l.filter fun p => p.cls = c).length

/-- A usable table: each class once, with pixels. -/
def GoodTab (tab : List Stratum) : Prop := (tab.map (·.cls)).Nodup ∧ ∀ s ∈ tab, 0 < s.count

end Verif.Strat.Spec
