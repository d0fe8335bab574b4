import Verif.Cloud.Model
import Verif.Buffer.Spec
import Verif.Qai.Spec
import Verif.Recon.Spec

/-!
# Specification of the detection of clouds
-/

namespace Verif.Cloud.Spec

open Verif.Buffer.Spec (px dist2)
open Verif.Recon (Px)
open Verif.Recon.Spec (Inside Adj)

/-- A pixel of the mask is `r` pixels away or less, and is not closer than `r` pixels to the edge of the image. -/
def Around (nx ny r : Nat) (mask : Int → Bool) (i j : Nat) : Prop :=
  ∃ i' j', Buffer.Spec.Inside ny r i' ∧ Buffer.Spec.Inside nx r j' ∧ px nx mask i' j' = true ∧ dist2 i j i' j' ≤ (r : Int) ^ 2

/-- A pixel of the mask is about `r` pixels away (less than `r + 1/2`) or less. -/
def Near (nx ny r : Nat) (mask : Int → Bool) (i j : Nat) : Prop :=
  ∃ i' j', i' < ny ∧ j' < nx ∧ px nx mask i' j' = true ∧ 2 * dist2 i j i' j' ≤ 2 * (r : Int) ^ 2 + r

/-- The documented rule for cirrus, for a pixel with the quality bits `v`, the reflectance `c` of the cirrus band and the elevation `z` in km. -/
def Cirrus (v : BitVec 16) (c : Int) (z : ℚ) : Prop :=
  Qai.Spec.value .off v = 0 ∧ Qai.Spec.value .snw v = 0 ∧ (c : ℚ) > 100 ∧ (c : ℚ) > 70 + 70 * z * z

/-- `mask` is the mask of cirrus. -/
def CirrusMask (q : Int → BitVec 16) (c : Int → Int) (z : Int → ℚ) (mask : Int → Bool) : Prop := ∀ p, mask p = true ↔ Cirrus (q p) (c p) (z p)

/-- A valid pixel with cloud or shadow. -/
def Covered (v : BitVec 16) : Prop := Qai.Spec.value .off v = 0 ∧ (Qai.Spec.value .cld v ≠ 0 ∨ Qai.Spec.value .shd v ≠ 0)

instance (v : BitVec 16) : Decidable (Covered v) := by unfold Covered; infer_instance

/-- Cells that are connected with a cell of `seeds` by cells that may be added: every cell of the path is a neighbour of the cell before. -/
inductive Grown (nx ny : Nat) (seeds may : Px → Prop) : Px → Prop
  | seed (p : Px) : Inside nx ny p → seeds p → Grown nx ny seeds may p
  | step (p q : Px) : Grown nx ny seeds may p → Adj p q → Inside nx ny q → may q → Grown nx ny seeds may q

end Verif.Cloud.Spec
