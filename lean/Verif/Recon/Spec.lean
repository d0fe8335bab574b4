import Verif.Recon.Model

/-!
# Specification of a flood fill
-/

namespace Verif.Recon.Spec

def Inside (nx ny : Nat) (p : Px) : Prop := 0 ≤ p.1 ∧ p.1 < ny ∧ 0 ≤ p.2 ∧ p.2 < nx

/-- First or last row or column. -/
def Border (nx ny : Nat) (p : Px) : Prop :=
  Inside nx ny p ∧ (p.1 = 0 ∨ p.2 = 0 ∨ p.1 = (ny : Int) - 1 ∨ p.2 = (nx : Int) - 1)

/-- Neighbours in the sense of 8-connectivity. -/
def Adj (p q : Px) : Prop := p ≠ q ∧ (p.1 - q.1).natAbs ≤ 1 ∧ (p.2 - q.2).natAbs ≤ 1

/-- There is an 8-connected path inside the image from its border to the pixel on which no value of the
mask exceeds `l`: water of level `l` outside of the image reaches the pixel. -/
inductive Reach (nx ny : Nat) (mask : Img) (l : Int) : Px → Prop
  | border (p : Px) : Border nx ny p → mask p ≤ l → Reach nx ny mask l p
  | step (p q : Px) : Reach nx ny mask l p → Adj p q → Inside nx ny q → mask q ≤ l →
      Reach nx ny mask l q

/-- `v` is the lowest level that reaches the pixel. -/
def IsLevel (nx ny : Nat) (mask : Img) (q : Px) (v : Int) : Prop :=
  Reach nx ny mask v q ∧ ∀ u, Reach nx ny mask u q → v ≤ u

end Verif.Recon.Spec
