import Verif.Bap.Model

/-!
# Specification of the compositing
-/

namespace Verif.Bap.Spec

open Verif.Bap

/-- An observation may be used: it is valid, in season (or off-season data are wanted), not too hazy (or
hazy data are wanted, or haze does not matter, or the haze scores do not vary), not too close to clouds. -/
def Admissible (p : Par) (hazeVaries : Prop) (x : Obs × Score × Int) : Prop :=
  x.1.msk = true ∧
  (p.offsea = true ∨ ∀ d, x.2.1.d = some d → 0.01 ≤ d) ∧
  (p.useHazy = true ∨ p.w.h ≤ 0 ∨ ¬ hazeVaries ∨ ∀ h, x.2.1.h = some h → 0.01 ≤ h) ∧
  (p.useCloudy = true ∨ p.w.c ≤ 0 ∨ ∀ c, x.2.1.c = some c → 0.01 ≤ c)

/-- Observation number `j` is admissible, has the best total score of all admissible ones, and is the first
one with that score. -/
def Best (p : Par) (hazeVaries : Prop) (l : List (Obs × Score × Int)) (j : Nat) (x : Obs × Score × Int) : Prop :=
  l[j]? = some x ∧ Admissible p hazeVaries x ∧ ∃ v, x.2.1.t = some v ∧
    ∀ k y u, l[k]? = some y → Admissible p hazeVaries y → y.2.1.t = some u → u ≤ v ∧ (k < j → u < v)

/-- All weights are between 0 and 1, at least one is positive; `t` is their sum if scores are added. -/
structure GoodWeights (p : Par) : Prop where
  d : 0 ≤ p.w.d ∧ p.w.d ≤ 1
  y : 0 ≤ p.w.y ∧ p.w.y ≤ 1
  c : 0 ≤ p.w.c ∧ p.w.c ≤ 1
  h : 0 ≤ p.w.h ∧ p.w.h ≤ 1
  r : 0 ≤ p.w.r ∧ p.w.r ≤ 1
  v : 0 ≤ p.w.v ∧ p.w.v ≤ 1
  pos : 0 < p.w.d + p.w.y + p.w.c + p.w.h + p.w.r + p.w.v
  t : p.add = true → p.w.t = p.w.d + p.w.y + p.w.c + p.w.h + p.w.r + p.w.v

/-- All scores are numbers between 0 and 1. -/
structure Unit01 (s : Score) : Prop where
  t : ∃ x, s.t = some x ∧ 0 ≤ x ∧ x ≤ 1
  d : ∃ x, s.d = some x ∧ 0 ≤ x ∧ x ≤ 1
  y : ∃ x, s.y = some x ∧ 0 ≤ x ∧ x ≤ 1
  c : ∃ x, s.c = some x ∧ 0 ≤ x ∧ x ≤ 1
  h : ∃ x, s.h = some x ∧ 0 ≤ x ∧ x ≤ 1
  r : ∃ x, s.r = some x ∧ 0 ≤ x ∧ x ≤ 1
  v : ∃ x, s.v = some x ∧ 0 ≤ x ∧ x ≤ 1

/-- Number of admissible observations. -/
noncomputable def count (p : Par) (hazeVaries : Prop) (l : List (Obs × Score × Int)) : Nat :=
  open Classical in (l.filter fun x => decide (Admissible p hazeVaries x)).length

/-- What is used about the exponential function (true of the exact one and of a correctly rounded one). -/
structure ExpLike (exp : ℝ → ℝ) : Prop where
  nonneg : ∀ x, 0 ≤ exp x
  le_one : ∀ x, x ≤ 0 → exp x ≤ 1

/-- A target that is in the right order, after 1900, and not degenerate. -/
structure GoodTarget (p : Par) (tg : Target) : Prop where
  late : 1900 * 365 ≤ tg.ce0
  before : tg.ce0 ≤ tg.ce1 ∧ tg.ce1 - tg.ce0 ≤ 40000
  after : tg.ce1 ≤ tg.ce2 ∧ tg.ce2 - tg.ce1 ≤ 40000
  wide : p.typ = .gauss → tg.a ≠ 0 ∧ tg.b ≠ 0

/-- Scores between 0 and 1 on the three target days, a positive number of years, Y_FACTOR at least 1. -/
structure GoodPar (p : Par) : Prop where
  d0 : 0 ≤ p.d0 ∧ p.d0 ≤ 1
  d1 : 0 ≤ p.d1 ∧ p.d1 ≤ 1
  d2 : 0 ≤ p.d2 ∧ p.d2 ≤ 1
  yr : 0 ≤ p.yr
  yf : 1 ≤ p.yf
  w : GoodWeights p

end Verif.Bap.Spec
