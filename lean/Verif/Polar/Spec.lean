import Verif.Polar.Model

/-!
# Specification of the polarmetrics
-/

namespace Verif.Polar.Spec

/-- `y` is the last valid step of `l`. -/
def LastValid (nodata : Int) (l : List Step) (y : Step) : Prop :=
  ∃ a g, l = a ++ y :: g ∧ y.v ≠ nodata ∧ ∀ q ∈ g, q.v = nodata

/-- `z` is the first valid step of `l`. -/
def FirstValid (nodata : Int) (l : List Step) (z : Step) : Prop :=
  ∃ g b, l = g ++ z :: b ∧ z.v ≠ nodata ∧ ∀ q ∈ g, q.v = nodata

/-- The value at time `t` on the straight line through two steps. -/
def onLine (y z : Step) (t : Int) : ℚ := y.v + ((z.v : ℚ) - y.v) * ((t : ℚ) - y.ce) / ((z.ce : ℚ) - y.ce)

/-- `v` is the value of step `x` between the steps `pre` and `post`: the observed value, the linear interpolation
between the nearest valid steps, or the value of the nearest valid step at the ends; not negative. -/
def Filled (nodata : Int) (pre : List Step) (x : Step) (post : List Step) (v : ℚ) : Prop :=
  (x.v ≠ nodata → v = max 0 (x.v : ℚ)) ∧
  (x.v = nodata →
    (∀ y z, LastValid nodata pre y → FirstValid nodata post z → v = max 0 (onLine y z x.ce)) ∧
    (∀ y, LastValid nodata pre y → (∀ q ∈ post, q.v = nodata) → v = max 0 (y.v : ℚ)) ∧
    (∀ z, (∀ q ∈ pre, q.v = nodata) → FirstValid nodata post z → v = max 0 (z.v : ℚ)))

/-- Sum of the values of season `s` in `l`. -/
def total (s : Int) (l : List Pt) : ℚ := ((l.filter fun p => p.season = s).map (·.val)).sum

/-- `p` is the step of season `s` at which the running total of the season reaches the share `t` of its total. -/
def Crosses (l : List Pt) (s : Int) (t : ℚ) (p : Pt) : Prop :=
  ∃ pre post, l = pre ++ p :: post ∧ p.season = s ∧
    total s pre < t * total s l ∧ t * total s l ≤ total s (pre ++ [p])

/-- `p` is the first step of season `s` with a positive running total. -/
def Begins (l : List Pt) (s : Int) (p : Pt) : Prop :=
  ∃ pre post, l = pre ++ p :: post ∧ p.season = s ∧ total s pre = 0 ∧ 0 < total s (pre ++ [p])

/-- `p` is the first step after season `s`, or the last step of the series if there is none. -/
def Ends (l : List Pt) (s : Int) (p : Pt) : Prop :=
  (∃ pre post, l = pre ++ p :: post ∧ s < p.season ∧ ∀ q ∈ pre, q.season ≤ s) ∨
  (∃ pre, l = pre ++ [p] ∧ ∀ q ∈ l, q.season ≤ s)

/-- `p` is a step of season `s` where the running total is at least the share `a` but less than the share `b`. -/
def Within (l : List Pt) (s : Int) (a b : ℚ) (p : Pt) : Prop :=
  ∃ pre post, l = pre ++ p :: post ∧ p.season = s ∧
    a * total s l ≤ total s (pre ++ [p]) ∧ total s (pre ++ [p]) < b * total s l

/-- The steps of season `s`. -/
def steps (s : Int) (l : List Pt) : List Pt := l.filter fun p => p.season = s

/-- The steps of season `s` where the running total (`run` before the first one) is at least the share `a` but less
than the share `b` of `whole`. -/
def window (s : Int) (whole a b run : ℚ) : List Pt → List Pt
  | [] => []
  | p :: l =>
    if p.season = s then
      if a * whole ≤ run + p.val ∧ run + p.val < b * whole then p :: window s whole a b (run + p.val) l
      else window s whole a b (run + p.val) l
    else window s whole a b run l

/-- Increase of each step of `window` over the value before it in the series (`prev` for the first one; 0 if there is
none). -/
def windowRises (s : Int) (whole a b run : ℚ) (prev : Option ℚ) : List Pt → List ℚ
  | [] => []
  | p :: l =>
    if p.season = s then
      if a * whole ≤ run + p.val ∧ run + p.val < b * whole then
        (p.val - prev.getD p.val) :: windowRises s whole a b (run + p.val) (some p.val) l
      else windowRises s whole a b (run + p.val) (some p.val) l
    else windowRises s whole a b run (some p.val) l

/-- Increase from each step of season `s` over the step before it in the series (the first step of the series has
none). -/
def rises (s : Int) (l : List Pt) : List ℚ :=
  ((l.zip l.tail).filter fun x => x.2.season = s).map fun x => x.2.val - x.1.val

end Verif.Polar.Spec
