import Verif.Date.Model
import Verif.Fold.Model
import Verif.Stats.Model

/-!
# Model of the clear-sky observation statistics

`src/modules/higher-level/cso-hl.c`. Dates are counted in days (`ce`, 365 days per year). The statistics are
exact real numbers.
-/

namespace Verif.Cso

open Verif.Str (Out)
open Verif.Fold (truncR shortOf)

/-! ## Windows -/

/-- cso-hl.c:249: next year and month. -/
def next (step : Int) (c : Int × Int) : Int × Int :=
  if c.2 + step > 12 then (c.1 + 1, c.2 + step - 12) else (c.1, c.2 + step)

/-- cso-hl.c:246-247: there is another window; `last`: year and month of the end of the period. -/
def more (last c : Int × Int) : Bool := decide (c.1 < last.1 ∨ (c.1 ≤ last.1 ∧ c.2 < last.2))

/-- cso-hl.c:246-250: number of windows. `none`: the loop has not ended after `fuel` rounds. -/
def countWindows (step : Int) (last : Int × Int) : Nat → Int × Int → Option Nat
  | 0, _ => none
  | fuel + 1, c => if more last c then (countWindows step last fuel (next step c)).map (· + 1) else some 0

/-- cso-hl.c:94-111: first days of `n` windows. -/
def starts (step : Int) : Nat → Int × Int → List Int
  | 0, _ => []
  | n + 1, (y, m) =>
    let c := if m > 12 then (y + 1, m - 12) else (y, m)
    Date.date2ce c.1 c.2 1 :: starts step n (c.1, c.2 + step)

/-- cso-hl.c:83-84, 97-111: there is one more date than windows, the right boundary. -/
def boundaries (step : Int) (nw : Nat) (first : Int × Int) : List Int := starts step (nw + 1) first

/-- cso-hl.c:273-284: first and last observation of the window `[a, b)`, starting with observation `t`. -/
def scan (a b : Int) : List Int → Nat → Int × Int → Int × Int
  | [], _, s => s
  | ce :: l, t, (t0, t1) =>
    if ce ≥ a ∧ ce < b then scan a b l (t + 1) (if t0 < 0 then (t : Int) else t0, t)
    else if ce ≥ b then (t0, t1)
    else scan a b l (t + 1) (t0, t1)

/-- cso-hl.c:269-290: first and last observation of each window, -1 if there is none. -/
def assign (ces : List Int) : List Int → Nat → List (Int × Int)
  | a :: b :: l, left =>
    let r := scan a b (ces.drop left) left (-1, -1)
    r :: assign ces (b :: l) (if r.2 ≥ 0 then r.2.toNat else left)
  | _, _ => []

/-! ## Statistics of a window of a pixel -/

/-- State of the loop: number of observations, gaps so far (`q_array[0..k-1]`), sums of `kurt_recurrence`
(with `k` as first component), minimum, maximum, previous date. -/
structure St where
  n : Nat
  q : List Int
  mom : Nat × ℝ × ℝ × ℝ × ℝ
  mn : Int
  mx : Int
  left : Int

/-- cso-hl.c:338, 352: `kurt_recurrence(d_ce, &mean, &var, &skew, &kurt, ++k)`. -/
noncomputable def recur (d : ℝ) (m : Nat × ℝ × ℝ × ℝ × ℝ) : Nat × ℝ × ℝ × ℝ × ℝ :=
  (m.1 + 1, Stats.kurtRec d m.2.1 m.2.2.1 m.2.2.2.1 m.2.2.2.2 ((m.1 + 1 : Nat) : ℝ))

/-- cso-hl.c:336-340, 350-354: a gap is included. -/
noncomputable def addGap (s : St) (d : Int) : St :=
  { s with
    q := s.q ++ [d]
    mom := recur d s.mom
    mn := if d < s.mn then d else s.mn
    mx := if d > s.mx then d else s.mx }

/-- cso-hl.c:326-346: one observation (validity and date). -/
noncomputable def obsStep (s : St) (o : Bool × Int) : St :=
  if !o.1 then s
  else
    let s' := if o.2 > s.left then { addGap s (o.2 - s.left) with left := o.2 } else s
    { s' with n := s'.n + 1 }

/-- cso-hl.c:317-324. -/
def initSt (a : Int) : St := ⟨0, [], (0, 0, 0, 0, 0), 32767, -32768, a⟩

/-- cso-hl.c:317-361: a window `[a, b)`; `some os`: the observations from `t0` to `t1`, `none`: there are none.
Simplification: the dates in a window are at most 32767 days apart (they are at most 365). -/
noncomputable def window (a b : Int) : Option (List (Bool × Int)) → St
  | some os =>
    let s := os.foldl obsStep (initSt a)
    if b - s.left > 0 then addGap s (b - s.left) else s
  | none => ⟨0, [], (0, ((b - a : Int) : ℝ), 0, 0, 0), b - a, b - a, a⟩

/-- cso-hl.c:367-370. -/
noncomputable def clamp (x : ℝ) : ℝ := if x < -30000 then -30000 else if x > 30000 then 30000 else x

/-- cso-hl.c:372: number of observations. -/
def outNum (s : St) : Int := s.n
/-- cso-hl.c:373. -/
def outMin (s : St) : Int := s.mn
/-- cso-hl.c:374. -/
def outMax (s : St) : Int := s.mx
/-- cso-hl.c:375. -/
def outRng (s : St) : Int := s.mx - s.mn
/-- cso-hl.c:376. -/
noncomputable def outAvg (s : St) : Out Int := shortOf (some s.mom.2.1)

/-- cso-hl.c:377: `(short)standdev(var, n)`; a division by zero gives infinity or no number, whose conversion is
undefined. -/
noncomputable def outStd (s : St) : Out Int :=
  if s.n = 1 then .ub else shortOf (some (Stats.standdev s.mom.2.2.1 s.n))

/-- cso-hl.c:364-368, 378: skewness; only computed with observations. 0/0 passes the comparisons of `clamp`, then
its conversion is undefined. -/
noncomputable def outSkw (s : St) : Out Int :=
  if s.n = 0 then .ok 0 else if s.mom.2.2.1 = 0 then .ub
  else shortOf (some (clamp (Stats.skewness s.mom.2.2.1 s.mom.2.2.2.1 s.n * 1000)))

/-- cso-hl.c:364-370, 379: kurtosis. -/
noncomputable def outKrt (s : St) : Out Int :=
  if s.n = 0 then .ok 0 else if s.mom.2.2.1 = 0 then .ub
  else shortOf (some (clamp ((Stats.kurtosis s.mom.2.2.1 s.mom.2.2.2.2 s.n - 3) * 1000)))

/-- cso-hl.c:383: `quantile(q_array, n, q)`, see stats-cl.c:669-677: the first `n` elements of the array are
sorted. `stale`: what the array contains behind the gaps of this window. `quant`: quantile of sorted data
(GSL library). -/
noncomputable def outQuant (quant : List ℝ → ℝ) (stale : List Int) (s : St) : Out Int :=
  shortOf (some (quant ((((s.q ++ stale).take s.n).map fun x : Int => (x : ℝ)).insertionSort (· ≤ ·))))

/-- cso-hl.c:315-361: the products of a window, one after the other. -/
noncomputable def pixel (ces : List Int) (msk : List Bool) (bounds : List Int) : List St :=
  (bounds.zip (bounds.drop 1)).zipWith (fun ab r =>
    window ab.1 ab.2 (if r.1 > -1 then some (((msk.zip ces).drop r.1.toNat).take (r.2 - r.1 + 1).toNat) else none))
    (assign ces bounds 0)

end Verif.Cso
