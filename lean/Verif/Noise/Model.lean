/-!
# Model of the noise screening of a time series

Models the body of the pixel loop of `/repo/src/modules/higher-level/quality-hl.c:156-372` (`screen_noise`).
Floating point operations are parameters.
-/

namespace Verif.Noise

/-- The floating point operations used. -/
structure Ops (F : Type) where
  /-- `k / 2` as a number; all residuals have this form -/
  half : Nat → F
  gt : F → F → Bool
  sq : F → F
  add : F → F → F
  /-- division by an integer -/
  divn : F → Nat → F
  sqrt : F → F
  div : F → F → F
  /-- `INT_MAX` -/
  intMax : F

/-- A pixel's time series: number of dates, values, dates (continuous days). -/
structure Series where
  nt : Nat
  dat : Nat → Int
  ce : Nat → Int

/-- Twice the residual quality-hl.c:262-270 (and 336-344), `/` between integers truncates. -/
def residual2 (s : Series) (l m r : Nat) : Nat :=
  if s.ce r = s.ce l then (2 * s.dat m - (s.dat r - s.dat l)).natAbs
  else 2 * (s.dat m - Int.tdiv (s.dat r - s.dat l) (s.ce r - s.ce l) * (s.ce m - s.ce l) - s.dat l).natAbs

/-- Variables of the neighbour search. -/
structure Nb where
  left : Nat
  first : Nat
  right : Nat
  last : Nat
  vl : Bool
  vr : Bool

/-- quality-hl.c:237-259: search for the previous and next observation, over the indices still to be visited. -/
def search (msk : Nat → Bool) (mid : Nat) : List Nat → Nb → Nb
  | [], b => b
  | t :: ts, b =>
    if !msk t then search msk mid ts b
    else if t < mid then search msk mid ts { b with left := t, first := if b.vl then b.first else t, vl := true }
    else if t = mid then search msk mid ts b
    else if !b.vr then search msk mid ts { b with right := t, last := t, vr := true }
    else { b with last := t }

/-- `for (t=t_left; t<nt; t++)` -/
def from_ (left nt : Nat) : List Nat := (List.range (nt - left)).map (left + ·)

/-- quality-hl.c:271-283: observation that is to blame. -/
def blame (s : Series) (b : Nb) (mid : Nat) : Nat :=
  if b.left = b.first ∧ (s.dat b.left - s.dat b.right).natAbs > (s.dat mid - s.dat b.right).natAbs then b.left
  else if b.right = b.last ∧ (s.dat b.left - s.dat b.right).natAbs > (s.dat mid - s.dat b.left).natAbs then b.right
  else mid

/-- Variables of a round. -/
structure Round (F : Type) where
  nb : Nb
  n : Nat
  maxr : F
  ssqr : F
  tmaxr : Nat

/-- quality-hl.c:226-291: one date of the loop over `t_mid`. -/
def midStep {F : Type} (o : Ops F) (s : Series) (msk : Nat → Bool) (a : Round F) (mid : Nat) : Round F :=
  if !msk mid then a
  else
    let b := search msk mid (from_ a.nb.left s.nt) { a.nb with vl := false, vr := false }
    if !b.vl || !b.vr then { a with nb := b }
    else
      let y := o.half (residual2 s b.left mid b.right)
      { nb := b, n := a.n + 1, ssqr := o.add a.ssqr (o.sq y),
        maxr := if o.gt y a.maxr then y else a.maxr,
        tmaxr := if o.gt y a.maxr then blame s b mid else a.tmaxr }

/-- The dates `1, …, nt-2` -/
def mids (nt : Nat) : List Nat := (List.range (nt - 2)).map (· + 1)

/-- quality-hl.c:217-291 -/
def round {F : Type} (o : Ops F) (s : Series) (msk : Nat → Bool) : Round F :=
  (mids s.nt).foldl (midStep o s msk)
    { nb := ⟨0, 0, 0, 0, false, false⟩, n := 0, maxr := o.half 0, ssqr := o.half 0, tmaxr := 0 }

/-- Result of the outlier phase. -/
structure Outliers (F : Type) where
  msk : Nat → Bool
  removed : Nat → Bool
  /-- `none`: still `INT_MAX` -/
  noise : Option F

/-- quality-hl.c:213-304: the `while` loop, with its condition evaluated for `rel`, `n`; `none` when it is
still running after `fuel` rounds. -/
def outliers {F : Type} (o : Ops F) (s : Series) (above : F) : Nat → F → Nat → Outliers F → Option (Outliers F)
  | 0, rel, n, a => if o.gt rel above && decide (n > 2) then none else some a
  | fuel + 1, rel, n, a =>
    if o.gt rel above && decide (n > 2) then
      let r := round o s a.msk
      if r.n < 2 then outliers o s above fuel rel r.n a
      else
        let noise := o.sqrt (o.divn r.ssqr r.n)
        let rel' := o.div r.maxr noise
        if o.gt rel' above then
          outliers o s above fuel rel' r.n
            { msk := fun t => if t = r.tmaxr then false else a.msk t,
              removed := fun t => if t = r.tmaxr then true else a.removed t, noise := some noise }
        else outliers o s above fuel rel' r.n { a with noise := some noise }
    else some a

/-- quality-hl.c:318-334: search for the previous and next observation in the restoration phase. -/
def search2 (msk : Nat → Bool) (mid : Nat) : List Nat → Nb → Nb
  | [], b => b
  | t :: ts, b =>
    if !msk t then search2 msk mid ts b
    else if t < mid then search2 msk mid ts { b with left := t, vl := true }
    else if t = mid then search2 msk mid ts b
    else { b with right := t, vr := true }

/-- quality-hl.c:311-352: one date of the restoration phase; state: mask, `t_left`. -/
def restoreStep {F : Type} (o : Ops F) (s : Series) (nodata : Int) (below noise : F) (removed : Nat → Bool)
    (a : (Nat → Bool) × Nat) (mid : Nat) : (Nat → Bool) × Nat :=
  if a.1 mid || decide (s.dat mid = nodata) || removed mid then a
  else
    let b := search2 a.1 mid (from_ a.2 s.nt) ⟨a.2, 0, 0, 0, false, false⟩
    if !b.vl || !b.vr then (a.1, b.left)
    else if o.gt below (o.div (o.half (residual2 s b.left mid b.right)) noise) then
      (fun t => if t = mid then true else a.1 t, b.left)
    else (a.1, b.left)

/-- quality-hl.c:307-352 -/
def restore {F : Type} (o : Ops F) (s : Series) (nodata : Int) (below : F) (a : Outliers F) : Nat → Bool :=
  match a.noise with
  | none => a.msk
  | some noise => ((mids s.nt).foldl (restoreStep o s nodata below noise a.removed) (a.msk, 0)).1

/-- quality-hl.c:156-372 `screen_noise` for one pixel; `off`: both thresholds are 0; `inMask`: the pixel is in
the processing mask. Result: mask after the outlier phase, mask after the restoration phase. -/
def screen {F : Type} (o : Ops F) (s : Series) (nodata : Int) (above below : F) (off inMask : Bool) (fuel : Nat)
    (msk : Nat → Bool) : Option ((Nat → Bool) × (Nat → Bool)) :=
  if off || decide (s.nt < 3) || !inMask then some (msk, msk)
  else (outliers o s above fuel o.intMax s.nt ⟨msk, fun _ => false, none⟩).map fun a =>
    (a.msk, restore o s nodata below a)

end Verif.Noise
