import Mathlib.Algebra.BigOperators.Fin
import Mathlib.Algebra.Order.Field.Rat
import Mathlib.Data.List.FinRange
import Verif.Index.Model

/-!
# Model of the spectral unmixing

`index_unmixed` of `src/modules/higher-level/index-compute-hl.c` (493-852).

The active set method is modelled over an arbitrary type of numbers with arbitrary operations (`Num`),
so that IEEE double precision with rounding, infinities and NaN is one instance and exact arithmetic
(`exact`) another. The linear algebra of GSL is external: `solve P` is the vector computed by LU
decomposition and inversion for the passive set `P`, `grad d` is `t(Z)x - t(Z)Zd`.

Simplifications: one pixel and one date are modelled, since all variables are set anew for each of
them; a GSL vector or matrix without elements is undefined behaviour (the minimum of an empty vector
is read).
-/

namespace Verif.Unmix

open Verif.Str (Out)

/-- The operations on `double` the code uses. -/
structure Num (α : Type) where
  add : α → α → α
  sub : α → α → α
  mul : α → α → α
  div : α → α → α
  abs : α → α
  gt : α → α → Bool
  le : α → α → Bool
  lt : α → α → Bool
  isnan : α → Bool
  zero : α
  neg1 : α
  /-- `INT_MAX` -/
  big : α
  /-- index-compute-hl.c:502 `tol = FLT_MIN` -/
  tol : α

/-- The loop of `gsl_vector_max_index` and `gsl_vector_min_index` (GSL): the first index that is better
than all before, or the first that is not a number. -/
def best {α : Type} {M : Nat} (better : α → α → Bool) (isnan : α → Bool) (v : Fin M → α) :
    List (Fin M) → Fin M → Fin M
  | [], b => b
  | i :: is, b => if isnan (v i) then i else best better isnan v is (if better (v i) (v b) then i else b)

/-- `gsl_vector_max_index` (and `gsl_vector_max`, which is the value there); the same for the minimum.
`l` are the indices of the vector. -/
def pick {α : Type} {M : Nat} (better : α → α → Bool) (isnan : α → Bool) (v : Fin M → α)
    (l : List (Fin M)) : Option (Fin M) :=
  l.head?.map fun b => best better isnan v l b

/-- The variables of the active set method: index-compute-hl.c:514-521. `P` and `R` hold 0 and 1. -/
structure St (α : Type) (M : Nat) where
  P : Fin M → Bool
  R : Fin M → Bool
  d : Fin M → α
  s : Fin M → α
  w : Fin M → α
  it : Nat

/-- index-compute-hl.c:658-691 and 738-771: the fit of the passive set is written to `s`, its minimum is
returned. -/
def refit {α : Type} {M : Nat} (n : Num α) (solve : (Fin M → Bool) → Fin M → α) (st : St α M) :
    Out (St α M × α) :=
  match pick n.lt n.isnan (solve st.P) ((List.finRange M).filter st.P) with
  | none => .ub
  | some i => .ok ({ st with s := fun i => if st.P i then solve st.P i else n.zero }, solve st.P i)

/-- index-compute-hl.c:705-726 (C1-C4): the step towards `s` up to the first element that vanishes. -/
def shrink {α : Type} {M : Nat} (n : Num α) (st : St α M) : St α M :=
  let a : Fin M → α := fun i =>
    if n.le (st.s i) n.tol && st.P i then n.div (st.d i) (n.sub (st.d i) (st.s i)) else n.big
  match pick n.lt n.isnan a (List.finRange M) with
  | none => { st with it := st.it + 1 }
  | some k =>
    let d : Fin M → α := fun i => n.add (st.d i) (n.mul (a k) (n.sub (st.s i) (st.d i)))
    let gone : Fin M → Bool := fun i => n.lt (n.abs (d i)) n.tol && st.P i
    { st with
      it := st.it + 1
      d := d
      P := fun i => if gone i then false else st.P i
      R := fun i => if gone i then true else st.R i }

/-- index-compute-hl.c:701-781 (C): the inner loop; the first argument is `itmax - it`. -/
def inner {α : Type} {M : Nat} (n : Num α) (solve : (Fin M → Bool) → Fin M → α) :
    Nat → St α M → α → Out (St α M)
  | 0, st, _ => .ok st
  | k + 1, st, smin =>
    if n.le smin n.zero then
      (refit n solve (shrink n st)).bind fun r => inner n solve k r.1 r.2
    else .ok st

/-- index-compute-hl.c:783-797 (B5, B6). -/
def update {α : Type} {M : Nat} (n : Num α) (grad : (Fin M → α) → Fin M → α) (st : St α M) : St α M :=
  { st with d := st.s, w := fun i => if st.R i then grad st.s i else n.neg1 }

/-- index-compute-hl.c:644-698 and the rest of the body of the main loop, with the index `m` that enters
the passive set. -/
def body {α : Type} {M : Nat} (n : Num α) (itmax : Nat) (solve : (Fin M → Bool) → Fin M → α)
    (grad : (Fin M → α) → Fin M → α) (m : Fin M) (st : St α M) : Out (St α M) :=
  (refit n solve { st with
    P := fun i => if i = m then true else st.P i
    R := fun i => if i = m then false else st.R i }).bind fun r =>
  (inner n solve (itmax - st.it) r.1 r.2).bind fun st' => .ok (update n grad st')

/-- index-compute-hl.c:638-642 (B1, B2): the index that enters, if the main loop goes on; no vector has no
elements. -/
def enter {α : Type} {M : Nat} (n : Num α) (st : St α M) : Out (Option (Fin M)) :=
  match pick n.gt n.isnan st.w (List.finRange M) with
  | none => .ub
  | some m => .ok (if (List.finRange M).any st.R && n.gt (st.w m) n.tol then some m else none)

/-- index-compute-hl.c:638-799: the main loop; `none` if it has not ended after `fuel` rounds. -/
def loop {α : Type} {M : Nat} (n : Num α) (itmax : Nat) (solve : (Fin M → Bool) → Fin M → α)
    (grad : (Fin M → α) → Fin M → α) : Nat → St α M → Option (Out (St α M))
  | 0, st =>
    match enter n st with
    | .ok none => some (.ok st)
    | .ok (some _) => none
    | _ => some .ub
  | fuel + 1, st =>
    match enter n st with
    | .ok none => some (.ok st)
    | .ok (some m) =>
      match body n itmax solve grad m st with
      | .ok st' => loop n itmax solve grad fuel st'
      | _ => some .ub
    | _ => some .ub

/-- index-compute-hl.c:623-635 (A): initialization. -/
def start {α : Type} {M : Nat} (n : Num α) (grad : (Fin M → α) → Fin M → α) : St α M :=
  { P := fun _ => false, R := fun _ => true, d := fun _ => n.zero, s := fun _ => n.zero,
    w := grad fun _ => n.zero, it := 0 }

/-- index-compute-hl.c:620-801: the non-negative fit, with `itmax = 30*M` (523). -/
def nonNeg {α : Type} {M : Nat} (n : Num α) (solve : (Fin M → Bool) → Fin M → α)
    (grad : (Fin M → α) → Fin M → α) (fuel : Nat) : Option (Out (St α M)) :=
  loop n (30 * M) solve grad fuel (start n grad)

/-- Exact arithmetic. -/
def exact (tol : ℚ) : Num ℚ where
  add := (· + ·)
  sub := (· - ·)
  mul := (· * ·)
  div := (· / ·)
  abs := fun x => |x|
  gt := fun a b => decide (a > b)
  le := fun a b => decide (a ≤ b)
  lt := fun a b => decide (a < b)
  isnan := fun _ => false
  zero := 0
  neg1 := -1
  big := 2147483647
  tol := tol

/-- index-compute-hl.c:525-541: the endmembers, with a row of ones if `sto`. -/
def rows {L M : Nat} (sto : Bool) (Z : Fin L → Fin M → ℚ) : List (Fin M → ℚ) :=
  List.ofFn Z ++ if sto then [fun _ => 1] else []

/-- index-compute-hl.c:571 and 593: the spectrum, with a one if `sto`. -/
def spectrum {L : Nat} (sto : Bool) (x : Fin L → ℚ) : List ℚ :=
  List.ofFn x ++ if sto then [1] else []

/-- index-compute-hl.c:554: `t(Z)Z`. -/
def ztz {M : Nat} (rs : List (Fin M → ℚ)) (i j : Fin M) : ℚ := (rs.map fun r => r i * r j).sum

/-- index-compute-hl.c:596: `t(Z)x`. -/
def ztx {M : Nat} (rs : List (Fin M → ℚ)) (xs : List ℚ) (i : Fin M) : ℚ :=
  ((rs.zip xs).map fun p => p.1 i * p.2).sum

/-- index-compute-hl.c:632-635 and 789-793: `t(Z)x - t(Z)Zd` in exact arithmetic. -/
def gradient {M : Nat} (rs : List (Fin M → ℚ)) (xs : List ℚ) (d : Fin M → ℚ) (i : Fin M) : ℚ :=
  ztx rs xs i - ∑ j, ztz rs i j * d j

/-- index-compute-hl.c:598-801: the fractions. Without `pos`, all endmembers are fitted. -/
def fractions {M : Nat} (tol : ℚ) (pos : Bool) (rs : List (Fin M → ℚ)) (xs : List ℚ)
    (solve : (Fin M → Bool) → Fin M → ℚ) (fuel : Nat) : Option (Out (Fin M → ℚ)) :=
  if !pos then some (.ok (solve fun _ => true))
  else (nonNeg (exact tol) solve (gradient rs xs) fuel).map fun o => o.bind fun st => .ok st.d

/-- index-compute-hl.c:805-814: the mean of the squared residuals. `L` counts the appended row. -/
def meanSquare {M : Nat} (rs : List (Fin M → ℚ)) (xs : List ℚ) (d : Fin M → ℚ) : ℚ :=
  ((rs.zip xs).map fun p => (p.2 - ∑ j, d j * p.1 j) * (p.2 - ∑ j, d j * p.1 j)).sum / rs.length

/-- index-compute-hl.c:814: the RMSE, `sq` is `sqrt`. -/
def rmse {M : Nat} (sq : ℚ → ℚ) (rs : List (Fin M → ℚ)) (xs : List ℚ) (d : Fin M → ℚ) : Out Int :=
  Verif.Index.short (sq (meanSquare rs xs d) * 10000)

/-- index-compute-hl.c:817-826: optional shade normalization and the selection of the endmember `emb`.
GSL ends the program if the index is out of range. If the shade fraction is one, the normalized
fractions are infinite or not a number, and their conversion is undefined. -/
def retain {M : Nat} (shn : Bool) (emb : Int) (d : Fin M → ℚ) : Out Int :=
  if h : 1 ≤ emb ∧ emb ≤ M then
    let i : Fin M := ⟨(emb - 1).toNat, by omega⟩
    let last : Fin M := ⟨M - 1, by omega⟩
    if shn then
      if i = last then Verif.Index.short 0
      else if d last = 1 then .ub
      else Verif.Index.short (d i * (1 / (1 - d last)) * 10000)
    else Verif.Index.short (d i * 10000)
  else .exit

/-- index-compute-hl.c:577-587 and 814-826 for one date: the fraction and the RMSE written for a pixel
(`orms`: if it is requested; the memory of the RMSE is zero before). `mask` is the processing mask, `msk`
the mask of the date. -/
def write (mask : Option Bool) (msk orms : Bool) (nodata : Int) (fraction rms : Out Int) :
    Out (Int × Option Int) :=
  if mask = some false then .ok (nodata, if orms then some 0 else none)
  else if !msk then .ok (nodata, if orms then some nodata else none)
  else if orms then rms.bind fun r => fraction.bind fun v => .ok (v, some r)
  else fraction.bind fun v => .ok (v, none)

end Verif.Unmix
