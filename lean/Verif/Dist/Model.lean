import Verif.Str.Model

/-!
# Model of the distance transform

Models `/repo/src/modules/cross-level/imagefuns-cl.c:312-434`. The loop iterations over columns (first
phase) and rows (second phase) are independent of each other; each thread has its own arrays `s`, `t`.
-/

namespace Verif.Dist

open Verif.Str (Out)

/-- Binary image: row, column. -/
abbrev Bin := Nat → Nat → Bool

/-- Conversion to `ushort`. -/
def ushort (x : Int) : Int := x % 65536

/-- Result of an `int` operation: overflow is undefined. -/
def int (x : Int) : Out Int := if -2147483648 ≤ x ∧ x ≤ 2147483647 then .ok x else .ub

/-- imagefuns-cl.c:332-340 scan 1 of a column. -/
def scan1 (nx ny : Nat) (col : Nat → Bool) : Nat → Int
  | 0 => if col 0 then 0 else ushort (nx + ny)
  | y + 1 => if col (y + 1) then 0 else ushort (1 + scan1 nx ny col y)

/-- imagefuns-cl.c:344-347 scan 2 of a column; the argument counts from the last row. -/
def scan2 (nx ny : Nat) (col : Nat → Bool) : Nat → Int
  | 0 => scan1 nx ny col (ny - 1)
  | k + 1 =>
    if scan2 nx ny col k < scan1 nx ny col (ny - 1 - (k + 1)) then ushort (1 + scan2 nx ny col k)
    else scan1 nx ny col (ny - 1 - (k + 1))

/-- imagefuns-cl.c:325-351: the array `G` after the first phase. -/
def phase1 (nx ny : Nat) (img : Bin) (y x : Nat) : Int := scan2 nx ny (fun y => img y x) (ny - 1 - y)

/-- A read of `G` in the current row `g`. -/
def readG (nx : Nat) (g : Int → Int) (i : Int) : Out Int := if 0 ≤ i ∧ i < nx then .ok (g i) else .ub

/-- imagefuns-cl.c:411-417 `dt_dfun`. -/
def dfun (nx : Nat) (g : Int → Int) (x i : Int) : Out Int :=
  (readG nx g i).bind fun gi =>
  (int ((x - i) * (x - i))).bind fun a => (int (gi * gi)).bind fun b => int (a + b)

/-- imagefuns-cl.c:423-431 `dt_Sep`; division truncates. -/
def sep (nx : Nat) (g : Int → Int) (i u : Int) : Out Int :=
  (readG nx g u).bind fun gu => (readG nx g i).bind fun gi =>
  (int (u * u)).bind fun uu => (int (i * i)).bind fun ii =>
  (int (uu - ii)).bind fun a => (int (gu * gu)).bind fun gu2 => (int (gi * gi)).bind fun gi2 =>
  (int (a + gu2)).bind fun a => (int (a - gi2)).bind fun n => (int (2 * (u - i))).bind fun d =>
  if d = 0 then .ub else .ok (Int.tdiv n d)

/-- `A[i] = v` -/
def upd (A : Int → Int) (i v : Int) : Int → Int := fun k => if k = i then v else A k

/-- imagefuns-cl.c:373: the `while` loop; the argument is `q + 1`, the result the new `q`. -/
def pop (nx : Nat) (g s t : Int → Int) (u : Int) : Nat → Out Int
  | 0 => .ok (-1)
  | k + 1 =>
    (dfun nx g (t k) (s k)).bind fun a => (dfun nx g (t k) u).bind fun b =>
    if a > b then pop nx g s t u k else .ok k

/-- Top of the stack, and the arrays `s`, `t` of `nx` elements. -/
structure St where
  q : Int
  s : Int → Int
  t : Int → Int

/-- imagefuns-cl.c:371-387: scan 3 for one column `u`. -/
def scan3Step (nx : Nat) (g : Int → Int) (st : St) (u : Int) : Out St :=
  (pop nx g st.s st.t u (st.q + 1).toNat).bind fun q =>
  if q < 0 then .ok ⟨0, upd st.s 0 u, st.t⟩
  else
    (sep nx g (st.s q) u).bind fun z =>
    if 1 + z < nx then
      if q + 1 < nx then .ok ⟨q + 1, upd st.s (q + 1) u, upd st.t (q + 1) (1 + z)⟩ else .ub
    else .ok { st with q := q }

/-- imagefuns-cl.c:371-389: scan 3 after the columns `1, …, n`, from imagefuns-cl.c:366. -/
def scan3 (nx : Nat) (g : Int → Int) : Nat → Out St
  | 0 => .ok ⟨0, fun _ => 0, fun _ => 0⟩
  | n + 1 => (scan3 nx g n).bind fun st => scan3Step nx g st (n + 1 : Nat)

/-- imagefuns-cl.c:393-395: scan 4 from column `u - 1` downwards; result: the distances from the first
column on. `(ushort) sqrt(d)` is the integer square root (see `c13_sqrt`). -/
def scan4 (nx : Nat) (g s t : Int → Int) : Nat → Int → Out (List Nat)
  | 0, _ => .ok []
  | u + 1, q =>
    if 0 ≤ q ∧ q < nx then
      (dfun nx g u (s q)).bind fun d =>
      (scan4 nx g s t u (if (u : Int) = t q then q - 1 else q)).bind fun r => .ok (r ++ [Nat.sqrt d.toNat])
    else .ub

/-- imagefuns-cl.c:366-396: one row of the second phase. -/
def row (nx : Nat) (g : Int → Int) : Out (List Nat) :=
  (scan3 nx g (nx - 1)).bind fun st => scan4 nx g st.s st.t nx st.q

/-- imagefuns-cl.c:312-405 `dist_transform_`: row `y` of the distance image. -/
def distTransform (nx ny : Nat) (img : Bin) (y : Nat) : Out (List Nat) :=
  row nx fun x => phase1 nx ny img y x.toNat

end Verif.Dist
