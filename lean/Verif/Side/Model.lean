import Verif.Str.Model
import Verif.Fetch.Model
import Mathlib.Data.Rat.Defs
import Mathlib.Algebra.Order.Ring.Rat

/-!
Three auxiliary inputs: the days for which `force-lut-modis` asks for the lists of granules
(src/modules/lower-level/modwvp-ll.c), the endmember file of the spectral mixture analysis
(src/modules/higher-level/read-aux-hl.cpp), and the data handed to the fit of the AOD spectrum
(src/modules/lower-level/aod-ll.c).
-/

namespace Verif.Side

open Verif.Str (Out)
open Verif.Fetch (Transfer Text fetchMeta)

/-! ### Outages -/

/-- modwvp-ll.c:176-179. -/
def terraY : List Int :=
  [0, 0, 0, 0, 0, 0, 0, 0, 0, 0, 0, 0, 1, 1, 1, 1, 1, 1, 1, 1, 1, 1, 1, 1, 1, 1, 1, 1, 1, 2,
   2, 2, 2, 2, 2, 2, 2, 2, 3, 3, 3, 3, 3, 3, 3, 8, 8]

/-- modwvp-ll.c:180-183. -/
def terraM : List Int :=
  [8, 8, 8, 8, 8, 8, 8, 8, 8, 8, 8, 8, 6, 6, 6, 6, 6, 6, 6, 6, 6, 6, 6, 6, 6, 6, 6, 7, 7, 3,
   3, 3, 3, 3, 3, 3, 3, 4, 12, 12, 12, 12, 12, 12, 12, 12, 12]

/-- modwvp-ll.c:184-187. -/
def terraD : List Int :=
  [6, 7, 8, 9, 10, 11, 12, 13, 14, 15, 16, 17, 16, 17, 18, 19, 20, 21, 22, 23, 24, 25, 26, 27, 28, 29, 30, 1, 2, 20,
   21, 22, 23, 24, 25, 26, 27, 15, 17, 18, 19, 20, 21, 22, 23, 21, 22]

/-- modwvp-ll.c:214. -/
def aquaY : List Int := [2, 2, 2, 2, 2, 2, 2, 2, 2, 2]

/-- modwvp-ll.c:215. -/
def aquaM : List Int := [7, 7, 8, 8, 8, 8, 8, 8, 8, 9]

/-- modwvp-ll.c:216. -/
def aquaD : List Int := [30, 31, 1, 2, 3, 4, 5, 6, 7, 13]

/-- modwvp-ll.c:189-199 and 218-228: is the date in the tables? -/
def listed (ys ms ds : List Int) (y m d : Int) : Bool :=
  (ys.zip (ms.zip ds)).any fun e => y == 2000 + e.1 && m == e.2.1 && d == e.2.2

/-- modwvp-ll.c:174-200 `failure_terra`. -/
def failureTerra (y m d : Int) : Bool := listed terraY terraM terraD y m d

/-- modwvp-ll.c:212-229 `failure_aqua`. -/
def failureAqua (y m d : Int) : Bool := listed aquaY aquaM aquaD y m d

/-- modwvp-ll.c:1035. -/
def aquaFlies (y m d : Int) : Bool := decide (y * 10000 + m * 100 + d ≥ 20020703)

/-- modwvp-ll.c:1034-1105, the lists of granules only: the local file of each satellite afterwards, with the number
of transfers. The names of the files are in `Verif.Fetch` and `Verif.Wvp`. -/
def granuleLists (terra aqua : Nat → Transfer) (y m d : Int) (fileT fileA : Option Text) :
    (Option Text × Nat) × (Option Text × Nat) :=
  (fetchMeta terra (failureTerra y m d) fileT,
   if aquaFlies y m d then fetchMeta aqua (failureAqua y m d) fileA else (fileA, 0))

/-! ### Endmembers -/

/-- A double: a finite value, NaN, or an infinity (`true`: negative). -/
inductive Num where
  | fin (q : ℚ)
  | nan
  | inf (neg : Bool)
deriving DecidableEq

/-- read-aux-hl.cpp:49, 56: division by the scale 10000. The quotient of finite values is not rounded. -/
def unscale : Num → Num
  | .fin q => .fin (q / 10000)
  | .nan => .nan
  | .inf s => .inf s

/-- read-aux-hl.cpp:57, first test: comparison of a double with 0; false for NaN. -/
def below0 : Num → Bool
  | .fin q => decide (q < 0)
  | .nan => false
  | .inf s => s

/-- read-aux-hl.cpp:57, second test: comparison of a double with 1; false for NaN. -/
def above1 : Num → Bool
  | .fin q => decide (q > 1)
  | .nan => false
  | .inf s => !s

/-- read-aux-hl.cpp:56-61: one value; `none`: return with FAILURE. -/
def value (x : Num) : Option Num :=
  if below0 (unscale x) || above1 (unscale x) then none else some (unscale x)

/-- read-aux-hl.cpp:47-76 `read_endmember`, for the table in the file (one list for each row) and the number of bands
of the sensors; `none`: FAILURE, with which `read_aux` (read-aux-hl.cpp:238-244) returns no data and the program
ends (force-higher-level.c:162). Reading of the table is modelled in `Verif.Table`. -/
def readEndmember (table : List (List Num)) (bands : Nat) : Option (List (List Num)) :=
  match table.mapM (fun row => row.mapM value) with
  | none => none
  | some t => if t.length ≠ bands then none else some t

/-! ### Fit of the AOD spectrum -/

/-- aod-ll.c:716-719: number of bands for the estimation of AOD. -/
def countBands (sel : Nat → Bool) (nb : Nat) : Nat :=
  (List.range nb).foldl (fun k b => if sel b then k + 1 else k) 0

/-- A write to `param[i]`; outside of the array it is undefined. -/
def put (p : List ℚ) (i : Nat) (v : ℚ) : Out (List ℚ) :=
  if i < p.length then .ok (p.set i v) else .ub

/-- A read of `p[i]`; outside of the array it is undefined. -/
def get (p : List ℚ) (i : Nat) : Out ℚ :=
  match p[i]? with
  | none => .ub
  | some v => .ok v

/-- aod-ll.c:1462-1464: one band. -/
def packBand (sel : Nat → Bool) (lwvl logaod : Nat → ℚ) (st : List ℚ × Nat) (b : Nat) : Out (List ℚ × Nat) :=
  if !sel b then .ok st else
    (put st.1 st.2 (lwvl b)).bind fun p => (put p (st.2 + 1) (logaod b)).bind fun p => .ok (p, st.2 + 2)

/-- aod-ll.c:1461-1465: the bands in order. -/
def packAll (sel : Nat → Bool) (lwvl logaod : Nat → ℚ) : List Nat → List ℚ × Nat → Out (List ℚ × Nat)
  | [], st => .ok st
  | b :: bs, st => (packBand sel lwvl logaod st b).bind fun st => packAll sel lwvl logaod bs st

/-- aod-ll.c:1456-1465: the array for the minimizer. The values are not rounded to float. -/
def pack (sel : Nat → Bool) (lwvl logaod : Nat → ℚ) (nb naod : Nat) : Out (List ℚ) :=
  (put (List.replicate (naod * 2 + 1) 0) 0 naod).bind fun p =>
    (packAll sel lwvl logaod (List.range nb) (p, 1)).bind fun st => .ok st.1

/-- aod-ll.c:1420-1425: sum of the squares, `n` bands left. -/
def squares (p : List ℚ) (a0 a1 a2 : ℚ) : Nat → Nat → ℚ → Out ℚ
  | 0, _, tmp => .ok tmp
  | n + 1, bb, tmp =>
    (get p bb).bind fun lwvl => (get p (bb + 1)).bind fun laod =>
      let y := a0 + a1 * lwvl + a2 * lwvl * lwvl
      squares p a0 a1 a2 n (bb + 2) (tmp + (y - laod) * (y - laod))

/-- aod-ll.c:1409-1428 `aod_polynomial_minimizer`, without the square root in the return value; `none` is NaN (0/0).
The values are not rounded. -/
def minimizer (p : List ℚ) (a0 a1 a2 : ℚ) : Out (Option ℚ) :=
  (get p 0).bind fun n =>
    (squares p a0 a1 a2 n.num.toNat 1 0).bind fun tmp =>
      .ok (if n.num.toNat = 0 then none else some (tmp / n.num.toNat))

/-- aod-ll.c:1444-1509 `aod_polynomial_fit`: what is minimized, squared, for the bands counted by the caller
(aod-ll.c:716-719, 801). The search for the minimum is done by GSL and is not modelled. -/
def objective (sel : Nat → Bool) (lwvl logaod : Nat → ℚ) (nb : Nat) (a0 a1 a2 : ℚ) : Out (Option ℚ) :=
  (pack sel lwvl logaod nb (countBands sel nb)).bind fun p => minimizer p a0 a1 a2

end Verif.Side
