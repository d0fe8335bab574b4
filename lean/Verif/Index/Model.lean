import Verif.Float
import Verif.Sensor.Model

/-!
# Model of the computation of the index values

`src/modules/higher-level/index-compute-hl.c`, without the spectral unmixing.

Simplifications: `f` rounds to `float` and `d` to `double` (any rounding to nearest, no overflow or
underflow, which the magnitudes exclude); `ex` and `sq` are the C functions `exp` and `sqrt`. An
operation on two `float` is rounded once (no fused operations). The loop over the pixels is parallel
and every pixel has its own memory, so that one pixel is modelled. The bands are 16 bit integers.
-/

namespace Verif.Index

open Verif.Str (Out)

/-- Conversion of a floating point number to an integer: truncation. -/
def truncQ (x : ℚ) : Int := x.num.tdiv x.den

/-- `(short)` of a `float`: undefined if the truncated number is out of range. -/
def short (x : ℚ) : Out Int :=
  if -32768 ≤ truncQ x ∧ truncQ x ≤ 32767 then .ok (truncQ x) else .ub

/-- index-compute-hl.c:124-130, in the loop of `index_differenced` (103-139). A division by zero is not
evaluated further: `tmp == 0` is tested first. -/
def differenced (f : ℚ → ℚ) (nodata b1 b2 : Int) : Out Int :=
  let tmp := f ((b1 + b2 : Int) : ℚ)
  let ind := f (f ((b1 - b2 : Int) : ℚ) / tmp)
  if tmp = 0 ∨ ind < -1 ∨ ind > 1 then .ok nodata
  else short (f (ind * 10000))

/-- index-compute-hl.c:181-185, in the loop of `index_cont_remove` (158-194), with the wavelengths of
1153-1154. -/
def contRemove (f : ℚ → ℚ) (b b1 b2 : Int) : Out Int :=
  let w := f (1610 / 1000)
  let w1 := f (864 / 1000)
  let w2 := f (2186 / 1000)
  let tmp := f (f (f (b1 * f (w2 - w)) + f (b2 * f (w - w1))) / f (w2 - w1))
  short (f (b - tmp))

/-- index-compute-hl.c:231-236, in the loop of `index_ratio_minus1` (211-245). -/
def ratio (f d : ℚ → ℚ) (nodata b1 b2 : Int) : Out Int :=
  if b2 = 0 then .ok nodata
  else
    let ind := f (d (f ((b1 : ℚ) / b2) - 1))
    if f (ind * 1000) > 32767 ∨ f (ind * 1000) < -32768 then .ok nodata
    else short (f (ind * 1000))

/-- index-compute-hl.c:281-292, in the loop of `index_msrre` (262-300). The square root of a negative
number is not a number; all comparisons with it are false and its conversion is undefined. -/
def msrre (f d sq : ℚ → ℚ) (nodata b1 b2 : Int) : Out Int :=
  if b2 = 0 then .ok nodata
  else
    let upper := f (d (f ((b1 : ℚ) / b2) - 1))
    let arg := d (f ((b1 : ℚ) / b2) + 1)
    if arg < 0 then .ub
    else
      let lower := f (sq arg)
      let ind := f (upper / lower)
      if lower = 0 ∨ f (ind * 10000) > 32767 ∨ f (ind * 10000) < -32768 then .ok nodata
      else short (f (ind * 10000))

/-- index-compute-hl.c:333-343, in the loop of `index_kernelized` (316-350). -/
def kernelized (f d ex : ℚ → ℚ) (nodata b1 b2 : Int) : Out Int :=
  if b1 ≤ 0 ∨ b2 ≤ 0 then .ok nodata
  else
    let sigma := f (d ((1 : ℚ) / 2 * ((b1 + b2 : Int) : ℚ)))
    let diff := f ((b1 - b2 : Int) : ℚ)
    let tmp := f (ex (f (-f (diff * diff) / f (f (2 * sigma) * sigma))))
    let ind := f (f (1 - tmp) / f (1 + tmp))
    short (f (ind * 10000))

/-- The constants of `index_resistance`. -/
structure Res where
  f1 : ℚ
  f2 : ℚ
  f3 : ℚ
  f4 : ℚ
  rbc : Bool

/-- index-compute-hl.c:397-407, in the loop of `index_resistance` (374-414). -/
def resistance (f : ℚ → ℚ) (k : Res) (nodata n r b : Int) : Out Int :=
  let x : ℚ := if k.rbc then 1 else 0
  let nir : ℚ := n
  let red := f ((r : ℚ) - f (x * f ((b : ℚ) - r)))
  let blue : ℚ := b
  let tmp := f (f (f (nir + f (k.f2 * red)) - f (k.f3 * blue)) + f (k.f4 * 10000))
  let ind := f (f (k.f1 * f (nir - red)) / tmp)
  if tmp = 0 then .ok nodata
  else short (f (ind * 10000))

/-- index-compute-hl.c:439-442: the coefficients, in units of 1/10000. -/
def tcCoef : List (List Int) :=
  [[2043, 4158, 5524, 5741, 3124, 2303],
   [-1603, -2819, -4934, 7940, -2, -1446],
   [315, 2021, 3102, 1594, -6806, -6109]]

/-- index-compute-hl.c:464-466: one component. The products are added from left to right. -/
def tcSum (f : ℚ → ℚ) : List Int → List Int → ℚ
  | c :: cs, b :: bs => (List.zip cs bs).foldl (fun s x => f (s + f (f ((x.1 : ℚ) / 10000) * x.2)))
      (f (f ((c : ℚ) / 10000) * b))
  | _, _ => 0

/-- index-compute-hl.c:463-469, in the loop of `index_tasseled` (436-478): `ind += x[i]*tmp` over the
components; `xs` are their signs and numbers. -/
def tcInd (f : ℚ → ℚ) (bands : List Int) (xs : List (ℚ × Nat)) : ℚ :=
  xs.foldl (fun ind x => f (ind + f (x.1 * tcSum f (tcCoef[x.2]?.getD []) bands))) 0

/-- index-compute-hl.c:445: the components of a type (0: TCB, 1: TCG, 2: TCW, 3: TCD). -/
def tcComponents (type : Nat) : List (ℚ × Nat) :=
  if type = 3 then [(1, 0), (-1, 1), (-1, 2)] else [(1, type)]

/-- index-compute-hl.c:463-469. -/
def tasseled (f : ℚ → ℚ) (type : Nat) (bands : List Int) : Out Int :=
  short (tcInd f bands (tcComponents type))

/-- The constants handed to `index_resistance`: index-compute-hl.c:937, 959, 967, 975 and 1153. -/
def resOf (f : ℚ → ℚ) (name : String) : Res :=
  if name = "EVI" then ⟨5 / 2, 6, 15 / 2, 1, false⟩
  else if name = "ARVI" then ⟨1, 1, 0, 0, true⟩
  else if name = "SAVI" then ⟨3 / 2, 1, 0, 1 / 2, false⟩
  else if name = "SARVI" then ⟨3 / 2, 1, 0, 1 / 2, true⟩
  else ⟨f (24 / 10), 1, 0, 1, false⟩

/-- The component handed to `index_tasseled`: index-compute-hl.c:979, 990, 1001 and 1012. -/
def tcType (name : String) : Nat :=
  if name = "TC-BRIGHT" then 0
  else if name = "TC-GREEN" then 1
  else if name = "TC-WET" then 2
  else 3

/-- The function the chain of comparisons index-compute-hl.c:923-1164 calls for an index. -/
def kindOf (name : String) : Option Verif.Sensor.Kind := (Verif.Sensor.dispatch name).map (·.1)

/-- index-compute-hl.c:923-1164 for one valid observation: the index `name` from the values of its
operands (in the order in which they are handed over). -/
def equation (f d ex sq : ℚ → ℚ) (nodata : Int) (name : String) (ops : List Int) : Out Int :=
  match kindOf name, ops with
  | some .differenced, [b1, b2] => differenced f nodata b1 b2
  | some .resistance, [n, r, b] => resistance f (resOf f name) nodata n r b
  | some .tasseled, [b, g, r, n, s1, s2] => tasseled f (tcType name) [b, g, r, n, s1, s2]
  | some .kernelized, [b1, b2] => kernelized f d ex nodata b1 b2
  | some .ratio, [b1, b2] => ratio f d nodata b1 b2
  | some .msrre, [b1, b2] => msrre f d sq nodata b1 b2
  | some .contRemove, [b, b1, b2] => contRemove f b b1 b2
  | _, _ => .exit

/-- The loop over the dates of one pixel (e.g. index-compute-hl.c:112-135): `mask` is the value of the
processing mask, if there is one; an observation is its mask (`msk`) and its operands; `px` computes
one value. -/
def series {α : Type} (mask : Option Bool) (nodata : Int) (px : α → Out Int) :
    List (Bool × α) → Out (List Int)
  | [] => .ok []
  | (ok, x) :: rest =>
    (if mask = some false then .ok nodata else if !ok then .ok nodata else px x).bind fun v =>
    (series mask nodata px rest).bind fun l => .ok (v :: l)

/-- index-compute-hl.c:59-87 `index_band`: the band is copied. -/
def bandValue (b : Int) : Out Int := .ok b

end Verif.Index
