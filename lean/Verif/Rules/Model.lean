import Verif.Index.Model
import Verif.Libc.Model
import Verif.Str.Model

/-!
# Model of the rules for parameters of the higher level

`src/modules/higher-level/param-hl.c` `parse_param_higher`, `parse_ftr`. Reading of the values and the check of
the range of each value are in `Verif.Param`; the temporal window is in `Verif.Season`, the weights of the
composites are in `Verif.Bap`, the rules for time series are in `Verif.Tsa`. Floating-point numbers are
rational numbers; `fmod` of two of them is exact, also in C. Products and quotients are exact here.
-/

namespace Verif.Rules

open Verif.Str (Out)

/-! ## Submodule -/

/-- param-hl.c:860-905: `_HL_BAP_`, ... -/
inductive Module where
  | bap | tsa | cso | cfi | l2i | ml | smp | txt | lsm | lib | udf
deriving DecidableEq

/-- `_INP_ARD_`, ... -/
inductive Input where
  | none | ard | qai | ftr | con
deriving DecidableEq

/-- param-hl.c:860-905: submodule and its two inputs. -/
def detect (word : String) : Option (Module × Input × Input) :=
  if word = "++PARAM_LEVEL3_START++" then some (.bap, .ard, .none)
  else if word = "++PARAM_TSA_START++" then some (.tsa, .ard, .none)
  else if word = "++PARAM_CSO_START++" then some (.cso, .qai, .none)
  else if word = "++PARAM_CFIMP_START++" then some (.cfi, .ard, .con)
  else if word = "++PARAM_L2IMP_START++" then some (.l2i, .ard, .ard)
  else if word = "++PARAM_ML_START++" then some (.ml, .ftr, .none)
  else if word = "++PARAM_SMP_START++" then some (.smp, .ftr, .none)
  else if word = "++PARAM_TXT_START++" then some (.txt, .ftr, .none)
  else if word = "++PARAM_LSM_START++" then some (.lsm, .ftr, .none)
  else if word = "++PARAM_LIB_START++" then some (.lib, .ftr, .none)
  else if word = "++PARAM_UDF_START++" then some (.udf, .ard, .none)
  else none

/-- White space of `fscanf`. -/
def isSpace (c : Char) : Bool := c = ' ' || c = '\t' || c = '\n' || c = '\r' || c.toNat = 11 || c.toNat = 12

/-- The conversion `%s` of `fscanf`. -/
def word (text : List Char) : List Char := (text.dropWhile isSpace).takeWhile fun c => !isSpace c

/-- param-hl.c:853-905: `fscanf(fpar, "%s", buffer)` into 65536 characters. `exit`: FAILURE. -/
def submodule (text : List Char) : Out (Module × Input × Input) :=
  if word text = [] then .exit
  else if (word text).length + 1 > 65536 then .ub
  else match detect (String.ofList (word text)) with
    | some m => .ok m
    | none => .exit

/-! ## Grid -/

/-- `fmod`; `none` is not a number. -/
def fmod (a b : ℚ) : Option ℚ := if b = 0 then none else some (a - b * Index.truncQ (a / b))

/-- param-hl.c:843: 5e-3 as `double`. -/
def tol : ℚ := 5764607523034235 / 2 ^ 60

/-- `fmod(a, b) > tol`. -/
def off (a b : ℚ) : Bool := match fmod a b with
  | some r => decide (tol < r)
  | none => false

/-- param-hl.c:1029-1047. -/
def gridOk (res cx cy : ℚ) : Bool :=
  !(off cx res || off cy res) && !(decide (cx ≤ 0) || decide (cy ≤ 0)) && !decide (res ≤ 0)

/-! ## Radius -/

/-- The parameters that define neighbourhoods (map units). -/
structure Radii where
  txtRadius : ℚ
  txtIter : Nat
  lsmRadius : ℚ
  pred : ℚ
  text : ℚ

/-- param-hl.c:1096-1112: margin that is read around each block (map units). -/
def radius (m : Module) (r : Radii) : ℚ := match m with
  | .txt => r.txtRadius * r.txtIter
  | .lsm => r.lsmRadius
  | .l2i => if r.pred > r.text then r.pred else r.text
  | .cfi => if r.pred > r.text then r.pred else r.text
  | _ => 0

/-- param-hl.c:1098, 1101, 1108, 1109: `(int)(radius/res)`. -/
def pixels (x res : ℚ) : Int := Index.truncQ (x / res)

/-- param-hl.c:1114-1117. -/
def radiusOk (m : Module) (r : Radii) (res : ℚ) : Bool := !(decide (radius m r ≠ 0) && off (radius m r) res)

/-- The neighbourhoods that are used for the computation (pixels): param-hl.c:1098, 1101, 1108-1109. -/
def kernels (m : Module) (r : Radii) (res : ℚ) : List Int := match m with
  | .txt => [pixels r.txtRadius res]
  | .lsm => [pixels r.lsmRadius res]
  | .l2i => [pixels r.pred res, pixels r.text res]
  | .cfi => [pixels r.pred res, pixels r.text res]
  | _ => []

/-! ## Ranges -/

/-- param-hl.c:1202-1205: a tile range in order. -/
def order (t : Int × Int) : Int × Int := if t.1 > t.2 then (t.2, t.1) else t

/-- param-hl.c:1077: number of years. -/
def years (ymin ymax : Int) : Int := ymax - ymin + 1

/-! ## Other rules -/

/-- Parameters that are used in the rules. Texts that are `NULL` are `false`. -/
structure Par where
  res : ℚ
  cx : ℚ
  cy : ℚ
  tx : Int × Int
  ty : Int × Int
  dirMask : Bool
  baseMask : Bool
  ymin : Int
  ymax : Int
  radii : Radii
  windows : Nat
  aux : List String
  wc : ℚ
  wh : ℚ
  wv : ℚ
  nthreshold : Nat
  nquery : Nat
  nfeature : Nat
  cfiYears : List Int
  orfp : Bool
  orfm : Bool
  rfc : Bool
  pypOut : Bool
  pypCode : Bool
  rspOut : Bool
  rspCode : Bool
  stream : Bool
  custom : Bool
  optFile : Bool

/-- param-hl.c:1157-1188: one auxiliary product and its weight; the weight is between 0 and 1, and
`fequal` and `dequal` with 0 are equality (utils-cl.c:200-232). -/
def auxOk (aux : List String) (tag : String) (w : ℚ) : Bool :=
  !(decide (w > 0) && !aux.contains tag) && !(decide (w = 0) && aux.contains tag)

/-- param-hl.c:1119-1123, 1157-1188, 1218-1223, 1321-1327: rules of one submodule. Those of time series
are in `Verif.Tsa`, those of weights in `Verif.Bap`. -/
def moduleOk (m : Module) (p : Par) : Bool := match m with
  | .l2i => !decide ((p.windows : Int) - 1 ≤ 0)
  | .cfi => !decide ((p.windows : Int) - 1 ≤ 0) &&
      p.cfiYears.all fun y => !(decide (y < p.ymin) || decide (y > p.ymax))
  | .bap => auxOk p.aux "DST" p.wc && auxOk p.aux "HOT" p.wh && auxOk p.aux "VZN" p.wv
  | .lsm => !decide (p.nthreshold ≠ p.nfeature) && !decide (p.nquery ≠ p.nfeature)
  | _ => true

/-- param-hl.c:1207-1208, 1340-1349: mask and output format; `fileexist` is that of the options. -/
def commonOk (p : Par) : Bool := !(p.dirMask && !p.baseMask) && (!p.custom || p.optFile)

/-- param-hl.c:1296-1319, 1329-1338: options that are switched off. -/
def switchOff (m : Module) (p : Par) : Par := match m with
  | .udf =>
    { p with
      pypOut := p.pypOut && p.pypCode
      pypCode := p.pypOut && p.pypCode
      rspOut := p.rspOut && p.rspCode
      rspCode := p.rspOut && p.rspCode
      stream := p.stream && !(p.rspOut && p.rspCode) }
  | .ml => { p with orfp := p.orfp && p.rfc, orfm := p.orfm && p.rfc }
  | _ => p

/-- param-hl.c:1029-1353: all rules; `none` is FAILURE. -/
def rules (m : Module) (p : Par) : Option Par :=
  if gridOk p.res p.cx p.cy && radiusOk m p.radii p.res && moduleOk m p && commonOk p then
    some (switchOff m { p with tx := order p.tx, ty := order p.ty })
  else none

/-! ## Features -/

/-- param-hl.c:558-568: the features of one line `INPUT_FEATURE = file band band ...`. -/
def featuresOf : List (List Char) → List (List Char × Int)
  | [] => []
  | name :: bands => bands.map fun b => (name, Libc.atoi b)

/-- param-hl.c:547-568: all features. -/
def features (tags : List (List (List Char))) : List (List Char × Int) := tags.flatMap featuresOf

/-- param-hl.c:571-579: is the feature as it should be? -/
def featureOk (f : List Char × Int) : Bool :=
  !f.1.contains '/' && f.1.contains '.' && !decide (f.2 < 0)

/-- param-hl.c:543-583 `parse_ftr`: success. -/
def parseFtr (tags : List (List (List Char))) : Bool := (features tags).all featureOk

/-- param-hl.c:1010: the features that are used. The result of `parse_ftr` is not looked at. -/
def usedFeatures (tags : List (List (List Char))) : Option (List (List Char × Int)) :=
  let _failure := parseFtr tags
  some (features tags)

end Verif.Rules
