import Verif.Index.Model
import Verif.Stats.Model

/-!
# Model of the training of machine learning models

`src/main/aux-level/force-train.cpp`, `src/modules/aux-level/train-aux.cpp`, and the checks of
`src/modules/aux-level/param-train-aux.c`. `rf` and `rd` are the roundings to float and double. Training and
prediction by OpenCV are not modelled; a trained model is any function. Tables are lists of rows of double numbers, as
`read_table` returns them (C48).
-/

namespace Verif.Train

open Verif.Str (Out)
open Verif.Index (truncQ)

/-! ## Parameters -/

/-- `_ML_SVR_`, `_ML_SVC_`, `_ML_RFR_`, `_ML_RFC_` (enum-cl.h). -/
inductive Method where
  | svr | svc | rfr | rfc
deriving DecidableEq

/-- The parameters of param-train-aux.c:43-64 that are used here. -/
structure Par where
  var : Nat
  percent : ℚ
  random : Bool
  weights : List String
  method : Method

/-- param-train-aux.c:151-158: check of `SVM_C_GRID` and `SVM_GAMMA_GRID`. -/
def gridOk (g : List ℚ) : Bool :=
  match g with
  | [a, b, _] => !decide (a > b)
  | _ => false

/-- param-train-aux.c:169: the sum of the weights, a float variable to which double numbers are added. -/
def weightSum (rf rd : ℚ → ℚ) (vals : List ℚ) : ℚ := vals.foldl (fun s v => rf (rd (s + v))) 0

/-- param-train-aux.c:160-172: check of `FEATURE_WEIGHTS`. `atof` gives the double numbers. -/
def weightsOk (rf rd : ℚ → ℚ) (atof : String → ℚ) (ws : List String) : Bool :=
  match ws with
  | [w] => w = "EQUALIZED" || w = "PROPORTIONAL" || w = "ANTIPROPORTIONAL"
  | _ => !decide (|rd (1 - weightSum rf rd (ws.map atof))| > rf (1 / 100))

/-! ## Training and validation samples -/

/-- force-train.cpp:188: `nrow * per_train / 100` in float, cut to an integer. -/
def nTrain (rf : ℚ → ℚ) (n : Nat) (p : ℚ) : Int := truncQ (rf (rf (rf n * p) / 100))

/-- force-train.cpp:217-220: `rand() % nrow` until a sample is found that is not yet used. `rand i` is the i-th random
number; `none`: more than `fuel` numbers are needed. Result: the sample and the index of the next random number. -/
def draw (rand : Nat → Nat) (used : List Bool) : Nat → Nat → Option (Nat × Nat)
  | 0, _ => none
  | fuel + 1, i =>
    let s := rand i % used.length
    if used.getD s false then draw rand used fuel (i + 1) else some (s, i + 1)

/-- force-train.cpp:216-223: `is_train`. -/
def marks (rand : Nat → Nat) (random : Bool) (fuel : Nat) : List Nat → List Bool × Nat → Out (Option (List Bool))
  | [], st => .ok (some st.1)
  | k :: ks, (used, i) =>
    if random then
      match draw rand used fuel i with
      | none => .ok none
      | some (s, i') => marks rand random fuel ks (used.set s true, i')
    else if k < used.length then marks rand random fuel ks (used.set k true, i) else .ub

/-- force-train.cpp:225-238: samples to `features_train` and `features_val` with `nt` and `nv` elements. -/
def distribute {α : Type} (nt nv : Nat) : List (Bool × α) → List α × List α → Out (List α × List α)
  | [], s => .ok s
  | (true, x) :: r, (t, v) => if t.length < nt then distribute nt nv r (t ++ [x], v) else .ub
  | (false, x) :: r, (t, v) => if v.length < nv then distribute nt nv r (t, v ++ [x]) else .ub

/-- A sample: features, response as float and as integer. -/
structure Sample where
  features : List ℚ
  value : ℚ
  cls : Int
deriving DecidableEq

/-- force-train.cpp:181-186: the response as integer, undefined if it does not fit into an int. -/
def classOf (x : ℚ) : Out Int :=
  if -2147483648 ≤ truncQ x ∧ truncQ x ≤ 2147483647 then .ok (truncQ x) else .ub

/-- force-train.cpp:181-186. -/
def classes : List ℚ → Out (List Int)
  | [] => .ok []
  | x :: xs => (classOf x).bind fun c => (classes xs).bind fun cs => .ok (c :: cs)

/-- force-train.cpp:228, 233: features are divided by 10000. -/
def feature (rf rd : ℚ → ℚ) (x : ℚ) : ℚ := rf (rd (x / 10000))

/-- The rows of the samples. -/
def samples (rf rd : ℚ → ℚ) (feats : List (List ℚ)) (resp : List ℚ) (cls : List Int) : List Sample :=
  List.zipWith (fun (f : List ℚ) (rc : ℚ × Int) => ⟨f.map (feature rf rd), rf rc.1, rc.2⟩) feats (resp.zip cls)

/-! ## Class weights -/

/-- train-aux.cpp:257. -/
def proportional (rf : ℚ → ℚ) (n : Nat) (counts : List Nat) : List ℚ := counts.map fun (c : Nat) => rf (rf c / rf n)

/-- train-aux.cpp:259. -/
def inverse (rf : ℚ → ℚ) (n : Nat) (counts : List Nat) : List ℚ := counts.map fun (c : Nat) => rf (rf n / rf c)

/-- train-aux.cpp:259-261. -/
def antiproportional (rf : ℚ → ℚ) (n : Nat) (counts : List Nat) : List ℚ :=
  let q := inverse rf n counts
  let sum := q.foldl (fun s x => rf (s + x)) 0
  q.map fun x => rf (x / sum)

/-- train-aux.cpp:232-279 `class_priors`. -/
def priors (rf : ℚ → ℚ) (atof : String → ℚ) (par : Par) (cls : List Int) : Out (Option (List ℚ)) :=
  if par.method = .rfr ∨ par.method = .svr then .ok none
  else if par.weights = ["EQUALIZED"] then .ok none
  else if par.weights = ["PROPORTIONAL"] then
    (Verif.Stats.histogram cls).bind fun h => .ok (some (proportional rf cls.length h.1.2))
  else if par.weights = ["ANTIPROPORTIONAL"] then
    (Verif.Stats.histogram cls).bind fun h => .ok (some (antiproportional rf cls.length h.1.2))
  else if par.weights.length > 1 then
    (Verif.Stats.nUniq cls).bind fun k =>
      if k ≠ par.weights.length then .exit else .ok (some (par.weights.map fun w => rf (atof w)))
  else .ok none

/-! ## The program until the training -/

/-- What the model is trained and validated with. -/
structure Setup where
  train : List Sample
  val : List Sample
  priors : Option (List ℚ)

/-- The column of the responses; undefined outside of a row. -/
def column (var : Nat) : List (List ℚ) → Out (List ℚ)
  | [] => .ok []
  | row :: rows =>
    match row[var - 1]? with
    | none => .ub
    | some x => (column var rows).bind fun xs => .ok (x :: xs)

/-- force-train.cpp:216-251: split, class weights; `features_train[0]` (251) is undefined without training samples. -/
def split (rf rd : ℚ → ℚ) (atof : String → ℚ) (rand : Nat → Nat) (fuel : Nat) (par : Par) (feats : List (List ℚ))
    (vals : List ℚ) (cls : List Int) (nt : Nat) : Out (Option Setup) :=
  (marks rand par.random fuel (List.range nt) (List.replicate vals.length false, 0)).bind fun m =>
    match m with
    | none => .ok none
    | some m =>
      (distribute nt (vals.length - nt) (m.zip (samples rf rd feats vals cls)) ([], [])).bind fun tv =>
        (priors rf atof par cls).bind fun pr =>
          if nt = 0 then .ub else .ok (some ⟨tv.1, tv.2, pr⟩)

/-- force-train.cpp:164-251, from the tables of responses (`resp`, `ncol` columns) and features. `.exit`: the program
ends with a message. `.ok none`: more than `fuel` random numbers are needed for a sample. A negative number of
validation samples ends the program in `alloc_2DC` (force-train.cpp:209): memory of almost 2^64 bytes. -/
def run (rf rd : ℚ → ℚ) (atof : String → ℚ) (rand : Nat → Nat) (fuel : Nat) (par : Par) (ncol : Nat)
    (resp feats : List (List ℚ)) : Out (Option Setup) :=
  if resp.length < 1 then .exit
  else if ncol < par.var then .exit
  else
    (column par.var resp).bind fun vals =>
      (classes vals).bind fun cls =>
        if feats.length ≠ resp.length then .exit
        else
          let nt := nTrain rf resp.length par.percent
          if nt < 0 ∨ (resp.length : Int) < nt then .exit
          else split rf rd atof rand fuel par feats vals cls nt.toNat

/-! ## Settings of the models -/

/-- The termination criteria of OpenCV: number of iterations, accuracy. -/
structure Criteria where
  iterations : Option Nat
  accuracy : Option ℚ
deriving DecidableEq

/-- train-aux.cpp:53-63 and 134-144: criteria from `RF_NTREE` and `RF_OOB_ACCURACY`, or `SVM_MAXITER` and
`SVM_ACCURACY`. -/
def criteria (n : Nat) (acc : ℚ) : Out Criteria :=
  if n > 0 ∧ acc > 0 then .ok ⟨some n, some acc⟩
  else if n > 0 then .ok ⟨some n, none⟩
  else if acc > 0 then .ok ⟨none, some acc⟩
  else .exit

/-- train-aux.cpp:147-153: number of features at a split of a Random Forest; `sqrt` is cut to an integer. -/
def splitFeatures (regression : Bool) (given nFeature : Nat) : Nat :=
  if given > 0 then given else if regression then nFeature / 3 else Nat.sqrt nFeature

/-- train-aux.cpp:159-165. -/
def minSamples (regression : Bool) (given : Nat) : Nat := if given > 0 then given else if regression then 5 else 1

/-! ## Reports -/

/-- train-aux.cpp:356-373: overall accuracy in percent, in exact arithmetic; `pred` are the predictions. -/
def accuracy (pairs : List (Int × Int)) : ℚ :=
  let correct := pairs.foldl (fun (c : Nat) (p : Int × Int) => c + (if p.2 = p.1 then 1 else 0)) 0
  (correct : ℚ) / pairs.length * 100

/-- train-aux.cpp:302-324: square of the RMSE in exact arithmetic. Pairs of response and prediction. -/
def meanSquare {K : Type} [Field K] (pairs : List (K × K)) : K :=
  pairs.foldl (fun s p => s + (p.2 - p.1) * (p.2 - p.1)) 0 / pairs.length

open Verif.Stats in
/-- train-aux.cpp:302-326: slope, intercept and R² of predictions against responses, in exact arithmetic. -/
def line {K : Type} [Field K] (pairs : List (K × K)) : (K × K) × K :=
  let r := covarLoop pairs (0, ⟨0, 0, 0, 0, 0⟩)
  (linregCoefs r.2.mx r.2.my (covariance r.2.cv r.1) (variance r.2.vx r.1),
    linregRsquared (covariance r.2.cv r.1) (variance r.2.vx r.1) (variance r.2.vy r.1))

end Verif.Train
