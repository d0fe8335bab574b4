import Verif.Index.Model
import Verif.Stats.Model

/-!
# Model of the machine learning predictions

`machine_learning` of `src/modules/higher-level/ml-hl.c` (206-405) for one pixel (the loop over the pixels is
parallel and every pixel has its own memory).

Simplifications: the models (OpenCV) are parameters: a prediction, and a matrix of votes per class, for every
sample. The features are divided by 10000 exactly. Means and variances are exact instead of `double`; the
probabilities are computed with rounding (`rd`). Sums of votes are exact (below 2^53). `sq` is `sqrt`.
A product that is not requested is not written, the others do not depend on this.
-/

namespace Verif.Ml

open Verif.Str (Out)
open Verif.Index (truncQ short)

/-- The parameters: regression or classification (248), probabilities requested (250), `ML_CONVERGENCE`,
`ML_SCALE`; for every model set, the number of models and of classes (read-aux-hl.cpp:87-137). -/
structure Par where
  regression : Bool
  rfprob : Bool
  converge : ℚ
  scale : ℚ
  sets : List (Nat × Nat)

/-- All models (in one list for all sets), applied to the sample of a pixel: the prediction, and the matrix of
votes with the columns (class, votes). -/
structure Models where
  predict : Nat → ℚ
  votes : Nat → List (Int × Int)

/-- The variables of the loop over the models. -/
structure St where
  m : Nat
  k : Nat
  mean : ℚ
  old : ℚ
  var : ℚ
  ipred : List Int
  prob : List Int
  ntree : Int

/-- ml-hl.c:308-309. -/
def start (nc k : Nat) : St := ⟨0, k, 0, 0, 0, [], List.replicate nc 0, 0⟩

/-- `(int)` of a `float`: undefined if the truncated number is out of range. -/
def intOf (x : ℚ) : Out Int :=
  if -2147483648 ≤ truncQ x ∧ truncQ x ≤ 2147483647 then .ok (truncQ x) else .ub

/-- ml-hl.c:319-328: `win_class` and `max_prob` after the columns. -/
def winner (v : List (Int × Int)) : Int × Int :=
  v.foldl (fun w c => if c.2 > w.2 then c else w) (0, 0)

/-- ml-hl.c:314-343: one model; `nc` columns of the votes are used. -/
def vote (par : Par) (M : Models) (nc : Nat) (s : St) : Out St :=
  if par.rfprob then
    let v := M.votes s.k
    if v.length < nc then .ub
    else
      .ok { s with
        prob := List.zipWith (· + ·) s.prob ((v.take nc).map Prod.snd)
        ntree := s.ntree + ((v.take nc).map Prod.snd).sum
        ipred := s.ipred ++ [(winner (v.take nc)).1] }
  else (intOf (M.predict s.k)).bind fun i => .ok { s with ipred := s.ipred ++ [i] }

/-- ml-hl.c:347-351. -/
def average (M : Models) (s : St) : St :=
  if s.m = 0 then { s with mean := M.predict s.k }
  else
    let r := Verif.Stats.varRec (M.predict s.k) s.mean s.var ((s.m + 1 : Nat) : ℚ)
    { s with mean := r.1, var := r.2 }

/-- ml-hl.c:312-358: the loop over the remaining models of a set with `nm` models. -/
def models (par : Par) (M : Models) (nc nm : Nat) : Nat → St → Out St
  | 0, s => .ok s
  | n + 1, s =>
    (vote par M nc s).bind fun s =>
      if par.regression then
        let s := average M s
        if s.m > 1 ∧ |s.mean - s.old| < par.converge then .ok { s with k := s.k + (nm - s.m), m := s.m + 1 }
        else models par M nc nm n { s with old := s.mean, m := s.m + 1, k := s.k + 1 }
      else models par M nc nm n { s with m := s.m + 1, k := s.k + 1 }

/-- The products of a set at a pixel: prediction, uncertainty, number of iterations, probabilities, margin. -/
structure Result where
  mlp : Out Int
  mlu : Out Int
  mli : Int
  rfp : List (Out Int)
  rfm : Out Int

/-- Conversion of `int` to `short`. -/
def wrap (x : Int) : Int := (x + 32768) % 65536 - 32768

/-- ml-hl.c:361-364 and 369. -/
def prediction (par : Par) (s : St) : Out Int :=
  if par.regression then
    let mn := s.mean * par.scale
    let mn := if mn > 32767 then 32767 else mn
    let mn := if mn < -32768 then -32768 else mn
    short mn
  else (Verif.Stats.mode s.ipred).bind fun c => .ok (wrap c)

/-- ml-hl.c:365-367: with one model `0/0` is not a number; without models it is the root of 0 divided by -1. -/
def uncertainty (sq : ℚ → ℚ) (s : St) : Out Int :=
  if s.m = 0 then .ok 0
  else if s.m = 1 then .ub
  else
    let std := sq (Verif.Stats.variance s.var (s.m : ℚ)) * 10000
    let std := if std > 32767 then 32767 else std
    short std

/-- The double precision number 0.0001. -/
def tenThousandth : ℚ := 7378697629483821 / 73786976294838206464

/-- ml-hl.c:376: `none` is not a number (no votes at all). -/
def probabilities (rd : ℚ → ℚ) (s : St) : List (Option ℚ) :=
  s.prob.map fun (v : Int) => if s.ntree = 0 then none else some (rd (v / rd (s.ntree * tenThousandth)))

/-- ml-hl.c:378-380. -/
def stored : Option ℚ → Out Int
  | none => .ub
  | some x => short x

/-- ml-hl.c:383-386: `max_prob`. A comparison with not a number is false. -/
def maxProb (q : List (Option ℚ)) : Int :=
  q.foldl (fun mx x => match x with
    | none => mx
    | some x => if x > mx then truncQ x else mx) 0

/-- ml-hl.c:387-389: `max2_prob`. -/
def max2Prob (mx : Int) (q : List (Option ℚ)) : Int :=
  q.foldl (fun m2 x => match x with
    | none => m2
    | some x => if x > m2 ∧ x < mx then truncQ x else m2) 0

/-- ml-hl.c:360-393. -/
def result (par : Par) (rd sq : ℚ → ℚ) (s : St) : Result :=
  let q := probabilities rd s
  { mlp := prediction par s
    mlu := uncertainty sq s
    mli := wrap s.m
    rfp := q.map stored
    rfm := .ok (wrap (maxProb q - max2Prob (maxProb q) q)) }

/-- ml-hl.c:306-395: the loop over the sets; `k` is the next model. -/
def sets (par : Par) (M : Models) (rd sq : ℚ → ℚ) : List (Nat × Nat) → Nat → Out (List Result)
  | [], _ => .ok []
  | (nm, nc) :: l, k =>
    (models par M nc nm nm (start nc k)).bind fun s =>
      (sets par M rd sq l s.k).bind fun r => .ok (result par rd sq s :: r)

/-- ml-hl.c:256-395: one pixel, `none` if all products are nodata. `mask`: the value of the processing mask;
`feat`: the features and their validity. -/
def pixel (par : Par) (exclude : Bool) (M : List ℚ → Models) (rd sq : ℚ → ℚ) (mask : Option Bool)
    (feat : List (Int × Bool)) : Out (Option (List Result)) :=
  if mask = some false then .ok none
  else if feat.any fun f => !f.2 && exclude then .ok none
  else (sets par (M (feat.map fun f => (f.1 : ℚ) / 10000)) rd sq par.sets 0).bind fun r => .ok (some r)

end Verif.Ml
