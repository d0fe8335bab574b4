import Verif.Str.Model
import Mathlib.Data.List.Sort
import Mathlib.Data.List.Dedup
import Mathlib.Data.Rat.Defs
import Mathlib.Algebra.Order.Field.Rat
import Mathlib.Algebra.BigOperators.Group.List.Basic

/-!
# Model of force-synthmix

`python/force-synthmix.py`. Simplifications: class numbers are rational numbers; the likelihoods and the mixed profiles are computed
without rounding, the fractions with the rounding `fl` of double precision; the random numbers and the classes and samples that are drawn
are inputs. `sum` adds from left to right (Python up to 3.11). The parameter file is not modelled.
-/

namespace Verif.Mix

open Verif.Str (Out)

/-- Python `sum` of a list of floating point numbers. -/
def sumFl (fl : ℚ → ℚ) (l : List ℚ) : ℚ := l.foldl (fun a b => fl (a + b)) 0

/-- force-synthmix.py:104: the default of `targetRange`. -/
def targetRange : ℚ × ℚ := (0, 1)

/-- force-synthmix.py:101-108: the next fraction; `drawn` are the fractions so far, `u` is the random number. -/
def nextFraction (fl : ℚ → ℚ) (drawn : List ℚ) (u : ℚ) : ℚ :=
  if drawn.length = 0 then fl (fl (u * fl (targetRange.2 - targetRange.1)) + targetRange.1)
  else fl (u * fl (1 - sumFl fl drawn))

/-- force-synthmix.py:100-108: one fraction for each random number. -/
def drawFractions (fl : ℚ → ℚ) (us : List ℚ) : List ℚ := us.foldl (fun d u => d ++ [nextFraction fl d u]) []

/-- force-synthmix.py:99-110: the fractions of a mixture of `us.length + 1` samples, with the assertion. -/
def fractions (fl : ℚ → ℚ) (us : List ℚ) : Out (List ℚ) :=
  let d := drawFractions fl us
  let l := d ++ [fl (1 - sumFl fl d)]
  if sumFl fl l = 1 then .ok l else .exit

/-- force-synthmix.py:113: one band of the mixed profile; `values` are the values of the samples in this band. -/
def profile (values fractions : List ℚ) : ℚ := (List.zipWith (· * ·) values fractions).sum

/-- numpy `unique`: the classes, in ascending order. -/
def classesOf (response : List ℚ) : List ℚ := response.dedup.insertionSort (· ≤ ·)

/-- numpy `unique`: the numbers of samples of these classes. -/
def counts (response : List ℚ) : List Nat := (classesOf response).map fun c => response.count c

/-- A dictionary that is built from pairs: the last one counts. -/
def get (d : List (ℚ × ℚ)) (k : ℚ) : Option ℚ := (d.reverse.find? fun p => p.1 = k).map (·.2)

/-- CLASS_LIKELIHOOD. -/
inductive Likelihood where
  | proportional
  | equalized
  | custom (l : List ℚ)

/-- force-synthmix.py:57-64, 264: the dictionary. -/
def likelihood (response classes : List ℚ) : Likelihood → List (ℚ × ℚ)
  | .proportional => classes.zip ((counts response).map fun n : Nat => (n : ℚ) / response.length)
  | .equalized => classes.map fun c => (c, 1 / (classes.length : ℚ))
  | .custom l => classes.zip l

/-- force-synthmix.py:76-81: the classes that are drawn besides the target. -/
def drawable (within : Bool) (target : ℚ) (classes : List ℚ) : List ℚ := if within then classes else classes.filter (· ≠ target)

/-- force-synthmix.py:65-88: the classes with their probabilities; `none`: the program ends with an exception. -/
def classP (within : Bool) (target : ℚ) (response classes : List ℚ) (lik : Likelihood) : Option (List (ℚ × ℚ)) :=
  let d := likelihood response classes lik
  if classes.any fun c => (get d c).isNone then none
  else
    let t := (get d target).getD 0
    if !within && t = 1 && classes.any (· ≠ target) then none
    else
      let ids := drawable within target classes
      let p := ids.map fun c => if within then (get d c).getD 0 else (get d c).getD 0 / (1 - t)
      if ids ≠ [] ∧ p.sum = 0 then none else some (ids.zip (p.map fun v => v / p.sum))

/-- A mixture: the class of each sample, the first one is the target, and the fractions. -/
structure Mixture where
  classIds : List ℚ
  fractions : List ℚ

/-- force-synthmix.py:90-115: a mixture of the target with the classes `drawn`, of which there are as many as random numbers. -/
def mixture (fl : ℚ → ℚ) (target : ℚ) (drawn us : List ℚ) : Out Mixture :=
  (fractions fl us).bind fun f => .ok ⟨target :: drawn, f⟩

/-- force-synthmix.py:288: the response that is written for a mixture (before rounding to four decimal places). -/
def label (m : Mixture) : ℚ := m.fractions.headD 0

/-- force-synthmix.py:293-297: the response that is written for an original sample. -/
def labelOriginal (target c : ℚ) : ℚ := if c = target then 1 else 0

/-- force-synthmix.py:286-290: the first mixtures of the stream, counted from `i`; the loop ends after number `n`. -/
def writeMixtures (n : Nat) : Nat → List Mixture → List ℚ
  | _, [] => []
  | i, m :: ms => if i = n then [label m] else label m :: writeMixtures n (i + 1) ms

/-- force-synthmix.py:285-297: the lines of the response file. -/
def responses (n : Nat) (stream : List Mixture) (original : Bool) (target : ℚ) (response : List ℚ) : List ℚ :=
  writeMixtures n 1 stream ++ if original then response.map (labelOriginal target) else []

end Verif.Mix
