import Verif.Float
import Verif.Train.Model

/-!
# Specification of training samples and class weights
-/

namespace Verif.Train

open Verif.Float (Nearest)

/-- `k` is the number `x` without its fractional digits. -/
def IntegerPart (x : ℚ) (k : Int) : Prop := |(k : ℚ)| ≤ |x| ∧ |x| < |(k : ℚ)| + 1 ∧ 0 ≤ (k : ℚ) * x

/-- The sample with these features and this response in the files: features divided by 10000 (up to the accuracy of a
float), the response as float and as integer. -/
structure IsSample (row : List ℚ) (x : ℚ) (s : Sample) : Prop where
  length : s.features.length = row.length
  features : ∀ (j : Nat) (a b : ℚ), row[j]? = some a → s.features[j]? = some b →
    |b - a / 10000| ≤ |a| / 10000 / 2 ^ 23
  value : Nearest 24 x s.value
  cls : IntegerPart x s.cls

/-- `ws` is a list of weights for the classes of the responses `cls`, in ascending order, such that the weight of a
class has the relation `P` to its number of samples. -/
def ForClasses (cls : List Int) (ws : List ℚ) (P : Nat → ℚ → Prop) : Prop :=
  ∃ ids : List Int, ids.Pairwise (· < ·) ∧ (∀ v, v ∈ ids ↔ v ∈ cls) ∧ ids.length = ws.length ∧
    ∀ (i : Nat) (v : Int) (w : ℚ), ids[i]? = some v → ws[i]? = some w → P (cls.count v) w

end Verif.Train
