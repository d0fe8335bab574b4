import Verif.Stats.Spec
import Verif.Ml.Model
import Mathlib.Algebra.BigOperators.Group.Finset.Basic

/-! # Specification: ensembles of models -/

namespace Verif.Ml.Spec

/-- The models of set `i` are numbered from `first L i` on. -/
def first (L : List (Nat × Nat)) (i : Nat) : Nat := ((L.take i).map Prod.fst).sum

/-- The number of votes in column `c`. -/
def votesFor (v : List (Int × Int)) (c : Nat) : Int :=
  match v[c]? with
  | some x => x.2
  | none => 0

/-- The class in column `c` wins: it has more votes than the columns before it, and no column has more votes. -/
def Wins (v : List (Int × Int)) (c : Nat) : Prop :=
  c < v.length ∧ (∀ d < c, votesFor v d < votesFor v c) ∧ ∀ d, votesFor v d ≤ votesFor v c

/-- The class that a single model assigns: its prediction, or the class with most votes if probabilities are
requested. -/
def Assigns (par : Par) (M : Models) (k : Nat) (cls : Int) : Prop :=
  if par.rfprob = true then ∃ c n, Wins (M.votes k) c ∧ (M.votes k)[c]? = some (cls, n)
  else M.predict k = cls

/-- The mean of the first `m` predictions, from model `k` on. -/
def meanOf (M : Models) (k m : Nat) : ℚ := (∑ j ∈ Finset.range m, M.predict (k + j)) / m

/-- The mean no longer changes with the `m`-th prediction (at least the third). -/
def Settled (conv : ℚ) (M : Models) (k m : Nat) : Prop :=
  3 ≤ m ∧ |meanOf M k m - meanOf M k (m - 1)| < conv

/-- The number of predictions that are used, of `n`. -/
def Used (conv : ℚ) (M : Models) (k n m : Nat) : Prop :=
  m ≤ n ∧ (∀ j < m, ¬ Settled conv M k j) ∧ (Settled conv M k m ∨ m = n)

/-- The votes of the `n` models from `k` on for column `c`. -/
def votesOf (M : Models) (k n c : Nat) : Int := ∑ j ∈ Finset.range n, votesFor (M.votes (k + j)) c

/-- All votes of the `n` models from `k` on, with `nc` columns. -/
def allVotes (M : Models) (k n nc : Nat) : Int := ∑ c ∈ Finset.range nc, votesOf M k n c

/-- The models are classifiers: every set has a model, and every model predicts an integer that fits into 16 bits;
if probabilities are requested, every model votes for the classes of the set, and at least once. -/
def Classifiers (par : Par) (M : Models) : Prop :=
  par.regression = false ∧ ∀ (i nm nc : Nat), par.sets[i]? = some (nm, nc) → 1 ≤ nm ∧ ∀ j < nm,
    (par.rfprob = false → ∃ z : Int, M.predict (first par.sets i + j) = z) ∧
    (par.rfprob = true → (M.votes (first par.sets i + j)).length = nc ∧
      ∃ x ∈ M.votes (first par.sets i + j), 0 < x.2) ∧
    ∀ cls, Assigns par M (first par.sets i + j) cls → -32768 ≤ cls ∧ cls ≤ 32767

/-- The models are regressors: every set has at most 32767 models, and the predictions are in the range of `int`. -/
def Regressors (par : Par) (M : Models) : Prop :=
  par.regression = true ∧ par.rfprob = false ∧ ∀ (i nm nc : Nat), par.sets[i]? = some (nm, nc) →
    1 ≤ nm ∧ nm ≤ 32767 ∧ ∀ j < nm, -2147483648 ≤ M.predict (first par.sets i + j) ∧
      M.predict (first par.sets i + j) ≤ 2147483647

/-- The pixel is predicted: it is not masked, and no invalid feature excludes it. -/
def Predicted (exclude : Bool) (mask : Option Bool) (feat : List (Int × Bool)) : Prop :=
  mask ≠ some false ∧ (exclude = true → ∀ f ∈ feat, f.2 = true)

/-- The sample of a pixel. -/
def sample (feat : List (Int × Bool)) : List ℚ := feat.map fun f => (f.1 : ℚ) / 10000

end Verif.Ml.Spec
