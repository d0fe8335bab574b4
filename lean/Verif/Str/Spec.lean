import Verif.Str.Model

/-!
# Specification for strings, arrays and paths
-/

namespace Verif.Str.Spec

/-- The buffer `after` holds exactly the text, with its terminator within the first `size` bytes;
nothing behind these bytes was touched. -/
def Holds (before after : List Char) (size : Nat) (text : List Char) : Prop :=
  after.length = before.length ∧ after.take (text.length + 1) = text ++ [nul] ∧
  text.length + 1 ≤ size ∧ after.drop size = before.drop size

/-- `pre ++ search ++ suf` is the text, split at the first occurrence. -/
def FirstOccurrence (text search pre suf : List Char) : Prop :=
  text = pre ++ search ++ suf ∧
  ∀ pre' suf', text = pre' ++ search ++ suf' → pre.length ≤ pre'.length

/-- `search` does not occur in the text. -/
def NotIn (text search : List Char) : Prop := ∀ pre suf, text ≠ pre ++ search ++ suf

/-- Element `i` after re-allocation from `old` to `n` elements. -/
def Resized {V : Type} (zero : V) (old new : List V) (n : Nat) : Prop :=
  new.length = n ∧ ∀ i < n, new[i]? = if i < old.length then old[i]? else some zero

/-- Element `(i, j)` of a list of rows. -/
def at2 {V : Type} (a : List (List V)) (i j : Nat) : Option V := a[i]?.bind fun r => r[j]?

/-- Element `(i, j, k)`. -/
def at3 {V : Type} (a : List (List (List V))) (i j k : Nat) : Option V := a[i]?.bind fun m => at2 m j k

/-- `n1` rows of `n2` elements. -/
def Shape2 {V : Type} (a : List (List V)) (n1 n2 : Nat) : Prop := a.length = n1 ∧ ∀ r ∈ a, r.length = n2

/-- `n1` matrices of `n2` rows of `n3` elements. -/
def Shape3 {V : Type} (a : List (List (List V))) (n1 n2 n3 : Nat) : Prop :=
  a.length = n1 ∧ ∀ m ∈ a, Shape2 m n2 n3

/-- What a sequence of fills means: a map from positions to texts. -/
def written : List (Nat × List Char) → Nat → List Char
  | [], _ => []
  | f :: fs, i => if fs.any (fun g => g.1 = i) then written fs i
      else if f.1 = i then f.2 else []

/-- A path without trailing slashes is `dir ++ "/" ++ base`, with no slash in `base`. -/
def Split (path dir base : List Char) : Prop := path = dir ++ '/' :: base ∧ '/' ∉ base

end Verif.Str.Spec
