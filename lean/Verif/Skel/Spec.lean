import Verif.Skel.Model
import Verif.Param.Spec

/-!
# Specification of skeletons
-/

namespace Verif.Skel.Spec

open Verif.Param.Spec (words)

/-- A line without values: empty, or a comment of at most 1000 characters. -/
def Comment (l : List Char) : Prop := (l = [] ∨ l.head? = some '#') ∧ '\n' ∉ l ∧ l.length ≤ 1000

/-- The text of a value: at least one word, no comment, at most 900 characters. -/
def Value (v : List Char) : Prop := words v ≠ [] ∧ '#' ∉ v ∧ '\r' ∉ v ∧ '\n' ∉ v ∧ v.length ≤ 900

/-- The names of parameters that are dates. -/
def dates : List String := ["DATE_RANGE", "DATE_IGNORE_LANDSAT_7", "HARMONIC_FIT_RANGE"]

/-- What a user may do with a skeleton: any comments, any values; dates have at least eight characters. -/
structure Edited (es : List Entry) (note : Nat → List (List Char)) (val : Nat → List Char) : Prop where
  notes : ∀ i, ∀ l ∈ note i, Comment l
  values : ∀ i, i < es.length → Value (val i)
  dates : ∀ i e, es[i]? = some e → e.key ∈ dates → ∀ t ∈ words (val i), 8 ≤ t.length

/-- The values that `force-parameter` writes. -/
def default (es : List Entry) (i : Nat) : List Char := (es[i]?.map fun e => e.value.toList).getD []

end Verif.Skel.Spec
