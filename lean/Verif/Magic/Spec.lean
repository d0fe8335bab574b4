import Mathlib.Data.List.Basic

/-!
# Specification of replacement vectors
-/

namespace Verif.Magic.Spec

/-- A part of a line of the parameter file. -/
inductive Piece where
  | text (t : List Char)
  | var (k : List Char)

/-- How the user writes it: `{%k%}` for a variable. -/
def Piece.written : Piece → List Char
  | .text t => t
  | .var k => "{%".toList ++ k ++ "%}".toList

/-- The line in the parameter file of the user. -/
def written (line : List Piece) : List Char := line.flatMap Piece.written

/-- The line with all variables replaced by their value; unknown variables are left. -/
def filled (value : List Char → Option (List Char)) (line : List Piece) : List Char :=
  line.flatMap fun p =>
    match p with
    | .text t => t
    | .var k => (value k).getD (Piece.var k).written

/-- A replacement vector: name and values. -/
abbrev Vector' := List Char × List (List Char)

/-- The line that defines it: `%k%: v1 v2 v3`. -/
def definition (d : Vector') : List Char := "%".toList ++ d.1 ++ "%:".toList ++ d.2.flatMap fun v => ' ' :: v

/-- All combinations of values, the last varies first. -/
def combinations : List (List (List Char)) → List (List (List Char))
  | [] => [[]]
  | vs :: r => vs.flatMap fun v => (combinations r).map fun c => v :: c

/-- The value of a variable in a combination. -/
def lookup (ks : List (List Char)) (c : List (List Char)) (k : List Char) : Option (List Char) := ((ks.zip c).find? fun p => p.1 = k).map (·.2)

/-- A character of a name. -/
def NameChar (c : Char) : Prop := c.isAlphanum = true ∨ c = '_'

/-- A character of a value: no separators, braces, or characters that are special to the shell or to sed. -/
def ValueChar (c : Char) : Prop := c.isAlphanum = true ∨ c ∈ ['_', '-', '.', '/', ':']

end Verif.Magic.Spec
