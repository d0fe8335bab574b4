import Verif.Param.Model

/-!
# Specification of parameter files
-/

namespace Verif.Param.Spec

/-- The part of a line before the comment sign or the line end. -/
def content (line : List Char) : List Char :=
  line.takeWhile fun c => c ≠ '#' ∧ c ≠ '\r' ∧ c ≠ '\n'

/-- The words of a text: the non-empty pieces between blanks and equal signs. -/
def words (s : List Char) : List (List Char) :=
  (s.splitOnP fun c => c = ' ' ∨ c = '=').filter fun w => w ≠ []

/-- The values that the lines give to a tag, line by line: lines whose first word is the tag and
that have at least one more word. -/
def given (tag : List Char) (lines : List (List Char)) : List (List (List Char)) :=
  lines.filterMap fun l =>
    match words (content l) with
    | t :: v :: vs => if t = tag then some (v :: vs) else none
    | _ => none

/-- The texts are read as the values: a scalar takes the first text only. -/
def ReadAs (k : Kind) (vector : Bool) (texts : List (List Char)) (values : List Val) : Prop :=
  if vector then texts.length = values.length ∧
      ∀ (i : Nat) t v, texts[i]? = some t → values[i]? = some v → parseVal k t = .ok v
  else ∃ t v, texts.head? = some t ∧ values = [v] ∧ parseVal k t = .ok v

/-- A text that every type of parameter can take. -/
def Readable (k : Kind) (t : List Char) : Prop :=
  match k with
  | .date _ _ => 8 ≤ t.length
  | .char _ => t.length < 1024
  | _ => True

/-- The number of earlier parameters with the same name. -/
def rank (ps : List Par) (i : Nat) (name : List Char) : Nat :=
  ((ps.take i).filter fun p => p.name = name).length

/-- Freshly registered parameters: none is set. Names that occur more than once belong to
vectors. -/
def Registry (ps : List Par) : Prop :=
  (∀ p ∈ ps, p.set = false ∧ p.values = []) ∧
  ∀ (i j : Nat) p q, ps[i]? = some p → ps[j]? = some q → i ≠ j → p.name = q.name → p.vector = true

/-- A value is admissible. -/
def Admissible (fileexist : List Char → Bool) (k : Kind) (v : Val) : Prop :=
  match k, v with
  | .int lo hi, .int v => lo ≤ v ∧ v ≤ hi
  | .enum tags, .int v => ∃ t, (t, v) ∈ tags
  | .float _ (.num lo) (.num hi), .float (.num v) => lo ≤ v ∧ v ≤ hi
  | .date lo hi, .date v => lo.ce ≤ v.ce ∧ v.ce ≤ hi.ce
  | .char .nullOrExist, .text s => s = "NULL".toList ∨ fileexist s = true
  | .char .exist, .text s => fileexist s = true
  | .char .notExist, .text s => fileexist s = false
  | .char .nullOrBase, .text s => s = "NULL".toList ∨ ('/' ∉ s ∧ '.' ∈ s)
  | .char .base, .text s => '/' ∉ s ∧ '.' ∈ s
  | .char .none, .text _ => True
  | _, _ => False

/-- The range of a floating point parameter is given by numbers. -/
def NumRange : Kind → Prop
  | .float _ (.num _) (.num _) => True
  | .float _ _ _ => False
  | _ => True

/-- A parameter is complete and all its values are admissible. -/
def Complete (fileexist : List Char → Bool) (p : Par) : Prop :=
  p.set = true ∧
  (p.vector = true → p.values ≠ [] ∧ (0 < p.expected → (p.values.length : ℤ) = p.expected)) ∧
  ∀ v ∈ p.values, Admissible fileexist p.kind v

end Verif.Param.Spec
