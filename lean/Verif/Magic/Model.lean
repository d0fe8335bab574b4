import Mathlib.Data.List.Infix

/-!
# Model of force-magic-parameters

`bash/force-magic-parameters.sh`. A file is a list of lines. Simplifications: names of variables and values have no characters that are special to
the shell or to regular expressions, except those handled below (`,` in brace expansion, `+` and `&` in the replacement of sed); values have no
`..`, which would be a sequence expression.
-/

namespace Verif.Magic

abbrev Text := List Char

/-- force-magic-parameters.sh:115 `sed -e '/^+/q'`: the lines up to the first line with `+`. -/
def upToPlus : List Text → List Text
  | [] => []
  | l :: t => if l.head? = some '+' then [l] else l :: upToPlus t

/-- force-magic-parameters.sh:190 `sed -i '/^\+/,$!d'`: the lines from the first line with `+`. -/
def fromPlus : List Text → List Text
  | [] => []
  | l :: t => if l.head? = some '+' then l :: t else fromPlus t

/-- `sed 's/%:.*$//g'`: cut at the first `%:`. -/
def cut : Text → Text
  | [] => []
  | c :: t => if ['%', ':'] <+: c :: t then [] else c :: cut t

/-- `sed 's/^%//g'`. -/
def dropPercent : Text → Text
  | '%' :: t => t
  | t => t

/-- force-magic-parameters.sh:115. -/
def keys (file : List Text) : List Text := ((upToPlus file).filter fun l => decide (['%', ':'] <:+: l)).map fun l => cut (dropPercent l)

/-- The text after the last `%: `, if there is any. -/
def afterLast : Text → Option Text
  | [] => none
  | c :: t =>
    match afterLast t with
    | some r => some r
    | none => if ['%', ':', ' '] <+: c :: t then some (t.drop 2) else none

/-- `tr -s ' '`. -/
def squeeze : Text → Text
  | [] => []
  | [c] => [c]
  | c :: d :: t => if c = ' ' ∧ d = ' ' then squeeze (d :: t) else c :: squeeze (d :: t)

/-- `sed 's/^ //'`. -/
def dropSpace : Text → Text
  | ' ' :: t => t
  | t => t

/-- Parts between separators. -/
def splitOn (sep : Char) : Text → List Text
  | [] => [[]]
  | c :: t =>
    if c = sep then [] :: splitOn sep t
    else match splitOn sep t with
      | [] => [[c]]
      | w :: ws => (c :: w) :: ws

/-- Word splitting of the shell. -/
def words (t : Text) : List Text := (splitOn ' ' t).filter (· ≠ [])

/-- force-magic-parameters.sh:132, 149, 159: the values of a variable; `none` if not exactly one line of the whole file defines it (not
modelled). -/
def valueText (file : List Text) (k : Text) : Option Text :=
  match file.filter fun l => decide ('%' :: k ++ ['%', ':'] <:+: l) with
  | [l] => some (dropSpace (squeeze ((afterLast l).getD l)))
  | _ => none

/-- Brace expansion of `{t}`: without a comma, the braces are kept. -/
def braces (t : Text) : List Text := if ',' ∈ t then splitOn ',' t else ['{' :: t ++ ['}']]

/-- Brace expansion of `%{…}%{…}`: the last braces vary first. -/
def expand : List Text → List Text
  | [] => [[]]
  | t :: r => (braces t).flatMap fun p => (expand r).map fun s => '%' :: p ++ s

/-- force-magic-parameters.sh:131-139: combinations with `-c all`; the spaces are replaced by commas. -/
def combAll (texts : List Text) : List Text := expand (texts.map fun t => t.map fun c => if c = ' ' then ',' else c)

/-- force-magic-parameters.sh:146-153: `NVALUES` after the check of all vectors, `none` if the check fails. -/
def checkLengths : Nat → List Nat → Option Nat
  | n, [] => some n
  | n, m :: r => if 0 < n ∧ n ≠ m then none else checkLengths m r

/-- force-magic-parameters.sh:157-166: append the values of a vector to the combinations. -/
def append : List Text → List Text → List Text
  | cs, [] => cs
  | [], v :: vs => ('%' :: v) :: append [] vs
  | c :: cs, v :: vs => (c ++ '%' :: v) :: append cs vs

/-- force-magic-parameters.sh:143-168: combinations with `-c paired`. -/
def combPaired (texts : List Text) : Option (List Text) :=
  (checkLengths 0 (texts.map fun t => (words t).length)).map fun _ => texts.foldl (fun cs t => append cs (words t)) []

/-- Replacement of a pattern, from left to right; the counter skips the characters of a match. -/
def replaceGo (pat rep : Text) : Nat → Text → Text
  | _, [] => []
  | s + 1, _ :: t => replaceGo pat rep s t
  | 0, c :: t => if pat <+: c :: t then rep ++ replaceGo pat rep (pat.length - 1) t else c :: replaceGo pat rep 0 t

/-- force-magic-parameters.sh:196 `sed -i "s+{%k%}+v+g"` on a line: with `+` in the value, sed fails and leaves the file; `&` stands for the text
that is replaced. -/
def substitute (k v line : Text) : Text :=
  let pat := '{' :: '%' :: k ++ ['%', '}']
  if '+' ∈ v then line else replaceGo pat (v.flatMap fun c => if c = '&' then pat else [c]) 0 line

/-- force-magic-parameters.sh:194-198: replace all variables, in turn. -/
def substituteAll : List Text → List Text → Text → Text
  | [], _, line => line
  | k :: ks, vs, line => substituteAll ks vs.tail (substitute k (vs.headD []) line)

/-- force-magic-parameters.sh:175-198: the parameter file of a combination. -/
def generate (file ks : List Text) (comb : Text) : List Text :=
  let v := words (comb.map fun c => if c = '%' then ' ' else c)
  (fromPlus file).map (substituteAll ks v)

inductive Mode where
  | all
  | paired

inductive Result where
  /-- the generated files in the order of their numbers -/
  | files (l : List (List Text))
  /-- usage is printed, exit 1 -/
  | usage
  /-- not modelled -/
  | other

/-- force-magic-parameters.sh:114-203. -/
def run (mode : Mode) (file : List Text) : Result :=
  let ks := keys file
  if ks = [] then .usage
  else
    match ks.mapM (valueText file) with
    | none => .other
    | some texts =>
      match mode with
      | .all => .files ((combAll texts).map (generate file ks))
      | .paired =>
        match combPaired texts with
        | none => .usage
        | some cs => .files (cs.map (generate file ks))

end Verif.Magic
