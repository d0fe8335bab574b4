import Verif.Brick.Spec
import Verif.Share.Model

/-!
# Specification: what a sequence of complete writes leaves behind

Nothing here refers to steps, locks or schedules. -/

namespace Verif.Share.Spec
open Verif.Share

/-- The file after `j` has been written at once: the mosaic with the image that was there, or the
image alone. -/
def written (f : File) (j : Job) : File :=
  .image fun b p =>
    match j.mode, f with
    | .mosaic m, .image old => Brick.mosaicPixel m (j.nodata b) (j.data b p) (old b p)
    | _, _ => j.data b p

/-- The jobs that have written the file `n`. -/
def toFile {P : Type} (n : List Char) (log : List (P × Part)) : List Job :=
  log.filterMap fun e => match e.2 with | .file j => if j.file = n then some j else none | _ => none

/-- The jobs that have recorded in the provenance file `n`. -/
def toProv {P : Type} (n : List Char) (log : List (P × Part)) : List Job :=
  log.filterMap fun e => match e.2 with | .prov j => if j.prov = n then some j else none | _ => none

/-- The lines a provenance file `n` should have, given what has been done in which order:
`there` are the paths that exist already, `last i` is whether the last image of process `i` was
an update of an image. -/
def lines {P : Type} [DecidableEq P] (n : List Char) :
    List (P × Part) → (List Char → Bool) → (P → Bool) → List (List Char)
  | [], _, _ => []
  | (_, .dir j) :: r, there, last => lines n r (Function.update there j.dir true) last
  | (i, .file j) :: r, there, last =>
    lines n r (Function.update there j.file true)
      (Function.update last i (match j.mode with | .create => false | .mosaic _ => there j.file))
  | (i, .prov j) :: r, there, last =>
    (if j.prov = n then [line j (last i)] else []) ++ lines n r (Function.update there j.prov true) last

/-- How a table with `,` between the columns, and `;` between several entries of a column, is read. -/
def table (t : List Char) : List (List (List (List Char))) :=
  ((t.splitOn '\n').dropLast).map fun l => (l.splitOn ',').map fun f => f.splitOn ';'

/-- The row that should be there for an image: file, origins, whether an image was updated, time. -/
def row (j : Job) (update : Bool) : List (List (List Char)) :=
  [[j.file], j.origin, [if update then "update".toList else "create".toList], [j.stamp]]

/-- None of the separators is part of the text. -/
def Plain (t : List Char) : Prop := ',' ∉ t ∧ ';' ∉ t ∧ '\n' ∉ t

end Verif.Share.Spec
