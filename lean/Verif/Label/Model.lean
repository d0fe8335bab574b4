import Verif.Str.Model
import Verif.Date.Model

/-!
What a user-defined function gets and gives beside the values: the labels of the dimensions (dates, sensors, band
names) of py-udf-hl.c and r-udf-hl.c, and the names and dates of the output bands that its initialization returns.
-/

namespace Verif.Label

open Verif.Str

/-- A product: date, sensor and the names of its data and auxiliary bands. `date` is year, month, day. -/
structure Prod where
  date : Int × Int × Int
  sensor : List Char
  dat : List (List Char)
  aux : List (List Char)
deriving DecidableEq, Repr

/-- The labels: years, months and days, and sensors of the time dimension, names of the band dimension. -/
structure Labels where
  years : List Int
  months : List Int
  days : List Int
  sensors : List (List Char)
  bands : List (List Char)
deriving DecidableEq, Repr

/-- py-udf-hl.c:411-412 (and 421-422, 431-432, 435-436): the texts are copied one after the other into the memory of a
numpy array with elements of 1024 bytes; `pos` is the position of the pointer. -/
def fill : List (List Char) → List Char → Nat → Out (List Char)
  | [], mem, _ => .ok mem
  | t :: ts, mem, pos => (copyString (mem.drop pos) 1024 t).bind fun b => fill ts (mem.take pos ++ b) (pos + 1024)

/-- Element `i` of a numpy array of strings with 1024 bytes each: without the NUL characters at its end. -/
def element (mem : List Char) (i : Nat) : List Char :=
  (((mem.drop (i * 1024)).take 1024).reverse.dropWhile (· = nul)).reverse

/-- The text of a brick, copied into a buffer of 1024 bytes by `get_brick_sensor`, `get_brick_bandname`
(brick_base-cl.c:2078-2083, 2107-2112). -/
def brickText (texts : List (List Char)) (b : Nat) : Out (List Char) :=
  match texts[b]? with
  | none => .ub
  | some t => copyText 1024 t

/-- py-udf-hl.c:415-420, r-udf-hl.c:388-396: the names of the main bands, then of the auxiliary bands, all of the
first product. -/
def bandTexts (first : Prod) (nbMain nbAux : Nat) : Out (List (List Char)) :=
  mapOut (fun b => if b < nbMain then brickText first.dat b else brickText first.aux (b - nbMain))
    (List.range (nbMain + nbAux))

/-- py-udf-hl.c:366-423 `python_label_dimensions`, submodule UDF. `smem` and `bmem` are the new arrays of texts, with
any contents. -/
def pyUdf (ard : List Prod) (nbMain nbAux : Nat) (smem bmem : List Char) : Out Labels :=
  (mapOut (fun p => copyText 1024 p.sensor) ard).bind fun sensors =>
  (fill sensors smem 0).bind fun s =>
  match ard with
  | [] => .ub
  | first :: _ =>
    (bandTexts first nbMain nbAux).bind fun bands =>
    (fill bands bmem 0).bind fun m =>
    .ok ⟨ard.map (·.date.1), ard.map (·.date.2.1), ard.map (·.date.2.2),
      (List.range ard.length).map (element s), (List.range (nbMain + nbAux)).map (element m)⟩

/-- py-udf-hl.c:425-436, submodule TSA: dates and names of the interpolated time series; one band, the index. -/
def pyTsa (dates : List (Int × Int × Int)) (names : List (List Char)) (index : List Char) (smem bmem : List Char) :
    Out Labels :=
  (fill names smem 0).bind fun s =>
  (fill [index] bmem 0).bind fun m =>
  .ok ⟨dates.map (·.1), dates.map (·.2.1), dates.map (·.2.2), (List.range dates.length).map (element s), [element m 0]⟩

/-- r-udf-hl.c:348-396 `rstats_label_dimensions`, submodule UDF. -/
def rUdf (ard : List Prod) (nbMain nbAux : Nat) : Out Labels :=
  (mapOut (fun p => copyText 1024 p.sensor) ard).bind fun sensors =>
  match ard with
  | [] => .ub
  | first :: _ =>
    (bandTexts first nbMain nbAux).bind fun bands =>
    .ok ⟨ard.map (·.date.1), ard.map (·.date.2.1), ard.map (·.date.2.2), sensors, bands⟩

/-- r-udf-hl.c:398-407, submodule TSA. -/
def rTsa (dates : List (Int × Int × Int)) (names : List (List Char)) (index : List Char) : Labels :=
  ⟨dates.map (·.1), dates.map (·.2.1), dates.map (·.2.2), names, [index]⟩

/-- py-udf-hl.c:288-300, r-udf-hl.c:284-289: the output bands from the names that the user's initialization
returns. `date` is the local variable, which is not initialized and keeps its value from band to band. -/
def outBands : List (List Char) → Date.DateT → Out (List (List Char × Date.DateT))
  | [], _ => .ok []
  | name :: rest, date =>
    (copyText 1024 name).bind fun n =>
      match Date.dateFromString date name with
      | .exit => .exit
      | .ub => .ub
      | .cancel d => (outBands rest d).bind fun r => .ok ((n, d) :: r)
      | .success d => (outBands rest d).bind fun r => .ok ((n, d) :: r)

/-- r-udf-hl.c:273-276: R has to return at least one name. -/
def rInit (names : List (List Char)) (date : Date.DateT) : Out (List (List Char × Date.DateT)) :=
  if names.length < 1 then .exit else outBands names date

/-- What happens to the encoded name of a band in Python. -/
inductive Event where
  | encode (b : Nat)
  | release (b : Nat)
  | read (b : Nat)
deriving DecidableEq, Repr

/-- py-udf-hl.c:290-300: the bytes object is created (291), its text is located (292), the object is released
(295), and the text is read for the name (297) and for the date (299). -/
def pyEvents (n : Nat) : List Event :=
  (List.range n).flatMap fun b => [.encode b, .release b, .read b, .read b]

end Verif.Label
