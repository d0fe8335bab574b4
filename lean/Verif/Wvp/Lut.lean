import Mathlib.Analysis.Real.Sqrt
import Verif.Libc.Model
import Verif.Str.Model
import Verif.Stats.Model

/-!
# Water vapour tables: model

Writing and reading of the tables (src/modules/lower-level/modwvp-ll.c), the climatology
(src/main/lower-level/force-lut-modis.c) and the use of the tables in Level 2 processing
(src/modules/lower-level/gas-ll.c).
-/

namespace Verif.Wvp

open Verif.Str (Out)
open Verif.Libc (fgetsAll strtok atof fmtF decDigits padDigits roundEven cutAt)

/-- `printf("%.kf", v)`, `k > 0`. -/
def fmtK (k : Nat) (v : ℚ) : List Char :=
  let n := (roundEven (|v| * 10 ^ k)).toNat
  (if v < 0 then ['-'] else []) ++ (decDigits (n / 10 ^ k) ++ '.' :: padDigits k n)

/-- The separator of the tables, modwvp-ll.c:125, 983 and gas-ll.c:628. -/
def sep (c : Char) : Bool := c = ' '

/-- modwvp-ll.c:930: one line of `write_wvp_lut`, without its end. -/
def lutLine (p : ℚ × ℚ) (w : ℚ) (sen : List Char) : List Char :=
  fmtK 4 p.1 ++ ' ' :: (fmtK 4 p.2 ++ ' ' :: (fmtF w ++ ' ' :: sen))

/-- modwvp-ll.c:922-936 `write_wvp_lut`: the text of the table. -/
def writeLut (coo : List (ℚ × ℚ)) (vals : List (ℚ × List Char)) : List Char :=
  (coo.zip vals).flatMap fun p => lutLine p.1 p.2.1 p.2.2 ++ ['\n']

/-- `atof(tokenptr)`: undefined for NULL. -/
def num (rd : ℚ → ℚ) : Option (List Char × List Char) → Out (ℚ × List Char)
  | none => .ub
  | some (t, r) => .ok (atof rd t, r)

/-- modwvp-ll.c:989-1005: the lines of `read_wvp_lut`; `rd` and `fl` round to double and
float. -/
def readRows (rd fl : ℚ → ℚ) : List (List Char) → List (ℚ × ℚ) → Out (List ℚ)
  | _, [] => .ok []
  | [], _ :: _ => .exit
  | l :: ls, c :: cs =>
    (num rd (strtok sep l)).bind fun x =>
    (num rd (strtok sep x.2)).bind fun y =>
    if |fl (fl x.1 - c.1)| > rd (1 / 10000) ∨ |fl (fl y.1 - c.2)| > rd (1 / 10000) then .exit
    else (num rd (strtok sep y.2)).bind fun w => (readRows rd fl ls cs).bind fun l => .ok (fl w.1 :: l)

/-- modwvp-ll.c:979-1010 `read_wvp_lut`. -/
def readLut (rd fl : ℚ → ℚ) (text : List Char) (coo : List (ℚ × ℚ)) : Out (List ℚ) := readRows rd fl (fgetsAll 1024 text) coo

/-- modwvp-ll.c:144-156: the lines of `parse_coord_list`. -/
def coordRows (rd fl : ℚ → ℚ) : List (List Char) → Out (List (ℚ × ℚ))
  | [] => .ok []
  | l :: ls =>
    (num rd (strtok sep l)).bind fun x =>
    (num rd (strtok sep x.2)).bind fun y =>
    (coordRows rd fl ls).bind fun r => .ok ((fl x.1, fl y.1) :: r)

/-- modwvp-ll.c:121-162 `parse_coord_list`: return value and coordinates (`none` for a
pointer that was not set); the file is `none` if it cannot be opened. FAILURE is 1. -/
def parseCoords (rd fl : ℚ → ℚ) : Option (List Char) → Out (Nat × Option (List (ℚ × ℚ)))
  | none => .ok (1, none)
  | some t => (coordRows rd fl (fgetsAll 1024 t)).bind fun l => .ok (l.length, some l)

/-- force-lut-modis.c:219-220: start of the program: number of locations and coordinates. -/
def startCoords (rd fl : ℚ → ℚ) (file : Option (List Char)) : Out (Nat × Option (List (ℚ × ℚ))) :=
  (parseCoords rd fl file).bind fun r => if r.1 < 1 then .exit else .ok r

/-! ## Climatology -/

/-- Number, mean and sum of squares of one month and location: `AVG[2]`, `AVG[0]`, `AVG[1]`. -/
abbrev Clim := Nat × ℝ × ℝ

/-- force-lut-modis.c:296-308: one value of a daily table. -/
noncomputable def climStep (v : ℝ) (s : Clim) : Clim :=
  if v = 9999 then s
  else
    let n := s.1 + 1
    if n = 1 then (n, v, s.2.2)
    else
      let r := Verif.Stats.varRec v s.2.1 s.2.2 n
      (n, r.1, r.2)

/-- force-lut-modis.c:285-319: all days, each with its month (1 to 12) and the values of its
table, if there is one; `AVG[·][m-1][c]` afterwards (initially zero). -/
noncomputable def climLoop (days : List (Nat × Option (Nat → ℝ))) (m c : Nat) : Clim :=
  days.foldl (fun s d => match d.2 with
    | none => s
    | some t => if d.1 = m then climStep (t c) s else s) (0, 0, 0)

/-- force-lut-modis.c:321-336: mean, standard deviation and number of one month and
location. -/
noncomputable def climFinal (s : Clim) : ℝ × ℝ × Nat :=
  (if s.1 < 1 then 9999 else s.2.1, if s.1 < 2 then 9999 else Verif.Stats.standdev s.2.2 s.1, s.1)

/-! ## Water vapour of an image -/

/-- Line ends and comments are cut, gas-ll.c:696. -/
def cutSet (c : Char) : Bool := c = '\r' || c = '\n' || c = '#'

/-- `min_dist`, `wvp`, `avg`, gas-ll.c:634, 655. -/
structure Best where
  min : ℝ
  wvp : ℚ
  avg : ℚ

/-- gas-ll.c:701-705: distance to the centre of the image (without rounding). -/
noncomputable def distance (cx cy x y : ℚ) : ℝ := Real.sqrt ((((cx - x) * (cx - x) + (cy - y) * (cy - y) : ℚ)) : ℝ)

open Classical in
/-- gas-ll.c:696-718: one line of a table; `k = false` for the climatology, `k = true` for
the daily table. -/
noncomputable def bestLine (rd fl : ℚ → ℚ) (k : Bool) (cx cy : ℚ) (line : List Char) (b : Best) : Out Best :=
  (num rd (strtok sep (cutAt cutSet line))).bind fun x =>
  (num rd (strtok sep x.2)).bind fun y =>
  if distance cx cy x.1 y.1 < b.min ∧ distance cx cy x.1 y.1 < 3 / 2 then
    (num rd (strtok sep y.2)).bind fun w =>
    if k then
      (match strtok sep w.2 with
        | none => .ub
        | some _ => .ok { b with min := distance cx cy x.1 y.1, wvp := fl w.1 })
    else .ok ⟨distance cx cy x.1 y.1, fl w.1, fl w.1⟩
  else .ok b

/-- gas-ll.c:694-720: the lines of a table. -/
noncomputable def bestLines (rd fl : ℚ → ℚ) (k : Bool) (cx cy : ℚ) : List (List Char) → Best → Out Best
  | [], b => .ok b
  | l :: ls, b => (bestLine rd fl k cx cy l b).bind (bestLines rd fl k cx cy ls)

/-- gas-ll.c:686-724: one table, if its file exists (and can be opened). -/
noncomputable def bestTable (rd fl : ℚ → ℚ) (k : Bool) (cx cy : ℚ) (file : Option (List Char)) (b : Best) : Out Best :=
  match file with
  | none => .ok b
  | some t => bestLines rd fl k cx cy (fgetsAll 1024 t) { b with min := 2 ^ 63 }

/-- gas-ll.c:623-749 `water_vapor_from_lut`: `prm` is the constant of the parameter file if
there is no directory; `clim` and `daily` are the texts of the two tables, if they exist. A
negative result is an error. -/
noncomputable def waterVapour (rd fl : ℚ → ℚ) (prm : Option ℚ) (strict : Bool) (clim daily : Option (List Char)) (cx cy : ℚ) : Out ℚ :=
  match prm with
  | some v => .ok v
  | none =>
    (bestTable rd fl false cx cy clim ⟨2 ^ 63, -1, -1⟩).bind fun b =>
    (bestTable rd fl true cx cy daily b).bind fun b =>
      if b.wvp < 0 ∧ strict then .ok (-1)
      else .ok (if b.wvp < 0 ∨ b.wvp > 10 then b.avg else b.wvp)

end Verif.Wvp
