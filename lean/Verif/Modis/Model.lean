import Verif.Date.Model
import Verif.Libc.Model
import Verif.Qai.Model

/-!
# Model of importing MODIS images

Models `/repo/src/main/lower-level/force-import-modis.c`: translation of the MODIS state word into
quality bits, handling of fill values, name of the output. Reading with GDAL, the geometry and
writing are not modelled.
-/

namespace Verif.Modis

open Verif.Qai (Flag)

/-- force-import-modis.c:133-141 `get_modqa`. The word is unsigned, so the shift fills with zeros. -/
def modqa (w : BitVec 16) (index bits : Nat) : Nat := ((w >>> index) &&& Qai.readMask bits).toNat

/-- A flag is set if the condition holds. -/
def setIf (c : Bool) (f : Flag) (x : Nat) (v : BitVec 16) : BitVec 16 := if c then Qai.set f v x else v

/-- force-import-modis.c:230-239, in `compile_qai`: the state word is translated. -/
def translate (w v : BitVec 16) : BitVec 16 :=
  let v := setIf (modqa w 0 2 > 0) .cld 2 v
  let v := setIf (modqa w 2 1 > 0) .shd 1 v
  let v := setIf (modqa w 3 3 ≠ 1) .wtr 1 v
  let v := setIf (modqa w 6 2 = 0) .aod 3 v
  let v := setIf (modqa w 6 2 > 2) .aod 2 v
  let v := setIf (modqa w 8 2 > 0) .cld 3 v
  let v := setIf (modqa w 10 1 > 0) .cld 2 v
  let v := setIf (modqa w 12 1 > 0) .snw 1 v
  let v := setIf (modqa w 13 1 > 0) .cld 1 v
  setIf (modqa w 15 1 > 0) .snw 1 v

/-- force-import-modis.c:241-245, in `compile_qai`: the bands from number `b` on. Band 5 of the sensor MOD02 is skipped. -/
def rate (aqua : Bool) (v : BitVec 16) : Nat → List Int → BitVec 16
  | _, [] => v
  | b, x :: xs =>
    if b = 5 ∧ aqua then rate aqua v (b + 1) xs
    else if x < 0 then Qai.set .sub v 1
    else if x > 10000 then Qai.set .sat v 1
    else rate aqua v (b + 1) xs

/-- force-import-modis.c:225-245, in `compile_qai`: one pixel. The quality bits are zero before
(allocated with zeros). Result: the bands and the quality bits. There are 7 bands; an empty list
does not occur. -/
def convert (aqua : Bool) (nodata : Int) (bands : List Int) (w : BitVec 16) : List Int × BitVec 16 :=
  let off := bands.headD 0 < -100
  let bands := if off then bands.map (fun _ => nodata) else bands
  let v := setIf off .off 1 0#16
  (bands, rate aqua (translate w v) 0 bands)

/-- The output: sensor, date, tile. -/
structure Out where
  aqua : Bool
  date : Date.DateT
  tx : Int
  ty : Int

/-- force-import-modis.c:306-332, in `main`: what is read from the name of the file; `none`: the
program ends with an error. The time of day, which is not set in the code, is zero here. Names
shorter than 23 characters, for which the code reads what is behind the end of the name, are not
modelled exactly. -/
def parseName (name : List Char) : Option Out :=
  if !(name.tails.any (fun t => "09GA".toList.isPrefixOf t)) then none
  else if !(".hdf".toList.isSuffixOf name) then none
  else
    let year := Libc.atoi ((name.drop 9).take 4)
    let doy := Libc.atoi ((name.drop 13).take 3)
    let tx := Libc.atoi ((name.drop 18).take 2)
    let ty := Libc.atoi ((name.drop 21).take 2)
    let md := Date.doy2md doy
    let date := Date.setDate Date.initDate year md.1 md.2
    if name.take 3 = "MOD".toList then some ⟨false, date, tx, ty⟩
    else if name.take 3 = "MYD".toList then some ⟨true, date, tx, ty⟩
    else none

/-- force-import-modis.c:322-325: the sensor of the output. -/
def Out.sensor (o : Out) : List Char := if o.aqua then "MOD02".toList else "MOD01".toList

/-- force-import-modis.c:150 in `set_meta`, and 334 in `main`: directory and file name. -/
def Out.path (o : Out) (product : List Char) : List Char :=
  'X' :: Libc.fmtInt0 4 o.tx ++ '_' :: 'Y' :: Libc.fmtInt0 4 o.ty ++ '/' :: Libc.fmtInt0 4 o.date.year ++
    Libc.fmtInt0 2 o.date.month ++ Libc.fmtInt0 2 o.date.day ++ "_LEVEL2_".toList ++ o.sensor ++ '_' :: product

end Verif.Modis
