import Verif.Date.Spec

/-!
# Specification of the selection of Level 2 data
-/

namespace Verif.Ard.Spec

open Verif.Date.Spec (ValidMD dayOfYear)

/-- The documented parts of the name of a Level 2 image, e.g. 20180823_LEVEL2_SEN2A_BOA.tif. -/
structure Name where
  year : Nat
  month : Nat
  day : Nat
  level : List Char
  sensor : List Char
  product : List Char
  ext : List Char
deriving DecidableEq

/-- The date as eight digits: year, month, day. -/
def Name.date (n : Name) : List Char :=
  [n.year / 1000, n.year / 100 % 10, n.year / 10 % 10, n.year % 10, n.month / 10, n.month % 10, n.day / 10, n.day % 10].map Nat.digitChar

/-- The name of the file. -/
def Name.text (n : Name) : List Char := n.date ++ '_' :: (n.level ++ '_' :: (n.sensor ++ '_' :: (n.product ++ '.' :: n.ext)))

/-- Number of the day, in years of 365 days. -/
def Name.ce (n : Name) : Int := 365 * n.year + dayOfYear n.month n.day

/-- A part of a name: not empty, letters and digits only. -/
def Part (w : List Char) : Prop := w ≠ [] ∧ ∀ c ∈ w, c.isAlphanum = true

/-- A well-formed name. -/
structure Name.Ok (n : Name) : Prop where
  year : 1900 ≤ n.year ∧ n.year ≤ 2099
  date : ValidMD n.month n.day
  level : Part n.level
  sensor : Part n.sensor
  product : Part n.product
  ext : Part n.ext
  short : n.text.length < 1024

/-- The kinds of images that are read. -/
def kinds : List (List Char) := ["dat".toList, "bsq".toList, "bil".toList, "tif".toList, "vrt".toList]

/-- A name as Level 2 processing writes it: LEVEL2, five characters for the sensor, three for the product. -/
structure Name.Level2 (n : Name) : Prop where
  ok : n.Ok
  level : n.level = "LEVEL2".toList
  sensor : n.sensor.length = 5
  product : n.product.length = 3

/-- A file that is no image: what follows the first dot of its name (if there is one) is none of the kinds. -/
def Foreign (e : List Char) : Prop :=
  e ≠ [] ∧ '/' ∉ e ∧ Char.ofNat 0 ∉ e ∧ e.length < 1024 ∧
    ∃ name ext, '.' ∉ name ∧ (e = name ∨ e = name ++ '.' :: ext ∧ ext ∉ kinds)

end Verif.Ard.Spec
