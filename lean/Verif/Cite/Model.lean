import Mathlib.Data.Nat.Digits.Defs

/-!
# Suggested references: model

src/modules/cross-level/cite-cl.c. A reference is its position in the table `_cite_me_`; the
texts of the table (description and reference) are not modelled, nor the constant heading of
the file. The lock is always obtained, and the file can be opened.
-/

namespace Verif.Cite

/-- `_CITE_LENGTH_`, cite-cl.h:46-64. -/
def total : Nat := 54

/-- `_cite_me_[i].cited` before any citation, cite-cl.c:33-397. -/
def start : List Bool := List.replicate total false

/-- cite-cl.c:422-434 `cite_me`: an index out of bounds is ignored. -/
def citeMe (f : List Bool) (i : Int) : List Bool := if i < 0 ∨ i ≥ total then f else f.set i.toNat true

/-- All citations of a run, in the order in which the program makes them. -/
def run (is : List Int) : List Bool := is.foldl citeMe start

/-- cite-cl.c:410: one bit of the checksum. -/
def bit (c : BitVec 32) : BitVec 32 := if c &&& 1#32 = 1#32 then (c >>> 1) ^^^ 0xb2#32 else c >>> 1

/-- cite-cl.c:410: the eight bits of a step. -/
def byte (c : BitVec 32) : BitVec 32 := bit (bit (bit (bit (bit (bit (bit (bit c)))))))

/-- cite-cl.c:408-411: the flags one after the other. -/
def crcLoop : List Bool → BitVec 32 → BitVec 32
  | [], c => c
  | f :: fs, c => crcLoop fs (byte (c ^^^ (if f then 1#32 else 0#32)))

/-- cite-cl.c:403-414 `cite_crc8`. -/
def crc8 (f : List Bool) : BitVec 32 := crcLoop f 0xff#32 ^^^ 0xff#32

/-- Hexadecimal digits. -/
def hex (n : Nat) : List Char := ((Nat.digits 16 n).map fun d => "0123456789abcdef".toList.getD d '?').reverse

/-- cite-cl.c:453: the name, printed with `CITEME_%#02x.txt` (the prefix 0x is omitted for
zero, which is padded to two characters). -/
def fileName (f : List Bool) : List Char :=
  "CITEME_".toList ++ (if (crc8 f).toNat = 0 then "00".toList else "0x".toList ++ hex (crc8 f).toNat) ++ ".txt".toList

/-- The directory: for each file name the references that the file lists. -/
abbrev Dir := List Char → Option (List Nat)

/-- cite-cl.c:496-503: the references that are written. -/
def listed (f : List Bool) : List Nat := (List.range total).filter fun i => f.getD i false

/-- cite-cl.c:440-506 `cite_push`: nothing is written if the file exists. -/
def push (f : List Bool) (d : Dir) : Dir :=
  match d (fileName f) with
  | some _ => d
  | none => fun n => if n = fileName f then some (listed f) else d n

/-- Several runs with the same output directory, one after the other. -/
def runs (rs : List (List Int)) (d : Dir) : Dir := rs.foldl (fun d is => push (run is) d) d

end Verif.Cite
