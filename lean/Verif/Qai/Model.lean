/-!
# Model of the quality bits and of the QAI pixel screening

Models `/repo/src/modules/cross-level/quality-cl.c` and the screening part of
`/repo/src/modules/higher-level/quality-hl.c`.
A `short` is a `BitVec 16`. C promotes to 32 bit `int` before shifting and truncates
afterwards; the low 16 bits of a left shift do not depend on the width, so the shift is done in
16 bits. A right shift of a negative `short` is arithmetic (gcc), hence `sshiftRight`.
-/

namespace Verif.Qai

/-- quality-cl.c:44-52 `set_qai` and 57-65 `set_qai_to_value`. -/
def setQai (v : BitVec 16) (index : Nat) (val : BitVec 16) (bits : Nat) : BitVec 16 :=
  let mask : BitVec 16 := (1#16 <<< bits) - 1#16
  (v &&& ~~~(mask <<< index)) ||| (val <<< index)

/-- The loop in quality-cl.c:80-82 that builds the reading mask:
`for (i=0; i<bitfields; i++) val |= (short)(1 << i)`. -/
def readMask : Nat → BitVec 16
  | 0 => 0#16
  | n + 1 => readMask n ||| (1#16 <<< n)

/-- quality-cl.c:78-85 `get_qai` and 90-97 `get_qai_from_value`. -/
def getQai (v : BitVec 16) (index bits : Nat) : BitVec 16 :=
  (v.sshiftRight index) &&& readMask bits

/-- The twelve flags (enum-cl.h:106-110). -/
inductive Flag where
  | off | cld | shd | snw | wtr | aod | sub | sat | sun | ill | slp | wvp
  deriving DecidableEq, Repr

/-- enum-cl.h:99-103 `_QAI_BIT_*_`. -/
def Flag.index : Flag → Nat
  | .off => 0 | .cld => 1 | .shd => 3 | .snw => 4 | .wtr => 5 | .aod => 6
  | .sub => 8 | .sat => 9 | .sun => 10 | .ill => 11 | .slp => 13 | .wvp => 14

/-- The `bitfields` argument used by the accessors, quality-cl.c:99-362. -/
def Flag.bits : Flag → Nat
  | .cld => 2 | .aod => 2 | .ill => 2 | _ => 1

/-- The getters quality-cl.c:99-241 (`get_off` ... `get_vaporfill`, and the `_from_value`
variants), as numbers. -/
def get (f : Flag) (v : BitVec 16) : Nat := (getQai v f.index f.bits).toNat

/-- The setters quality-cl.c:244-362 (`set_off` ... `set_vaporfill`). -/
def set (f : Flag) (v : BitVec 16) (x : Nat) : BitVec 16 :=
  setQai v f.index (BitVec.ofNat 16 x) f.bits

/-- `a && b` of two flags, as the `short` passed to a setter. -/
def land (a b : Nat) : Nat := if a ≠ 0 ∧ b ≠ 0 then 1 else 0
/-- `a || b` of two flags. -/
def lor (a b : Nat) : Nat := if a ≠ 0 ∨ b ≠ 0 then 1 else 0
/-- `(a > b) ? a : b`. -/
def larger (a b : Nat) : Nat := if a > b then a else b
/-- `(a < b) ? a : b`. -/
def smaller (a b : Nat) : Nat := if a < b then a else b

/-- quality-cl.c:375-427 `merge_qai_from_values`; `v` is the value stored at the pixel before. -/
def mergeQai (v q1 q2 : BitVec 16) : BitVec 16 :=
  let v := set .off v (land (get .off q1) (get .off q2))
  let v := set .cld v (larger (get .cld q1) (get .cld q2))
  let v := set .shd v (lor (get .shd q1) (get .shd q2))
  let v := set .snw v (lor (get .snw q1) (get .snw q2))
  let v := set .wtr v (lor (get .wtr q1) (get .wtr q2))
  let v := set .aod v (larger (get .aod q1) (get .aod q2))
  let v := set .sub v (lor (get .sub q1) (get .sub q2))
  let v := set .sat v (lor (get .sat q1) (get .sat q2))
  let v := set .sun v (lor (get .sun q1) (get .sun q2))
  let v := set .ill v (smaller (get .ill q1) (get .ill q2))
  let v := set .slp v (lor (get .slp q1) (get .slp q2))
  set .wvp v (lor (get .wvp q1) (get .wvp q2))

/-- brick_io-cl.cpp:308, the only caller: the pixel holds `now` and is merged with `old`. -/
def mergeCall (now old : BitVec 16) : BitVec 16 := mergeQai now now old

/-- param-hl.h:50-71 `par_qai_t`, the 18 rule switches. -/
structure Rule where
  off : Bool
  cldOpq : Bool
  cldUnc : Bool
  cldCir : Bool
  shd : Bool
  snw : Bool
  wtr : Bool
  aodFill : Bool
  aodHigh : Bool
  aodInt : Bool
  sub : Bool
  sat : Bool
  sun : Bool
  illShd : Bool
  illPoor : Bool
  illLow : Bool
  slp : Bool
  wvp : Bool

/-- All switches off (the parameter structure is allocated with zeros). -/
def Rule.none : Rule := ⟨false, false, false, false, false, false, false, false, false, false,
  false, false, false, false, false, false, false, false⟩

/-- quality-hl.c:42-66 `use_this_pixel`. -/
def useThisPixel (v : BitVec 16) (r : Rule) (isArd : Bool) : Bool :=
  if !isArd && get .off v != 0 then false
  else if r.off && get .off v != 0 then false
  else if r.cldUnc && get .cld v == 1 then false
  else if r.cldOpq && get .cld v == 2 then false
  else if r.cldCir && get .cld v == 3 then false
  else if r.shd && get .shd v != 0 then false
  else if r.snw && get .snw v != 0 then false
  else if r.wtr && get .wtr v != 0 then false
  else if r.aodInt && get .aod v == 1 then false
  else if r.aodHigh && get .aod v == 2 then false
  else if r.aodFill && get .aod v == 3 then false
  else if r.sub && get .sub v != 0 then false
  else if r.sat && get .sat v != 0 then false
  else if r.sun && get .sun v != 0 then false
  else if r.illLow && get .ill v == 1 then false
  else if r.illPoor && get .ill v == 2 then false
  else if r.illShd && get .ill v == 3 then false
  else if r.slp && get .slp v != 0 then false
  else if r.wvp && get .wvp v != 0 then false
  else true

/-- enum-cl.h:112-117, the values a user can list for SCREEN_QAI
(names: enum-cl.c:43-52). -/
inductive QaiEnum where
  | off | cldOpq | cldUnc | cldCir | shd | snw | wtr | aodFill | aodHigh | aodInt | sub | sat
  | sun | illShd | illPoor | illLow | slp | wvp
  deriving DecidableEq, Repr

/-- One pass of the loop in param-hl.c:734-753. -/
def parseStep (r : Rule) (e : QaiEnum) : Rule :=
  let r := if e = .off then { r with off := true } else r
  let r := if e = .cldUnc then { r with cldUnc := true } else r
  let r := if e = .cldOpq then { r with cldOpq := true } else r
  let r := if e = .cldCir then { r with cldCir := true } else r
  let r := if e = .shd then { r with shd := true } else r
  let r := if e = .snw then { r with snw := true } else r
  let r := if e = .wtr then { r with wtr := true } else r
  let r := if e = .aodInt then { r with aodInt := true } else r
  let r := if e = .aodHigh then { r with aodHigh := true } else r
  let r := if e = .aodFill then { r with aodFill := true } else r
  let r := if e = .sub then { r with sub := true } else r
  let r := if e = .sat then { r with sat := true } else r
  let r := if e = .sun then { r with sun := true } else r
  let r := if e = .illLow then { r with illLow := true } else r
  let r := if e = .illPoor then { r with illPoor := true } else r
  let r := if e = .illShd then { r with illShd := true } else r
  let r := if e = .slp then { r with slp := true } else r
  if e = .wvp then { r with wvp := true } else r

/-- param-hl.c:730-753 `parse_quality`. -/
def parseQuality (flags : List QaiEnum) : Rule := flags.foldl parseStep Rule.none

/-- enum-cl.c:43-52 `_TAGGED_ENUM_QAI_`. -/
def tags : List (QaiEnum × String) :=
  [(.off, "NODATA"), (.cldOpq, "CLOUD_OPAQUE"), (.cldUnc, "CLOUD_BUFFER"),
   (.cldCir, "CLOUD_CIRRUS"), (.shd, "CLOUD_SHADOW"), (.snw, "SNOW"), (.wtr, "WATER"),
   (.aodFill, "AOD_FILL"), (.aodHigh, "AOD_HIGH"), (.aodInt, "AOD_INT"), (.sub, "SUBZERO"),
   (.sat, "SATURATION"), (.sun, "SUN_LOW"), (.illShd, "ILLUMIN_NONE"),
   (.illPoor, "ILLUMIN_POOR"), (.illLow, "ILLUMIN_LOW"), (.slp, "SLOPED"), (.wvp, "WVP_NONE")]

/-- One iteration of the parallel loop in quality-hl.c:126-135: pixel `p` of all dates.
`qai t p` is the QAI value, `msk t p` the screening result. -/
def screenPixel (qai : Nat → Nat → BitVec 16) (mask : Option (Nat → Bool)) (r : Rule)
    (isArd : Bool) (msk : Nat → Nat → Bool) (p : Nat) : Nat → Nat → Bool := fun t p' =>
  if p' = p then
    match mask with
    | some m => if !m p then false else useThisPixel (qai t p) r isArd
    | none => useThisPixel (qai t p) r isArd
  else msk t p'

/-- quality-hl.c:81-145 `screen_qai`. `schedule` is the order in which the iterations of the
parallel loop are executed; each iteration only writes its own pixel. Allocation errors are not
modelled. `isArd` is true iff the input level is ARD or QAI. -/
def screenQai (qai : Nat → Nat → BitVec 16) (mask : Option (Nat → Bool)) (r : Rule)
    (isArd : Bool) (init : Nat → Nat → Bool) (schedule : List Nat) : Nat → Nat → Bool :=
  schedule.foldl (screenPixel qai mask r isArd) init

end Verif.Qai
