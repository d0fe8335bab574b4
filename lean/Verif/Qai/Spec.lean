import Verif.Qai.Model

/-!
# Specification of the quality bits

Positions, widths and meaning as documented in
`/repo/docs/source/components/lower-level/level2/format.rst:300-380`.
-/

namespace Verif.Qai.Spec

/-- (first bit, number of bits) of each flag according to the documentation. -/
def layout : Flag → Nat × Nat
  | .off => (0, 1) | .cld => (1, 2) | .shd => (3, 1) | .snw => (4, 1) | .wtr => (5, 1)
  | .aod => (6, 2) | .sub => (8, 1) | .sat => (9, 1) | .sun => (10, 1) | .ill => (11, 2)
  | .slp => (13, 1) | .wvp => (14, 1)

/-- The number stored in a flag. -/
def value (f : Flag) (v : BitVec 16) : Nat := v.toNat / 2 ^ (layout f).1 % 2 ^ (layout f).2

/-- Number of states of a flag. -/
def states (f : Flag) : Nat := 2 ^ (layout f).2

/-- Names a user can give for screening, with the flag and state that is to be rejected. -/
def condition : String → Option (Flag × Nat)
  | "NODATA" => some (.off, 1)
  | "CLOUD_BUFFER" => some (.cld, 1)
  | "CLOUD_OPAQUE" => some (.cld, 2)
  | "CLOUD_CIRRUS" => some (.cld, 3)
  | "CLOUD_SHADOW" => some (.shd, 1)
  | "SNOW" => some (.snw, 1)
  | "WATER" => some (.wtr, 1)
  | "AOD_INT" => some (.aod, 1)
  | "AOD_HIGH" => some (.aod, 2)
  | "AOD_FILL" => some (.aod, 3)
  | "SUBZERO" => some (.sub, 1)
  | "SATURATION" => some (.sat, 1)
  | "SUN_LOW" => some (.sun, 1)
  | "ILLUMIN_LOW" => some (.ill, 1)
  | "ILLUMIN_POOR" => some (.ill, 2)
  | "ILLUMIN_NONE" => some (.ill, 3)
  | "SLOPED" => some (.slp, 1)
  | "WVP_NONE" => some (.wvp, 1)
  | _ => none

end Verif.Qai.Spec
