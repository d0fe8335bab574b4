import Verif.Cube.Model

/-! # Specification of the datacube definition file -/

namespace Verif.Cube.Spec

/-- A double that is determined by six decimals: it is the double nearest to some
multiple `k` of 10^-6 (in particular, it is not further than half a unit from it). -/
def SixDecimals (rd : ℚ → ℚ) (v : ℚ) : Prop :=
  ∃ k : ℤ, v = rd ((k : ℚ) / 1000000) ∧ |v - (k : ℚ) / 1000000| < 1 / 2000000

/-- All numbers of a definition have six decimals. -/
def Numbers (rd : ℚ → ℚ) (c : Def) : Prop :=
  SixDecimals rd c.originGeoX ∧ SixDecimals rd c.originGeoY ∧ SixDecimals rd c.originMapX ∧
  SixDecimals rd c.originMapY ∧ SixDecimals rd c.tileSizeX ∧ SixDecimals rd c.tileSizeY

/-- All numbers of a definition are in the range of finite doubles. -/
def Finite (c : Def) : Prop :=
  |c.originGeoX| < 2 ^ 1024 ∧ |c.originGeoY| < 2 ^ 1024 ∧ |c.originMapX| < 2 ^ 1024 ∧
  |c.originMapY| < 2 ^ 1024 ∧ |c.tileSizeX| < 2 ^ 1024 ∧ |c.tileSizeY| < 2 ^ 1024

/-- The projection text is a single word of at most 1023 characters. -/
def OneWord (p : List Char) : Prop :=
  p ≠ [] ∧ p.length < 1024 ∧ ∀ c ∈ p, c ≠ ' ' ∧ c ≠ '=' ∧ c ≠ '\r' ∧ c ≠ '\n'

/-- The tags of a definition file. -/
def tags : List (List Char) :=
  ["PROJECTION".toList, "ORIGIN_GEO_X".toList, "ORIGIN_GEO_Y".toList, "ORIGIN_MAP_X".toList,
    "ORIGIN_MAP_Y".toList, "TILE_SIZE_X".toList, "TILE_SIZE_Y".toList]

/-- Process `i` is between `lock_file` and the end of `unlock_file`. -/
def Critical (pc : PC) : Prop := pc = .open ∨ pc = .write ∨ pc = .unlock

/-- The process has returned from the function. -/
def Returned (pc : PC) : Prop := pc = .success ∨ pc = .failure

end Verif.Cube.Spec
