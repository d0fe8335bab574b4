import Verif.Str.Spec
import Verif.Tile.Spec

/-! # Tiles of one large image -/

namespace Verif.Halo.Spec

/-- The files with names `pre`, tile, `post` are the parts of one large image `w` (row, column): each tile has
`th` rows and `tw` columns. `has` tells which tiles exist. Tile names have 11 characters. -/
def Tiled (disc : List Char → Option (Nat → Nat → Int)) (pre post : List Char) (th tw : Nat)
    (w : Int → Int → Int) (has : Int → Int → Bool) : Prop :=
  ∀ tx ty : Int, -1000 < tx ∧ tx < 10000 → -1000 < ty ∧ ty < 10000 → disc (pre ++ Verif.Tile.Spec.tileName (tx, ty) ++ post) =
    if has tx ty then some (fun (r c : Nat) => w (ty * th + r) (tx * tw + c)) else none

/-- The value at row `y` and column `x` of the large image, nodata if its tile does not exist. -/
def pixel (nodata : Int) (th tw : Nat) (w : Int → Int → Int) (has : Int → Int → Bool) (y x : Int) : Int :=
  if has (x / tw) (y / th) then w y x else nodata

/-- The name of a tile occurs in its path first behind `pre`. -/
def Unique (pre post : List Char) : Prop :=
  ∀ t, Verif.Str.Spec.FirstOccurrence (pre ++ Verif.Tile.Spec.tileName t ++ post)
    (Verif.Tile.Spec.tileName t) pre post

end Verif.Halo.Spec
