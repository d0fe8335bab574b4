import Verif.Halo.Props

/-! # Concrete cases for C83–C84 -/

namespace Verif.Halo

open Verif.Tile.Spec Spec

/-- Chunks of 3 rows and 2 columns, 3 by 2 in a tile, with one pixel on each side. -/
def g0 : Grid := ⟨2, 3, 3, 2, 1, -9999⟩

/-- An image in which every pixel has another value. -/
def w0 : Int → Int → Int := fun y x => 1000 * y + x

/-- All tiles exist but one. -/
def has0 : Int → Int → Bool := fun tx ty => !(tx == 5 && ty == 3)

def pre0 : List Char := "/data/".toList
def post0 : List Char := "/20180101_BOA.tif".toList

/-- The files with their names. -/
def disc0 (tiles : List (Int × Int)) : List Char → Option Img := fun f =>
  (tiles.find? fun t => f == pre0 ++ tileName t ++ post0).bind fun t =>
    if has0 t.1 t.2 then some fun r c => w0 (t.2 * 6 + r) (t.1 * 6 + c) else none

theorem tileName_inj {t t' : Int × Int} (h1 : -1000 < t.1 ∧ t.1 < 10000) (h2 : -1000 < t.2 ∧ t.2 < 10000)
    (h1' : -1000 < t'.1 ∧ t'.1 < 10000) (h2' : -1000 < t'.2 ∧ t'.2 < 10000) (h : tileName t = tileName t') : t = t' := by
  rw [← Verif.Tile.parseId_name [] t h1 h2, ← Verif.Tile.parseId_name [] t' h1' h2', h]

/-- A disc with all the tiles exists. -/
theorem tiled_exists : ∃ disc, Tiled disc pre0 post0 (g0.ky * g0.H) (g0.kx * g0.W) w0 has0 := by
  classical
  let P : List Char → Int × Int → Prop := fun f t => f = pre0 ++ tileName t ++ post0 ∧
    (-1000 < t.1 ∧ t.1 < 10000) ∧ (-1000 < t.2 ∧ t.2 < 10000)
  refine ⟨fun f => if h : ∃ t : Int × Int, P f t then
    if has0 (Classical.choose h).1 (Classical.choose h).2 then
      some fun (r c : Nat) => w0 ((Classical.choose h).2 * ((g0.ky * g0.H : Nat) : Int) + r)
        ((Classical.choose h).1 * ((g0.kx * g0.W : Nat) : Int) + c)
    else none
    else none, ?_⟩
  intro tx ty hx hy
  have h : ∃ t : Int × Int, P (pre0 ++ tileName (tx, ty) ++ post0) t := ⟨(tx, ty), rfl, hx, hy⟩
  have e : Classical.choose h = (tx, ty) := by
    obtain ⟨a, b, c⟩ := Classical.choose_spec h
    simp only [List.append_assoc, List.append_cancel_left_eq, List.append_cancel_right_eq] at a
    exact (tileName_inj hx hy b c a).symm
  simp only [dif_pos h, e]

example : 0 < g0.h ∧ g0.h ≤ g0.W ∧ g0.h ≤ g0.H ∧ 2 < g0.kx ∧ 0 < g0.ky ∧ has0 4 3 = true := by decide

example : Unique pre0 post0 := unique_of_noX (by decide)

/-- The last chunk in x: its eastern neighbour is in a tile that does not exist, its northern one in the tile above. -/
example : (readExtended g0 (disc0 [(4, 3), (5, 2), (5, 3), (4, 2)]) (pre0 ++ tileName (4, 3) ++ post0) (2, 0) (4, 3)).map
    (fun m => (List.range 20).map m) = some
    [17025, 17028, 17029, 17030,
     18025, 18028, 18029, -9999,
     19025, 19028, 19029, -9999,
     20025, 20028, 20029, -9999,
     21025, 21028, 21029, -9999] := by decide +kernel

/-- The western pixels should be 17027, 18027, … -/
example : w0 17 27 = 17027 := by decide

end Verif.Halo
