import Verif.Lsm.Stripes

/-! # Landscape metrics: concrete cases -/

namespace Verif.Lsm

open Verif.Str (Out)
open Verif.Ccl (Px Objects)

/-- A chunk from text: all pixels valid, no mask. -/
def ofRows (rows : List (List Int)) : Chunk :=
  ⟨rows.length, (rows.headD []).length, fun p => (rows.getD p.1.toNat []).getD p.2.toNat 0, fun _ => true, -9999, none⟩

/-- A patch of four pixels with a notch, a pair, and a single pixel that is removed. -/
def field : Chunk := ofRows
  [[0, 0, 0, 0, 0, 0],
   [0, 7, 9, 0, 5, 0],
   [0, 8, 0, 0, 5, 0],
   [0, 6, 0, 0, 0, 0],
   [0, 0, 0, 3, 0, 0]]

/-- Values of two and more, radius 1, patches of two pixels or more. -/
def plain : Par := ⟨1, false, false, false, .ge, 2, 2⟩

/-- The result at a pixel. -/
def at' (par : Par) (c : Chunk) (p : Px) : Option Acc :=
  (landscape par c 200 [[(1, 1), (2, 4)], [(4, 3)], [p]]).bind fun r => (r.2.getLast?.bind fun x => x.2)

/-- `c87_pixels_partial`: patch pixels have metrics, the single pixel and the background have none; with all pixels
requested the background has. -/
example : ((at' plain field (1, 2)).isSome, (at' plain field (4, 3)).isSome, (at' plain field (0, 5)).isSome,
    (at' { plain with allpx := true } field (0, 5)).isSome) = (true, false, false, true) := by decide +kernel

/-- `c87_allpx_violated`: with larger patches only, there is none, and no pixel has metrics. -/
example : (at' { plain with allpx := true, minpatch := 5 } field (0, 5)).isSome = false := by decide +kernel

/-- `c88_schedule`: a thread that has seen other patches before gives the same. -/
example : ((landscape plain field 200 [[(1, 4), (2, 4), (1, 1), (1, 2)]]).bind fun r => r.2.getLast?.bind fun x => x.2.map
      fun a => (a.n, a.uniq, a.area 1, a.area 2, a.edge)) =
    (at' plain field (1, 2)).map fun a => (a.n, a.uniq, a.area 1, a.area 2, a.edge) := by decide +kernel

/-- `c89_statistics_partial`: around (1, 2) are 7, 9 and 8. -/
example : (at' plain field (1, 2)).map (fun a => (are a, avg a, maxv a, a.vx, a.logs)) =
    some (3, .ok 8, 9, 2, [7, 9, 8]) := by decide +kernel

/-- `c90_patches_partial`: around (1, 3) are one pixel of the first patch and two of the second, with 3 edges each in
the kernel. -/
example : (at' { plain with allpx := true } field (1, 3)).map
      (fun a => (nbr a, a.uniq, a.uniq.map a.area, a.uniq.map a.perim, a.total)) =
      some (2, [1, 2], [1, 2], [3, 3], 3) ∧
    (at' { plain with allpx := true } field (1, 3)).map (fun a => (mpa plain a, edd plain a, ems plain a)) =
      some (.ok 1851, .ok 6666, .ok 1111) := by decide +kernel

/-- `c90_fdi_filled_violated`, `c89_std_violated`, `c89_geo_violated` and `c89_max_violated`. -/
example : (at' ⟨1, false, false, false, .ge, 2, 2⟩ (ofRows [[0, 0, 0, 0], [0, 5, 5, 5], [0, 5, 5, 5], [0, 5, 5, 5]]) (2, 2)).map
      (fun a => fdi id plain a) = some .ub ∧
    (at' ⟨0, false, false, false, .ge, 2, 2⟩ field (1, 1)).map (fun a => std id a) = some .ub ∧
    (at' ⟨1, false, false, false, .lt, -5, 1⟩ (ofRows [[0, 0, 0], [0, -6, -7]]) (1, 1)).map
      (fun a => (geo (fun _ => 1) a, maxv a, avg a)) = some (.ub, 0, .ok (-6)) := by decide +kernel

/-- `c90_identifier_partial`. -/
example : (landscape plain field 200 []).map (fun r => (r.1.nobj, uci r.1 (1, 1), uci r.1 (3, 1), uci r.1 (1, 4), uci r.1 (4, 3))) =
    some (2, 1, 1, 2, 0) := by decide +kernel

/-- `c90_identifier_violated`: the hypothesis is met. -/
example : ∃ n : Nat, 65537 ≤ n := ⟨65537, le_rfl⟩

end Verif.Lsm
