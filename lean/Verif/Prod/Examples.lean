import Verif.Prod.CoarseProps
import Verif.Prod.Level2Props
import Verif.Prod.OverviewProps
import Verif.Prod.BackgroundProps
import Mathlib.Tactic.IntervalCases

/-!
# Concrete cases for the theorems about the Level 2 products
-/

namespace Verif.Prod.Examples

open Verif.Prod Verif.Prod.Spec Verif.Float
open Verif.Qai.Spec (value)

/-- There is a rounding to floats. -/
theorem rounding : ∃ fl : ℚ → ℚ, ∀ x, Nearest 24 x (fl x) := exists_round 24 (by norm_num)

/-! ## C148 -/

example : ∃ fl : ℚ → ℚ, isNodataInt fl (-9999) (-9999) = true ∧ isNodataInt fl (-9998) (-9999) = false ∧
    isNodataFloat fl 0 0 = true ∧ isNodataFloat fl (fl (-9999)) (-9999) = true ∧ isNodataFloat fl 50 (-9999) = false := by
  obtain ⟨fl, h⟩ := rounding
  refine ⟨fl, (c148_integers h _ _ (by decide)).2 rfl, ?_, (c148_zero h 0 (by simpa using rep_int (p := 24) (k := 0) (by norm_num))).2 rfl,
    c148_detected h (-9999), ?_⟩
  · rw [← Bool.not_eq_true, c148_integers h _ _ (by decide)]; decide
  · refine c148_float_partial h 50 (by exact_mod_cast rep_int (p := 24) (k := 50) (by norm_num)) (-9999) (by decide) ?_
    norm_num

/-- The next float above −9999 counts as nodata: −9999 is −10238976 · 2⁻¹⁰. -/
example : ∃ fl : ℚ → ℚ, isNodataFloat fl (-10238975 * (2 : ℚ) ^ (-10 : Int)) (-9999) = true := by
  obtain ⟨fl, h⟩ := rounding
  have := c148_neighbours_violated h (-9999) (-10238976) (-10) 1 (by decide) (by decide) (by norm_num) (Or.inl rfl)
  refine ⟨fl, ?_⟩
  have e : ((-10238976 + 1 : Int) : ℚ) = -10238975 := by norm_num
  rw [e] at this
  exact this.2.2

/-! ## C149 -/

/-- A grid of 2 x 3 cells; all cells are known. -/
example (y x : ℚ) (hy0 : 0 ≤ y) (hy : y < 2) (hx0 : 0 ≤ x) (hx : x < 3) :
    ∃ v, smoothed id 3 2 [10, 11, 12, 13, 14, 15] (-9999) [1, 2, 3, 4, 5, 6] y x = .ok v ∧
      Bilinear 2 3 (fun r s => [1, 2, 3, 4, 5, 6].getD (r * 3 + s) 0) y x v := by
  refine c149_bilinear_partial id 3 2 [10, 11, 12, 13, 14, 15] [1, 2, 3, 4, 5, 6] rfl rfl (-9999) y x hy0 (by exact_mod_cast hy) hx0
    (by exact_mod_cast hx) ?_
  intro r s hr hs _ _
  interval_cases r <;> interval_cases s <;> decide +kernel

/-- A grid of 2 x 2 cells with one unknown cell: the result is between the known ones. -/
example : ∃ v, smoothed id 2 2 [10, -9999, 12, 13] (-9999) [1, 100, 3, 4] 1 1 = .ok v ∧ 1 ≤ v ∧ v ≤ 4 := by
  refine c149_range_partial id 2 2 [10, -9999, 12, 13] [1, 100, 3, 4] rfl rfl (-9999) 1 1 (by norm_num) (by norm_num) (by norm_num)
    (by norm_num) 1 4 ?_ ⟨0, 0, by norm_num, by norm_num, by decide +kernel⟩
  intro r s hr hs _ _ h
  interval_cases r <;> interval_cases s <;> first | (exact absurd h (by decide +kernel)) | (constructor <;> norm_num)

/-- No known cell. -/
example : smoothed id 2 2 [-9999, -9999, -9999, -9999] (-9999) [1, 2, 3, 4] 1 1 = .ok 0 := by
  refine c149_none id 2 2 [-9999, -9999, -9999, -9999] [1, 2, 3, 4] rfl rfl (-9999) 1 1 (by norm_num) (by norm_num) (by norm_num)
    (by norm_num) ?_
  intro r s hr hs _ _
  interval_cases r <;> interval_cases s <;> decide +kernel

/-- At the left border, an unknown cell contributes. -/
example : smoothed id 2 2 [-9999, 10, 11, 12] (-9999) [100, 2, 3, 4] 1 (1 / 4) = .ok (103 / 2) := by
  have := c149_border_violated id 2 2 [-9999, 10, 11, 12] [100, 2, 3, 4] rfl rfl (-9999) 1 (1 / 4) 0 (by norm_num) (by norm_num)
    (by norm_num) (by norm_num) (by norm_num) (by norm_num) (by decide +kernel) (by decide +kernel)
  rw [show (103 / 2 : ℚ) = ((0 : Nat) + 3 / 2 - 1) * [100, 2, 3, 4].getD (0 * 2) 0 + (1 - (0 : Nat) - 1 / 2) * [100, 2, 3, 4].getD ((0 + 1) * 2) 0 by norm_num]
  exact this

/-- Pixel 999 of 1000 pixels of 30 m, cells of 5 km. -/
example : 0 ≤ position 999 30 5000 ∧ position 999 30 5000 < (⌈((1000 : Nat) : ℚ) * 30 / 5000⌉₊ : ℚ) :=
  c149_inside 999 1000 30 5000 (by norm_num) (by norm_num) (by norm_num)

/-! ## C150, C151 -/

/-- The bands of Landsat 8 and of Sentinel-2 (meta-ll.c). -/
def landsat : List String := ["ULTRABLUE", "BLUE", "GREEN", "RED", "NIR", "CIRRUS", "SWIR1", "SWIR2", "TEMP"]

def sentinel : List String :=
  ["ULTRABLUE", "BLUE", "GREEN", "RED", "REDEDGE1", "REDEDGE2", "REDEDGE3", "BROADNIR", "NIR", "VAPOR", "CIRRUS", "SWIR1", "SWIR2"]

/-- A sufficient check. -/
theorem inOrder_of {dom : List String}
    (h : (List.range dom.length).all (fun i => (List.range dom.length).all fun j => (List.range 10).all fun x => (List.range 10).all fun y =>
      !(decide (i < j) && decide (dom[i]? = order[x]?) && decide (dom[j]? = order[y]?)) || decide (x < y)) = true) : InOrder dom := by
  intro i j x y a b hij ha hb hx hy
  have l : ∀ {k : Nat} {c : String}, order[k]? = some c → k < 10 := by
    intro k c hk
    have := (List.getElem?_eq_some_iff.1 hk).1
    exact this
  simp only [List.all_eq_true, List.mem_range] at h
  have := h i (List.getElem?_eq_some_iff.1 ha).1 j (List.getElem?_eq_some_iff.1 hb).1 x (l hx) y (l hy)
  simpa [hij, ha, hb, hx, hy] using this

theorem landsat_inOrder : InOrder landsat := inOrder_of (by decide +kernel)

theorem sentinel_inOrder : InOrder sentinel := inOrder_of (by decide +kernel)

example : sources landsat = [1, 2, 3, 4, 6, 7] := by decide +kernel

example : (sources sentinel).map (fun i => sentinel[i]?) = order.map some := by
  rw [c150_bands]; decide +kernel

/-- A scene of which pixel 0 has the reflectance `r` in all bands. -/
def scene : Scene := { band := fun _ _ => 1000, qai := fun p => if p = 1 then 1 else 0 }

example : value .off (scene.qai 0) = 0 ∧ value .cld (scene.qai 0) ≠ 2 ∧ value .off (scene.qai 1) = 1 := by decide

/-- Reflectance 0.25 becomes 2500 in all bands. -/
example : (compileBoa false (fun _ _ _ _ => 1 / 4) landsat scene).band 5 0 = 2500 := by decide +kernel

/-- Reflectance 2.5 is stored as 25000, without nodata. -/
example : 20000 ≤ (compileBoa false (fun _ _ _ _ => 5 / 2) landsat scene).band 5 0 :=
  (c150_bright_violated false (fun _ _ _ _ => 5 / 2) landsat scene 0 landsat_inOrder (by decide) (by decide) (5 / 2) (by norm_num)
    (fun _ _ _ => rfl)).2 5 (by decide +kernel)

/-- Reflectance −0.99995 is stored as nodata, but is not flagged. -/
example : (compileBoa false (fun _ _ _ _ => -99995 / 100000) landsat scene).band 5 0 = -9999 :=
  (c150_nodata_violated false (fun _ _ _ _ => -99995 / 100000) landsat scene 0 landsat_inOrder (by decide) (by decide) (-99995 / 100000)
    (by norm_num) (by norm_num) (fun _ _ _ => rfl)).2 5 (by decide +kernel)

/-- Processing of the scene with all products. -/
def setup (r wvp : ℚ) (s2 : Bool) (dom : List String) : Setup where
  erase := false
  doatmo := true
  sentinel2 := s2
  rad := fun _ _ _ _ => r
  dom := dom
  blue := 1
  red := 3
  aod := fun _ => 1 / 5
  vzn := fun _ => 500
  est := fun _ => some 2
  avg := some 2
  wvp := wvp
  aoi := none

example : value .off ((level2 (setup (1 / 4) 3 false landsat) scene).qai 0) = 0 ∧
    value .off ((level2 (setup (1 / 4) 3 false landsat) scene).qai 1) = 1 := by decide +kernel

example : ∃ v, (level2 (setup (1 / 4) 3 false landsat) scene).aod 0 = .ok v ∧ 0 ≤ v ∧ (v : ℚ) ≤ 1 / 5 * 1000 ∧ 1 / 5 * 1000 < (v : ℚ) + 1 :=
  (c151_values (setup (1 / 4) 3 false landsat) scene 0 landsat_inOrder (by decide +kernel) rfl (by constructor <;> simp [setup] <;> norm_num)
    (by constructor <;> simp [setup] <;> norm_num) (by decide) (by decide)).1

example : (level2 (setup (1 / 4) 3 false landsat) scene).hot 1 = .ok (-9999) :=
  ((c151_nodata_partial (setup (1 / 4) 3 false landsat) scene 1 landsat_inOrder).2 (Or.inl (by decide))).2.1

/-- Reflectance −2 in all bands: nodata in the reflectance, but HOT has a value. -/
example : (level2 (setup (-2) 3 false landsat) scene).qai 0 = 1 ∧ (level2 (setup (-2) 3 false landsat) scene).hot 0 = .ok (-300) := by
  have := c151_late_violated (setup (-2) 3 false landsat) scene 0 landsat_inOrder (by decide) rfl rfl rfl (by decide +kernel)
    (fun _ _ _ => by simp [setup])
  refine ⟨this.1, ?_⟩
  rw [this.2.2.1]
  decide +kernel

/-- Sentinel-2: the water vapour of a nodata pixel is 0. -/
example : (level2 (setup (1 / 4) 3 true sentinel) scene).wvp 1 = .ok 0 :=
  ((c151_vapour_violated (setup (1 / 4) 3 true sentinel) scene 1 sentinel_inOrder rfl rfl).1 (by decide)).2

/-- Sentinel-2: the water vapour outside of the area of interest is not masked. -/
example : ∃ v, (level2 { setup (1 / 4) 3 true sentinel with aoi := some fun _ => 0 } scene).wvp 0 = .ok v ∧ 1 ≤ v :=
  ((c151_vapour_violated { setup (1 / 4) 3 true sentinel with aoi := some fun _ => 0 } scene 0 sentinel_inOrder rfl rfl).2 (fun _ => 0) 2
    (by decide) rfl rfl rfl (by norm_num)).2

/-- A water vapour of 40 cm. -/
example : (level2 (setup (1 / 4) 40 false landsat) scene).wvp 0 = .ub :=
  c151_overflow_violated (setup (1 / 4) 40 false landsat) scene 0 landsat_inOrder (by decide +kernel) rfl rfl (by simp [setup]; norm_num)

/-! ## C152, C153 -/

example : overviewSize 3000 30 = 600 ∧ overviewSource 599 30 = 2995 := by decide +kernel

example : 0 ≤ overviewSource 599 30 ∧ overviewSource 599 30 < (3000 : Nat) :=
  let h := c152_inside 3000 30 (by norm_num) 599 (by decide +kernel)
  ⟨h.1, h.2.1⟩

example : stretch 1250 = 127 ∧ stretch 3000 = 255 ∧ stretch (-5) = 0 := by decide +kernel

/-- An opaque cloud (2 in bits 1 and 2) is pink. -/
example : colour 4 1000 1000 1000 = (255, 0, 255) ∧ legend 4 = some (255, 0, 255) := by decide +kernel

/-- A scene of 4 x 3 pixels with a cloud in the upper left pixel. -/
def cloudy : Nat → BitVec 16 := fun p => if p = 0 then 4 else 0

theorem cloudy_busy : Busy 4 cloudy 0 0 := by unfold Busy; decide

/-- The pixel in the lower right corner is 3 columns and 2 rows away: 3 pixels of 30 m. -/
example : ∃ d : Nat, cloudDistance 4 3 30 cloudy 2 3 = .ok (min 32767 ⌊d * (30 : ℚ)⌋) :=
  let h := (c153_distance_partial 4 3 30 (by norm_num) cloudy (by decide) 2 3 (by decide) (by decide) ⟨0, 0, by decide, by decide, cloudy_busy⟩).2 (by decide)
  h.imp fun _ h => h.1

/-- In degrees, the distance is 0. -/
example : cloudDistance 4 3 (1 / 4000) cloudy 2 3 = .ok 0 :=
  c153_degrees_violated 4 3 (1 / 4000) (by norm_num) cloudy (by decide) 2 3 (by decide) (by decide) (by decide) 0 0 4 (by decide) (by decide)
    cloudy_busy (by decide) (by norm_num)

/-- No cloud: the distance is the largest possible one. -/
example : cloudDistance 4 3 30 (fun _ => 0) 2 3 = .ok 210 := by
  rw [c153_clear 4 3 30 (by norm_num) (fun _ => 0) (by decide) 2 3 (fun b a _ _ => by unfold Busy; simp only; decide) (by decide)]
  norm_num

/-! ## C154 -/

/-- Two columns, three rows: the pixel in the middle of the left column is a cloud, the right column is cloudy. -/
def kinds (i j : Nat) : Kind := if j = 1 then .cloud else if i = 1 then .cloud else .clear

def reflectance (i j : Nat) : ℚ := if kinds i j = .clear then (1 + i) / 10 else 9 / 10

/-- The clear pixels and the pixel itself are between 0.1 and 0.9. -/
example : 1 / 10 ≤ background 30 (1, 2, 3) (1 / 2) 2 3 kinds reflectance 1 0 ∧ background 30 (1, 2, 3) (1 / 2) 2 3 kinds reflectance 1 0 ≤ 9 / 10 := by
  refine c154_range_partial 30 (by norm_num) (by norm_num) (1, 2, 3) (by norm_num) (1 / 2) (by norm_num) (by norm_num) 2 3 kinds reflectance
    (1 / 10) (9 / 10) ?_ 1 0 (by decide) (by decide) (by decide) (by decide +kernel) ⟨0, by decide, by decide⟩
  decide +kernel

/-- The cloud may have any other reflectance. -/
example : surroundings (1 / 10) 2 3 kinds reflectance 1 0 = surroundings (1 / 10) 2 3 kinds (fun i _ => (1 + i) / 10) 1 0 :=
  c154_clouds (1 / 10) 2 3 kinds reflectance _ (by decide +kernel) 1 0 (by decide) (by decide) (by decide)

/-- Two clear pixels and a cloud, at 50 m: α is 1/3 for the ring of 250 m. -/
example : (sweep (alpha (1 / 4) 50) [(.clear, 1), (.cloud, 5), (.clear, 1)] 4).2 - 1 = (1 - 2 / (1 / 4 * 1000 / 50 + 1)) ^ 2 * (4 - 1) :=
  c154_decay (1 / 4) 50 1 4 _ (by decide +kernel)

example : kindOf 0 = .clear ∧ kindOf 1 = .off ∧ kindOf 2 = .cloud := by decide +kernel

/-- The right column has no clear pixel. -/
example : surroundings (1 / 10) 2 3 kinds reflectance 1 1 = 0 :=
  c154_column_violated (1 / 10) 2 3 kinds reflectance 1 1 (by decide) (by decide) (by decide)

end Verif.Prod.Examples
