import Mathlib.Tactic.IntervalCases
import Verif.Aod.Map
import Verif.Aod.Site

/-! # Cases that meet the hypotheses -/

namespace Verif.Aod.Examples

open Verif.Aod Verif.Aod.Spec
open Verif.Str (Out)

/-- Blue, green, red, near infrared, SWIR2. -/
def conf : Conf := { nb := 5, ultrablue := none, blue := 0, green := 1, red := 2, nir := 3, sw2 := 4, use := fun _ => true }

/-- Water. -/
def lake : Pixel := { off := false, shadow := false, cloud := 0, toa := fun b => 900 - 200 * (b : Int), slp := 0, z := 1 / 2 }

/-- A lake everywhere. -/
def sea (n : Nat) : Scene := { ny := n, nx := n, px := fun _ => lake, dist := fun _ => 4 }

/-- `c214_one_cell_partial`: 60 m pixels and cells of 3 km (50 pixels); the scene has targets. -/
example : (targets .water conf (cellSize (50 * 60) 60) (sea 200)).px (7, 3) = true ∧
    ∃ (N : Nat) (k : Int) (lab : Ccl.Px → Int),
      (∀ fuel, N ≤ fuel → Ccl.components (targets .water conf (cellSize (50 * 60) 60) (sea 200)) fuel (fun _ => 0) = some (k, lab)) := by
  refine ⟨by decide +kernel, ?_⟩
  obtain ⟨N, k, lab, h, -⟩ := c214_one_cell_partial .water conf (sea 200) 50 (by norm_num) 60 (by norm_num)
  exact ⟨N, k, lab, h⟩

/-- `c214_straddle_violated`: a large lake. -/
example := c214_straddle_violated .water conf (sea 2000) (by norm_num [sea]) (by norm_num [sea])
  (fun t _ _ => by show candidate .water conf lake = true; decide +kernel)

/-- `c215_reflectance`: a target of 25 pixels. -/
example : (object .water conf (sea 5) (fun _ => 1) 1).isSome = true := by decide +kernel

/-- One band: the best match is an AOD of 0.2, from 0.5 on the reflectance is not reasonable. -/
noncomputable def band : Curve := { implausible := fun a => decide (a ≥ 0.5), mismatch := fun _ a => |a - 0.2| }

/-- `c216_best_match`. -/
example : ∃ r, scan band [0.1, 0.2, 0.6, 0.2] 0 7 = r ∧ |r - 0.2| ≤ 0 := by
  obtain ⟨r, -, h1, -, -, h2, -⟩ := c216_best_match band [0.1, 0.2, 0.6, 0.2] 0 0.2 [0.1] [0.6, 0.2] rfl
    (by norm_num [band]) (by norm_num [band]) (by norm_num [band]) 7
  refine ⟨r, h1, ?_⟩
  simpa [band] using h2

/-- `c216_schedule_partial`: the targets are regular. -/
example : Proper conf ∧ Regular conf 3 [0.1, 0.2] fun _ => band := by
  refine ⟨?_, fun w _ b _ _ _ => ⟨[], 0.1, [0.2], rfl, by simp, by norm_num [band], ?_⟩⟩
  · exact ⟨by decide, by decide⟩
  · norm_num [band, abs_lt]

/-- `c216_history_violated`: no AOD is reasonable for the second target. -/
example : Ordered conf ∧ ∀ b, b < conf.nb → conf.use b = true → b ≠ conf.sw2 → band.implausible 0.5 = true := by
  refine ⟨?_, fun _ _ _ _ => by norm_num [band]⟩
  exact ⟨⟨by decide, by decide⟩, fun b h => absurd h (Nat.not_lt_zero _), fun u h => by cases h⟩

/-- Blue and SWIR2. -/
def two : Conf := { nb := 2, ultrablue := none, blue := 0, green := 0, red := 0, nir := 0, sw2 := 1, use := fun _ => true }

/-- Wavelengths of 0.5 and 2 um. -/
noncomputable def waves (b : Nat) : ℝ := if b = 0 then 0.5 else 2

/-- AOD of an Angstrom curve with exponent 1. -/
noncomputable def hazy (b : Nat) : ℝ := 0.0344 * waves b ^ (-1 : ℝ)

theorem waves_pos (b : Nat) : 0 < waves b := by unfold waves; split <;> norm_num

theorem hazy_0 : hazy 0 = 0.0688 := by unfold hazy waves; rw [if_pos rfl, Real.rpow_neg_one]; norm_num

theorem hazy_1 : hazy 1 = 0.0172 := by unfold hazy waves; rw [if_neg (by norm_num), Real.rpow_neg_one]; norm_num

/-- `c218_angstrom`. -/
theorem hazy_fit : linearFit (logPoints two waves hazy) = (0.0344, -1) :=
  (c218_angstrom two waves hazy waves_pos 0 1 (by simp [two]) (by simp [two]) (by norm_num [waves]) 0.0344 1 (by norm_num)
    fun _ _ _ => rfl).1

/-- `c218_least_squares`: the same bands. -/
example (a s : ℝ) := c218_least_squares two waves hazy 0 1 (by simp [two]) (by simp [two]) (waves_pos 0) (by norm_num [waves]) a s

theorem hazy_prepare : prepare .vegetation two hazy = some hazy := by
  have hf : fixSwir two hazy = hazy := by
    funext x
    unfold fixSwir swirAod two
    simp only
    split
    · rename_i h; rw [h, hazy_1]
    · rfl
  have hc : (List.range two.nb).foldl (clampStep two) (fixSwir two hazy) = hazy := by
    rw [hf]
    show clampStep two (clampStep two hazy 0) 1 = hazy
    have h0 : clampStep two hazy 0 = hazy := by
      unfold clampStep two
      simp only
      rw [if_neg (by rw [hazy_0, hazy_1]; norm_num)]
    rw [h0]
    unfold clampStep two
    simp only
    rw [if_pos ⟨trivial, le_refl _⟩]
    funext x
    split
    · rename_i h
      rw [show x = 1 by omega]
    · rfl
  rcases prepare_eq .vegetation two hazy with ⟨s, -⟩ | ⟨-, p⟩
  · exfalso
    rcases s with ⟨b, hb, -, h⟩ | ⟨-, h⟩ | h | ⟨u, h, -⟩
    · exact absurd h (not_lt.2 (mul_nonneg (by norm_num) (Real.rpow_nonneg (waves_pos b).le _)))
    · exact lt_irrefl _ h
    · rw [hf] at h
      simp only [two] at h
      rw [hazy_0, hazy_1] at h; norm_num at h
    · cases h
  · rw [p, hc]

/-- `c217_accepted`: a target with two spectra that follow the curve. -/
example (poly : List (ℝ × ℝ) → Coef) : ∃ r, fromTarget .vegetation two waves poly 2 (fun _ => hazy) = some r := by
  have hk : tryFit .vegetation two waves poly hazy = some (⟨0.0344, -1, 0⟩, true, 1) := by
    unfold tryFit
    rw [hazy_prepare]
    have hcv : ∀ x, curve waves ⟨0.0344, -1, 0⟩ x = hazy x := by
      intro x; unfold curve hazy; simp
    have : fitCurve .vegetation two waves poly hazy = some (⟨0.0344, -1, 0⟩, true) := by
      unfold fitCurve
      simp only
      rw [if_neg (fun h => h.1 rfl), hazy_fit, if_pos]
      refine ⟨fun b h1 h2 => ?_, ⟨by norm_num, by norm_num⟩⟩
      have : b = 1 := by unfold two at h2; simp only at h2; omega
      subst this
      rw [hcv, hcv, hazy_1]
      simp only [Nat.sub_self, hazy_0]
      norm_num
    simp only
    rw [this]
    simp only
    unfold rsquare
    simp [hcv]
  refine ⟨⟨1, 0, ⟨0.0344, -1, 0⟩, true⟩, ?_⟩
  unfold fromTarget
  have : (List.range 2).foldl (bestStep fun _ => tryFit .vegetation two waves poly hazy) none = some ⟨1, 0, ⟨0.0344, -1, 0⟩, true⟩ := by
    rw [show List.range 2 = [0, 1] from rfl, List.foldl_cons, List.foldl_cons, List.foldl_nil]
    unfold bestStep
    simp only [hk]
    norm_num
  rw [this]
  norm_num

/-- A target in cell 1. -/
noncomputable def spot (z : ℝ) : Target := { g := 1, z := z, rsq := 0.8, aod := fun _ => 0.2 }

/-- `c219_cell`: two targets in cell 1. -/
example : interpolated [spot 0, spot 0] 1 = false ∧ interpolated [spot 0, spot 0] 2 = true :=
  ⟨((c219_cell 1000 0 [spot 0, spot 0] (by norm_num [spot]) 0 1).2 ⟨spot 0, by simp, rfl⟩).1,
    ((c219_cell 1000 0 [spot 0, spot 0] (by norm_num [spot]) 0 2).1 (by simp [spot])).1⟩

/-- `c219_map`: the interpolation is the value of the first sample. -/
example : 0.2 ≤ (interpolate (fun s _ => (s.map fun p => p.2.2).headD 0) (mapCell 1000 0 [spot 0]) (fun _ => true) 0 2 2 0).2 := by
  obtain ⟨s, -, -, -, h⟩ := c219_map (fun s _ => (s.map fun p => p.2.2).headD 0) 1000 0 [spot 0] (by norm_num [spot]) (by simp)
    (fun _ => true) 0 2 2 0 (by norm_num [spot]) 0.2 0.2 (by norm_num) (by simp [spot]) (by
      intro s hs l u h g
      cases s with
      | nil => exact absurd rfl hs
      | cons p s => exact h p (by simp))
  exact (h ⟨0, by norm_num, rfl⟩).1

/-- `c220_height`: two lakes and two forests, from 0 to 1 km. -/
example : height (some 0.7) 1 2 2 [spot 0, spot 1] [spot 0.5, spot 0.3] = .ok 1.2 := by
  obtain ⟨hp, h1, -, -, -, h2⟩ := c220_height (some 0.7) (by intro x hx; rw [← Option.some.inj hx]; norm_num) 1
    [spot 0, spot 1] [spot 0.5, spot 0.3] (by norm_num [spot])
  have := h2 (by norm_num) (by norm_num) ⟨spot 0, by simp, spot 1, by simp, by norm_num [spot]⟩
  rw [show ((some (0.7 : ℝ)).map (max 1.2)).getD 1000 = 1.2 by norm_num] at this
  rw [this] at h1
  exact h1

/-- `c221_nearest_partial`, `c221_empty_line_violated`: two sites. -/
theorem lines : List.Forall₂ (LineOf id) ["8.5 50 -2 -1.5 0.1".toList, "10 49 -3 -1 0".toList]
    [⟨8.5, 50, -2, -1.5, 0.1⟩, ⟨10, 49, -3, -1, 0⟩] := by
  refine .cons ⟨"8.5".toList, "50".toList, "-2".toList, "-1.5".toList, "0.1".toList, ?_, by decide +kernel, by decide +kernel, by decide +kernel, by decide +kernel, by decide +kernel, by decide +kernel⟩
    (.cons ⟨"10".toList, "49".toList, "-3".toList, "-1".toList, "0".toList, ?_, by decide +kernel, by decide +kernel, by decide +kernel, by decide +kernel, by decide +kernel, by decide +kernel⟩ .nil)
  · unfold Word; decide +kernel
  · unfold Word; decide +kernel

example : ∃ (i : Nat) (s : Site), ([⟨8.5, 50, -2, -1.5, 0.1⟩, ⟨10, 49, -3, -1, 0⟩] : List Site)[i]? = some s ∧
    aodFile id 9 50 (some (["8.5 50 -2 -1.5 0.1".toList, "10 49 -3 -1 0".toList].flatMap fun l => l ++ ['\n'])) = .ok s.co :=
  let ⟨i, s, h1, h2, _⟩ := (c221_nearest_partial id 9 50 _ _ lines (by decide +kernel) (by
    intro s hs; simp only [List.mem_cons, List.not_mem_nil, or_false] at hs
    rcases hs with rfl | rfl <;> norm_num [dist2])).2.2 (by simp)
  ⟨i, s, h1, h2⟩

/-- `c221_antimeridian_violated`: the scene is at 179.5 degrees, the sites at -179.5 and 177.5. -/
example : aodFile id 179.5 50 (some ("-179.5 50 -2 -1 0\n177.5 50 -3 -1 0\n".toList)) = .ok (-3, -1, 0) :=
  c221_antimeridian_violated id 179.5 50 "-179.5 50 -2 -1 0".toList "177.5 50 -3 -1 0".toList ⟨-179.5, 50, -2, -1, 0⟩ ⟨177.5, 50, -3, -1, 0⟩
    ⟨"-179.5".toList, "50".toList, "-2".toList, "-1".toList, "0".toList, by unfold Word; decide +kernel, by decide +kernel, by decide +kernel, by decide +kernel, by decide +kernel, by decide +kernel, by decide +kernel⟩
    ⟨"177.5".toList, "50".toList, "-3".toList, "-1".toList, "0".toList, by unfold Word; decide +kernel, by decide +kernel, by decide +kernel, by decide +kernel, by decide +kernel, by decide +kernel, by decide +kernel⟩
    (by decide +kernel) (by decide +kernel) (by norm_num) (by norm_num)

/-- `c221_fallback`: wavelengths of two bands, one valid target. -/
example (co : ℝ × ℝ × ℝ) (map : Nat → (Nat → Option ℝ) × ℝ) := (c221_fallback waves waves_pos co map 0 1 0).2.2 (.inr one_pos)

end Verif.Aod.Examples
