import Verif.L1.Bounds
import Verif.L1.Noise
import Verif.L1.Landsat
import Verif.L1.Sentinel

/-! # The hypotheses of the theorems on Level 1 data are met -/

namespace Verif.L1

open Spec
open Verif.Str (Out)

/-- Three bands, the last one is the temperature: a void pixel, a saturated one, a valid one, and one that is saturated in the first and void in the second band. -/
example :
    let dn : Dn := fun b p => (([[0, 5, 5], [255, 5, 5], [5, 6, 7], [255, 0, 5]].getD p []).getD b 0)
    (List.range 4).map (pixel dn 2 (-1) 255 3) = [⟨true, false, 0⟩, ⟨false, true, 0⟩, ⟨false, false, 1⟩, ⟨false, true, 0⟩] ∧
      rejected dn 2 (-1) 255 3 4 = false := by
  decide +kernel

/-- The cirrus band may be 0. -/
example : pixel (fun b _ => if b = 1 then 0 else 7) (-1) 1 255 3 0 = ⟨false, false, 0⟩ := by decide +kernel

/-- The same image, saturated everywhere: rejected. -/
example : rejected (fun b _ => if b = 0 then 255 else 7) 2 (-1) 255 3 4 = true ∧ ∀ p < 4, ∃ a < 2, 255 ≤ (fun b _ => if b = 0 then 255 else 7 : Dn) a p := by
  exact ⟨by decide +kernel, fun p _ => ⟨0, by norm_num, by norm_num⟩⟩

/-- An image of 3 x 3 pixels with a void corner: with the buffer, nothing is masked. -/
example : offWrites (fun _ p => if p = 0 then 0 else 7) (-1) (-1) 255 2 3 3 = some (.ok []) ∧
    ∀ i j, i < 3 → j < 3 → (pixel (fun _ p => if p = 0 then 0 else 7) (-1) (-1) 255 2 (3 * i + j)).off = true →
      i = 0 ∨ i + 1 = 3 ∨ j = 0 ∨ j + 1 = 3 := by
  refine ⟨by decide +kernel, ?_⟩
  intro i j hi hj
  have : ∀ i : Fin 3, ∀ j : Fin 3, (pixel (fun _ p => if p = 0 then 0 else 7) (-1) (-1) 255 2 (3 * i + j)).off = true →
      (i : ℕ) = 0 ∨ (i : ℕ) + 1 = 3 ∨ (j : ℕ) = 0 ∨ (j : ℕ) + 1 = 3 := by decide +kernel
  exact this ⟨i, hi⟩ ⟨j, hj⟩

/-- An image of 3 x 3 pixels with a void pixel in the middle: five pixels are masked. -/
example : ∃ ws, offWrites (fun _ p => if p = 4 then 0 else 7) (-1) (-1) 255 2 3 3 = some (.ok ws) ∧
    ((List.range 9).map fun p => decide ((p : ℤ) ∈ ws)) = [false, true, false, true, true, true, false, true, false] := by
  refine ⟨[1, 1, 4, 4, 7, 7, 5, 3], ?_⟩
  decide +kernel

/-- Every pixel has a window. -/
example (o : ℤ × ℤ → Bool) (q : ℤ × ℤ) : ∃ l, Window o q l := by
  obtain ⟨g1, g2⟩ := window_grid q
  refine ⟨_, g1.filter fun r => !o r, fun r => ?_⟩
  rw [List.mem_filter, g2, Bool.not_eq_true']

/-- Standard deviations that differ: red, or green, stands out; blue stands out and is not detected; green and red are equally large. -/
example : StandsOut 15 1 2 30 ∧ StandsOut 15 3 40 2 ∧ StandsOut 15 50 2 2 ∧ excess 50 2 2 = 0 ∧ ¬ StandsOut 15 0 30 30 ∧ excess 0 30 30 = 30 := by
  unfold StandsOut
  rw [excess_cases, excess_cases]
  norm_num

/-- Band 4 of a Landsat 8 scene (factors of the metadata), sun at 60 degrees: DN 10000 is a reflectance of 0.2; DN 45000 is 1.6. -/
noncomputable def landsat8 : Cal := ⟨700, -50, 65535, 1, some (0.00002, -0.1), 0, 0, 1500⟩

example : band landsat8 .other 1 0.5 10000 false = (.ok 2000, false) ∧ band landsat8 .other 1 0.5 3000 false = (.ok (-9999), true) ∧
    (band landsat8 .other 1 0.2 65535 false).1 = .ub := by
  refine ⟨?_, (c118_negative landsat8 1 0.5 3000 0.00002 (-0.1) rfl (by norm_num)).2,
    c118_overflow_violated landsat8 .other (by decide) 1 0.2 65535 0.00002 (-0.1) rfl (by norm_num)⟩
  have := c118_reflectance landsat8 .other (by decide) 1 0.5 10000 0.2 (Or.inl ⟨0.00002, -0.1, rfl, by norm_num⟩)
    (by norm_num [landsat8]) (by norm_num) (by norm_num)
  rw [this]
  norm_num

/-- Band 10 of Landsat 8: radiances are positive. -/
noncomputable def thermal : Cal := ⟨22.00180, 0.10033, 65535, 1, none, 774.8853, 1321.0789, 1⟩

example : ∃ v v', (band thermal .temp 1 0.5 20000 false).1 = .ok v ∧ (band thermal .temp 1 0.5 30000 false).1 = .ok v' ∧ 0 ≤ v ∧ v ≤ v' ∧ v' ≤ 32767 :=
  c118_warmer thermal 1 0.5 20000 30000 (by norm_num) (by norm_num [thermal]) (by norm_num [thermal]) (by norm_num [thermal]) (by norm_num [thermal])
    (by norm_num [thermal]) (by norm_num [thermal])

/-- The pixel of the second band keeps its value in the first one. -/
example : landsat 1 0.5 [(landsat8, .other, 10000), (landsat8, .other, 3000), (landsat8, .other, 10000)] false =
    ([.ok 2000, .ok (-9999), .ok (-9999)], true) := by
  have h : band landsat8 .other 1 0.5 10000 false = (.ok 2000, false) := by
    have := c118_reflectance landsat8 .other (by decide) 1 0.5 10000 0.2 (Or.inl ⟨0.00002, -0.1, rfl, by norm_num⟩)
      (by norm_num [landsat8]) (by norm_num) (by norm_num)
    rw [this]
    norm_num
  have := c118_masked_violated 1 0.5 [(landsat8, .other, 10000)] [(landsat8, .other, 10000)] landsat8 3000 0.00002 (-0.1) rfl (by norm_num)
    (by intro b hb; rw [List.mem_singleton.1 hb, h])
  rw [List.singleton_append] at this
  rw [this]
  simp [h]

/-- Sentinel-2: the digital number 3000 with the offset -1000. -/
example (flt : ℚ → ℚ) (hf : ∀ x, Float.Nearest 24 x (flt x)) : ∃ v, sentinel flt 10000 (-1000 : ℤ) 3000 = .ok v ∧ (v = 2000 ∨ v = 1999) := by
  have := c119_value_partial flt hf 10000 (by norm_num) (-1000) 3000 (by norm_num) (by norm_num) 2000 (by norm_num) (by norm_num)
  exact this

end Verif.L1
