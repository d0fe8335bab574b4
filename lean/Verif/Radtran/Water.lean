import Verif.Radtran.Model
import Verif.Radtran.Spec
import Mathlib.Analysis.SpecialFunctions.Trigonometric.Bounds
import Mathlib.Tactic.FieldSimp
import Mathlib.Tactic.Linarith
import Mathlib.Tactic.LinearCombination

/-!
# Reflection of water surfaces, ozone, cells of the coarse grid
-/

namespace Verif.Radtran

open Real Verif.Radtran.Spec

/-! ## Reflection of water -/

/-- C180, partial: for every incidence other than perpendicular or at Brewster's angle, the reflection of a water surface is that of Fresnel's equations with
the refractive index 1.3333; it is between 0 and 1. Missing: perpendicular incidence. -/
theorem c180_fresnel_partial (i t : ℝ) (hi : 0 < i) (hi' : i < π / 2) (ht : 0 ≤ t) (ht' : t ≤ π / 2) (snell : sin i = 1.3333 * sin t)
    (brewster : tan i ≠ 1.3333) : ∃ r, fresnel i = some r ∧ r = fresnelEquations 1.3333 i t ∧ 0 ≤ r ∧ r ≤ 1 := by
  have hp := pi_pos
  have si : 0 < sin i := sin_pos_of_pos_of_lt_pi hi (by linarith)
  have ci : 0 < cos i := cos_pos_of_mem_Ioo ⟨by linarith, hi'⟩
  have st : 0 < sin t := by linarith
  have t0 : 0 < t := by
    rcases ht.lt_or_eq with h | h
    · exact h
    · rw [← h, sin_zero] at st; exact absurd st (lt_irrefl _)
  have hti : t < i := by
    by_contra hn
    have := sin_le_sin_of_le_of_le_pi_div_two (by linarith) ht' (not_lt.mp hn)
    linarith
  have ct : 0 < cos t := cos_pos_of_mem_Ioo ⟨by linarith, by linarith⟩
  have et : arcsin (sin i / 1.3333) = t := by
    rw [snell, mul_div_cancel_left₀ _ (by norm_num), arcsin_sin (by linarith) ht']
  have s1 : 0 < sin (i + t) := sin_pos_of_pos_of_lt_pi (by linarith) (by linarith)
  have c1 : 0 < cos (i - t) := cos_pos_of_mem_Ioo ⟨by linarith, by linarith⟩
  have c2 : cos (i + t) ≠ 0 := by
    intro h0
    have e : i + t = π / 2 := by
      have h1 := injOn_cos ⟨(show 0 ≤ i + t by linarith), (show i + t ≤ π by linarith)⟩ ⟨(show 0 ≤ π / 2 by linarith), (show π / 2 ≤ π by linarith)⟩
        (h0.trans cos_pi_div_two.symm)
      exact h1
    apply brewster
    rw [tan_eq_sin_div_cos, snell, show t = π / 2 - i by linarith, sin_pi_div_two_sub]
    field_simp
  have tn : tan (i + t) ≠ 0 := by rw [tan_eq_sin_div_cos]; exact div_ne_zero s1.ne' c2
  have n1 : 0 < cos i + 1.3333 * cos t := by linarith
  have n2 : 0 < 1.3333 * cos i + cos t := by linarith
  have key1 : (sin (i - t) / sin (i + t)) ^ 2 = ((cos i - 1.3333 * cos t) / (cos i + 1.3333 * cos t)) ^ 2 := by
    rw [div_pow, div_pow, div_eq_div_iff (pow_pos s1 2).ne' (pow_pos n1 2).ne']
    have a : sin (i - t) * (cos i + 1.3333 * cos t) = -((cos i - 1.3333 * cos t) * sin (i + t)) := by
      rw [sin_sub, sin_add, snell]; ring
    have : sin (i - t) ^ 2 * (cos i + 1.3333 * cos t) ^ 2 = (sin (i - t) * (cos i + 1.3333 * cos t)) ^ 2 := by ring
    rw [this, a]; ring
  have key2 : (tan (i - t) / tan (i + t)) ^ 2 = ((1.3333 * cos i - cos t) / (1.3333 * cos i + cos t)) ^ 2 := by
    have b : tan (i - t) / tan (i + t) = (1.3333 * cos i - cos t) / (1.3333 * cos i + cos t) := by
      rw [tan_eq_sin_div_cos, tan_eq_sin_div_cos, div_div_div_eq, div_eq_div_iff (mul_pos c1 s1).ne' n2.ne']
      have e1 := sin_sq_add_cos_sq i
      have e2 := sin_sq_add_cos_sq t
      have u : sin t * (sin (i - t) * cos (i + t) * (1.3333 * cos i + cos t)) = sin t * ((1.3333 * cos i - cos t) * (cos (i - t) * sin (i + t))) := by
        have p : sin t * (1.3333 * cos i + cos t) = sin (i + t) * cos (i - t) := by
          have : sin t * (1.3333 * cos i + cos t) = (1.3333 * sin t) * cos i + sin t * cos t := by ring
          rw [this, ← snell, sin_add, cos_sub]
          linear_combination (-(sin i * cos i)) * e2 - (sin t * cos t) * e1
        have m : sin t * (1.3333 * cos i - cos t) = sin (i - t) * cos (i + t) := by
          have : sin t * (1.3333 * cos i - cos t) = (1.3333 * sin t) * cos i - sin t * cos t := by ring
          rw [this, ← snell, sin_sub, cos_add]
          linear_combination (-(sin i * cos i)) * e2 + (sin t * cos t) * e1
        linear_combination (sin (i - t) * cos (i + t)) * p - (cos (i - t) * sin (i + t)) * m
      exact mul_left_cancel₀ st.ne' u
    rw [b]
  have le1 : ∀ x y : ℝ, 0 < x → 0 < y → ((x - y) / (x + y)) ^ 2 ≤ 1 := by
    intro x y hx hy
    rw [div_pow, div_le_one (by positivity)]
    nlinarith [mul_pos hx hy]
  refine ⟨fresnelEquations 1.3333 i t, ?_, rfl, ?_, ?_⟩
  · unfold fresnel quot
    simp only [et]
    rw [if_neg s1.ne', if_neg tn]
    simp only [Option.bind_some]
    unfold fresnelEquations
    rw [← key1, ← key2]
    congr 1
    ring
  · unfold fresnelEquations; positivity
  · unfold fresnelEquations
    have a := le1 (cos i) (1.3333 * cos t) ci (by linarith)
    have b := le1 (1.3333 * cos i) (cos t) (by linarith) ct
    linarith

/-- C180, violated: with the sun in the zenith, the reflection is the quotient of zero by zero. -/
theorem c180_perpendicular_violated : fresnel 0 = none := by
  simp [fresnel, quot]

/-! ## Ozone -/

/-- C181, partial: apart from the northern prime meridian, the ozone amount is that of van Heuklon's model, for every location and day. -/
theorem c181_heuklon_partial (lon lat : ℝ) (doy : ℕ) (h : lat ≤ 0 ∨ lon ≠ 0) : ozoneAmount lon lat doy = heuklon lon lat doy := by
  unfold ozoneAmount heuklon
  by_cases hl : 0 < lat
  · have hn : lon ≠ 0 := h.resolve_left (not_le.mpr hl)
    simp only [hl, if_true, true_and]
    rcases lt_or_gt_of_ne hn with h0 | h0
    · rw [if_neg (not_lt.mpr h0.le), if_pos h0, if_neg (not_lt.mpr h0.le)]; ring_nf
    · rw [if_pos h0, if_pos h0]; ring_nf
  · simp only [hl, if_false, false_and]
    ring_nf

/-- C181: for every location and day, the ozone amount is between 235 and 445 Dobson units. -/
theorem c181_range (lon lat : ℝ) (doy : ℕ) : 0.235 ≤ ozoneAmount lon lat doy ∧ ozoneAmount lon lat doy ≤ 0.445 := by
  unfold ozoneAmount
  have g : ∀ A C x y s : ℝ, 0 ≤ C → C + 20 ≤ A → A + C ≤ 190 →
      0.235 ≤ (235 + (A + C * sin x + 20 * sin y) * sin s * sin s) / 1000 ∧ (235 + (A + C * sin x + 20 * sin y) * sin s * sin s) / 1000 ≤ 0.445 := by
    intro A C x y s hC h1 h2
    have a1 := neg_one_le_sin x
    have a2 := sin_le_one x
    have b1 := neg_one_le_sin y
    have b2 := sin_le_one y
    have c1 := mul_self_nonneg (sin s)
    have c2 : sin s * sin s ≤ 1 := by have := sin_sq_le_one s; rwa [sq] at this
    have k1 : 0 ≤ A + C * sin x + 20 * sin y := by nlinarith
    have k2 : A + C * sin x + 20 * sin y ≤ 210 := by nlinarith
    have e : (A + C * sin x + 20 * sin y) * sin s * sin s = (A + C * sin x + 20 * sin y) * (sin s * sin s) := by ring
    rw [e]
    have l1 := mul_nonneg k1 c1
    have l2 : (A + C * sin x + 20 * sin y) * (sin s * sin s) ≤ 210 := by nlinarith
    constructor
    · rw [le_div_iff₀ (by norm_num)]; norm_num; linarith
    · rw [div_le_iff₀ (by norm_num)]; norm_num; linarith
  by_cases hl : 0 < lat
  · simp only [hl, if_true]; exact g _ _ _ _ _ (by norm_num) (by norm_num) (by norm_num)
  · simp only [hl, if_false]; exact g _ _ _ _ _ (by norm_num) (by norm_num) (by norm_num)

/-- C181, violated: on the prime meridian north of the equator, the phase of the southern hemisphere is used: at every latitude up to the pole and on every
day, the amount differs from that of the model, which has no jump there. -/
theorem c181_meridian_violated (lat : ℝ) (doy : ℕ) (h : 0 < lat) (h' : lat ≤ 90) : heuklon 0 lat doy < ozoneAmount 0 lat doy := by
  unfold ozoneAmount heuklon
  simp only [h, if_true, lt_irrefl, and_false, if_false]
  have e1 : sin (3 * ((0 : ℝ) + -75) * (π / 180)) = √2 / 2 := by
    rw [show 3 * ((0 : ℝ) + -75) * (π / 180) = -(π / 4 + π) by ring, sin_neg, sin_add_pi, neg_neg, sin_pi_div_four]
  have e2 : sin (3 * ((0 : ℝ) + 0) * (π / 180)) = 0 := by simp
  rw [e1, e2, show (0.9856 : ℝ) * (↑doy + -30) = 0.9856 * (↑doy - 30) by ring]
  have hs : 0 < sin (1.28 * lat * (π / 180)) := by
    apply sin_pos_of_pos_of_lt_pi
    · have := pi_pos; positivity
    · have := pi_pos
      nlinarith
  have h2 : 0 < √(2 : ℝ) := by positivity
  generalize sin (1.28 * lat * (π / 180)) = s at *
  apply div_lt_div_of_pos_right _ (by norm_num)
  nlinarith [mul_pos h2 (mul_pos hs hs)]

/-! ## Cells of the coarse grid -/

/-- atmo-ll.c:689-703, 726: the cells of a grid of `ncols` columns and `nrows` rows in the order of the loops: number of the cell, column and row for which
the coordinates are computed. -/
def visited (ncols nrows : Nat) : List (Nat × Nat × Nat) :=
  (List.range ncols).flatMap fun e => (List.range nrows).map fun f => (e * nrows + f, f, e)

/-- C182: for every size of the coarse grid, the parameters of each cell are computed exactly once. -/
theorem c182_once (ncols nrows : Nat) : (visited ncols nrows).map (·.1) = List.range (ncols * nrows) := by
  unfold visited
  induction ncols with
  | zero => simp
  | succ n ih =>
    rw [List.range_succ, List.flatMap_append, List.map_append, ih, Nat.succ_mul, List.range_add]
    congr 1
    simp

/-- C182, partial: in a coarse grid with as many columns as rows, the ozone of each cell is that of its own location. -/
theorem c182_square_partial (n g col row : Nat) (h : (g, col, row) ∈ visited n n) : col = g % n ∧ row = g / n := by
  unfold visited at h
  simp only [List.mem_flatMap, List.mem_range, List.mem_map, Prod.mk.injEq] at h
  obtain ⟨e, he, f, hf, rfl, rfl, rfl⟩ := h
  have hn : 0 < n := by omega
  constructor
  · rw [Nat.mul_comm, Nat.mul_add_mod, Nat.mod_eq_of_lt hf]
  · rw [Nat.mul_comm, Nat.mul_add_div hn, Nat.div_eq_of_lt hf, Nat.add_zero]

/-- C182, violated: in every other grid there is a cell whose ozone is computed for the location of another cell, and if there are more rows than columns
for a location outside the grid. -/
theorem c182_location_violated (ncols nrows : Nat) (hc : 0 < ncols) (hr : 0 < nrows) (h : ncols ≠ nrows) :
    ∃ g col row, (g, col, row) ∈ visited ncols nrows ∧ (col, row) ≠ (g % ncols, g / ncols) ∧ (ncols < nrows → ncols ≤ col) := by
  rcases Nat.lt_or_gt_of_ne h with h1 | h1
  · refine ⟨ncols, ncols, 0, ?_, ?_, fun _ => le_rfl⟩
    · unfold visited
      simp only [List.mem_flatMap, List.mem_range, List.mem_map, Prod.mk.injEq]
      exact ⟨0, hc, ncols, h1, by simp, rfl, rfl⟩
    · intro he
      rw [Prod.mk.injEq, Nat.mod_self] at he
      omega
  · refine ⟨nrows, 0, 1, ?_, ?_, fun hh => by omega⟩
    · unfold visited
      simp only [List.mem_flatMap, List.mem_range, List.mem_map, Prod.mk.injEq]
      exact ⟨1, by omega, 0, hr, by simp, rfl, rfl⟩
    · intro he
      rw [Prod.mk.injEq, Nat.mod_eq_of_lt h1] at he
      omega

end Verif.Radtran
