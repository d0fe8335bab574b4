import Verif.Topo.Spec
import Mathlib.Analysis.Real.Pi.Bounds
import Mathlib.Tactic.FieldSimp
import Mathlib.Tactic.LinearCombination

/-!
# Slope, aspect and illumination
-/

namespace Verif.Topo

open Real Verif.Str Verif.Topo.Spec

theorem toUshort_ok {x : ℝ} (h0 : 0 ≤ x) (h1 : x < 65536) : toUshort x = .ok ⌊x⌋₊ := if_pos ⟨by linarith, h1⟩

theorem dev_plane (z0 p q : ℝ) {res : ℝ} (hr : 0 < res) : devX (plane z0 p q res) res = p ∧ devY (plane z0 p q res) res = -q := by
  unfold devX devY plane
  constructor <;> · simp; field_simp; ring

theorem aspect_spec (dx dy : ℝ) (h : 0 < dx * dx + dy * dy) :
    0 ≤ aspectDeg dx dy * (π / 180) ∧ aspectDeg dx dy * (π / 180) < 2 * π ∧ sin (aspectDeg dx dy * (π / 180)) * √(dx * dx + dy * dy) = -dx ∧
      cos (aspectDeg dx dy * (π / 180)) * √(dx * dx + dy * dy) = dy := by
  have hpi := pi_pos
  have hs : slopeDeg dx dy > 0 := by
    unfold slopeDeg
    exact mul_pos (by rw [← arctan_zero]; exact arctan_strictMono (sqrt_pos.2 h)) (by positivity)
  have hn : ‖(⟨-1 * dx, dy⟩ : ℂ)‖ = √(dx * dx + dy * dy) := by
    rw [Complex.norm_def, Complex.normSq_mk]; congr 1; ring
  have h1 := Complex.norm_mul_sin_arg (⟨-1 * dx, dy⟩ : ℂ)
  have h2 := Complex.norm_mul_cos_arg (⟨-1 * dx, dy⟩ : ℂ)
  have h3 := Complex.neg_pi_lt_arg (⟨-1 * dx, dy⟩ : ℂ)
  have h4 := Complex.arg_le_pi (⟨-1 * dx, dy⟩ : ℂ)
  rw [hn] at h1 h2
  unfold aspectDeg
  rw [if_pos hs]
  simp only at h1 h2
  generalize Complex.arg (⟨-1 * dx, dy⟩ : ℂ) = t at *
  have hc : compass (t * (180 / π)) * (π / 180) = if t < 0 then π / 2 - t else if t > π / 2 then π / 2 - t + 2 * π else π / 2 - t := by
    unfold compass
    have e : t * (180 / π) * (π / 180) = t := by field_simp
    have a1 : t * (180 / π) < 0 ↔ t < 0 := by
      constructor
      · intro hh; by_contra hc; exact absurd (mul_nonneg (not_lt.1 hc) (by positivity : (0 : ℝ) ≤ 180 / π)) (not_le.2 hh)
      · intro hh; exact mul_neg_of_neg_of_pos hh (by positivity)
    have a2 : t * (180 / π) > 90 ↔ t > π / 2 := by
      rw [gt_iff_lt, gt_iff_lt, mul_div_assoc', lt_div_iff₀ hpi]
      constructor <;> intro hh <;> linarith
    by_cases b1 : t < 0
    · rw [if_pos b1, if_pos (a1.2 b1)]; linear_combination -e
    · rw [if_neg b1, if_neg (fun hh => b1 (a1.1 hh))]
      by_cases b2 : t > π / 2
      · rw [if_pos b2, if_pos (a2.2 b2)]; linear_combination -e
      · rw [if_neg b2, if_neg (fun hh => b2 (a2.1 hh))]; linear_combination -e
  rw [hc]
  have hsin : ∀ x, x = π / 2 - t ∨ x = π / 2 - t + 2 * π → sin x * √(dx * dx + dy * dy) = -dx ∧ cos x * √(dx * dx + dy * dy) = dy := by
    rintro x (rfl | rfl)
    · rw [sin_pi_div_two_sub, cos_pi_div_two_sub]; constructor <;> linarith
    · rw [sin_add_two_pi, cos_add_two_pi, sin_pi_div_two_sub, cos_pi_div_two_sub]; constructor <;> linarith
  by_cases b1 : t < 0
  · rw [if_pos b1]; exact ⟨by linarith, by linarith, hsin _ (.inl rfl)⟩
  · rw [if_neg b1]
    by_cases b2 : t > π / 2
    · rw [if_pos b2]; exact ⟨by linarith, by linarith, hsin _ (.inr rfl)⟩
    · rw [if_neg b2]; exact ⟨by linarith, by linarith, hsin _ (.inl rfl)⟩

theorem slope_spec (dx dy : ℝ) : 0 ≤ slopeDeg dx dy * (π / 180) ∧ slopeDeg dx dy * (π / 180) < π / 2 ∧
    tan (slopeDeg dx dy * (π / 180)) = √(dx * dx + dy * dy) := by
  have e : slopeDeg dx dy * (π / 180) = arctan (√(dx * dx + dy * dy)) := by
    unfold slopeDeg; field_simp
  rw [e]
  refine ⟨arctan_nonneg.2 (sqrt_nonneg _), arctan_lt_pi_div_two _, tan_arctan _⟩

/-- C169: for terrain that rises by `p` to the east and by `q` to the north, the stored slope and aspect are the angle of the steepest slope and the compass
direction of the descent, in units of 1/10000 rad; flat terrain has aspect 0. The slope flag is set if the slope is steeper than 2 degrees. -/
theorem c169_plane (z0 p q res : ℝ) (hr : 0 < res) :
    ∃ s a : ℝ, exposition (plane z0 p q res) res = .ok (⌊10000 * s⌋₊, ⌊10000 * a⌋₊, decide (π / 90 < s)) ∧
      0 ≤ s ∧ s < π / 2 ∧ tan s = √(p ^ 2 + q ^ 2) ∧ 0 ≤ a ∧ a < 2 * π ∧
      (p = 0 ∧ q = 0 → a = 0) ∧ (¬ (p = 0 ∧ q = 0) → sin a * √(p ^ 2 + q ^ 2) = -p ∧ cos a * √(p ^ 2 + q ^ 2) = -q) := by
  obtain ⟨hx, hy⟩ := dev_plane z0 p q hr
  have hpi := pi_pos
  have hpi4 := pi_lt_d2
  obtain ⟨s0, s1, s2⟩ := slope_spec p (-q)
  have e2 : p * p + -q * -q = p ^ 2 + q ^ 2 := by ring
  rw [e2] at s2
  have ha : 0 ≤ aspectDeg p (-q) * (π / 180) ∧ aspectDeg p (-q) * (π / 180) < 2 * π ∧
      (p = 0 ∧ q = 0 → aspectDeg p (-q) * (π / 180) = 0) ∧
      (¬ (p = 0 ∧ q = 0) → sin (aspectDeg p (-q) * (π / 180)) * √(p ^ 2 + q ^ 2) = -p ∧ cos (aspectDeg p (-q) * (π / 180)) * √(p ^ 2 + q ^ 2) = -q) := by
    by_cases h : p = 0 ∧ q = 0
    · have e : aspectDeg p (-q) = 0 := by
        unfold aspectDeg slopeDeg
        rw [h.1, h.2]; simp
      rw [e]
      exact ⟨by simp, by simp [hpi], fun _ => by simp, fun hh => absurd h hh⟩
    · have hp : 0 < p * p + -q * -q := by
        rw [e2]
        by_contra hc
        have a1 := sq_nonneg p
        have a2 := sq_nonneg q
        exact h ⟨by nlinarith, by nlinarith⟩
      obtain ⟨b1, b2, b3, b4⟩ := aspect_spec p (-q) hp
      rw [e2] at b3 b4
      exact ⟨b1, b2, fun hh => absurd hh h, fun _ => ⟨b3, b4⟩⟩
  refine ⟨slopeDeg p (-q) * (π / 180), aspectDeg p (-q) * (π / 180), ?_, s0, s1, s2, ha⟩
  unfold exposition
  simp only
  rw [hx, hy, toUshort_ok (by linarith) (by linarith), toUshort_ok (by linarith [ha.1]) (by linarith [ha.2.1])]
  show Out.ok _ = Out.ok _
  rw [mul_comm (slopeDeg p (-q) * (π / 180)), mul_comm (aspectDeg p (-q) * (π / 180))]
  congr 3
  rw [decide_eq_decide]
  rw [show slopeDeg p (-q) * (π / 180) = slopeDeg p (-q) * π / 180 by ring, lt_div_iff₀ (by norm_num)]
  constructor
  · intro h; nlinarith
  · intro h
    have : 2 * π < slopeDeg p (-q) * π := by linarith
    exact lt_of_mul_lt_mul_right this hpi.le

/-- C169: the exposition is always defined, for every terrain. -/
theorem c169_defined (w : Window) (res : ℝ) : ∃ s a b, exposition w res = .ok (s, a, b) ∧ s ≤ 15708 ∧ a ≤ 62832 := by
  have hpi := pi_pos
  have hpi4 := pi_lt_d4
  obtain ⟨s0, s1, -⟩ := slope_spec (devX w res) (devY w res)
  have ha : 0 ≤ aspectDeg (devX w res) (devY w res) * (π / 180) ∧ aspectDeg (devX w res) (devY w res) * (π / 180) < 2 * π := by
    by_cases h : 0 < devX w res * devX w res + devY w res * devY w res
    · exact ⟨(aspect_spec _ _ h).1, (aspect_spec _ _ h).2.1⟩
    · have e : aspectDeg (devX w res) (devY w res) = 0 := by
        unfold aspectDeg slopeDeg
        rw [sqrt_eq_zero_of_nonpos (not_lt.1 h)]; simp
      rw [e]; constructor <;> linarith
  refine ⟨⌊slopeDeg (devX w res) (devY w res) * (π / 180) * 10000⌋₊, ⌊aspectDeg (devX w res) (devY w res) * (π / 180) * 10000⌋₊,
    decide (slopeDeg (devX w res) (devY w res) > 2), ?_, ?_, ?_⟩

  · unfold exposition
    simp only
    rw [toUshort_ok (by linarith) (by linarith), toUshort_ok (by linarith [ha.1]) (by linarith [ha.2])]
    rfl
  · exact Nat.floor_le_of_le (by push_cast; linarith)
  · exact Nat.floor_le_of_le (by push_cast; linarith [ha.2])

end Verif.Topo
