import Verif.Sun.Model
import Verif.Sun.Spec
import Mathlib.Tactic.Positivity
import Mathlib.Tactic.NormNum
import Mathlib.Analysis.Real.Pi.Bounds
import Mathlib.Analysis.SpecialFunctions.Trigonometric.Bounds

/-! # Theorems on the position of the sun -/

namespace Verif.Sun

open Spec Real

/-- C109: the distance between earth and sun is between 0.98 and 1.02 astronomical units on each day. -/
theorem c109_distance (doy : ℤ) : 0.98 < dsun doy ∧ dsun doy < 1.02 := by
  unfold dsun
  simp only
  set a := 2 * π * (((if doy > 365 then 365 else doy : ℤ) : ℝ) - 1) / 365
  have c1 := cos_le_one a
  have c2 := neg_one_le_cos a
  have s1 := sin_le_one a
  have s2 := neg_one_le_sin a
  have d1 := cos_le_one (2 * a)
  have d2 := neg_one_le_cos (2 * a)
  have t1 := sin_le_one (2 * a)
  have t2 := neg_one_le_sin (2 * a)
  set x := 1.00011 + 0.034221 * cos a + 0.001280 * sin a + 0.000719 * cos (2 * a) + 0.000077 * sin (2 * a) with hx
  have lo : 0.963 ≤ x := by rw [hx]; linarith
  have hi : x ≤ 1.037 := by rw [hx]; linarith
  have l1 : (0.981 : ℝ) < √x := by
    rw [lt_sqrt (by norm_num)]
    norm_num; linarith
  have l2 : √x < 1.0194 := by
    rw [sqrt_lt' (by norm_num)]
    norm_num; linarith
  have p : 0 < √x := by linarith
  constructor
  · rw [lt_div_iff₀ p]; linarith
  · rw [div_lt_iff₀ p]; linarith

theorem wrap_spec (n : ℕ) (x : ℝ) (h : x ≤ 1440 * (n + 1)) (hl : -1440 ≤ x) :
    wrap n x ≤ 1440 ∧ -1440 ≤ wrap n x ∧ ∃ k : ℕ, wrap n x = x - 1440 * k := by
  induction n generalizing x with
  | zero =>
    refine ⟨by simpa [wrap] using h, hl, 0, by simp [wrap]⟩
  | succ n ih =>
    rw [wrap]
    split
    · rename_i hx
      push_cast at h
      obtain ⟨a, b, k, hk⟩ := ih (x - 1440) (by linarith) (by linarith)
      refine ⟨a, b, k + 1, ?_⟩
      rw [hk]; push_cast; ring
    · rename_i hx
      exact ⟨by linarith, hl, 0, by simp⟩

/-- C109: the hour angle is between -180 and 180 degrees and differs from the time since solar noon, in degrees, by full turns. -/
theorem c109_hour (minutes eqTime lon zone : ℝ) (h : -1440 ≤ minutes + eqTime + 4 * lon - zone) :
    -180 ≤ hourAngle minutes eqTime lon zone ∧ hourAngle minutes eqTime lon zone ≤ 180 ∧
      ∃ k : ℤ, hourAngle minutes eqTime lon zone = (minutes + eqTime + 4 * lon - zone) / 4 - 180 + 360 * k := by
  unfold hourAngle
  simp only
  have e : minutes + (eqTime + 4 * lon - zone) = minutes + eqTime + 4 * lon - zone := by ring
  rw [e]
  set x := minutes + eqTime + 4 * lon - zone
  have hc := Nat.le_ceil (x / 1440)
  rw [div_le_iff₀ (by norm_num)] at hc
  obtain ⟨a, b, k, hk⟩ := wrap_spec ⌈x / 1440⌉₊ x (by linarith) h
  split
  · rename_i hh
    refine ⟨by linarith, by linarith, 1 - k, ?_⟩
    rw [hk]; push_cast; ring
  · rename_i hh
    refine ⟨by linarith, by linarith, -k, ?_⟩
    rw [hk]; push_cast; ring

theorem csz_bounds (φ δ h : ℝ) :
    sin φ * sin δ + cos φ * cos δ * cos h ≤ 1 ∧ -1 ≤ sin φ * sin δ + cos φ * cos δ * cos h := by
  have h1 := sin_sq_add_cos_sq φ
  have h2 := sin_sq_add_cos_sq δ
  have h3 := cos_sq_le_one h
  have key : (sin φ * sin δ + cos φ * cos δ * cos h) ^ 2 ≤ 1 := by
    have e : 1 - (sin φ * sin δ + cos φ * cos δ * cos h) ^ 2
        = (sin φ * cos δ * cos h - cos φ * sin δ) ^ 2 + cos δ ^ 2 * (1 - cos h ^ 2) := by
      have a1 : cos φ ^ 2 = 1 - sin φ ^ 2 := by linarith
      have a2 : cos δ ^ 2 = 1 - sin δ ^ 2 := by linarith
      ring_nf
      rw [a1, a2]
      ring
    nlinarith [sq_nonneg (sin φ * cos δ * cos h - cos φ * sin δ), sq_nonneg (cos δ)]
  constructor <;> nlinarith

theorem zenith_eq (lat dec h : ℝ) :
    cos (zenith lat dec h) = sin (rad lat) * sin (rad dec) + cos (rad lat) * cos (rad dec) * cos (rad h) ∧
      0 ≤ sin (zenith lat dec h) := by
  obtain ⟨h1, h2⟩ := csz_bounds (rad lat) (rad dec) (rad h)
  unfold zenith
  simp only
  rw [if_neg (by linarith), if_neg (by linarith)]
  exact ⟨cos_arccos h2 h1, by rw [sin_arccos]; exact sqrt_nonneg _⟩

theorem rad_deg (x : ℝ) : rad (deg x) = x := by
  unfold rad deg
  field_simp

theorem rad_mono {x y : ℝ} (h : x ≤ y) : rad x ≤ rad y := mul_le_mul_of_nonneg_right h (by positivity)

theorem rad_180 : rad 180 = π := by unfold rad; field_simp

/-- C109: zenith (before refraction) and azimuth are the direction of the sun, unless it is within 0.06 degrees of the zenith, or the place within
0.06 degrees of a pole; the azimuth is in [0, 360). -/
theorem c109_direction (lat dec h : ℝ) (hlat : -90 ≤ lat ∧ lat ≤ 90) (hdec : -90 ≤ dec ∧ dec ≤ 90) (hh : -180 ≤ h ∧ h ≤ 180)
    (hd : 0.001 < cos (rad lat) * sin (zenith lat dec h)) :
    Direction (rad lat) (rad dec) (rad h) (zenith lat dec h) (rad (azimuth lat dec h)) ∧
      0 ≤ azimuth lat dec h ∧ azimuth lat dec h < 360 := by
  obtain ⟨hz, hs⟩ := zenith_eq lat dec h
  have hcd : 0 ≤ cos (rad dec) := by
    apply cos_nonneg_of_neg_pi_div_two_le_of_le
    · calc -(π / 2) = rad (-90) := by unfold rad; ring
        _ ≤ _ := rad_mono hdec.1
    · calc rad dec ≤ rad 90 := rad_mono hdec.2
        _ = π / 2 := by unfold rad; ring
  have hcl : 0 ≤ cos (rad lat) := by
    apply cos_nonneg_of_neg_pi_div_two_le_of_le
    · calc -(π / 2) = rad (-90) := by unfold rad; ring
        _ ≤ _ := rad_mono hlat.1
    · calc rad lat ≤ rad 90 := rad_mono hlat.2
        _ = π / 2 := by unfold rad; ring
  unfold azimuth
  simp only
  set z := zenith lat dec h
  set φ := rad lat
  set δ := rad dec
  have hD : 0 < cos φ * sin z := by linarith
  have hsz : 0 < sin z := by
    rcases hs.lt_or_eq with h' | h'
    · exact h'
    · rw [← h', mul_zero] at hD; exact absurd hD (lt_irrefl _)
  have hcp : 0 < cos φ := by
    rcases hcl.lt_or_eq with h' | h'
    · exact h'
    · rw [← h', zero_mul] at hD; exact absurd hD (lt_irrefl _)
  have f1 := sin_sq_add_cos_sq φ
  have f2 := sin_sq_add_cos_sq δ
  have f3 := sin_sq_add_cos_sq (rad h)
  have f4 := sin_sq_add_cos_sq z
  -- the northern component
  set N := cos φ * sin δ - sin φ * cos δ * cos (rad h) with hN
  have eN : N ^ 2 + (cos δ * sin (rad h)) ^ 2 = sin z ^ 2 := by
    have a1 : cos φ ^ 2 = 1 - sin φ ^ 2 := by linarith
    have a2 : sin (rad h) ^ 2 = 1 - cos (rad h) ^ 2 := by linarith
    have a4 : cos δ ^ 2 = 1 - sin δ ^ 2 := by linarith
    have a3 : sin z ^ 2 = 1 - (sin φ * sin δ + cos φ * cos δ * cos (rad h)) ^ 2 := by rw [← hz]; linarith
    rw [a3, hN, mul_pow, a2]
    ring_nf
    rw [a1, a4]
    ring
  have er : (sin φ * cos z - sin δ) / (cos φ * sin z) = -(N / sin z) := by
    have : sin φ * cos z - sin δ = -(cos φ * N) := by
      rw [hz, hN]
      have a1 : sin φ ^ 2 = 1 - cos φ ^ 2 := by linarith
      ring_nf
      rw [a1]
      ring
    rw [this]
    field_simp
  have hq : (N / sin z) ^ 2 + (cos δ * sin (rad h) / sin z) ^ 2 = 1 := by
    rw [div_pow, div_pow, ← add_div, eN, div_self (by positivity)]
  have hr2 : |-(N / sin z)| ≤ 1 := by
    rw [abs_neg, abs_le_one_iff_mul_self_le_one]
    nlinarith [sq_nonneg (cos δ * sin (rad h) / sin z)]
  rw [er]
  simp only [if_pos (show |cos φ * sin z| > 0.001 by rw [abs_of_pos hD]; exact hd), if_neg (not_lt.2 hr2 : ¬ |-(N / sin z)| > 1)]
  set r := -(N / sin z) with hr
  rw [abs_le] at hr2
  set A := 180 - deg (arccos r) with hA
  have radA : rad A = π - arccos r := by
    have : rad A = rad 180 - rad (deg (arccos r)) := by unfold rad; rw [hA]; ring
    rw [this, rad_deg, rad_180]
  have A0 : 0 ≤ A := by
    have := arccos_le_pi r
    rw [hA, sub_nonneg]
    unfold deg
    rw [mul_div_assoc', div_le_iff₀ pi_pos]
    nlinarith
  have A1 : A ≤ 180 := by
    have := arccos_nonneg r
    have : 0 ≤ deg (arccos r) := mul_nonneg this (by positivity)
    linarith
  have cA : cos (rad A) = N / sin z := by
    rw [radA, cos_pi_sub, cos_arccos hr2.1 hr2.2, hr, neg_neg]
  have sA : sin (rad A) = |cos δ * sin (rad h) / sin z| := by
    rw [radA, sin_pi_sub, sin_arccos, ← sqrt_sq_eq_abs]
    congr 1
    rw [hr, neg_sq]
    linarith
  have turn : ∀ a : ℝ, cos (rad (if a < 0 then a + 360 else a)) = cos (rad a) ∧ sin (rad (if a < 0 then a + 360 else a)) = sin (rad a) := by
    intro a
    split
    · have : rad (a + 360) = rad a + 2 * π := by unfold rad; ring
      rw [this]
      exact ⟨cos_add_two_pi _, sin_add_two_pi _⟩
    · exact ⟨rfl, rfl⟩
  refine ⟨⟨hz, ?_, ?_⟩, ?_, ?_⟩
  · rw [(turn _).1]
    split
    · have : rad (-1 * A) = -rad A := by unfold rad; ring
      rw [this, cos_neg, cA, mul_div_cancel₀ _ hsz.ne']
    · rw [cA, mul_div_cancel₀ _ hsz.ne']
  · rw [(turn _).2]
    split
    · rename_i hpos
      have sh : 0 ≤ sin (rad h) := by
        apply sin_nonneg_of_nonneg_of_le_pi
        · exact mul_nonneg hpos.le (by positivity)
        · rw [← rad_180]; exact rad_mono hh.2
      have : rad (-1 * A) = -rad A := by unfold rad; ring
      rw [this, sin_neg, sA, abs_of_nonneg (by positivity)]
      field_simp
    · rename_i hneg
      have sh : sin (rad h) ≤ 0 := by
        apply sin_nonpos_of_nonpos_of_neg_pi_le
        · exact mul_nonpos_of_nonpos_of_nonneg (not_lt.1 hneg) (by positivity)
        · rw [← rad_180, ← show rad (-180) = -rad 180 by unfold rad; ring]; exact rad_mono hh.1
      rw [sA, abs_of_nonpos (div_nonpos_of_nonpos_of_nonneg (mul_nonpos_of_nonneg_of_nonpos hcd sh) hsz.le)]
      field_simp
  · split_ifs <;> linarith
  · split_ifs <;> linarith

/-- C109: where no azimuth is defined (the sun is at most a thousandth, about, off the zenith or nadir, or the place is at a pole), it is the direction of the equator. -/
theorem c109_degenerate (lat dec h : ℝ) (hd : |cos (rad lat) * sin (zenith lat dec h)| ≤ 0.001) :
    (0 < lat → azimuth lat dec h = 180) ∧ (lat ≤ 0 → azimuth lat dec h = 0) := by
  unfold azimuth
  simp only
  rw [if_neg (not_lt.2 hd)]
  constructor
  · intro h
    rw [if_pos h]
    norm_num
  · intro h
    rw [if_neg (not_lt.2 h)]
    norm_num

/-- C109: refraction raises the sun by at most 0.58 degrees, for every elevation above -90 degrees. -/
theorem c109_refraction (e : ℝ) (h : -90 < e ∧ e ≤ 90) : 0 ≤ refraction e ∧ refraction e ≤ 0.58 := by
  unfold refraction
  split
  · norm_num
  · rename_i h85
    have h85 : e ≤ 85 := not_lt.1 h85
    simp only
    have p1 := pi_gt_d2
    have p2 := pi_lt_d2
    split
    · rename_i h5
      have hr : rad 5 ≤ rad e := rad_mono (by linarith)
      have h0 : (0.087 : ℝ) ≤ rad 5 := by unfold rad; linarith
      have hlt : rad e < π / 2 := by unfold rad; nlinarith
      have ht : 0.087 ≤ tan (rad e) := le_trans (by linarith) (le_tan (by linarith) hlt)
      set t := tan (rad e)
      have tp : 0 < t := by linarith
      have i1 : 1 / t ≤ 11.5 := by rw [div_le_iff₀ tp]; linarith
      have i0 : 0 < 1 / t := by positivity
      have e1 : 58.1 / t - 0.07 / (t * t * t) + 0.000086 / (t * t * t * t * t)
          = 58.1 * (1 / t) - 0.07 * (1 / t) ^ 3 + 0.000086 * (1 / t) ^ 5 := by field_simp
      rw [e1]
      set u := 1 / t
      have u2 : u ^ 2 ≤ 132.25 := by nlinarith
      have u2p : 0 ≤ u ^ 2 := by positivity
      have f : 58.1 * u - 0.07 * u ^ 3 + 0.000086 * u ^ 5 = u * (58.1 - 0.07 * u ^ 2 + 0.000086 * (u ^ 2) ^ 2) := by ring
      rw [f]
      have g1 : 0 ≤ 58.1 - 0.07 * u ^ 2 + 0.000086 * (u ^ 2) ^ 2 := by nlinarith
      have g2 : 58.1 - 0.07 * u ^ 2 + 0.000086 * (u ^ 2) ^ 2 ≤ 60 := by nlinarith
      constructor
      · positivity
      · rw [div_le_iff₀ (by norm_num)]
        nlinarith
    · rename_i h5
      have h5 : e ≤ 5 := not_lt.1 h5
      split
      · rename_i hm
        constructor
        · apply div_nonneg _ (by norm_num)
          nlinarith [sq_nonneg (e - 5), sq_nonneg (e ^ 2 - 9 * e), sq_nonneg (e * (e - 5)), sq_nonneg e]
        · rw [div_le_iff₀ (by norm_num)]
          nlinarith [sq_nonneg (e - 5), sq_nonneg (e ^ 2 - 9 * e), sq_nonneg (e * (e - 5)), sq_nonneg e]
      · rename_i hm
        have hm : e ≤ -0.575 := not_lt.1 hm
        have hr : rad 0.575 ≤ rad (-e) := rad_mono (by linarith)
        have h0 : (0.01 : ℝ) ≤ rad 0.575 := by unfold rad; linarith
        have hlt : rad (-e) < π / 2 := by unfold rad; nlinarith
        have ht : 0.01 ≤ tan (rad (-e)) := le_trans (by linarith) (le_tan (by linarith) hlt)
        have hn : rad (-e) = - rad e := by unfold rad; ring
        rw [hn, tan_neg] at ht
        set t := tan (rad e)
        have e1 : -20.774 / t = 20.774 / (-t) := by rw [div_neg, neg_div]
        rw [e1]
        have tp : 0 < -t := by linarith
        constructor
        · positivity
        · rw [div_le_iff₀ (by norm_num), div_le_iff₀ tp]
          nlinarith

/-- C109: given declination and equation of time, `sunpos` (with time in GMT) gives the direction of the sun at the place and time: the hour
angle is the time since solar noon, four minutes per degree; the zenith angle is smaller than the geometric one by refraction only. -/
theorem c109_sunpos (lat lon dec eqTime minutes : ℝ) (hlat : -90 ≤ lat ∧ lat ≤ 90) (hlon : -180 ≤ lon ∧ lon ≤ 180)
    (hdec : -90 ≤ dec ∧ dec ≤ 90) (heq : -60 ≤ eqTime ∧ eqTime ≤ 60) (hm : 0 ≤ minutes ∧ minutes ≤ 1440)
    (hd : 0.001 < cos (rad lat) * sin (zenith lat dec (hourAngle minutes eqTime lon 0))) :
    ∃ z, Direction (rad lat) (rad dec) (rad ((minutes + eqTime + 4 * lon) / 4 - 180)) (rad z) (rad (sunpos lat lon dec eqTime minutes 0).2) ∧
      (sunpos lat lon dec eqTime minutes 0).1 ≤ z ∧ z ≤ (sunpos lat lon dec eqTime minutes 0).1 + 0.58 ∧
      0 ≤ (sunpos lat lon dec eqTime minutes 0).2 ∧ (sunpos lat lon dec eqTime minutes 0).2 < 360 := by
  obtain ⟨h1, h2, k, hk⟩ := c109_hour minutes eqTime lon 0 (by linarith [hlon.1, heq.1, hm.1])
  obtain ⟨⟨a, b, c⟩, r1, r2⟩ := c109_direction lat dec (hourAngle minutes eqTime lon 0) hlat hdec ⟨h1, h2⟩ hd
  have hs : 0 < sin (zenith lat dec (hourAngle minutes eqTime lon 0)) := by
    rcases (zenith_eq lat dec (hourAngle minutes eqTime lon 0)).2.lt_or_eq with h' | h'
    · exact h'
    · rw [← h', mul_zero] at hd; norm_num at hd
  have z0 : 0 ≤ zenith lat dec (hourAngle minutes eqTime lon 0) := by unfold zenith; exact arccos_nonneg _
  have z1 : zenith lat dec (hourAngle minutes eqTime lon 0) < π := by
    have : zenith lat dec (hourAngle minutes eqTime lon 0) ≤ π := by unfold zenith; exact arccos_le_pi _
    rcases this.lt_or_eq with h' | h'
    · exact h'
    · rw [h', sin_pi] at hs; exact absurd hs (lt_irrefl _)
  have e : rad (hourAngle minutes eqTime lon 0) = rad ((minutes + eqTime + 4 * lon) / 4 - 180) + k * (2 * π) := by
    rw [hk]; unfold rad; rw [sub_zero]; ring
  rw [e, cos_add_int_mul_two_pi] at a b
  rw [e, sin_add_int_mul_two_pi] at c
  set z := zenith lat dec (hourAngle minutes eqTime lon 0) with hz
  have d0 : 0 ≤ deg z := mul_nonneg z0 (by positivity)
  have d1 : deg z < 180 := by
    unfold deg
    rw [mul_div_assoc', div_lt_iff₀ pi_pos]
    linarith
  have hr := c109_refraction (90 - deg z) ⟨by linarith, by linarith⟩
  refine ⟨deg z, ⟨?_, ?_, ?_⟩, ?_, ?_, r1, r2⟩
  · rw [rad_deg]; exact a
  · rw [rad_deg]; exact b
  · rw [rad_deg]; exact c
  · show deg z - refraction (90 - deg z) ≤ deg z
    linarith [hr.1]
  · show deg z ≤ deg z - refraction (90 - deg z) + 0.58
    linarith [hr.2]

end Verif.Sun
