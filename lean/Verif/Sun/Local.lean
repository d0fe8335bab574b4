import Verif.Sun.Position

/-! # Theorems on the time of the standard sun zenith -/

namespace Verif.Sun

open Real

/-- The hours since the start of the year. -/
noncomputable def Time.hours (t : Time) : ℝ := 24 * (t.doy : ℝ) + t.hh + t.mm / 60 + t.ss / 3600

theorem split_time (g : ℝ) (d : ℤ) (h : 0 ≤ g ∧ g ≤ 24) :
    let t : Time := ⟨d, ⌊g⌋, ⌊(g - ⌊g⌋) * 60⌋, ⌊((g - ⌊g⌋) * 60 - ⌊(g - ⌊g⌋) * 60⌋) * 60⌋⟩
    (0 ≤ t.hh ∧ t.hh ≤ 24) ∧ (0 ≤ t.mm ∧ t.mm < 60) ∧ (0 ≤ t.ss ∧ t.ss < 60) ∧
      t.hours ≤ 24 * d + g ∧ 24 * d + g < t.hours + 1 / 3600 := by
  simp only [Time.hours]
  have a1 := Int.floor_le g
  have a2 := Int.lt_floor_add_one g
  set lm := (g - ⌊g⌋) * 60 with hlm
  have b1 := Int.floor_le lm
  have b2 := Int.lt_floor_add_one lm
  set ls := (lm - ⌊lm⌋) * 60 with hls
  have c1 := Int.floor_le ls
  have c2 := Int.lt_floor_add_one ls
  refine ⟨⟨Int.floor_nonneg.2 h.1, ?_⟩, ⟨Int.floor_nonneg.2 (by rw [hlm]; linarith), ?_⟩, ⟨Int.floor_nonneg.2 (by rw [hls]; linarith), ?_⟩,
    ?_, ?_⟩
  · have : (⌊g⌋ : ℝ) ≤ 24 := by linarith
    exact_mod_cast this
  · rw [Int.floor_lt]; push_cast; linarith
  · rw [Int.floor_lt]; push_cast; linarith
  · linarith
  · linarith

/-- C110, proved part: the instant that is used is the local time less an hour per 15 degrees of longitude, to the second, if it is in the
same year. -/
theorem c110_instant_partial (doy : ℤ) (time lon : ℝ) (hd : 1 ≤ doy ∧ doy ≤ 365) (ht : 0 ≤ time ∧ time ≤ 24) (hl : -180 ≤ lon ∧ lon ≤ 180)
    (h1 : doy = 365 → time - lon / 15 ≤ 24) (h2 : doy = 1 → 0 ≤ time - lon / 15) :
    let t := localtime2gmt doy time lon
    (1 ≤ t.doy ∧ t.doy ≤ 365) ∧ (0 ≤ t.hh ∧ t.hh ≤ 24) ∧ (0 ≤ t.mm ∧ t.mm < 60) ∧ (0 ≤ t.ss ∧ t.ss < 60) ∧
      t.hours ≤ 24 * doy + (time - lon / 15) ∧ 24 * doy + (time - lon / 15) < t.hours + 1 / 3600 := by
  simp only
  unfold localtime2gmt
  simp only
  set g := time - lon / 15 with hg
  have g1 : -12 ≤ g := by rw [hg]; linarith [ht.1, hl.2]
  have g2 : g ≤ 36 := by rw [hg]; linarith [ht.2, hl.1]
  by_cases c1 : g > 24
  · have c3 : ¬ g - 24 < 0 := by linarith
    have c4 : ¬ doy + 1 > 365 := by
      intro h
      have := h1 (by omega)
      linarith
    simp only [c1, c3, c4, if_true, if_false]
    obtain ⟨a, b, c, e, f⟩ := split_time (g - 24) (doy + 1) ⟨by linarith, by linarith⟩
    refine ⟨⟨by omega, by omega⟩, a, b, c, ?_, ?_⟩
    · refine e.trans (le_of_eq ?_); push_cast; ring
    · refine lt_of_le_of_lt (le_of_eq ?_) f; push_cast; ring
  · by_cases c2 : g < 0
    · have c4 : ¬ doy - 1 < 1 := by
        intro h
        have := h2 (by omega)
        linarith
      simp only [c1, c2, c4, if_true, if_false]
      obtain ⟨a, b, c, e, f⟩ := split_time (g + 24) (doy - 1) ⟨by linarith, by linarith⟩
      refine ⟨⟨by omega, by omega⟩, a, b, c, ?_, ?_⟩
      · refine e.trans (le_of_eq ?_); push_cast; ring
      · refine lt_of_le_of_lt (le_of_eq ?_) f; push_cast; ring
    · simp only [c1, c2, if_false]
      obtain ⟨a, b, c, e, f⟩ := split_time g doy ⟨by linarith, by linarith⟩
      exact ⟨hd, a, b, c, e, f⟩

/-- C110, violated: at the turn of the year, the day is clamped: the instant is a day too late on 1 January where it should be in the old year. -/
theorem c110_newyear_violated (time lon : ℝ) (ht : 0 ≤ time ∧ time ≤ 24) (hl : -180 ≤ lon ∧ lon ≤ 180) (h : time < lon / 15) :
    let t := localtime2gmt 1 time lon
    t.doy = 1 ∧ 24 * 1 + (time - lon / 15) + 24 - 1 / 3600 < t.hours := by
  simp only
  unfold localtime2gmt
  simp only
  set g := time - lon / 15 with hg
  have g1 : -12 ≤ g := by rw [hg]; linarith [ht.1, hl.2]
  have c2 : g < 0 := by linarith
  have c1 : ¬ g > 24 := by linarith
  simp only [c1, c2, if_true, if_false]
  have e : ((if (1 : ℤ) - 1 < 1 then 1 else 1 - 1 : ℤ)) = 1 := rfl
  rw [e]
  obtain ⟨-, -, -, -, f⟩ := split_time (g + 24) 1 ⟨by linarith, by linarith⟩
  refine ⟨rfl, ?_⟩
  push_cast at f
  linarith

/-- C110, violated: and it is a day too early on 31 December (day 365 of the year) where it should be in the new year. -/
theorem c110_yearend_violated (time lon : ℝ) (ht : 0 ≤ time ∧ time ≤ 24) (hl : -180 ≤ lon ∧ lon ≤ 180) (h : 24 < time - lon / 15) :
    let t := localtime2gmt 365 time lon
    t.doy = 365 ∧ t.hours ≤ 24 * 365 + (time - lon / 15) - 24 := by
  simp only
  unfold localtime2gmt
  simp only
  set g := time - lon / 15 with hg
  have g1 : g ≤ 36 := by rw [hg]; linarith [ht.2, hl.1]
  have c1 : g > 24 := h
  have c2 : ¬ g - 24 < 0 := by linarith
  have e : (if (365 : ℤ) + 1 > 365 then 365 else 365 + 1 : ℤ) = 365 := rfl
  simp only [c1, c2, if_true, if_false, e]
  obtain ⟨-, -, -, f, -⟩ := split_time (g - 24) 365 ⟨by linarith, by linarith⟩
  refine ⟨trivial, ?_⟩
  push_cast at f
  linarith

/-- C110, violated: north of 81.38 degrees, where there are Sentinel-2 images, the local time is not a number. -/
theorem c110_polar_violated (lat : ℝ) (h : 81.38 < lat ∧ lat < 90) : localTime lat = none := by
  unfold localTime
  simp only
  rw [if_neg]
  rintro ⟨-, hs, -⟩
  have e : tan (rad 98.62) = - tan (rad 81.38) := by
    have : rad 98.62 = π - rad 81.38 := by unfold rad; ring
    rw [this, tan_pi_sub]
  have m : tan (rad 81.38) < tan (rad lat) := by
    apply tan_lt_tan_of_lt_of_lt_pi_div_two
    · have : 0 ≤ rad 81.38 := by unfold rad; positivity
      linarith [pi_pos]
    · unfold rad; nlinarith [pi_pos, h.2]
    · unfold rad; exact mul_lt_mul_of_pos_right h.1 (by positivity)
  have p : 0 < tan (rad 81.38) := by
    apply tan_pos_of_pos_of_lt_pi_div_two
    · unfold rad; positivity
    · unfold rad; nlinarith [pi_pos]
  rw [e, div_neg, neg_le_neg_iff, div_le_one p] at hs
  linarith

/-- The hour at which the track of the orbit is at a latitude. -/
theorem orbit_hour (lat incl t : ℝ) (h : -1 ≤ tan (rad lat) / tan (rad incl) ∧ tan (rad lat) / tan (rad incl) ≤ 1) (hne : tan (rad incl) ≠ 0) :
    |(t - deg (arcsin (tan (rad lat) / tan (rad incl))) / 15) - t| ≤ 6 ∧
      sin (rad (15 * (t - (t - deg (arcsin (tan (rad lat) / tan (rad incl))) / 15)))) * tan (rad incl) = tan (rad lat) := by
  have p0 := pi_pos
  have a := arcsin_le_pi_div_two (tan (rad lat) / tan (rad incl))
  have b := neg_pi_div_two_le_arcsin (tan (rad lat) / tan (rad incl))
  constructor
  · have e : deg (π / 2) = 90 := by unfold deg; field_simp; norm_num
    have e' : deg (-(π / 2)) = -90 := by unfold deg; field_simp; norm_num
    have m : ∀ x y : ℝ, x ≤ y → deg x ≤ deg y := by
      intro x y h; unfold deg; exact mul_le_mul_of_nonneg_right h (by positivity)
    have a' := m _ _ a
    have b' := m _ _ b
    rw [e] at a'
    rw [e'] at b'
    rw [abs_le]
    constructor <;> linarith
  · have e : rad (15 * (t - (t - deg (arcsin (tan (rad lat) / tan (rad incl))) / 15))) = arcsin (tan (rad lat) / tan (rad incl)) := by
      unfold rad deg
      field_simp
      ring
    rw [e, sin_arcsin h.1 h.2, div_mul_cancel₀ _ hne]

/-- C110: between 81.38 degrees south and north, the local time is defined. It is the average of the times at which Landsat (inclination 98.2 degrees, 10:11 at the
equator) and Sentinel-2 (98.62 degrees, 10:30) are at this latitude: in an orbit of inclination `i`, the satellite is at latitude `φ` at the local time `t` with
`sin(15 (t0 - t)) = tan φ / tan i`, within six hours of the time `t0` at the equator. -/
theorem c110_defined (lat : ℝ) (h : -81.38 ≤ lat ∧ lat ≤ 81.38) :
    ∃ t t', localTime lat = some ((t + t') / 2) ∧
      |t - 10.18333333333| ≤ 6 ∧ sin (rad (15 * (10.18333333333 - t))) * tan (rad 98.2) = tan (rad lat) ∧
      |t' - 10.5| ≤ 6 ∧ sin (rad (15 * (10.5 - t'))) * tan (rad 98.62) = tan (rad lat) := by
  unfold localTime
  simp only
  have p0 := pi_pos
  have mono : ∀ x y : ℝ, -90 < x → x ≤ y → y < 90 → tan (rad x) ≤ tan (rad y) := by
    intro x y h1 h2 h3
    rcases h2.lt_or_eq with h' | h'
    · apply le_of_lt
      apply tan_lt_tan_of_lt_of_lt_pi_div_two
      · unfold rad; nlinarith
      · unfold rad; nlinarith
      · unfold rad; exact mul_lt_mul_of_pos_right h' (by positivity)
    · rw [h']
  have key : ∀ x : ℝ, 81.38 ≤ x → x < 90 → tan (rad (180 - x)) ≠ 0 ∧ -1 ≤ tan (rad lat) / tan (rad (180 - x)) ∧ tan (rad lat) / tan (rad (180 - x)) ≤ 1 := by
    intro x hx hx'
    have e : tan (rad (180 - x)) = - tan (rad x) := by
      have : rad (180 - x) = π - rad x := by unfold rad; ring
      rw [this, tan_pi_sub]
    have p : 0 < tan (rad x) := by
      apply tan_pos_of_pos_of_lt_pi_div_two
      · unfold rad; apply mul_pos (by linarith) (by positivity)
      · unfold rad; nlinarith
    have m1 := mono lat x (by linarith [h.1]) (by linarith [h.2]) hx'
    have m2 := mono (-x) lat (by linarith) (by linarith [h.1]) (by linarith [h.2])
    have m3 : rad (-x) = - rad x := by unfold rad; ring
    rw [m3, tan_neg] at m2
    rw [e, div_neg]
    refine ⟨by linarith, ?_, ?_⟩
    · rw [neg_le_neg_iff, div_le_one p]; exact m1
    · rw [neg_le, le_div_iff₀ p]; linarith
  have k1 := key 81.8 (by norm_num) (by norm_num)
  have k2 := key 81.38 (by norm_num) (by norm_num)
  rw [show (180 - 81.8 : ℝ) = 98.2 by norm_num] at k1
  rw [show (180 - 81.38 : ℝ) = 98.62 by norm_num] at k2
  rw [if_pos ⟨k1.2, k2.2⟩]
  have o1 := orbit_hour lat 98.2 10.18333333333 k1.2 k1.1
  have o2 := orbit_hour lat 98.62 10.5 k2.2 k2.1
  exact ⟨_, _, rfl, o1.1, o1.2, o2.1, o2.2⟩

end Verif.Sun
