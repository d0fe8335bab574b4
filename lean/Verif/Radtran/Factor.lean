import Verif.Radtran.Brdf

/-!
# Correction factors of sun and view geometry
-/

namespace Verif.Radtran

open Real

/-- C179, partial: for the sun up to 75 degrees and the sensor up to 60 degrees from the zenith, the factor of every band is positive; it is 1 if the sensor
is in the zenith and the sun in its standard position, for all azimuths. Missing: lower sun. -/
theorem c179_factor_partial (w : Weights) (hw : w ∈ weights) (std szen vzen sazi vazi : ℝ) (h1 : 0 ≤ std) (h1' : std ≤ π) (h1c : 1 / 4 ≤ cos std)
    (h2 : 0 ≤ szen) (h2' : szen ≤ π) (h2c : 1 / 4 ≤ cos szen) (h3 : 0 ≤ vzen) (h3' : vzen ≤ π) (h3c : 1 / 2 ≤ cos vzen) :
    0 < bandFactor w std szen vzen sazi vazi ∧ (szen = std → vzen = 0 → bandFactor w std szen vzen sazi vazi = 1) := by
  have p1 := positive w hw std 0 0 h1 h1c h1' le_rfl (by rw [cos_zero]; norm_num) pi_pos.le
  have p2 := positive w hw szen vzen (sazi - vazi) h2 h2c h2' h3 h3c h3'
  unfold bandFactor
  refine ⟨div_pos p1 p2, ?_⟩
  rintro rfl rfl
  rw [forward_nadir szen (sazi - vazi) 0]
  exact div_self p1.ne'

theorem forward_low (w : Weights) (hw : w ∈ weights) (szen phi : ℝ) (h : 0 ≤ szen) (h' : szen < π / 2) (hc : cos szen ≤ 1 / 30) :
    forward szen 0 phi w.iso w.vol w.geo < 0 := by
  have hp := pi_pos
  have c0 := cos_pos_of (t := szen) (by linarith) h'
  have hsq := sin_sq_add_cos_sq szen
  have s0 : 0 ≤ sin szen := sin_nonneg_of_nonneg_of_le_pi h (by linarith)
  have s1 : 1 - 1 / 30 ≤ sin szen := by nlinarith
  have ross : rossKernel (cos 0) (cos szen) (sin 0) (sin szen) (cos phi) ≤ 0.8 := by
    simp only [rossKernel, phaseAngle, cos_zero, sin_zero, zero_mul, one_mul, add_zero]
    rw [min_eq_right (cos_le_one szen), max_eq_right (neg_one_le_cos szen), arccos_cos h (by linarith)]
    have : ((π / 2 - szen) * cos szen + sin szen) / (cos szen + 1) ≤ π / 2 := by
      rw [div_le_iff₀ (by linarith)]
      have := sin_le_one szen
      nlinarith [pi_gt_three, mul_nonneg h c0.le]
    have := pi_lt_d4
    linarith
  have li : liKernel (sin 0 / cos 0) (sin szen / cos szen) (sin phi) (cos phi) = -0.5 - 0.5 / cos szen := by
    simp only [liKernel, phaseAngle, overlap, primeAngles, arctan_ratio (t := szen) (by linarith) h', distance, sin_zero, zero_div, mul_zero, arctan_zero, cos_zero,
      zero_mul, sub_zero, one_mul, zero_add, add_zero]
    rw [show arctan (sin szen / cos szen) = szen by rw [← tan_eq_sin_div_cos, arctan_tan (by linarith) h']]
    rw [max_eq_right (mul_self_nonneg _), sqrt_mul_self (by positivity), sqrt_mul_self (by positivity)]
    have big : 1 ≤ 2 * (sin szen / cos szen) / (1 / 1 + 1 / cos szen) := by
      have e : 2 * (sin szen / cos szen) / (1 / 1 + 1 / cos szen) = 2 * sin szen / (cos szen + 1) := by field_simp
      rw [e, le_div_iff₀ (by linarith)]
      linarith
    rw [min_eq_left big]
    norm_num
    field_simp
    ring
  have g : 0 ≤ w.vol ∧ 0 < w.geo ∧ w.iso + w.vol * 0.8 - w.geo * 15.5 < 0 := by
    simp only [weights, List.mem_cons, List.not_mem_nil, or_false] at hw
    rcases hw with rfl | rfl | rfl | rfl | rfl | rfl | rfl | rfl | rfl | rfl <;> norm_num
  have q : 30 ≤ 1 / cos szen := by rw [le_div_iff₀ c0]; linarith
  have q' : (15 : ℝ) ≤ 0.5 / cos szen := by rw [le_div_iff₀ c0]; norm_num at *; linarith
  unfold forward
  rw [li]
  have m1 := mul_le_mul_of_nonneg_left ross g.1
  have m2 : w.geo * (-0.5 - 0.5 / cos szen) ≤ w.geo * (-15.5) := by
    apply mul_le_mul_of_nonneg_left _ g.2.1.le
    linarith
  linarith [g.2.2]

/-- C179, violated: for every band, if the sun is lower than about 2 degrees above the horizon and the sensor in the zenith, the factor is negative: a
positive reflectance becomes negative. -/
theorem c179_low_sun_violated (w : Weights) (hw : w ∈ weights) (std szen sazi vazi : ℝ) (h1 : 0 ≤ std) (h1' : std ≤ π) (h1c : 1 / 4 ≤ cos std)
    (h2 : 0 ≤ szen) (h2' : szen < π / 2) (h2c : cos szen ≤ 1 / 30) : bandFactor w std szen 0 sazi vazi < 0 := by
  have p1 := positive w hw std 0 0 h1 h1c h1' le_rfl (by rw [cos_zero]; norm_num) pi_pos.le
  exact div_neg_of_pos_of_neg p1 (forward_low w hw szen _ h2 h2' h2c)

/-! ## All bands -/

theorem fold_length (domains : List String) (g : Weights → ℝ) (ws : List Weights) (f : List ℝ) :
    (ws.foldl (fun f w => if domains.idxOf w.domain < domains.length then f.set (domains.idxOf w.domain) (g w) else f) f).length = f.length := by
  induction ws generalizing f with
  | nil => rfl
  | cons w t ih =>
    rw [List.foldl_cons, ih]
    split
    · simp
    · rfl

theorem fold_other (domains : List String) (g : Weights → ℝ) (ws : List Weights) (f : List ℝ) (b : Nat)
    (h : ∀ w ∈ ws, domains.idxOf w.domain ≠ b) :
    (ws.foldl (fun f w => if domains.idxOf w.domain < domains.length then f.set (domains.idxOf w.domain) (g w) else f) f)[b]? = f[b]? := by
  induction ws generalizing f with
  | nil => rfl
  | cons w t ih =>
    rw [List.foldl_cons, ih _ fun x hx => h x (List.mem_cons_of_mem _ hx)]
    split
    · rw [List.getElem?_set_ne (h w (by simp))]
    · rfl

theorem fold_hit (domains : List String) (g : Weights → ℝ) (ws : List Weights) (hn : (ws.map (·.domain)).Nodup) (f : List ℝ) (hl : f.length = domains.length)
    (w : Weights) (hw : w ∈ ws) (hd : w.domain ∈ domains) :
    (ws.foldl (fun f w => if domains.idxOf w.domain < domains.length then f.set (domains.idxOf w.domain) (g w) else f) f)[domains.idxOf w.domain]? = some (g w) := by
  induction ws generalizing f with
  | nil => simp at hw
  | cons v t ih =>
    rw [List.foldl_cons]
    rw [List.map_cons, List.nodup_cons] at hn
    rcases List.mem_cons.mp hw with rfl | ht
    · rw [fold_other]
      · rw [if_pos (List.idxOf_lt_length_iff.mpr hd), List.getElem?_set_self]
        rw [hl]; exact List.idxOf_lt_length_iff.mpr hd
      · intro x hx he
        have : x.domain = w.domain := by
          have hx' : domains.idxOf x.domain < domains.length := by rw [he]; exact List.idxOf_lt_length_iff.mpr hd
          have e1 := List.getElem_idxOf hx'
          have e2 := List.getElem_idxOf (List.idxOf_lt_length_iff.mpr hd)
          rw [← e1, ← e2]
          congr 1
        exact hn.1 (this ▸ List.mem_map.mpr ⟨x, hx, rfl⟩)
    · apply ih hn.2 _ _ ht
      split
      · simpa using hl
      · exact hl

/-- C179: for every set of bands, each band has a factor: the first band of each of the ten domains that the correction knows has the factor of its domain,
all other bands are unchanged. -/
theorem c179_bands (domains : List String) (std szen vzen sazi vazi : ℝ) :
    (brdfFactor domains std szen vzen sazi vazi).length = domains.length ∧
    (∀ w ∈ weights, w.domain ∈ domains → (brdfFactor domains std szen vzen sazi vazi)[domains.idxOf w.domain]? = some (bandFactor w std szen vzen sazi vazi)) ∧
    ∀ (b : Nat) (d : String), domains[b]? = some d → (d ∉ weights.map (·.domain) ∨ domains.idxOf d ≠ b) →
      (brdfFactor domains std szen vzen sazi vazi)[b]? = some 1 := by
  refine ⟨?_, ?_, ?_⟩
  · unfold brdfFactor
    rw [fold_length domains (fun w => bandFactor w std szen vzen sazi vazi)]
    simp
  · intro w hw hd
    exact fold_hit domains (fun w => bandFactor w std szen vzen sazi vazi) weights (by simp [weights]) _ (by simp) w hw hd
  · intro b d hb hd
    unfold brdfFactor
    rw [fold_other domains (fun w => bandFactor w std szen vzen sazi vazi)]
    · rw [List.getElem?_map, hb]; rfl
    · intro w hw he
      have hbl : b < domains.length := (List.getElem?_eq_some_iff.mp hb).1
      have e1 := List.getElem_idxOf (xs := domains) (x := w.domain) (by rw [he]; exact hbl)
      have e2 : domains[b] = d := (List.getElem?_eq_some_iff.mp hb).2
      have : w.domain = d := by
        rw [← e1, ← e2]
        congr 1
      rcases hd with hd | hd
      · exact hd (this ▸ List.mem_map.mpr ⟨w, hw, rfl⟩)
      · exact hd (this ▸ he)

end Verif.Radtran
