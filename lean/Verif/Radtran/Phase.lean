import Verif.Radtran.Scatter
import Verif.Radtran.Spec
import Mathlib.MeasureTheory.Integral.IntervalIntegral.FundThmCalculus
import Mathlib.Analysis.SpecialFunctions.Integrals.Basic
import Mathlib.Analysis.SpecialFunctions.Pow.Deriv

/-!
# Phase functions and path reflectance
-/

namespace Verif.Radtran

open Real Verif.Radtran.Spec

/-- C177: for every position of sun and sensor, the cosine of the scattering angle is that of the angle between the direction of the sunlight and the
direction to the sensor; it is between -1 and 1. -/
theorem c177_angle (sz sa vz va : ℝ) (hs : 0 ≤ sin sz) (hv : 0 ≤ sin vz) :
    backscatter (cos sz) (cos vz) sa va = -Topo.Spec.dot (Topo.Spec.sun sz sa) (Topo.Spec.sun vz va) ∧
      -1 ≤ backscatter (cos sz) (cos vz) sa va ∧ backscatter (cos sz) (cos vz) sa va ≤ 1 := by
  have e : backscatter (cos sz) (cos vz) sa va = -(cos sz * cos vz + sin sz * sin vz * cos (va - sa)) := by
    unfold backscatter
    have h1 : (1 - cos vz * cos vz) * (1 - cos sz * cos sz) = (sin sz * sin vz) ^ 2 := by
      have a := sin_sq_add_cos_sq sz
      have b := sin_sq_add_cos_sq vz
      rw [show 1 - cos vz * cos vz = sin vz ^ 2 by linarith [sq (cos vz)], show 1 - cos sz * cos sz = sin sz ^ 2 by linarith [sq (cos sz)]]
      ring
    rw [h1, sqrt_sq (mul_nonneg hs hv)]
    norm_num
    ring
  refine ⟨?_, ?_, ?_⟩
  · rw [e, cos_sub]
    unfold Topo.Spec.dot Topo.Spec.sun
    ring
  · rw [e]
    have h := cos_le_one (sz - vz)
    rw [cos_sub] at h
    have : sin sz * sin vz * cos (va - sa) ≤ sin sz * sin vz := mul_le_of_le_one_right (mul_nonneg hs hv) (cos_le_one _)
    linarith
  · rw [e]
    have h := neg_one_le_cos (sz + vz)
    rw [cos_add] at h
    have : -(sin sz * sin vz) ≤ sin sz * sin vz * cos (va - sa) := by
      have := mul_le_mul_of_nonneg_left (neg_one_le_cos (va - sa)) (mul_nonneg hs hv)
      linarith
    linarith

/-- C177: the molecules scatter all light once: the mean of their phase function over all directions is 1; it is the same forward and backward. -/
theorem c177_molecules : sphereMean phaseMolecular = 1 ∧ ∀ c, phaseMolecular (-c) = phaseMolecular c ∧ 0.75 ≤ phaseMolecular c := by
  refine ⟨?_, fun c => ⟨by unfold phaseMolecular; ring, by unfold phaseMolecular; nlinarith [mul_self_nonneg c]⟩⟩
  unfold sphereMean phaseMolecular
  have : (∫ c in (-1 : ℝ)..1, 0.75 * (1 + c * c)) = 2 := by
    have e : (fun c : ℝ => 0.75 * (1 + c * c)) = fun c => 0.75 * (1 + c ^ 2) := by funext c; ring
    rw [e, intervalIntegral.integral_const_mul, intervalIntegral.integral_add (by simp) (by simp), integral_pow]
    norm_num
  rw [this]; norm_num

/-! ## Henyey-Greenstein -/

/-- Henyey-Greenstein function of asymmetry `g`. -/
noncomputable def henyey (g c : ℝ) : ℝ := (1 - g * g) / (1 + g * g - 2 * g * c) ^ (1.5 : ℝ)

theorem base_pos {g c : ℝ} (hg : |g| < 1) (hc : |c| ≤ 1) : 0 < 1 + g * g - 2 * g * c := by
  have h1 : g * c ≤ |g| := by
    calc g * c ≤ |g * c| := le_abs_self _
      _ = |g| * |c| := abs_mul _ _
      _ ≤ |g| * 1 := mul_le_mul_of_nonneg_left hc (abs_nonneg _)
      _ = |g| := mul_one _
  have h2 : g * g = |g| * |g| := (abs_mul_abs_self g).symm
  nlinarith [mul_self_pos.mpr (sub_pos.mpr hg).ne']

theorem mem_abs {c : ℝ} (h : c ∈ Set.uIcc (-1 : ℝ) 1) : |c| ≤ 1 := by
  rw [Set.uIcc_of_le (by norm_num)] at h
  exact abs_le.mpr h

theorem hasDeriv_inv {g c : ℝ} (hp : 0 < 1 + g * g - 2 * g * c) (r : ℝ) :
    HasDerivAt (fun c => (1 + g * g - 2 * g * c) ^ r) (-(2 * g) * r * (1 + g * g - 2 * g * c) ^ (r - 1)) c := by
  have h : HasDerivAt (fun c => 1 + g * g - 2 * g * c) (-(2 * g)) c := by
    simpa using ((hasDerivAt_id c).const_mul (2 * g)).const_sub (1 + g * g)
  exact h.rpow_const (Or.inl hp.ne')

theorem continuous_pow {g : ℝ} (hg : |g| < 1) (r : ℝ) : ContinuousOn (fun c => (1 + g * g - 2 * g * c) ^ r) (Set.uIcc (-1) 1) := by
  apply ContinuousOn.rpow_const
  · fun_prop
  · intro c hc
    exact Or.inl (base_pos hg (mem_abs hc)).ne'

theorem root_ends {g : ℝ} (hg : |g| < 1) : (1 + g * g - 2 * g * 1) ^ (-0.5 : ℝ) = 1 / (1 - g) ∧ (1 + g * g - 2 * g * (-1)) ^ (-0.5 : ℝ) = 1 / (1 + g) ∧
    (1 + g * g - 2 * g * 1) ^ (0.5 : ℝ) = 1 - g ∧ (1 + g * g - 2 * g * (-1)) ^ (0.5 : ℝ) = 1 + g := by
  have h := abs_lt.mp hg
  have e1 : 1 + g * g - 2 * g * 1 = (1 - g) ^ (2 : ℝ) := by rw [rpow_two]; ring
  have e2 : 1 + g * g - 2 * g * (-1) = (1 + g) ^ (2 : ℝ) := by rw [rpow_two]; ring
  rw [e1, e2, ← rpow_mul (by linarith), ← rpow_mul (by linarith), ← rpow_mul (by linarith), ← rpow_mul (by linarith)]
  norm_num [rpow_neg_one]

theorem henyey_eq (g c : ℝ) (hp : 0 < 1 + g * g - 2 * g * c) : henyey g c = (1 - g * g) * (1 + g * g - 2 * g * c) ^ (-1.5 : ℝ) := by
  unfold henyey
  rw [show (-1.5 : ℝ) = -(1.5 : ℝ) by norm_num, rpow_neg hp.le, div_eq_mul_inv]

/-- Zeroth moment. -/
theorem henyey_mean {g : ℝ} (hg : |g| < 1) (h0 : g ≠ 0) : (∫ c in (-1 : ℝ)..1, henyey g c) = 2 := by
  have h : ∀ c ∈ Set.uIcc (-1 : ℝ) 1, HasDerivAt (fun c => (1 - g * g) / g * (1 + g * g - 2 * g * c) ^ (-0.5 : ℝ)) (henyey g c) c := by
    intro c hc
    have hp := base_pos hg (mem_abs hc)
    have := (hasDeriv_inv hp (-0.5)).const_mul ((1 - g * g) / g)
    refine this.congr_deriv ?_
    rw [henyey_eq g c hp, show (-0.5 : ℝ) - 1 = -1.5 by norm_num]
    generalize (1 + g * g - 2 * g * c) ^ (-1.5 : ℝ) = y
    field_simp
    ring
  rw [intervalIntegral.integral_eq_sub_of_hasDerivAt h]
  · obtain ⟨e1, e2, -, -⟩ := root_ends hg
    rw [e1, e2]
    have := abs_lt.mp hg
    have a : 1 - g ≠ 0 := by linarith
    have b : 1 + g ≠ 0 := by linarith
    field_simp
    ring
  · apply ContinuousOn.intervalIntegrable
    apply ((continuous_pow hg (-1.5)).const_mul (1 - g * g)).congr
    intro c hc
    exact henyey_eq g c (base_pos hg (mem_abs hc))

/-- First moment. -/
theorem henyey_moment {g : ℝ} (hg : |g| < 1) (h0 : g ≠ 0) : (∫ c in (-1 : ℝ)..1, c * henyey g c) = 2 * g := by
  have h : ∀ c ∈ Set.uIcc (-1 : ℝ) 1, HasDerivAt (fun c => (1 - g * g) / (2 * g * g) * ((1 + g * g) * (1 + g * g - 2 * g * c) ^ (-0.5 : ℝ) + (1 + g * g - 2 * g * c) ^ (0.5 : ℝ)))
      (c * henyey g c) c := by
    intro c hc
    have hp := base_pos hg (mem_abs hc)
    have := (((hasDeriv_inv hp (-0.5)).const_mul (1 + g * g)).add (hasDeriv_inv hp 0.5)).const_mul ((1 - g * g) / (2 * g * g))
    refine this.congr_deriv ?_
    have e : (1 + g * g - 2 * g * c) ^ ((0.5 : ℝ) - 1) = (1 + g * g - 2 * g * c) * (1 + g * g - 2 * g * c) ^ (-1.5 : ℝ) := by
      nth_rewrite 2 [← rpow_one (1 + g * g - 2 * g * c)]
      rw [← rpow_add hp]; norm_num
    rw [henyey_eq g c hp, e, show (-0.5 : ℝ) - 1 = -1.5 by norm_num]
    generalize (1 + g * g - 2 * g * c) ^ (-1.5 : ℝ) = y
    field_simp
    ring
  rw [intervalIntegral.integral_eq_sub_of_hasDerivAt h]
  · obtain ⟨e1, e2, e3, e4⟩ := root_ends hg
    rw [e1, e2, e3, e4]
    have := abs_lt.mp hg
    have a : 1 - g ≠ 0 := by linarith
    have b : 1 + g ≠ 0 := by linarith
    field_simp
    ring
  · apply ContinuousOn.intervalIntegrable
    apply (continuousOn_id.mul ((continuous_pow hg (-1.5)).const_mul (1 - g * g))).congr
    intro c hc
    simp only [henyey_eq g c (base_pos hg (mem_abs hc)), Pi.mul_apply, id]

theorem henyey_integrable {g : ℝ} (hg : |g| < 1) : ContinuousOn (henyey g) (Set.uIcc (-1) 1) := by
  apply ((continuous_pow hg (-1.5)).const_mul (1 - g * g)).congr
  intro c hc
  exact henyey_eq g c (base_pos hg (mem_abs hc))

theorem phase_split (g1 g2 a c : ℝ) : phaseAerosol c (coefficients g1 g2 a) = a * henyey g1 c + (1 - a) * henyey (-g2) c := by
  unfold phaseAerosol coefficients henyey
  simp only
  rw [show 1 + -g2 * -g2 - 2 * -g2 * c = 1 + g2 * g2 + 2 * g2 * c by ring]
  ring

/-- C177: for all asymmetries of the two terms and every mixture: the aerosols scatter all light once (the mean of their phase function over all directions is
1), and the number that the Sobolev approximation uses is three times the mean cosine of the scattering angle. -/
theorem c177_aerosols (g1 g2 a : ℝ) (h1 : 0 < g1) (h1' : g1 < 1) (h2 : 0 < g2) (h2' : g2 < 1) :
    sphereMean (fun c => phaseAerosol c (coefficients g1 g2 a)) = 1 ∧
      (coefficients g1 g2 a).sob = 3 * sphereMean (fun c => c * phaseAerosol c (coefficients g1 g2 a)) := by
  have a1 : |g1| < 1 := by rw [abs_of_pos h1]; exact h1'
  have a2 : |(-g2)| < 1 := by rw [abs_neg, abs_of_pos h2]; exact h2'
  have i1 := henyey_integrable a1
  have i2 := henyey_integrable a2
  constructor
  · unfold sphereMean
    simp only [phase_split]
    rw [intervalIntegral.integral_add (i1.const_mul a).intervalIntegrable (i2.const_mul (1 - a)).intervalIntegrable,
      intervalIntegral.integral_const_mul, intervalIntegral.integral_const_mul, henyey_mean a1 h1.ne', henyey_mean a2 (neg_ne_zero.mpr h2.ne')]
    ring
  · unfold sphereMean
    have e : (fun c => c * phaseAerosol c (coefficients g1 g2 a)) = fun c => a * (c * henyey g1 c) + (1 - a) * (c * henyey (-g2) c) := by
      funext c; rw [phase_split]; ring
    have j1 : ContinuousOn (fun c => c * henyey g1 c) (Set.uIcc (-1) 1) := continuousOn_id.mul i1
    have j2 : ContinuousOn (fun c => c * henyey (-g2) c) (Set.uIcc (-1) 1) := continuousOn_id.mul i2
    rw [e, intervalIntegral.integral_add (j1.const_mul a).intervalIntegrable (j2.const_mul (1 - a)).intervalIntegrable,
      intervalIntegral.integral_const_mul, intervalIntegral.integral_const_mul]
    rw [henyey_moment a1 h1.ne', henyey_moment a2 (neg_ne_zero.mpr h2.ne')]
    unfold coefficients
    ring

/-- C177: the aerosols that FORCE uses scatter something into every direction, and mostly forward. -/
theorem c177_forward (c : ℝ) (h : -1 ≤ c) (h' : c ≤ 1) : 0 < phaseAerosol c tthg ∧ 1.8 ≤ tthg.sob ∧ tthg.sob ≤ 3 := by
  refine ⟨?_, ?_, ?_⟩
  · unfold phaseAerosol tthg coefficients
    simp only
    apply add_pos <;> apply div_pos
    · norm_num
    · apply rpow_pos_of_pos; nlinarith
    · norm_num
    · apply rpow_pos_of_pos; nlinarith
  · unfold tthg coefficients; norm_num
  · unfold tthg coefficients; norm_num

/-- C177: for every atmosphere, the path reflectance is the same if sun and sensor are exchanged. -/
theorem c177_reciprocal (multi : Bool) (sob aod mod od Pa Pr ms mv : ℝ) :
    let t := scatter aod mod od ms mv
    let u := scatter aod mod od mv ms
    pathRef multi sob aod mod od Pa Pr t.tsd t.tvd ms mv = pathRef multi sob aod mod od Pa Pr u.tsd u.tvd mv ms := by
  simp only [scatter, pathRef]
  cases multi
  · simp only [Bool.false_eq_true, if_false]; ring
  · simp only [if_true]
    rw [add_comm ms mv, add_comm (1 / ms) (1 / mv)]
    ring

/-- C177: with single scattering, the path reflectance is not negative, zero without an atmosphere, and the sum of those of aerosols and molecules. -/
theorem c177_single (sob aod mod od Pa Pr tsd tvd ms mv : ℝ) (ha : 0 ≤ aod) (hm : 0 ≤ mod) (hPa : 0 ≤ Pa) (hPr : 0 ≤ Pr) (hs : 0 < ms) (hv : 0 < mv) :
    0 ≤ pathRef false sob aod mod od Pa Pr tsd tvd ms mv ∧ pathRef false sob 0 0 od Pa Pr tsd tvd ms mv = 0 ∧
      pathRef false sob aod mod od Pa Pr tsd tvd ms mv =
        pathRef false sob aod 0 od Pa Pr tsd tvd ms mv + pathRef false sob 0 mod od Pa Pr tsd tvd ms mv := by
  simp only [pathRef, Bool.false_eq_true, if_false]
  refine ⟨by positivity, by simp, by simp⟩

/-! ## Environment -/

theorem exp_neg_mul_le {k r r' : ℝ} (hk : 0 < k) (h : r ≤ r') : exp (-k * r') ≤ exp (-k * r) := by
  apply exp_le_exp.mpr; nlinarith

/-- C178: the part of the diffuse light that comes from a disc around the target grows with the radius of the disc, from nothing to at most all; that of all
light is between those of aerosols and molecules. -/
theorem c178_weight (aod mod r r' : ℝ) (ha : 0 ≤ aod) (hm : 0 ≤ mod) (hp : 0 < aod + mod) (h0 : 0 ≤ r) (hr : r ≤ r') :
    envAerosol 0 = 0 ∧ envMolecular 0 = 0 ∧ 0 ≤ envAerosol r ∧ envAerosol r ≤ envAerosol r' ∧ envAerosol r < 1 ∧
    0 ≤ envMolecular r ∧ envMolecular r ≤ envMolecular r' ∧ envMolecular r < 1 ∧
    min (envAerosol r) (envMolecular r) ≤ envWeight aod mod (envAerosol r) (envMolecular r) ∧
    envWeight aod mod (envAerosol r) (envMolecular r) ≤ max (envAerosol r) (envMolecular r) := by
  have z1 : envAerosol 0 = 0 := by unfold envAerosol; norm_num
  have z2 : envMolecular 0 = 0 := by unfold envMolecular; norm_num
  have m1 : ∀ a b, a ≤ b → envAerosol a ≤ envAerosol b := by
    intro a b hab
    unfold envAerosol
    have x := exp_neg_mul_le (k := 0.2) (by norm_num) hab
    have y := exp_neg_mul_le (k := 1.83) (by norm_num) hab
    nlinarith
  have m2 : ∀ a b, a ≤ b → envMolecular a ≤ envMolecular b := by
    intro a b hab
    unfold envMolecular
    have x := exp_neg_mul_le (k := 0.8) (by norm_num) hab
    have y := exp_neg_mul_le (k := 1.10) (by norm_num) hab
    nlinarith
  have b : 0 < 0.8333 * aod + 0.5 * mod := by
    rcases ha.lt_or_eq with h | h
    · nlinarith
    · nlinarith
  refine ⟨z1, z2, z1 ▸ m1 0 r h0, m1 _ _ hr, ?_, z2 ▸ m2 0 r h0, m2 _ _ hr, ?_, ?_, ?_⟩
  · unfold envAerosol; have := exp_pos (-0.2 * r); have := exp_pos (-1.83 * r); nlinarith
  · unfold envMolecular; have := exp_pos (-0.8 * r); have := exp_pos (-1.10 * r); nlinarith
  · unfold envWeight
    rw [le_div_iff₀ b]
    have x := min_le_left (envAerosol r) (envMolecular r)
    have y := min_le_right (envAerosol r) (envMolecular r)
    have x' := mul_le_mul_of_nonneg_left x (show 0 ≤ 0.8333 * aod by positivity)
    have y' := mul_le_mul_of_nonneg_left y (show 0 ≤ 0.5 * mod by positivity)
    nlinarith
  · unfold envWeight
    rw [div_le_iff₀ b]
    have x := le_max_left (envAerosol r) (envMolecular r)
    have y := le_max_right (envAerosol r) (envMolecular r)
    have x' := mul_le_mul_of_nonneg_left x (show 0 ≤ 0.8333 * aod by positivity)
    have y' := mul_le_mul_of_nonneg_left y (show 0 ≤ 0.5 * mod by positivity)
    nlinarith

/-- C178: without aerosol the weight is that of the molecules, without molecules that of the
aerosol. -/
theorem c178_pure (a fa fr : ℝ) (ha : 0 < a) : envWeight 0 a fa fr = fr ∧ envWeight a 0 fa fr = fa := by
  unfold envWeight
  constructor
  · field_simp
    ring
  · field_simp
    ring

example : envWeight 0 0.2 0.3 0.4 = 0.4 := (c178_pure 0.2 0.3 0.4 (by norm_num)).1

end Verif.Radtran
