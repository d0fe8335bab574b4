import Verif.Radtran.Scatter
import Verif.Radtran.Spec

/-!
# Inversion of the radiative transfer
-/

namespace Verif.Radtran

open Real Verif.Radtran.Spec

theorem surface_sensor {rhoP tg T s rho : ℝ} (ht : tg ≠ 0) (hT : T ≠ 0) (hs : 1 - s * rho ≠ 0) :
    surface 1 1 (sensor rhoP tg T s rho) rhoP tg T s = rho := by
  unfold surface sensor
  have h1 : (rhoP + tg * (T * rho / (1 - s * rho)) - rhoP) / tg = T * rho / (1 - s * rho) := by field_simp; ring
  have h2 : T + s * (T * rho / (1 - s * rho)) = T / (1 - s * rho) := by field_simp; ring
  simp only [h1, h2, one_mul]
  rw [div_div_div_cancel_right₀ hs, mul_div_cancel_left₀ _ hT]

/-- C176: for every atmosphere, sun and view, gas transmittance and path reflectance: the atmospheric correction of what the sensor sees above a uniform
surface returns the reflectance of the surface. -/
theorem c176_inverse (aod mod ms mv tg rhoP rho : ℝ) (ha : 0 ≤ aod) (hm : 0 ≤ mod) (hms : 0 < ms) (hmv : 0 < mv) (ht : 0 < tg) (_h0 : 0 ≤ rho)
    (h1 : rho ≤ 1) :
    let t := scatter aod mod (opticalDepth aod mod) ms mv
    let s := sphereAlbedo aod mod (opticalDepth aod mod)
    surface 1 1 (sensor rhoP tg t.T s rho) rhoP tg t.T s = rho := by
  obtain ⟨-, -, -, hT, -⟩ := c175_parts aod mod ms mv ha hm hms hmv
  obtain ⟨hs0, hs1⟩ := c175_albedo aod mod ha hm
  have : sphereAlbedo aod mod (opticalDepth aod mod) * rho ≤ 0.34 := by nlinarith
  refine surface_sensor ht.ne' hT.ne' ?_
  have : (0 : ℝ) < 1 - 0.34 := by norm_num
  linarith

theorem surfaceEnv_sensorEnv {rhoP tg Ts td ts s rho env : ℝ} (ht : tg ≠ 0) (hT : Ts ≠ 0) (hd : td ≠ 0) (hs : 1 - s * env ≠ 0) :
    surfaceEnv 1 1 (sensorEnv rhoP tg Ts td ts s rho env) rhoP tg Ts td ts s env = rho := by
  unfold surfaceEnv sensorEnv
  have h1 : 1 - env * s = 1 - s * env := by ring
  have h2 : tg * (rhoP + Ts * (td * rho + ts * env) / (1 - s * env)) / tg = rhoP + Ts * (td * rho + ts * env) / (1 - s * env) := by field_simp
  simp only [h1, h2]
  have h3 : (rhoP + Ts * (td * rho + ts * env) / (1 - s * env)) * (1 - s * env) - rhoP * (1 - s * env) = Ts * (td * rho + ts * env) := by
    rw [add_mul, div_mul_cancel₀ _ hs]; ring
  rw [h3]
  field_simp
  ring

/-- C176: with correction of the surroundings, the atmospheric correction of what the sensor sees above a surface in surroundings of another reflectance
returns the reflectance of the surface, for every atmosphere. -/
theorem c176_surroundings (aod mod ms mv tg rhoP rho env : ℝ) (ha : 0 ≤ aod) (hm : 0 ≤ mod) (hms : 0 < ms) (hmv : 0 < mv) (ht : 0 < tg)
    (_h0 : 0 ≤ env) (h1 : env ≤ 1) :
    let t := scatter aod mod (opticalDepth aod mod) ms mv
    let s := sphereAlbedo aod mod (opticalDepth aod mod)
    surfaceEnv 1 1 (sensorEnv rhoP tg t.Ts t.tvd t.tvs s rho env) rhoP tg t.Ts t.tvd t.tvs s env = rho := by
  obtain ⟨-, ⟨-, hd, -⟩, -⟩ := c175_parts aod mod ms mv ha hm hms hmv
  obtain ⟨hs0, hs1⟩ := c175_albedo aod mod ha hm
  have : sphereAlbedo aod mod (opticalDepth aod mod) * env ≤ 0.34 := by nlinarith
  refine surfaceEnv_sensorEnv ht.ne' (exp_pos _).ne' hd.ne' ?_
  have : (0 : ℝ) < 1 - 0.34 := by norm_num
  linarith

/-- C176, partial: without absorption by gases, both corrections return the same reflectance for a uniform surface: with and without correction of the
surroundings. -/
theorem c176_uniform_partial (aod mod ms mv rhoP rho : ℝ) (ha : 0 ≤ aod) (hm : 0 ≤ mod) (hms : 0 < ms) (hmv : 0 < mv) (h0 : 0 ≤ rho) (h1 : rho ≤ 1) :
    let t := scatter aod mod (opticalDepth aod mod) ms mv
    let s := sphereAlbedo aod mod (opticalDepth aod mod)
    surface 1 1 (sensor rhoP 1 t.T s rho) rhoP 1 t.T s = rho ∧
      surfaceEnv 1 1 (sensor rhoP 1 t.T s rho) rhoP 1 t.Ts t.tvd t.tvs s rho = rho := by
  refine ⟨c176_inverse aod mod ms mv 1 rhoP rho ha hm hms hmv one_pos h0 h1, ?_⟩
  have h := c176_surroundings aod mod ms mv 1 rhoP rho rho ha hm hms hmv one_pos h0 h1
  obtain ⟨-, ⟨-, -, -, hsum, -⟩, hT, -⟩ := c175_parts aod mod ms mv ha hm hms hmv
  generalize scatter aod mod (opticalDepth aod mod) ms mv = t at *
  generalize sphereAlbedo aod mod (opticalDepth aod mod) = s at *
  have e : sensor rhoP 1 t.T s rho = sensorEnv rhoP 1 t.Ts t.tvd t.tvs s rho rho := by
    unfold sensor sensorEnv
    rw [hT, ← hsum]
    ring
  show surfaceEnv 1 1 (sensor rhoP 1 t.T s rho) rhoP 1 t.Ts t.tvd t.tvs s rho = rho
  rw [e]
  exact h

/-- C176, violated: the two corrections disagree about the absorption of the light that is scattered by the atmosphere. Whenever gases absorb and the
atmosphere scatters, the correction of the surroundings returns a uniform surface brighter than the correction without surroundings. -/
theorem c176_uniform_violated (aod mod ms mv tg rhoP rho : ℝ) (ha : 0 ≤ aod) (hm : 0 ≤ mod) (hms : 0 < ms) (hmv : 0 < mv) (ht : 0 < tg) (ht1 : tg < 1)
    (hp : 0 < rhoP) (h0 : 0 ≤ rho) (h1 : rho ≤ 1) :
    let t := scatter aod mod (opticalDepth aod mod) ms mv
    let s := sphereAlbedo aod mod (opticalDepth aod mod)
    let toa := sensor rhoP tg t.T s rho
    surface 1 1 toa rhoP tg t.T s < surfaceEnv 1 1 toa rhoP tg t.Ts t.tvd t.tvs s rho := by
  intro t s toa
  have hi : surface 1 1 toa rhoP tg t.T s = rho := c176_inverse aod mod ms mv tg rhoP rho ha hm hms hmv ht h0 h1
  have he : surfaceEnv 1 1 (sensorEnv rhoP tg t.Ts t.tvd t.tvs s rho rho) rhoP tg t.Ts t.tvd t.tvs s rho = rho :=
    c176_surroundings aod mod ms mv tg rhoP rho rho ha hm hms hmv ht h0 h1
  obtain ⟨-, ⟨-, hd, -, hsum, -⟩, hT, -⟩ := c175_parts aod mod ms mv ha hm hms hmv
  obtain ⟨hs0, hs1⟩ := c175_albedo aod mod ha hm
  have hpos : 0 < 1 - rho * s := by
    have : s * rho ≤ 0.34 := by show sphereAlbedo aod mod (opticalDepth aod mod) * rho ≤ 0.34; nlinarith
    have : (0 : ℝ) < 1 - 0.34 := by norm_num
    linarith [mul_comm rho s]
  have hTs : 0 < t.Ts := exp_pos _
  have hlt : sensorEnv rhoP tg t.Ts t.tvd t.tvs s rho rho < toa := by
    show _ < sensor rhoP tg t.T s rho
    unfold sensor sensorEnv
    rw [show t.T = t.Ts * (t.tvd + t.tvs) by rw [show t.T = t.Ts * t.Tv from hT, ← hsum]]
    have : tg * (rhoP + t.Ts * (t.tvd * rho + t.tvs * rho) / (1 - s * rho)) = tg * rhoP + tg * (t.Ts * (t.tvd + t.tvs) * rho / (1 - s * rho)) := by ring
    rw [this]
    nlinarith
  rw [hi]
  nth_rewrite 1 [← he]
  unfold surfaceEnv
  simp only [one_mul]
  apply div_lt_div_of_pos_right _ (mul_pos hTs hd)
  have : sensorEnv rhoP tg t.Ts t.tvd t.tvs s rho rho / tg < toa / tg := div_lt_div_of_pos_right hlt ht
  nlinarith

/-- C176: topography and geometry are corrected by factors of the reflectance. -/
theorem c176_factors (A brdf toa rhoP tg T Ts td ts s bck : ℝ) :
    surface A brdf toa rhoP tg T s = A * brdf * surface 1 1 toa rhoP tg T s ∧
      surfaceEnv A brdf toa rhoP tg Ts td ts s bck = A * brdf * surfaceEnv 1 1 toa rhoP tg Ts td ts s bck := by
  unfold surface surfaceEnv
  constructor <;> ring

end Verif.Radtran
