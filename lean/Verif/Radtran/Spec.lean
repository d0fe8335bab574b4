import Verif.Topo.Spec
import Mathlib.MeasureTheory.Integral.IntervalIntegral.Basic

/-!
# Specification of the radiative transfer
-/

namespace Verif.Radtran.Spec

open Real

/-- What a sensor sees above a uniform surface of reflectance `rho`: the light scattered by the atmosphere `rhoP`, and the light that is reflected by the
surface after any number of reflections between surface and atmosphere, attenuated by gases (`tg`) and scattering (`T`). -/
noncomputable def sensor (rhoP tg T s rho : ℝ) : ℝ := rhoP + tg * (T * rho / (1 - s * rho))

/-- The same for a surface of reflectance `rho` in surroundings of reflectance `env`: the light comes from the surface on the direct way (`td`), from the
surroundings on diffuse ways (`ts`), and gases attenuate all of it. -/
noncomputable def sensorEnv (rhoP tg Ts td ts s rho env : ℝ) : ℝ := tg * (rhoP + Ts * (td * rho + ts * env) / (1 - s * env))

/-- Mean of a phase function over all directions. -/
noncomputable def sphereMean (f : ℝ → ℝ) : ℝ := (∫ c in (-1 : ℝ)..1, f c) / 2

/-- Fresnel's equations: reflected part of unpolarised light from air to a medium of refractive index `n`; `i` is the angle of incidence, `t` that of
refraction. -/
noncomputable def fresnelEquations (n i t : ℝ) : ℝ :=
  (((cos i - n * cos t) / (cos i + n * cos t)) ^ 2 + ((n * cos i - cos t) / (n * cos i + cos t)) ^ 2) / 2

/-- Van Heuklon (1979): total ozone in atm-cm at the longitude `lon` and the latitude `lat` (degrees) on a day of the year. -/
noncomputable def heuklon (lon lat day : ℝ) : ℝ :=
  let rad := π / 180
  if 0 < lat then
    (235 + (150 + 40 * sin (0.9856 * (day - 30) * rad) + 20 * sin (3 * (lon + if 0 < lon then 20 else 0) * rad)) * sin (1.28 * lat * rad) ^ 2) / 1000
  else
    (235 + (100 + 30 * sin (0.9856 * (day + 152.625) * rad) + 20 * sin (2 * (lon - 75) * rad)) * sin (1.5 * lat * rad) ^ 2) / 1000

end Verif.Radtran.Spec
