import Mathlib.Analysis.SpecialFunctions.Pow.Real
import Mathlib.Analysis.SpecialFunctions.Trigonometric.Inverse

/-!
# Model of the radiative transfer

`radtran-ll.c`, the initial values of `atc-ll.c`, the inversion in `surface_reflectance` (`atmo-ll.c`). Real numbers instead of float.
-/

namespace Verif.Radtran

open Real

/-! ## Optical depths -/

/-- radtran-ll.c:36-42 `molecular_optical_depth`. -/
noncomputable def modSea (wvl : ℝ) : ℝ := 0.0088 * wvl ^ (-4.15 + 0.2 * wvl)

/-- radtran-ll.c:50-53 `aod_elev_factor`. -/
noncomputable def aodFactor (z hp : ℝ) : ℝ := exp (-z / hp)

/-- radtran-ll.c:60-63 `mod_elev_factor`. -/
noncomputable def modFactor (z : ℝ) : ℝ := exp (-0.1188 * z - 0.0016 * z * z)

/-- radtran-ll.c:75-78, 90-93 `mod_elev_scale`, `aod_elev_scale`. -/
noncomputable def elevScale (od hIs h : ℝ) : ℝ := od / hIs * h

/-- radtran-ll.c:101-104 `optical_depth`. -/
def opticalDepth (aod mod : ℝ) : ℝ := aod + mod

/-! ## Scattering -/

/-- Results of `scatt_transmitt`. -/
structure Trans where
  /-- both ways -/
  T : ℝ
  /-- down: all, direct, diffuse -/
  Ts : ℝ
  tsd : ℝ
  tss : ℝ
  /-- up: all, direct, diffuse -/
  Tv : ℝ
  tvd : ℝ
  tvs : ℝ

/-- radtran-ll.c:123-136 `scatt_transmitt`; `ms`, `mv` are the cosines of the zenith angles. -/
noncomputable def scatter (aod mod od ms mv : ℝ) : Trans :=
  let tmp := -1.0 * (0.52 * mod + 0.167 * aod)
  let Ts := exp (tmp / ms)
  let Tv := exp (tmp / mv)
  let tvd := exp (-1.0 * od / mv)
  let tsd := exp (-1.0 * od / ms)
  ⟨Ts * Tv, Ts, tsd, Ts - tsd, Tv, tvd, Tv - tvd⟩

/-- radtran-ll.c:155-177 `path_ref`. -/
noncomputable def pathRef (multi : Bool) (sob aod mod od Pa Pr tsd tvd ms mv : ℝ) : ℝ :=
  if multi then
    let xav := sob * aod / od
    let phase := aod / od * Pa + mod / od * Pr
    let rv := 1 + 1.5 * mv + (1 - 1.5 * mv) * tvd
    let rs := 1 + 1.5 * ms + (1 - 1.5 * ms) * tsd
    1 - rv * rs / (4 + (3 - xav) * od) +
      ((3 + xav) * mv * ms - 2 * (mv + ms) + phase) * (1 - exp (-od * (1 / mv + 1 / ms))) / (mv + ms) / 4
  else aod * Pa / (4 * mv * ms) + mod * Pr / (4 * mv * ms)

/-- radtran-ll.c:186-192 `sphere_albedo`. -/
noncomputable def sphereAlbedo (aod mod od : ℝ) : ℝ := exp (-1.0 * od) * (0.92 * mod + 0.333 * aod)

/-- radtran-ll.c:201-207 `env_weight_aerosol`; atc-ll.c:69. -/
noncomputable def envAerosol (r : ℝ) : ℝ := 1 - (0.375 * exp (-0.2 * r) + 0.625 * exp (-1.83 * r))

/-- radtran-ll.c:216-222 `env_weight_molecular`; atc-ll.c:68. -/
noncomputable def envMolecular (r : ℝ) : ℝ := 1 - (0.930 * exp (-0.8 * r) + 0.070 * exp (-1.10 * r))

/-- radtran-ll.c:234-240 `env_weight`. -/
noncomputable def envWeight (aod mod fa fr : ℝ) : ℝ := (0.8333 * aod * fa + 0.5 * mod * fr) / (0.8333 * aod + 0.5 * mod)

/-- radtran-ll.c:250-256 `backscatter`. -/
noncomputable def backscatter (ms mv sazi vazi : ℝ) : ℝ := -1.0 * mv * ms - √((1 - mv * mv) * (1 - ms * ms)) * cos (vazi - sazi)

/-- radtran-ll.c:263-269 `phase_molecular`. -/
noncomputable def phaseMolecular (c : ℝ) : ℝ := 0.75 * (1 + c * c)

/-- The coefficients of `tthg_t`. -/
structure Hg where
  h0 : ℝ
  h1 : ℝ
  h2 : ℝ
  h3 : ℝ
  h4 : ℝ
  h5 : ℝ
  sob : ℝ

/-- atc-ll.c:56-62: the coefficients from the asymmetries `g1` (forward), `g2` (backward) and the part `a` of the forward term. -/
noncomputable def coefficients (g1 g2 a : ℝ) : Hg :=
  ⟨(1 - g1 * g1) * a, (1 - g2 * g2) * (1 - a), 1 + g1 * g1, 1 + g2 * g2, 2 * g1, 2 * g2, 3 * (a * (g1 + g2) - g2)⟩

/-- atc-ll.c:55. -/
noncomputable def tthg : Hg := coefficients 0.801 0.580 0.948

/-- radtran-ll.c:279-286 `phase_aerosol`. -/
noncomputable def phaseAerosol (c : ℝ) (h : Hg) : ℝ := h.h0 / (h.h2 - h.h4 * c) ^ (1.5 : ℝ) + h.h1 / (h.h3 + h.h5 * c) ^ (1.5 : ℝ)

/-! ## Gases -/

/-- radtran-ll.c:297-313, 324-338: mean of `f` over the wavelengths with the response of the band as weights: pairs of absorption coefficient and
response. -/
noncomputable def bandMean (f : ℝ → ℝ) (band : List (ℝ × ℝ)) : ℝ := (band.map fun p => p.2 * f p.1).sum / (band.map fun p => p.2).sum

/-- radtran-ll.c:297-313 `wvp_transmitt`. -/
noncomputable def wvpTransmitt (w m : ℝ) (band : List (ℝ × ℝ)) : ℝ :=
  bandMean (fun a => exp (-1.2110662 * (a * (w / m)) / (1 + 24.1229127 * (a * (w / m))) ^ (0.3669996 : ℝ))) band

/-- radtran-ll.c:324-338 `ozone_transmitt`. -/
noncomputable def ozoneTransmitt (o m : ℝ) (band : List (ℝ × ℝ)) : ℝ := bandMean (fun a => exp (a * (-o / m))) band

/-- radtran-ll.c:350-353 `gas_transmitt`. -/
def gasTransmitt (tsw tvw tso tvo : ℝ) : ℝ := tsw * tvw * tso * tvo

/-- gas-ll.c:577-598 `ozone_amount`. -/
noncomputable def ozoneAmount (lon lat : ℝ) (doy : ℕ) : ℝ :=
  let A : ℝ := if 0 < lat then 150 else 100
  let H : ℝ := if 0 < lat then 3 else 2
  let beta : ℝ := if 0 < lat then 1.28 else 1.5
  let C : ℝ := if 0 < lat then 40 else 30
  let F : ℝ := if 0 < lat then -30 else 152.625
  let I : ℝ := if 0 < lat ∧ 0 < lon then 20 else if 0 < lat ∧ lon < 0 then 0 else -75
  let d := π / 180
  (235 + (A + C * sin (0.9856 * (doy + F) * d) + 20 * sin (H * (lon + I) * d)) * sin (beta * lat * d) * sin (beta * lat * d)) / 1000

/-! ## Water surface -/

/-- A quotient of floats: `none` is a quotient by zero (NaN or infinite). -/
noncomputable def quot (a b : ℝ) : Option ℝ := if b = 0 then none else some (a / b)

/-- radtran-ll.c:362-371 `fresnel_reflection`. -/
noncomputable def fresnel (i : ℝ) : Option ℝ :=
  let t := arcsin (sin i / 1.3333)
  (quot (sin (i - t)) (sin (i + t))).bind fun s =>
    (quot (tan (i - t)) (tan (i + t))).bind fun p => some (0.5 * (s * s + p * p))

/-! ## Surface reflectance -/

/-- atmo-ll.c:335-337: without correction of the surroundings; `A` is the factor of the topography, `brdf` that of the geometry. -/
noncomputable def surface (A brdf toa rhoP tg T s : ℝ) : ℝ :=
  let tmp := (toa - rhoP) / tg
  A * brdf * tmp / (T + s * tmp)

/-- atmo-ll.c:326-331: with correction of the surroundings, whose reflectance is `bck`. -/
noncomputable def surfaceEnv (A brdf toa rhoP tg Ts tvd tvs s bck : ℝ) : ℝ :=
  let tmp := 1 - bck * s
  A * brdf * (toa / tg * tmp - rhoP * tmp - Ts * tvs * bck) / (Ts * tvd)

end Verif.Radtran
