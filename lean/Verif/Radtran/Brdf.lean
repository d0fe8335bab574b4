import Mathlib.Analysis.SpecialFunctions.Trigonometric.Arctan
import Mathlib.Analysis.SpecialFunctions.Trigonometric.Bounds
import Mathlib.Analysis.SpecialFunctions.Trigonometric.Inverse
import Mathlib.Analysis.Real.Pi.Bounds
import Mathlib.Tactic.FieldSimp
import Mathlib.Tactic.Linarith

/-!
# Correction of sun and view geometry

`brdf-ll.c`: Ross-Thick and Li-Sparse-Reciprocal kernels. Real numbers instead of float.
-/

namespace Verif.Radtran

open Real

/-- brdf-ll.c:195-203 `GetPhaang`: cosine, angle, sine. -/
noncomputable def phaseAngle (cos1 cos2 sin1 sin2 cos3 : ℝ) : ℝ × ℝ × ℝ :=
  let c := cos1 * cos2 + sin1 * sin2 * cos3
  let r := arccos (max (-1) (min 1 c))
  (c, r, sin r)

/-- brdf-ll.c:210-220 `GetpAngles`, with the ratio 1 of the call: sine, cosine, tangent. -/
noncomputable def primeAngles (tan1 : ℝ) : ℝ × ℝ × ℝ :=
  let t := 1 * tan1
  (sin (arctan t), cos (arctan t), t)

/-- brdf-ll.c:227-234 `GetDistance`. -/
noncomputable def distance (tan1 tan2 cos3 : ℝ) : ℝ := √(max 0 (tan1 * tan1 + tan2 * tan2 - 2 * tan1 * tan2 * cos3))

/-- brdf-ll.c:241-254 `GetOverlap`: overlap and sum of the secants; `hb` is 2 in the call. -/
noncomputable def overlap (hb dist cos1 cos2 tan1 tan2 sin3 : ℝ) : ℝ × ℝ :=
  let temp := 1 / cos1 + 1 / cos2
  let cost := max (-1) (min 1 (hb * √(dist * dist + tan1 * tan1 * tan2 * tan2 * sin3 * sin3) / temp))
  let tvar := arccos cost
  (max 0 (1 / π * (tvar - sin tvar * cost) * temp), temp)

/-- brdf-ll.c:174-188 `LiKernel`. -/
noncomputable def liKernel (tantv tanti sinphi cosphi : ℝ) : ℝ :=
  let (sv, cv, tv) := primeAngles tantv
  let (si, ci, ti) := primeAngles tanti
  let (c, _, _) := phaseAngle cv ci sv si cosphi
  let d := distance tv ti cosphi
  let (o, temp) := overlap 2 d cv ci tv ti sinphi
  o - temp + 0.5 * (1 + c) / cv / ci

/-- brdf-ll.c:157: the volumetric kernel. -/
noncomputable def rossKernel (costv costi sintv sinti cosphi : ℝ) : ℝ :=
  let (c, r, s) := phaseAngle costv costi sintv sinti cosphi
  ((π / 2 - r) * c + s) / (costi + costv) - π / 4

/-- brdf-ll.c:147-167 `brdf_forward`: sun zenith, view zenith, relative azimuth, weights of the kernels. -/
noncomputable def forward (ti tv phi iso vol geo : ℝ) : ℝ :=
  iso + vol * rossKernel (cos tv) (cos ti) (sin tv) (sin ti) (cos phi) + geo * liKernel (sin tv / cos tv) (sin ti / cos ti) (sin phi) (cos phi)

/-- brdf-ll.c:77-83: the parameters of a band. -/
structure Weights where
  domain : String
  iso : ℝ
  vol : ℝ
  geo : ℝ

/-- brdf-ll.c:77-83. -/
noncomputable def weights : List Weights :=
  [⟨"BLUE", 0.0774, 0.0372, 0.0079⟩, ⟨"GREEN", 0.1306, 0.0580, 0.0178⟩, ⟨"RED", 0.1690, 0.0574, 0.0227⟩, ⟨"REDEDGE1", 0.2085, 0.0845, 0.0256⟩,
    ⟨"REDEDGE2", 0.2316, 0.1003, 0.0273⟩, ⟨"REDEDGE3", 0.2599, 0.1197, 0.0294⟩, ⟨"BROADNIR", 0.3093, 0.1535, 0.0330⟩, ⟨"NIR", 0.3093, 0.1535, 0.0330⟩,
    ⟨"SWIR1", 0.3430, 0.1154, 0.0453⟩, ⟨"SWIR2", 0.2658, 0.0639, 0.0387⟩]

/-- brdf-ll.c:115-118: the factor of one band; `std` is the standard sun zenith of the location and the day. -/
noncomputable def bandFactor (w : Weights) (std szen vzen sazi vazi : ℝ) : ℝ :=
  forward std 0 0 w.iso w.vol w.geo / forward szen vzen (sazi - vazi) w.iso w.vol w.geo

/-- brdf-ll.c:70-133 `brdf_factor` for one cell: the factors of all bands, whose domains are given; `idxOf` is `find_domain`. -/
noncomputable def brdfFactor (domains : List String) (std szen vzen sazi vazi : ℝ) : List ℝ :=
  weights.foldl (fun f w => if domains.idxOf w.domain < domains.length then f.set (domains.idxOf w.domain) (bandFactor w std szen vzen sazi vazi) else f)
    (domains.map fun _ => 1)

/-! ## Symmetries -/

/-- C179: the reflectance of the model is the same if sun and sensor are exchanged. -/
theorem c179_reciprocal (ti tv phi iso vol geo : ℝ) : forward ti tv phi iso vol geo = forward tv ti phi iso vol geo := by
  have h1 : rossKernel (cos tv) (cos ti) (sin tv) (sin ti) (cos phi) = rossKernel (cos ti) (cos tv) (sin ti) (sin tv) (cos phi) := by
    simp only [rossKernel, phaseAngle]
    rw [mul_comm (cos tv) (cos ti), mul_comm (sin tv) (sin ti), add_comm (cos ti) (cos tv)]
  have h2 : ∀ a b c d : ℝ, liKernel a b c d = liKernel b a c d := by
    intro a b c d
    simp only [liKernel, phaseAngle, overlap, primeAngles, distance]
    rw [add_comm (1 / cos (arctan (1 * a))) (1 / cos (arctan (1 * b))), mul_comm (cos (arctan (1 * a))) (cos (arctan (1 * b))),
      mul_comm (sin (arctan (1 * a))) (sin (arctan (1 * b))),
      show 1 * a * (1 * a) + 1 * b * (1 * b) - 2 * (1 * a) * (1 * b) * d = 1 * b * (1 * b) + 1 * a * (1 * a) - 2 * (1 * b) * (1 * a) * d by ring,
      show 1 * a * (1 * a) * (1 * b) * (1 * b) * c * c = 1 * b * (1 * b) * (1 * a) * (1 * a) * c * c by ring,
      div_right_comm]
  unfold forward
  rw [h1, h2]

/-- C179: only the angle between the azimuths matters, not the side nor full turns. -/
theorem c179_azimuth (ti tv phi iso vol geo : ℝ) :
    forward ti tv (-phi) iso vol geo = forward ti tv phi iso vol geo ∧ forward ti tv (phi + 2 * π) iso vol geo = forward ti tv phi iso vol geo := by
  have h : ∀ a b c d : ℝ, liKernel a b (-c) d = liKernel a b c d := by
    intro a b c d
    simp only [liKernel, phaseAngle, overlap, primeAngles, distance]
    rw [show ∀ x : ℝ, x * -c * -c = x * c * c by intro x; ring]
  constructor
  · unfold forward
    rw [cos_neg, sin_neg, h]
  · unfold forward
    rw [cos_add_two_pi, sin_add_two_pi]

theorem arctan_ratio {t : ℝ} (h : -(π / 2) < t) (h' : t < π / 2) : arctan (1 * (sin t / cos t)) = t := by
  rw [one_mul, ← tan_eq_sin_div_cos, arctan_tan h h']

theorem cos_pos_of {t : ℝ} (h : -(π / 2) < t) (h' : t < π / 2) : 0 < cos t := cos_pos_of_mem_Ioo ⟨h, h'⟩

/-- C179: with sun and sensor in the zenith, the reflectance is the isotropic weight. -/
theorem c179_zenith (phi iso vol geo : ℝ) : forward 0 0 phi iso vol geo = iso := by
  have h1 : rossKernel (cos 0) (cos 0) (sin 0) (sin 0) (cos phi) = 0 := by
    simp [rossKernel, phaseAngle]
    ring
  have h2 : liKernel (sin 0 / cos 0) (sin 0 / cos 0) (sin phi) (cos phi) = 0 := by
    simp only [liKernel, phaseAngle, overlap, primeAngles, distance, sin_zero, zero_div, mul_zero, arctan_zero, cos_zero]
    have hp := pi_pos.ne'
    norm_num
    have : π⁻¹ * (π / 2) * 2 = 1 := by field_simp
    rw [this]
    norm_num
  unfold forward
  rw [h1, h2]
  ring

/-- C179: in a view from the zenith, the azimuth does not matter. -/
theorem forward_nadir (ti phi psi iso vol geo : ℝ) : forward ti 0 phi iso vol geo = forward ti 0 psi iso vol geo := by
  unfold forward
  have h1 : rossKernel (cos 0) (cos ti) (sin 0) (sin ti) (cos phi) = rossKernel (cos 0) (cos ti) (sin 0) (sin ti) (cos psi) := by
    simp [rossKernel, phaseAngle]
  have h2 : liKernel (sin 0 / cos 0) (sin ti / cos ti) (sin phi) (cos phi) = liKernel (sin 0 / cos 0) (sin ti / cos ti) (sin psi) (cos psi) := by
    simp [liKernel, phaseAngle, overlap, primeAngles, distance]
  rw [h1, h2]

/-! ## Positive reflectance -/

theorem ross_numerator {x : ℝ} (h : -1 ≤ x) (h' : x ≤ 1) : 1 ≤ (π / 2 - arccos (max (-1) (min 1 x))) * x + sin (arccos (max (-1) (min 1 x))) := by
  rw [min_eq_right h', max_eq_right h]
  have e1 : π / 2 - arccos x = arcsin x := by rw [arccos_eq_pi_div_two_sub_arcsin]; ring
  have e2 : sin (arccos x) = cos (arcsin x) := by rw [sin_arccos, cos_arcsin]
  have e3 : x = sin (arcsin x) := (sin_arcsin h h').symm
  rw [e1, e2]
  nth_rewrite 2 [e3]
  have hu := neg_pi_div_two_le_arcsin x
  have hu' := arcsin_le_pi_div_two x
  generalize arcsin x = u at *
  have hc := one_sub_sq_div_two_le_cos (x := u)
  have key : u ^ 2 / 2 ≤ u * sin u := by
    have gen : ∀ v : ℝ, 0 ≤ v → v ≤ π / 2 → v ^ 2 / 2 ≤ v * sin v := by
      intro v h0 h1
      have := mul_le_sin h0 h1
      have hpi := pi_le_four
      have h2 : 1 / 2 ≤ 2 / π := by rw [div_le_div_iff₀ (by norm_num) pi_pos]; linarith
      nlinarith [mul_le_mul_of_nonneg_right h2 h0]
    rcases le_total 0 u with h0 | h0
    · exact gen u h0 hu'
    · have := gen (-u) (by linarith) (by linarith)
      rw [sin_neg] at this
      nlinarith
  linarith

theorem phase_range (a b p : ℝ) (ha : 0 ≤ sin a) (hb : 0 ≤ sin b) :
    -1 ≤ cos a * cos b + sin a * sin b * cos p ∧ cos a * cos b + sin a * sin b * cos p ≤ 1 := by
  have h1 := cos_le_one (a - b)
  have h2 := neg_one_le_cos (a + b)
  rw [cos_sub] at h1
  rw [cos_add] at h2
  have hs := mul_nonneg ha hb
  have h3 : sin a * sin b * cos p ≤ sin a * sin b := mul_le_of_le_one_right hs (cos_le_one p)
  have h4 := mul_le_mul_of_nonneg_left (neg_one_le_cos p) hs
  constructor <;> linarith

/-- Lower bound of the reflectance. -/
theorem forward_ge (ti tv phi iso vol geo : ℝ) (hi : 0 ≤ ti) (hi' : ti < π / 2) (hv : 0 ≤ tv) (hv' : tv < π / 2) (h1 : 0 ≤ vol) (h2 : 0 ≤ geo) :
    iso + vol * (1 / 2 - π / 4) - geo * (1 / cos tv + 1 / cos ti) ≤ forward ti tv phi iso vol geo := by
  have hp := pi_pos
  have ci := cos_pos_of (t := ti) (by linarith) hi'
  have cv := cos_pos_of (t := tv) (by linarith) hv'
  have si : 0 ≤ sin ti := sin_nonneg_of_nonneg_of_le_pi hi (by linarith)
  have sv : 0 ≤ sin tv := sin_nonneg_of_nonneg_of_le_pi hv (by linarith)
  have pr := phase_range tv ti phi sv si
  have ross : 1 / 2 - π / 4 ≤ rossKernel (cos tv) (cos ti) (sin tv) (sin ti) (cos phi) := by
    simp only [rossKernel, phaseAngle]
    have n := ross_numerator pr.1 pr.2
    have l1 := cos_le_one ti
    have l2 := cos_le_one tv
    have : 1 / 2 ≤ ((π / 2 - arccos (max (-1) (min 1 (cos tv * cos ti + sin tv * sin ti * cos phi)))) * (cos tv * cos ti + sin tv * sin ti * cos phi) +
        sin (arccos (max (-1) (min 1 (cos tv * cos ti + sin tv * sin ti * cos phi))))) / (cos ti + cos tv) :=
      div_le_div₀ (by linarith) n (by linarith) (by linarith)
    linarith
  have li : -(1 / cos tv + 1 / cos ti) ≤ liKernel (sin tv / cos tv) (sin ti / cos ti) (sin phi) (cos phi) := by
    simp only [liKernel, phaseAngle, overlap, primeAngles, arctan_ratio (t := tv) (by linarith) hv', arctan_ratio (t := ti) (by linarith) hi']
    have m := le_max_left (0 : ℝ) (1 / π * (arccos (max (-1) (min 1 (2 * √(distance (1 * (sin tv / cos tv)) (1 * (sin ti / cos ti)) (cos phi) * distance (1 * (sin tv / cos tv)) (1 * (sin ti / cos ti)) (cos phi) +
      1 * (sin tv / cos tv) * (1 * (sin tv / cos tv)) * (1 * (sin ti / cos ti)) * (1 * (sin ti / cos ti)) * sin phi * sin phi) / (1 / cos tv + 1 / cos ti)))) -
      sin (arccos (max (-1) (min 1 (2 * √(distance (1 * (sin tv / cos tv)) (1 * (sin ti / cos ti)) (cos phi) * distance (1 * (sin tv / cos tv)) (1 * (sin ti / cos ti)) (cos phi) +
      1 * (sin tv / cos tv) * (1 * (sin tv / cos tv)) * (1 * (sin ti / cos ti)) * (1 * (sin ti / cos ti)) * sin phi * sin phi) / (1 / cos tv + 1 / cos ti))))) *
      max (-1) (min 1 (2 * √(distance (1 * (sin tv / cos tv)) (1 * (sin ti / cos ti)) (cos phi) * distance (1 * (sin tv / cos tv)) (1 * (sin ti / cos ti)) (cos phi) +
      1 * (sin tv / cos tv) * (1 * (sin tv / cos tv)) * (1 * (sin ti / cos ti)) * (1 * (sin ti / cos ti)) * sin phi * sin phi) / (1 / cos tv + 1 / cos ti)))) * (1 / cos tv + 1 / cos ti))
    have q : 0 ≤ 0.5 * (1 + (cos tv * cos ti + sin tv * sin ti * cos phi)) / cos tv / cos ti := by
      apply div_nonneg (div_nonneg _ cv.le) ci.le
      have := pr.1
      linarith
    linarith
  unfold forward
  nlinarith [mul_le_mul_of_nonneg_left ross h1, mul_le_mul_of_nonneg_left li h2]

theorem positive (w : Weights) (hw : w ∈ weights) (ti tv phi : ℝ) (hi : 0 ≤ ti) (hi' : 1 / 4 ≤ cos ti) (hip : ti ≤ π) (hv : 0 ≤ tv) (hv' : 1 / 2 ≤ cos tv)
    (hvp : tv ≤ π) : 0 < forward ti tv phi w.iso w.vol w.geo := by
  have lt : ∀ t : ℝ, 0 ≤ t → t ≤ π → 0 < cos t → t < π / 2 := by
    intro t h0 h1 hc
    by_contra hn
    have := cos_nonpos_of_pi_div_two_le_of_le (not_lt.mp hn) (by linarith [pi_pos])
    linarith
  have b1 : 1 / cos ti ≤ 4 := by rw [div_le_iff₀ (by linarith)]; linarith
  have b2 : 1 / cos tv ≤ 2 := by rw [div_le_iff₀ (by linarith)]; linarith
  have hpi := pi_lt_d4
  have g : 0 ≤ w.vol ∧ 0 ≤ w.geo ∧ 0 < w.iso + w.vol * (1 / 2 - 3.1416 / 4) - w.geo * 6 := by
    simp only [weights, List.mem_cons, List.not_mem_nil, or_false] at hw
    rcases hw with rfl | rfl | rfl | rfl | rfl | rfl | rfl | rfl | rfl | rfl <;> norm_num
  have f := forward_ge ti tv phi w.iso w.vol w.geo hi (lt ti hi hip (by linarith)) hv (lt tv hv hvp (by linarith)) g.1 g.2.1
  have h1 := mul_le_mul_of_nonneg_left (show 1 / 2 - 3.1416 / 4 ≤ 1 / 2 - π / 4 by linarith) g.1
  have h2 := mul_le_mul_of_nonneg_left (show 1 / cos tv + 1 / cos ti ≤ 6 by linarith) g.2.1
  linarith [g.2.2]

end Verif.Radtran
