import Verif.Radtran.Model
import Mathlib.Algebra.Order.BigOperators.Group.List
import Mathlib.Analysis.Complex.ExponentialBounds
import Mathlib.Tactic.Linarith
import Mathlib.Tactic.Positivity
import Mathlib.Tactic.FieldSimp

/-!
# Transmittances
-/

namespace Verif.Radtran

open Real

theorem exp_div_le {x y m n : ℝ} (h0 : 0 ≤ x) (hxy : x ≤ y) (hm : 0 < n) (hnm : n ≤ m) : exp (-y / n) ≤ exp (-x / m) := by
  apply exp_le_exp.mpr
  rw [neg_div, neg_div]
  have : x / m ≤ y / n := div_le_div₀ (by linarith) hxy hm hnm
  linarith

/-- C175: for every optical depth of aerosols and molecules and every zenith angle, the direct light is attenuated by the law of Beer and Lambert, all light
is split into a direct and a diffuse part, no part is negative, and the atmosphere transmits at most all light. Without an atmosphere it transmits all. -/
theorem c175_parts (aod mod ms mv : ℝ) (ha : 0 ≤ aod) (hm : 0 ≤ mod) (hs : 0 < ms) (hv : 0 < mv) :
    let t := scatter aod mod (opticalDepth aod mod) ms mv
    (t.tsd = exp (-(aod + mod) / ms) ∧ 0 < t.tsd ∧ 0 ≤ t.tss ∧ t.tsd + t.tss = t.Ts ∧ t.Ts ≤ 1) ∧
    (t.tvd = exp (-(aod + mod) / mv) ∧ 0 < t.tvd ∧ 0 ≤ t.tvs ∧ t.tvd + t.tvs = t.Tv ∧ t.Tv ≤ 1) ∧
    t.T = t.Ts * t.Tv ∧ 0 < t.T ∧ t.T ≤ 1 ∧ (aod = 0 → mod = 0 → t.T = 1 ∧ t.tss = 0 ∧ t.tvs = 0) := by
  have key : ∀ m : ℝ, 0 < m → exp (-(aod + mod) / m) ≤ exp (-(0.52 * mod + 0.167 * aod) / m) ∧ exp (-(0.52 * mod + 0.167 * aod) / m) ≤ 1 := by
    intro m hm'
    refine ⟨exp_div_le (by nlinarith) (by nlinarith) hm' le_rfl, ?_⟩
    rw [exp_le_one_iff]
    apply div_nonpos_of_nonpos_of_nonneg _ hm'.le
    nlinarith
  have e1 : ∀ m : ℝ, -1.0 * (0.52 * mod + 0.167 * aod) / m = -(0.52 * mod + 0.167 * aod) / m := by intro m; norm_num
  have e2 : ∀ m : ℝ, -1.0 * opticalDepth aod mod / m = -(aod + mod) / m := by intro m; unfold opticalDepth; norm_num
  have ks := key ms hs
  have kv := key mv hv
  simp only [scatter, e1, e2]
  refine ⟨⟨trivial, exp_pos _, by linarith, by ring, ks.2⟩, ⟨trivial, exp_pos _, by linarith, by ring, kv.2⟩, trivial, by positivity, ?_, ?_⟩
  · exact mul_le_one₀ ks.2 (exp_pos _).le kv.2
  · rintro rfl rfl
    norm_num

/-- C175: more aerosols, more molecules or a lower sun (or view) never increase the transmittance, neither the total nor the direct one. -/
theorem c175_monotone (aod aod' mod mod' ms ms' mv mv' : ℝ) (ha : 0 ≤ aod) (hm : 0 ≤ mod) (haa : aod ≤ aod') (hmm : mod ≤ mod') (hs : 0 < ms')
    (hss : ms' ≤ ms) (hv : 0 < mv') (hvv : mv' ≤ mv) :
    let t := scatter aod mod (opticalDepth aod mod) ms mv
    let t' := scatter aod' mod' (opticalDepth aod' mod') ms' mv'
    t'.T ≤ t.T ∧ t'.Ts ≤ t.Ts ∧ t'.Tv ≤ t.Tv ∧ t'.tsd ≤ t.tsd ∧ t'.tvd ≤ t.tvd := by
  have e1 : ∀ a b m : ℝ, -1.0 * (0.52 * a + 0.167 * b) / m = -(0.52 * a + 0.167 * b) / m := by intro a b m; norm_num
  have e2 : ∀ a b m : ℝ, -1.0 * opticalDepth a b / m = -(a + b) / m := by intro a b m; unfold opticalDepth; norm_num
  simp only [scatter, e1, e2]
  have k1 : exp (-(0.52 * mod' + 0.167 * aod') / ms') ≤ exp (-(0.52 * mod + 0.167 * aod) / ms) := exp_div_le (by nlinarith) (by nlinarith) hs hss
  have k2 : exp (-(0.52 * mod' + 0.167 * aod') / mv') ≤ exp (-(0.52 * mod + 0.167 * aod) / mv) := exp_div_le (by nlinarith) (by nlinarith) hv hvv
  refine ⟨mul_le_mul k1 k2 (exp_pos _).le (exp_pos _).le, k1, k2, exp_div_le (by nlinarith) (by nlinarith) hs hss, exp_div_le (by nlinarith) (by nlinarith) hv hvv⟩

/-- C175: the spherical albedo of every atmosphere is between 0 and 0.34; with a surface that reflects at most all light, the multiple reflections between
surface and atmosphere converge. -/
theorem c175_albedo (aod mod : ℝ) (ha : 0 ≤ aod) (hm : 0 ≤ mod) :
    0 ≤ sphereAlbedo aod mod (opticalDepth aod mod) ∧ sphereAlbedo aod mod (opticalDepth aod mod) ≤ 0.34 := by
  unfold sphereAlbedo opticalDepth
  have h1 : aod + mod ≤ exp (aod + mod - 1) := by have := add_one_le_exp (aod + mod - 1); linarith
  have h2 : exp (-1.0 * (aod + mod)) * exp (aod + mod - 1) = exp (-1) := by rw [← exp_add]; congr 1; norm_num; ring
  have h3 := exp_pos (-1.0 * (aod + mod))
  refine ⟨mul_nonneg h3.le (by nlinarith), ?_⟩
  have h4 : exp (-1.0 * (aod + mod)) * (0.92 * mod + 0.333 * aod) ≤ exp (-1.0 * (aod + mod)) * (0.92 * exp (aod + mod - 1)) := by
    apply mul_le_mul_of_nonneg_left _ h3.le
    nlinarith
  have h5 : exp (-1.0 * (aod + mod)) * (0.92 * exp (aod + mod - 1)) = 0.92 * exp (-1) := by rw [← h2]; ring
  have h6 := exp_neg_one_lt_d9
  rw [h5] at h4
  refine h4.trans ?_
  norm_num at h6 ⊢
  linarith

/-- C175: the optical depth at the elevation `z'`, computed from that at `z`, is the same as from any elevation in between or back, and that of the
molecules decreases with elevation (above the lowest elevation that is accepted). -/
theorem c175_elevation (od z z' z'' hp : ℝ) :
    elevScale (elevScale od (modFactor z) (modFactor z')) (modFactor z') (modFactor z'') = elevScale od (modFactor z) (modFactor z'') ∧
    elevScale (elevScale od (aodFactor z hp) (aodFactor z' hp)) (aodFactor z' hp) (aodFactor z'' hp) = elevScale od (aodFactor z hp) (aodFactor z'' hp) ∧
    elevScale od (modFactor z) (modFactor z) = od ∧ elevScale od (aodFactor z hp) (aodFactor z hp) = od ∧ modFactor 0 = 1 ∧ aodFactor 0 hp = 1 ∧
    (0 ≤ od → -0.5 ≤ z → z ≤ z' → elevScale od 1 (modFactor z') ≤ elevScale od 1 (modFactor z)) ∧
    (0 ≤ od → 0 < hp → z ≤ z' → elevScale od 1 (aodFactor z' hp) ≤ elevScale od 1 (aodFactor z hp)) := by
  have g : ∀ a b c : ℝ, 0 < a → 0 < b → elevScale (elevScale od a b) b c = elevScale od a c := by
    intro a b c ha hb; unfold elevScale; field_simp
  have g' : ∀ a : ℝ, 0 < a → elevScale od a a = od := by intro a ha; unfold elevScale; field_simp
  refine ⟨g _ _ _ (exp_pos _) (exp_pos _), g _ _ _ (exp_pos _) (exp_pos _), g' _ (exp_pos _), g' _ (exp_pos _), ?_, ?_, ?_, ?_⟩
  · unfold modFactor; simp
  · unfold aodFactor; simp
  · intro ho hz hzz
    unfold elevScale modFactor
    apply mul_le_mul_of_nonneg_left _ (by simpa using ho)
    apply exp_le_exp.mpr
    nlinarith
  · intro ho hh hzz
    unfold elevScale aodFactor
    apply mul_le_mul_of_nonneg_left _ (by simpa using ho)
    apply exp_le_exp.mpr
    apply div_le_div_of_nonneg_right _ hh.le
    linarith

/-! ## Gases -/

theorem bandMean_le (f g : ℝ → ℝ) (band : List (ℝ × ℝ)) (hr : ∀ p ∈ band, 0 ≤ p.2) (hs : 0 < (band.map fun p => p.2).sum)
    (h : ∀ p ∈ band, f p.1 ≤ g p.1) : bandMean f band ≤ bandMean g band := by
  unfold bandMean
  apply div_le_div_of_nonneg_right _ hs.le
  apply List.sum_le_sum
  intro p hp
  exact mul_le_mul_of_nonneg_left (h p hp) (hr p hp)

theorem bandMean_const (c : ℝ) (band : List (ℝ × ℝ)) (hs : 0 < (band.map fun p => p.2).sum) : bandMean (fun _ => c) band = c := by
  unfold bandMean
  rw [List.sum_map_mul_right]
  field_simp

theorem bandMean_pos (f : ℝ → ℝ) (band : List (ℝ × ℝ)) (hr : ∀ p ∈ band, 0 ≤ p.2) (hs : 0 < (band.map fun p => p.2).sum)
    (h : ∀ p ∈ band, 0 < f p.1) : 0 < bandMean f band := by
  unfold bandMean
  apply div_pos _ hs
  induction band with
  | nil => simp at hs
  | cons p t ih =>
    simp only [List.map_cons, List.sum_cons] at hs ⊢
    have hp := hr p (by simp)
    have hf := h p (by simp)
    have ht : 0 ≤ (t.map fun p => p.2 * f p.1).sum := by
      apply List.sum_nonneg
      simp only [List.mem_map]
      rintro x ⟨q, hq, rfl⟩
      exact mul_nonneg (hr q (by simp [hq])) (h q (by simp [hq])).le
    rcases hp.lt_or_eq with h0 | h0
    · have := mul_pos h0 hf; linarith
    · rw [← h0] at hs ⊢
      have := ih (fun q hq => hr q (by simp [hq])) (by linarith) (fun q hq => h q (by simp [hq]))
      linarith

/-- The exponent of the water vapour transmittance grows with the absorption. -/
theorem wvp_exponent {x y : ℝ} (hx : 0 ≤ x) (hxy : x ≤ y) :
    -1.2110662 * y / (1 + 24.1229127 * y) ^ (0.3669996 : ℝ) ≤ -1.2110662 * x / (1 + 24.1229127 * x) ^ (0.3669996 : ℝ) := by
  have f : ∀ u : ℝ, 0 ≤ u → u / (1 + 24.1229127 * u) ^ (0.3669996 : ℝ) = u / (1 + 24.1229127 * u) * (1 + 24.1229127 * u) ^ (0.6330004 : ℝ) := by
    intro u hu
    have hp : 0 < 1 + 24.1229127 * u := by nlinarith
    have : (1 + 24.1229127 * u) ^ (0.3669996 : ℝ) * (1 + 24.1229127 * u) ^ (0.6330004 : ℝ) = 1 + 24.1229127 * u := by
      rw [← rpow_add hp]; norm_num
    have h1 := rpow_pos_of_pos hp (0.3669996 : ℝ)
    rw [div_mul_eq_mul_div, div_eq_div_iff h1.ne' hp.ne', mul_assoc, mul_comm ((1 + 24.1229127 * u) ^ (0.6330004 : ℝ)), this]
  have hy : 0 ≤ y := hx.trans hxy
  have hpx : 0 < 1 + 24.1229127 * x := by nlinarith
  have hpy : 0 < 1 + 24.1229127 * y := by nlinarith
  have k : x / (1 + 24.1229127 * x) ^ (0.3669996 : ℝ) ≤ y / (1 + 24.1229127 * y) ^ (0.3669996 : ℝ) := by
    rw [f x hx, f y hy]
    apply mul_le_mul
    · rw [div_le_div_iff₀ hpx hpy]; nlinarith
    · exact rpow_le_rpow hpx.le (by nlinarith) (by norm_num)
    · exact (rpow_pos_of_pos hpx _).le
    · positivity
  rw [mul_div_assoc, mul_div_assoc]
  nlinarith

/-- C175: for every band (any non-negative response that is not zero everywhere, any absorption), the transmittance of water vapour and ozone is positive
and at most 1, exactly 1 without gas, and does not increase with the amount of gas or with a lower sun (or view). -/
theorem c175_gas (w w' m m' : ℝ) (band : List (ℝ × ℝ)) (hr : ∀ p ∈ band, 0 ≤ p.1 ∧ 0 ≤ p.2) (hs : 0 < (band.map fun p => p.2).sum) (hw : 0 ≤ w)
    (hww : w ≤ w') (hm : 0 < m') (hmm : m' ≤ m) :
    0 < wvpTransmitt w m band ∧ wvpTransmitt w m band ≤ 1 ∧ wvpTransmitt w' m' band ≤ wvpTransmitt w m band ∧ wvpTransmitt 0 m band = 1 ∧
    0 < ozoneTransmitt w m band ∧ ozoneTransmitt w m band ≤ 1 ∧ ozoneTransmitt w' m' band ≤ ozoneTransmitt w m band ∧ ozoneTransmitt 0 m band = 1 := by
  have hr2 : ∀ p ∈ band, 0 ≤ p.2 := fun p hp => (hr p hp).2
  have hm0 : 0 < m := hm.trans_le hmm
  have q : w / m ≤ w' / m' := div_le_div₀ (hw.trans hww) hww hm hmm
  have q0 : 0 ≤ w / m := by positivity
  have one : bandMean (fun _ => 1) band = 1 := bandMean_const 1 band hs
  have z1 : wvpTransmitt 0 m band = 1 := by unfold wvpTransmitt; simpa using one
  have z2 : ozoneTransmitt 0 m band = 1 := by unfold ozoneTransmitt; simpa using one
  have mono1 : ∀ a b n k, 0 ≤ a / n → a / n ≤ b / k → wvpTransmitt b k band ≤ wvpTransmitt a n band := by
    intro a b n k h0 hab
    apply bandMean_le _ _ band hr2 hs
    intro p hp
    apply exp_le_exp.mpr
    exact wvp_exponent (mul_nonneg (hr p hp).1 h0) (mul_le_mul_of_nonneg_left hab (hr p hp).1)
  have mono2 : ∀ a b n k, a / n ≤ b / k → ozoneTransmitt b k band ≤ ozoneTransmitt a n band := by
    intro a b n k hab
    apply bandMean_le _ _ band hr2 hs
    intro p hp
    apply exp_le_exp.mpr
    apply mul_le_mul_of_nonneg_left _ (hr p hp).1
    rw [neg_div, neg_div]; linarith
  refine ⟨bandMean_pos _ band hr2 hs fun _ _ => exp_pos _, ?_, mono1 _ _ _ _ q0 q, z1, bandMean_pos _ band hr2 hs fun _ _ => exp_pos _, ?_, mono2 _ _ _ _ q, z2⟩
  · rw [← z1]; exact mono1 _ _ _ _ (by simp) (by simpa using q0)
  · rw [← z2]; exact mono2 _ _ _ _ (by simpa using q0)

/-- C175: the transmittance of all gases, both ways, is positive and at most 1. -/
theorem c175_gases (w o ms mv : ℝ) (wvp ozone : List (ℝ × ℝ)) (hr : ∀ p ∈ wvp, 0 ≤ p.1 ∧ 0 ≤ p.2) (hs : 0 < (wvp.map fun p => p.2).sum)
    (hr' : ∀ p ∈ ozone, 0 ≤ p.1 ∧ 0 ≤ p.2) (hs' : 0 < (ozone.map fun p => p.2).sum) (hw : 0 ≤ w) (ho : 0 ≤ o) (hms : 0 < ms) (hmv : 0 < mv) :
    let tg := gasTransmitt (wvpTransmitt w ms wvp) (wvpTransmitt w mv wvp) (ozoneTransmitt o ms ozone) (ozoneTransmitt o mv ozone)
    0 < tg ∧ tg ≤ 1 := by
  obtain ⟨a1, a2, -⟩ := c175_gas w w ms ms wvp hr hs hw le_rfl hms le_rfl
  obtain ⟨b1, b2, -⟩ := c175_gas w w mv mv wvp hr hs hw le_rfl hmv le_rfl
  obtain ⟨-, -, -, -, c1, c2, -⟩ := c175_gas o o ms ms ozone hr' hs' ho le_rfl hms le_rfl
  obtain ⟨-, -, -, -, d1, d2, -⟩ := c175_gas o o mv mv ozone hr' hs' ho le_rfl hmv le_rfl
  simp only [gasTransmitt]
  refine ⟨by positivity, ?_⟩
  exact mul_le_one₀ (mul_le_one₀ (mul_le_one₀ a2 b1.le b2) c1.le c2) d1.le d2

end Verif.Radtran
