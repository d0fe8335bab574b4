import Verif.L1.Model
import Verif.L1.Spec
import Mathlib.Tactic.FieldSimp
import Mathlib.Tactic.Positivity
import Mathlib.Tactic.Linarith

/-!
# C118: Landsat reflectance and temperature
-/

namespace Verif.L1

open Verif.L1.Spec
open Verif.Str (Out)

theorem shortR_ok {x : ℝ} (h0 : 0 ≤ x) (h : x < 32768) : shortR x = .ok ⌊x⌋ := by
  have e : truncR x = ⌊x⌋ := if_pos h0
  unfold shortR
  rw [e, if_pos]
  have a : 0 ≤ ⌊x⌋ := Int.floor_nonneg.2 h0
  have b : ⌊x⌋ < 32768 := Int.floor_lt.2 (by exact_mod_cast h)
  omega

theorem shortR_ub {x : ℝ} (h : 32768 ≤ x) : shortR x = .ub := by
  have e : truncR x = ⌊x⌋ := if_pos (by linarith)
  unfold shortR
  rw [e, if_neg]
  have b : 32768 ≤ ⌊x⌋ := Int.le_floor.2 (by exact_mod_cast h)
  omega

theorem fltMin_pos : 0 < fltMin := by unfold fltMin; positivity

/-- C118: the reflectance in the product, in the bands that are not temperature: `ρ` is `(add + mul * DN) / cos(zenith)` where these factors are known, and
`π d² L / (E0 cos(zenith))` for the radiance `L` that is linear between `lmin` at `qmin` and `lmax` at `qmax` otherwise. Where `ρ` is positive (to be
precise: not smaller than the smallest normal `float`) and less than 3.2768, the product has the integer part of `10000 ρ`, and the pixel is not masked. -/
theorem c118_reflectance (k : Cal) (kind : Kind) (hk : kind ≠ .temp) (d c dn ρ : ℝ)
    (hρ : (∃ mul add, k.rfl = some (mul, add) ∧ ρ = (add + mul * dn) / c) ∨
      (k.rfl = none ∧ ∃ L, (L - k.lmin) * (k.qmax - k.qmin) = (k.lmax - k.lmin) * (dn - k.qmin) ∧ ρ = Real.pi * d ^ 2 * L / (k.E0 * c)))
    (hq : k.qmin < k.qmax) (h0 : 1 / 2 ^ 126 ≤ ρ) (h1 : ρ < 3.2768) : band k kind d c dn false = (.ok ⌊10000 * ρ⌋, false) := by
  have e : k.reflectance d c dn = ρ := by
    unfold Cal.reflectance
    rcases hρ with ⟨mul, add, h, rfl⟩ | ⟨h, L, hL, rfl⟩
    · rw [h]
    · rw [h]
      have : k.radiance dn = L := by
        have hne : k.qmax - k.qmin ≠ 0 := by linarith
        unfold Cal.radiance
        have : (k.lmax - k.lmin) / (k.qmax - k.qmin) * (dn - k.qmin) = (k.lmax - k.lmin) * (dn - k.qmin) / (k.qmax - k.qmin) := by ring
        rw [this, ← hL, mul_div_assoc, div_self hne]
        ring
      show k.radiance dn * (Real.pi * d * d) / (k.E0 * c) = _
      rw [this]
      ring
  have hp := fltMin_pos
  have hs : shortR (ρ * 10000) = .ok ⌊10000 * ρ⌋ := by
    rw [shortR_ok (by linarith [show fltMin ≤ ρ from h0]) (by linarith), mul_comm]
  have hn : ¬ ρ < fltMin := not_lt.2 h0
  cases kind with
  | temp => exact absurd rfl hk
  | cirrus =>
    show (if k.reflectance d c dn < fltMin then _ else _) = _
    rw [e, if_neg hn, hs]
  | other =>
    show (if k.reflectance d c dn < fltMin then _ else _) = _
    rw [e, if_neg hn, hs]

/-- C118: where the reflectance is zero or negative, the cirrus band has 0; any other band has the nodata value, and the pixel is masked. -/
theorem c118_negative (k : Cal) (d c dn mul add : ℝ) (h : k.rfl = some (mul, add)) (hn : (add + mul * dn) / c ≤ 0) :
    band k .cirrus d c dn false = (.ok 0, false) ∧ band k .other d c dn false = (.ok (-9999), true) := by
  have e : k.reflectance d c dn = (add + mul * dn) / c := by unfold Cal.reflectance; rw [h]
  have hp : k.reflectance d c dn < fltMin := by rw [e]; linarith [fltMin_pos]
  constructor
  · show (if k.reflectance d c dn < fltMin then _ else _) = _
    rw [if_pos hp]
  · show (if k.reflectance d c dn < fltMin then _ else _) = _
    rw [if_pos hp]

/-- C118: a larger digital number does not give a smaller reflectance, for the same position of the sun above the horizon. -/
theorem c118_monotone (k : Cal) (kind : Kind) (hk : kind ≠ .temp) (d c dn dn' : ℝ) (hc : 0 < c) (hd : dn ≤ dn')
    (hr : ∀ mul add, k.rfl = some (mul, add) → 0 ≤ mul) (hq : k.qmin < k.qmax) (hl : k.lmin ≤ k.lmax) (hE : 0 < k.E0) (v v' : ℤ)
    (h0 : (band k kind d c dn false).1 = .ok v) (h1 : (band k kind d c dn' false).1 = .ok v') : v ≤ v' := by
  have hm : k.reflectance d c dn ≤ k.reflectance d c dn' := by
    unfold Cal.reflectance
    cases hrf : k.rfl with
    | none =>
      have : k.radiance dn ≤ k.radiance dn' := by
        unfold Cal.radiance
        have : 0 ≤ (k.lmax - k.lmin) / (k.qmax - k.qmin) := div_nonneg (by linarith) (by linarith)
        nlinarith
      have hpi : 0 ≤ Real.pi * d * d := by
        have := mul_nonneg Real.pi_pos.le (mul_self_nonneg d)
        rwa [← mul_assoc] at this
      exact div_le_div_of_nonneg_right (mul_le_mul_of_nonneg_right this hpi) (mul_pos hE hc).le
    | some p =>
      obtain ⟨mul, add⟩ := p
      have := hr mul add hrf
      exact div_le_div_of_nonneg_right (by nlinarith) hc.le
  have hp := fltMin_pos
  have val : ∀ x w, fltMin ≤ x → shortR (x * 10000) = .ok w → w = ⌊x * 10000⌋ := by
    intro x w hx hw
    have hx0 : 0 ≤ x * 10000 := by linarith
    rcases lt_or_ge (x * 10000) 32768 with h | h
    · rw [shortR_ok hx0 h] at hw
      cases hw
      rfl
    · rw [shortR_ub h] at hw
      cases hw
  have pos : ∀ x w, fltMin ≤ x → shortR (x * 10000) = .ok w → 0 ≤ w := by
    intro x w hx hw
    rw [val x w hx hw]
    exact Int.floor_nonneg.2 (by linarith)
  have both : ∀ x y w w', fltMin ≤ x → x ≤ y → shortR (x * 10000) = .ok w → shortR (y * 10000) = .ok w' → w ≤ w' := by
    intro x y w w' hx hxy a b
    rw [val x w hx a, val y w' (by linarith) b]
    exact Int.floor_le_floor (by linarith)
  have fin : ∀ (x y : ℝ) (z : ℤ), z ≤ 0 → x ≤ y → ∀ w w', (if x < fltMin then Out.ok z else shortR (x * 10000)) = .ok w →
      (if y < fltMin then Out.ok z else shortR (y * 10000)) = .ok w' → w ≤ w' := by
    intro x y z hz hxy w w' a b
    by_cases hx : x < fltMin
    · rw [if_pos hx] at a
      cases a
      by_cases hy : y < fltMin
      · rw [if_pos hy] at b
        cases b
        exact le_refl _
      · rw [if_neg hy] at b
        have := pos y w' (not_lt.1 hy) b
        omega
    · rw [if_neg hx] at a
      rw [if_neg (by linarith [not_lt.1 hx])] at b
      exact both x y w w' (not_lt.1 hx) hxy a b
  cases kind with
  | temp => exact absurd rfl hk
  | cirrus =>
    refine fin _ _ 0 (by norm_num) hm v v' ?_ ?_
    · rw [← h0]
      show _ = (if k.reflectance d c dn < fltMin then (Out.ok (0 : ℤ), false) else (shortR (k.reflectance d c dn * 10000), false)).1
      split <;> rfl
    · rw [← h1]
      show _ = (if k.reflectance d c dn' < fltMin then (Out.ok (0 : ℤ), false) else (shortR (k.reflectance d c dn' * 10000), false)).1
      split <;> rfl
  | other =>
    refine fin _ _ (-9999) (by norm_num) hm v v' ?_ ?_
    · rw [← h0]
      show _ = (if k.reflectance d c dn < fltMin then (Out.ok (-9999 : ℤ), true) else (shortR (k.reflectance d c dn * 10000), false)).1
      split <;> rfl
    · rw [← h1]
      show _ = (if k.reflectance d c dn' < fltMin then (Out.ok (-9999 : ℤ), true) else (shortR (k.reflectance d c dn' * 10000), false)).1
      split <;> rfl

/-- C118, violated: the reflectance is not limited. From 3.2768 on (for instance bright clouds when the sun is low) the conversion to 16 bits is undefined. -/
theorem c118_overflow_violated (k : Cal) (kind : Kind) (hk : kind ≠ .temp) (d c dn mul add : ℝ) (h : k.rfl = some (mul, add))
    (hn : 3.2768 ≤ (add + mul * dn) / c) : (band k kind d c dn false).1 = .ub := by
  have e : k.reflectance d c dn = (add + mul * dn) / c := by unfold Cal.reflectance; rw [h]
  have hf : fltMin ≤ 1 := by unfold fltMin; norm_num
  have hp : ¬ k.reflectance d c dn < fltMin := by rw [e]; linarith
  have hs : shortR (k.reflectance d c dn * 10000) = .ub := shortR_ub (by rw [e]; linarith)
  cases kind with
  | temp => exact absurd rfl hk
  | cirrus =>
    show (if k.reflectance d c dn < fltMin then _ else _ : Out ℤ × Bool).1 = _
    rw [if_neg hp]
    exact hs
  | other =>
    show (if k.reflectance d c dn < fltMin then _ else _ : Out ℤ × Bool).1 = _
    rw [if_neg hp]
    exact hs

/-! ## Temperature -/

theorem log_pos' {k1 rad : ℝ} (h1 : 0 < k1) (hr : 0 < rad) : 0 < Real.log (k1 / rad + 1) := by
  apply Real.log_pos
  have := div_pos h1 hr
  linarith

/-- C118: where the radiance is positive, the temperature `T` is the one of the body that emits this radiance (Planck's law with the constants of the sensor), and the only
one. The product has the integer part of `100 T`, or 32767 if this is more (327.67 K). -/
theorem c118_temperature (k : Cal) (d c dn L : ℝ) (hL : (L - k.lmin) * (k.qmax - k.qmin) = (k.lmax - k.lmin) * (dn - k.qmin)) (hq : k.qmin < k.qmax)
    (hpos : 0 < L) (h1 : 0 < k.k1) (h2 : 0 < k.k2) :
    ∃ T, 0 < T ∧ planck k.k1 k.k2 T = L ∧ (∀ T', 0 < T' → planck k.k1 k.k2 T' = L → T' = T) ∧
      band k .temp d c dn false = (.ok (min ⌊100 * T⌋ 32767), false) := by
  have hrad : k.radiance dn = L := by
    have hne : k.qmax - k.qmin ≠ 0 := by linarith
    unfold Cal.radiance
    have : (k.lmax - k.lmin) / (k.qmax - k.qmin) * (dn - k.qmin) = (k.lmax - k.lmin) * (dn - k.qmin) / (k.qmax - k.qmin) := by ring
    rw [this, ← hL, mul_div_assoc, div_self hne]
    ring
  have hlog := log_pos' h1 hpos
  have hT : 0 < k.k2 / Real.log (k.k1 / L + 1) := div_pos h2 hlog
  refine ⟨k.k2 / Real.log (k.k1 / L + 1), hT, ?_, ?_, ?_⟩
  · unfold planck
    have hd := div_pos h1 hpos
    rw [div_div_cancel₀ h2.ne', Real.exp_log (by linarith), add_sub_cancel_right, div_div_cancel₀ h1.ne']
  · intro T' hT' h
    unfold planck at h
    have he : 0 < Real.exp (k.k2 / T') - 1 := by
      have := Real.add_one_lt_exp (div_pos h2 hT').ne'
      have := div_pos h2 hT'
      linarith
    have : k.k1 / L + 1 = Real.exp (k.k2 / T') := by
      rw [← h, div_div_cancel₀ h1.ne']
      ring
    rw [this, Real.log_exp, div_div_cancel₀ h2.ne']
  · have e : k.kelvin dn = k.k2 / Real.log (k.k1 / L + 1) := by unfold Cal.kelvin; rw [hrad]
    show (temperature k dn, false) = _
    unfold temperature
    simp only [e]
    generalize k.k2 / Real.log (k.k1 / L + 1) = T at hT
    by_cases h : T * 100 < 32767
    · rw [if_pos h, shortR_ok (by linarith) (by linarith), mul_comm, min_eq_left]
      rw [mul_comm] at h
      have := Int.floor_lt.2 (show 100 * T < ((32767 : ℤ) : ℝ) by exact_mod_cast h)
      omega
    · rw [if_neg h, min_eq_right]
      apply Int.le_floor.2
      push_cast
      linarith [not_lt.1 h]

/-- C118: a larger digital number does not give a lower temperature. -/
theorem c118_warmer (k : Cal) (d c dn dn' : ℝ) (hd : dn ≤ dn') (hq : k.qmin < k.qmax) (hl : k.lmin ≤ k.lmax) (h0 : k.qmin ≤ dn) (hpos : 0 < k.lmin)
    (h1 : 0 < k.k1) (h2 : 0 < k.k2) :
    ∃ v v', (band k .temp d c dn false).1 = .ok v ∧ (band k .temp d c dn' false).1 = .ok v' ∧ 0 ≤ v ∧ v ≤ v' ∧ v' ≤ 32767 := by
  have hA : 0 ≤ (k.lmax - k.lmin) / (k.qmax - k.qmin) := div_nonneg (by linarith) (by linarith)
  have rad : ∀ x, k.qmin ≤ x → (0 < k.radiance x ∧ (k.radiance x - k.lmin) * (k.qmax - k.qmin) = (k.lmax - k.lmin) * (x - k.qmin)) := by
    intro x hx
    have hne : k.qmax - k.qmin ≠ 0 := by linarith
    unfold Cal.radiance
    refine ⟨by have := mul_nonneg hA (show 0 ≤ x - k.qmin by linarith); linarith, ?_⟩
    field_simp
    ring
  have hle : k.radiance dn ≤ k.radiance dn' := by
    unfold Cal.radiance
    nlinarith
  obtain ⟨T, t1, t2, _, t4⟩ := c118_temperature k d c dn _ (rad dn h0).2 hq (rad dn h0).1 h1 h2
  obtain ⟨T', s1, s2, _, s4⟩ := c118_temperature k d c dn' _ (rad dn' (by linarith)).2 hq (rad dn' (by linarith)).1 h1 h2
  refine ⟨_, _, by rw [t4], by rw [s4], ?_, ?_, min_le_right _ _⟩
  · exact le_min (Int.floor_nonneg.2 (by linarith)) (by norm_num)
  · have hT : T ≤ T' := by
      by_contra hc
      rw [not_le] at hc
      rw [← t2, ← s2] at hle
      unfold planck at hle
      have e1 : Real.exp (k.k2 / T) < Real.exp (k.k2 / T') := Real.exp_lt_exp.2 (div_lt_div_of_pos_left h2 s1 hc)
      have e2 : 1 < Real.exp (k.k2 / T) := Real.one_lt_exp_iff.2 (div_pos h2 t1)
      have := div_lt_div_of_pos_left h1 (show 0 < Real.exp (k.k2 / T) - 1 by linarith) (show Real.exp (k.k2 / T) - 1 < Real.exp (k.k2 / T') - 1 by linarith)
      linarith
    exact min_le_min (Int.floor_le_floor (by linarith)) (le_refl _)

/-! ## Masked pixels -/

theorem landsat_off (d c : ℝ) (bs : List (Cal × Kind × ℝ)) : landsat d c bs true = (bs.map fun _ => .ok (-9999), true) := by
  induction bs with
  | nil => rfl
  | cons b bs ih =>
    obtain ⟨k, kind, dn⟩ := b
    show ((.ok (-9999) : Out ℤ) :: (landsat d c bs true).1, (landsat d c bs true).2) = _
    rw [ih]
    rfl

/-- C118, partial: pixels that are masked before have the nodata value in all bands, and stay masked; each band of a pixel that is not masked in the end has its own value, as
computed for a pixel that is not masked. Missing: pixels that are masked on the way. -/
theorem c118_masked_partial (d c : ℝ) (bs : List (Cal × Kind × ℝ)) :
    landsat d c bs true = (bs.map fun _ => .ok (-9999), true) ∧
    ((landsat d c bs false).2 = false → (landsat d c bs false).1 = bs.map fun b => (band b.1 b.2.1 d c b.2.2 false).1) := by
  refine ⟨landsat_off d c bs, ?_⟩
  induction bs with
  | nil => intro _; rfl
  | cons b bs ih =>
    obtain ⟨k, kind, dn⟩ := b
    intro h
    replace h : (landsat d c bs (band k kind d c dn false).2).2 = false := h
    show (band k kind d c dn false).1 :: (landsat d c bs (band k kind d c dn false).2).1 = _
    cases hb : (band k kind d c dn false).2 with
    | true => rw [hb, landsat_off] at h; cases h
    | false =>
      rw [hb] at h
      rw [ih h]
      rfl

/-- C118, violated: the bands are converted one after the other. A pixel that is masked since its reflectance is zero or negative in a band has nodata in this and in the following
bands only; in the bands before, it keeps its values. -/
theorem c118_masked_violated (d c : ℝ) (pre post : List (Cal × Kind × ℝ)) (k : Cal) (dn mul add : ℝ) (h : k.rfl = some (mul, add))
    (hn : (add + mul * dn) / c ≤ 0) (hpre : ∀ b ∈ pre, (band b.1 b.2.1 d c b.2.2 false).2 = false) :
    landsat d c (pre ++ (k, .other, dn) :: post) false =
      ((pre.map fun b => (band b.1 b.2.1 d c b.2.2 false).1) ++ .ok (-9999) :: post.map fun _ => .ok (-9999), true) := by
  induction pre with
  | nil =>
    show ((band k .other d c dn false).1 :: (landsat d c post (band k .other d c dn false).2).1, (landsat d c post (band k .other d c dn false).2).2) = _
    rw [(c118_negative k d c dn mul add h hn).2, landsat_off]
    rfl
  | cons b pre ih =>
    obtain ⟨k', kind, dn'⟩ := b
    have hb := hpre _ (List.mem_cons_self ..)
    replace hb : (band k' kind d c dn' false).2 = false := hb
    show ((band k' kind d c dn' false).1 :: (landsat d c (pre ++ (k, .other, dn) :: post) (band k' kind d c dn' false).2).1,
      (landsat d c (pre ++ (k, .other, dn) :: post) (band k' kind d c dn' false).2).2) = _
    rw [hb, ih (fun b hb => hpre b (by simp [hb]))]
    rfl

end Verif.L1
