import Mathlib.Analysis.SpecialFunctions.ExpDeriv
import Verif.Index.Lemmas

/-! # C75: kNDVI -/

namespace Verif.Index

open Verif.Float Verif.Str Spec

/-- The exponential function is a contraction on the non-positive numbers. -/
theorem exp_contract {a b : ℝ} (ha : a ≤ 0) (hb : b ≤ 0) : |Real.exp a - Real.exp b| ≤ |a - b| := by
  wlog h : a ≤ b generalizing a b
  · rw [abs_sub_comm, abs_sub_comm a]
    exact this hb ha (le_of_not_ge h)
  have h1 : Real.exp a ≤ Real.exp b := Real.exp_le_exp.2 h
  rw [abs_sub_comm, abs_of_nonneg (by linarith), abs_sub_comm, abs_of_nonneg (by linarith)]
  have h2 : Real.exp b * (a - b + 1) ≤ Real.exp a := by
    have := Real.add_one_le_exp (a - b)
    have h3 : Real.exp a = Real.exp b * Real.exp (a - b) := by
      rw [← Real.exp_add]; congr 1; ring
    rw [h3]
    exact mul_le_mul_of_nonneg_left this (Real.exp_pos b).le
  have h4 : Real.exp b ≤ 1 := Real.exp_le_one_iff.2 hb
  have h5 := Real.exp_pos b
  nlinarith

theorem quot_contract {t T : ℝ} (hT : 0 ≤ T) {u v e e' : ℝ} (hu : |u - (1 - T)| ≤ e) (hv : |v - (1 + T)| ≤ e')
    (he' : e' ≤ 1 / 100) (hT1 : T ≤ 1) : |u / v - (1 - T) / (1 + T)| ≤ (e + e') * (100 / 99) := by
  have hv' := abs_le.1 hv
  have hvp : 99 / 100 ≤ v := by linarith
  have hTp : 0 < 1 + T := by linarith
  have e2 : u / v - (1 - T) / (1 + T) = ((u - (1 - T)) - (1 - T) / (1 + T) * (v - (1 + T))) / v := by
    field_simp
    ring
  have hq0 : 0 ≤ (1 - T) / (1 + T) := div_nonneg (by linarith) hTp.le
  have hq1 : (1 - T) / (1 + T) ≤ 1 := by rw [div_le_one hTp]; linarith
  rw [e2, abs_div, abs_of_pos (show (0 : ℝ) < v by linarith), div_le_iff₀ (by linarith)]
  have h4 := abs_sub (u - (1 - T)) ((1 - T) / (1 + T) * (v - (1 + T)))
  have h5 : |(1 - T) / (1 + T) * (v - (1 + T))| ≤ e' := by
    rw [abs_mul, abs_of_nonneg hq0]
    calc (1 - T) / (1 + T) * |v - (1 + T)| ≤ 1 * |v - (1 + T)| :=
          mul_le_mul_of_nonneg_right hq1 (abs_nonneg _)
      _ ≤ e' := by linarith
  have he0 : 0 ≤ e := (abs_nonneg _).trans hu
  have he0' : 0 ≤ e' := (abs_nonneg _).trans hv
  nlinarith

section
variable {f : ℚ → ℚ} (hf : ∀ x, Nearest 24 x (f x))
include hf

theorem f_accR {x : ℚ} {y e B : ℝ} (h : |(x : ℝ) - y| ≤ e) (hB : |y| ≤ B) :
    |((f x : ℚ) : ℝ) - y| ≤ e + (B + e) / 16777216 := by
  have h1 : |((f x : ℚ) : ℝ) - x| ≤ |(x : ℝ)| / 16777216 := by exact_mod_cast f_err hf x
  have h2 : |(x : ℝ)| ≤ B + e := by
    have := abs_sub_abs_le_abs_sub (x : ℝ) y
    linarith
  have h3 : |((f x : ℚ) : ℝ) - y| ≤ |((f x : ℚ) : ℝ) - x| + |(x : ℝ) - y| := abs_sub_le _ _ _
  have h4 : |(x : ℝ)| / 16777216 ≤ (B + e) / 16777216 := by
    apply div_le_div_of_nonneg_right h2 (by norm_num)
  linarith

/-- The argument of the exponential function. -/
theorem arg_err {D S : ℚ} (hS : 0 < S) (hD : |D| ≤ S) :
    |f (-f (D * D) / f (S * (S / 2))) - -(D * D) / (S * (S / 2))| ≤ 1 / 1000000 ∧
      f (-f (D * D) / f (S * (S / 2))) ≤ 0 := by
  have hDD : 0 ≤ D * D := mul_self_nonneg D
  have hSS : 0 < S * (S / 2) := by positivity
  have hDS : D * D ≤ S * S := by
    have := abs_le.1 hD
    nlinarith
  have h1 := f_err hf (D * D)
  rw [abs_of_nonneg hDD] at h1
  have h2 := f_err hf (S * (S / 2))
  rw [abs_of_pos hSS] at h2
  have a1 := abs_le.1 h1
  have a2 := abs_le.1 h2
  have n1 := f_nonneg hf hDD
  generalize f (D * D) = A at *
  generalize f (S * (S / 2)) = B at *
  have hB : 0 < B := by linarith
  have hneg : -A / B ≤ 0 := div_nonpos_of_nonpos_of_nonneg (by linarith) hB.le
  constructor
  · have e : |-A / B - -(D * D) / (S * (S / 2))| ≤ 5 / 16777216 := by
      rw [div_sub_div _ _ hB.ne' hSS.ne', abs_div, abs_of_pos (mul_pos hB hSS), div_le_iff₀ (mul_pos hB hSS), abs_le]
      have hBl : S * (S / 2) * (1 - 1 / 16777216) ≤ B := by linarith
      have hDS' : D * D ≤ 2 * (S * (S / 2)) := by linarith
      generalize S * (S / 2) = T at *
      generalize D * D = E at *
      constructor <;> nlinarith [mul_nonneg hDD hSS.le, mul_pos hSS hSS, mul_pos hB hSS]
    have hb : |-(D * D) / (S * (S / 2))| ≤ 2 := by
      rw [abs_div, abs_neg, abs_of_nonneg hDD, abs_of_pos hSS, div_le_iff₀ hSS]; linarith
    have := f_acc hf e hb
    norm_num at this ⊢
    linarith
  · have := f_mono hf hneg
    rwa [show f 0 = 0 by simpa using f_int hf 0 (by norm_num)] at this

theorem kernelized_err {d ex : ℚ → ℚ} (hd : ∀ x, Nearest 53 x (d x))
    (hex : ∀ x : ℚ, x ≤ 0 → |((ex x : ℚ) : ℝ) - Real.exp x| ≤ 1 / 10000000) {nodata b1 b2 : Int}
    (h1 : 0 < b1) (h1' : b1 ≤ 32767) (h2 : 0 < b2) (h2' : b2 ≤ 32767) :
    ∃ y : ℚ, kernelized f d ex nodata b1 b2 = short y ∧
      |(y : ℝ) - 10000 * kndvi b1 b2| ≤ 1 / 10 := by
  unfold kernelized
  rw [if_neg (by omega)]
  have es : d ((1 : ℚ) / 2 * ((b1 + b2 : Int) : ℚ)) = ((b1 + b2 : Int) : ℚ) / 2 := by
    rw [show (1 : ℚ) / 2 * ((b1 + b2 : Int) : ℚ) = ((b1 + b2 : Int) : ℚ) / 2 by ring]
    refine eq_of_nearest_rep ⟨b1 + b2, -1, ?_, ?_⟩ (hd _)
    · rw [abs_of_pos (by omega)]
      have : (2 : Int) ^ 53 = 9007199254740992 := by norm_num
      omega
    · simp [div_eq_mul_inv]
  simp only
  rw [es, f_half hf (b1 + b2) (by rw [abs_le]; omega) rfl, f_int hf (b1 - b2) (by rw [abs_le]; omega),
    show 2 * (((b1 + b2 : Int) : ℚ) / 2) = ((b1 + b2 : Int) : ℚ) by ring,
    f_int hf (b1 + b2) (by rw [abs_le]; omega)]
  have hS : (0 : ℚ) < ((b1 + b2 : Int) : ℚ) := by
    have : 0 < b1 + b2 := by omega
    exact_mod_cast this
  have hD : |((b1 - b2 : Int) : ℚ)| ≤ ((b1 + b2 : Int) : ℚ) := by
    have : |b1 - b2| ≤ b1 + b2 := by rw [abs_le]; omega
    exact_mod_cast this
  refine ⟨_, rfl, ?_⟩
  obtain ⟨ha, hneg⟩ := arg_err hf hS hD
  -- the exact exponent
  obtain ⟨E, hE⟩ : ∃ E : ℝ, E = -((b1 : ℝ) - b2) ^ 2 / (2 * (((b1 : ℝ) + b2) / 2) ^ 2) := ⟨_, rfl⟩
  have hE' : ((-(((b1 - b2 : Int) : ℚ) * ((b1 - b2 : Int) : ℚ)) /
      (((b1 + b2 : Int) : ℚ) * (((b1 + b2 : Int) : ℚ) / 2)) : ℚ) : ℝ) = E := by
    rw [hE]; push_cast; congr 1 <;> ring
  generalize f (-f (((b1 - b2 : Int) : ℚ) * ((b1 - b2 : Int) : ℚ)) /
      f (((b1 + b2 : Int) : ℚ) * (((b1 + b2 : Int) : ℚ) / 2))) = u at *
  have hu : |(u : ℝ) - E| ≤ 1 / 1000000 := by
    rw [← hE']
    have : ((|u - -(((b1 - b2 : Int) : ℚ) * ((b1 - b2 : Int) : ℚ)) /
      (((b1 + b2 : Int) : ℚ) * (((b1 + b2 : Int) : ℚ) / 2))| : ℚ) : ℝ) ≤ ((1 / 1000000 : ℚ) : ℝ) := by
      exact_mod_cast ha
    push_cast at this ⊢
    exact this
  have hE0 : E ≤ 0 := by
    rw [hE]
    apply div_nonpos_of_nonpos_of_nonneg
    · nlinarith [sq_nonneg ((b1 : ℝ) - b2)]
    · positivity
  have hu0 : (u : ℝ) ≤ 0 := by exact_mod_cast hneg
  have hc := exp_contract hu0 hE0
  have hx := hex u hneg
  obtain ⟨T, hT⟩ : ∃ T : ℝ, T = Real.exp E := ⟨_, rfl⟩
  have hT0 : 0 ≤ T := by rw [hT]; exact (Real.exp_pos E).le
  have hT1 : T ≤ 1 := by rw [hT]; exact Real.exp_le_one_iff.2 hE0
  have h3 : |((ex u : ℚ) : ℝ) - T| ≤ 11 / 10000000 := by
    rw [hT]
    have := abs_sub_le ((ex u : ℚ) : ℝ) (Real.exp u) (Real.exp E)
    linarith
  have h4 := f_accR hf h3 (B := 1) (by rw [abs_of_nonneg hT0]; exact hT1)
  generalize f (ex u) = t at *
  have h4' : |(t : ℝ) - T| ≤ 12 / 10000000 := by norm_num at h4 ⊢; linarith
  have h5 : |((1 - t : ℚ) : ℝ) - (1 - T)| ≤ 12 / 10000000 := by
    push_cast
    rw [abs_le] at h4' ⊢; constructor <;> linarith
  have h6 := f_accR hf h5 (B := 1) (by rw [abs_le]; constructor <;> linarith)
  have h7 : |((1 + t : ℚ) : ℝ) - (1 + T)| ≤ 12 / 10000000 := by
    push_cast
    rw [abs_le] at h4' ⊢; constructor <;> linarith
  have h8 := f_accR hf h7 (B := 2) (by rw [abs_le]; constructor <;> linarith)
  generalize f (1 - t) = U at *
  generalize f (1 + t) = V at *
  have h6' : |(U : ℝ) - (1 - T)| ≤ 13 / 10000000 := by norm_num at h6 ⊢; linarith
  have h8' : |(V : ℝ) - (1 + T)| ≤ 14 / 10000000 := by norm_num at h8 ⊢; linarith
  have h9 := quot_contract (t := T) hT0 h6' h8' (by norm_num) hT1
  have hK : kndvi b1 b2 = (1 - T) / (1 + T) := by
    unfold kndvi; rw [hT, hE]
  have hK1 : |(1 - T) / (1 + T)| ≤ 1 := by
    rw [abs_div, abs_of_nonneg (by linarith : 0 ≤ 1 - T), abs_of_pos (by linarith : 0 < 1 + T),
      div_le_one (by linarith)]
    linarith
  rw [hK]
  generalize (1 - T) / (1 + T) = K at *
  have h10 : |((U / V : ℚ) : ℝ) - K| ≤ 28 / 10000000 := by
    push_cast
    norm_num at h9 ⊢
    linarith
  have h11 := f_accR hf h10 hK1
  generalize f (U / V) = I at *
  have h12 : |((I * 10000 : ℚ) : ℝ) - 10000 * K| ≤ 29 / 1000 := by
    push_cast
    norm_num at h11
    rw [abs_le] at h11 ⊢
    constructor <;> linarith
  have h13 := f_accR hf h12 (B := 10000) (by
    rw [abs_mul, show |(10000 : ℝ)| = 10000 by norm_num]; linarith)
  norm_num at h13 ⊢
  linarith

end

/-- The formula of kNDVI is the hyperbolic tangent of the square of NDVI. -/
theorem kndvi_tanh (n r : ℝ) (h : n + r ≠ 0) : kndvi n r = Real.tanh (((n - r) / (n + r)) ^ 2) := by
  have e : -(n - r) ^ 2 / (2 * ((n + r) / 2) ^ 2) = -(2 * ((n - r) / (n + r)) ^ 2) := by
    field_simp
  unfold kndvi
  rw [e, Real.tanh_eq_sinh_div_cosh, Real.sinh_eq, Real.cosh_eq]
  generalize ((n - r) / (n + r)) ^ 2 = z
  have hz : Real.exp (-(2 * z)) = Real.exp (-z) / Real.exp z := by
    rw [← Real.exp_sub]; congr 1; ring
  rw [hz]
  have := Real.exp_pos z
  have := Real.exp_pos (-z)
  field_simp

/-- C75: kNDVI is missing if one of the bands is not positive; otherwise it is 10000 times the formula, i.e.
the hyperbolic tangent of the square of NDVI (up to rounding, without its fraction), and lies in 0 to
10000. -/
theorem c75_kndvi (f d ex sq : ℚ → ℚ) (hf : ∀ x, Nearest 24 x (f x)) (hd : ∀ x, Nearest 53 x (d x))
    (hex : ∀ x : ℚ, x ≤ 0 → |((ex x : ℚ) : ℝ) - Real.exp x| ≤ 1 / 10000000) (nodata n r : Int)
    (hn : Short n) (hr : Short r) :
    ((n ≤ 0 ∨ r ≤ 0) → equation f d ex sq nodata "kNDVI" [n, r] = .ok nodata) ∧
    (0 < n ∧ 0 < r → ∃ v, equation f d ex sq nodata "kNDVI" [n, r] = .ok v ∧
      Stored (1 / 10) v (10000 * kndvi n r) ∧ kndvi n r = Real.tanh (normDiff n r ^ 2) ∧
      0 ≤ v ∧ v ≤ 10000) := by
  have heq : equation f d ex sq nodata "kNDVI" [n, r] = kernelized f d ex nodata n r := rfl
  rw [heq]
  constructor
  · intro h
    unfold kernelized
    rw [if_pos h]
  · rintro ⟨h1, h2⟩
    obtain ⟨y, hy, he⟩ := kernelized_err hf hd hex (nodata := nodata) h1 hn.2 h2 hr.2
    have hpos : (0 : ℝ) < (n : ℝ) + r := by
      have : 0 < n + r := by omega
      exact_mod_cast this
    have ht := kndvi_tanh n r hpos.ne'
    have hE0 : -((n : ℝ) - r) ^ 2 / (2 * (((n : ℝ) + r) / 2) ^ 2) ≤ 0 := by
      apply div_nonpos_of_nonpos_of_nonneg
      · nlinarith [sq_nonneg ((n : ℝ) - r)]
      · positivity
    have hk0 : 0 ≤ kndvi n r := by
      unfold kndvi
      have h3 := Real.exp_le_one_iff.2 hE0
      have h4 := Real.exp_pos (-((n : ℝ) - r) ^ 2 / (2 * (((n : ℝ) + r) / 2) ^ 2))
      exact div_nonneg (by linarith) (by linarith)
    have hk1 : kndvi n r ≤ 1 := by
      unfold kndvi
      have h4 := Real.exp_pos (-((n : ℝ) - r) ^ 2 / (2 * (((n : ℝ) + r) / 2) ^ 2))
      rw [div_le_one (by linarith)]
      linarith
    obtain ⟨v, hv, hs⟩ := short_stored he (by linarith) (by linarith)
    refine ⟨v, by rw [hy]; exact hv, hs, ht, ?_⟩
    obtain ⟨z, hz, hp⟩ := hs
    have hz' := abs_le.1 hz
    unfold IntegerPart at hp
    constructor
    · by_contra hneg
      have hv1 : v ≤ -1 := by omega
      have hv2 : (v : ℝ) ≤ -1 := by exact_mod_cast hv1
      have h3 := hp.1
      rw [abs_of_neg (by linarith)] at h3
      rcases abs_cases z with a | a
      · nlinarith [hp.2.2]
      · linarith
    · have h3 : |z| ≤ 10000 + 1 / 10 := by rw [abs_le]; constructor <;> linarith
      have h4 : (v : ℝ) < 10001 := by
        have := le_abs_self (v : ℝ)
        linarith [hp.1]
      have : v < 10001 := by exact_mod_cast h4
      omega

end Verif.Index
