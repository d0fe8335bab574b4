import Verif.Index.Lemmas

/-! # C73: indices with resistance terms -/

namespace Verif.Index

open Verif.Float Verif.Str Spec

section
variable {f : ℚ → ℚ} (hf : ∀ x, Nearest 24 x (f x))
include hf

/-- Relative error of a rounded result. -/
theorem f_rel {a b e : ℚ} (h : |a - b| ≤ e * |b|) : |f a - b| ≤ (e + (1 + e) / 16777216) * |b| := by
  have := f_acc hf h (le_refl |b|)
  calc |f a - b| ≤ e * |b| + (|b| + e * |b|) / 16777216 := this
    _ = _ := by ring

/-- Red after the optional correction. -/
def redOf (rbc : Bool) (r b : Int) : Int := if rbc then r - (b - r) else r

theorem red_eq {rbc : Bool} {r b : Int} (hr : Short r) (hb : Short b) :
    f ((r : ℚ) - f ((if rbc then (1 : ℚ) else 0) * f ((b : ℚ) - r))) = (redOf rbc r b : Int) := by
  unfold Short at hr hb
  have e1 : f ((b : ℚ) - r) = ((b - r : Int) : ℚ) := by
    rw [← f_int hf (b - r) (by rw [abs_le]; omega)]; push_cast; rfl
  rw [e1]
  unfold redOf
  cases rbc
  · simp only [Bool.false_eq_true, if_false, zero_mul]
    rw [show f 0 = 0 by simpa using f_int hf 0 (by norm_num), sub_zero]
    exact f_int hf r (by rw [abs_le]; omega)
  · simp only [if_true, one_mul]
    rw [f_int hf (b - r) (by rw [abs_le]; omega)]
    rw [← f_int hf (r - (b - r)) (by rw [abs_le]; omega)]
    push_cast
    rfl

/-- The denominator is exact. -/
theorem den_eq {k : Res} {i2 i3 i4 n r b : Int} (e2 : k.f2 = (i2 : ℚ) / 2) (e3 : k.f3 = (i3 : ℚ) / 2)
    (e4 : k.f4 = (i4 : ℚ) / 2) (h2 : |i2| ≤ 15) (h3 : |i3| ≤ 15) (h4 : |i4| ≤ 15) (hn : Short n)
    (hr : |r| ≤ 100000) (hb : Short b) :
    f (f (f ((n : ℚ) + f (k.f2 * r)) - f (k.f3 * b)) + f (k.f4 * 10000)) =
      n + k.f2 * r - k.f3 * b + k.f4 * 10000 := by
  unfold Short at hn hb
  have m2 : |i2 * r| ≤ 1500000 := by
    rw [abs_mul]
    exact (mul_le_mul h2 hr (abs_nonneg _) (by norm_num)).trans (by norm_num)
  have m3 : |i3 * b| ≤ 15 * 32768 := by
    rw [abs_mul]
    exact mul_le_mul h3 (by rw [abs_le]; omega) (abs_nonneg _) (by norm_num)
  rw [abs_le] at m2 m3 h4
  have a2 : f (k.f2 * r) = k.f2 * r := by
    refine f_half hf (i2 * r) (by rw [abs_le]; omega) ?_
    rw [e2]; push_cast; ring
  have a3 : f (k.f3 * b) = k.f3 * b := by
    refine f_half hf (i3 * b) (by rw [abs_le]; omega) ?_
    rw [e3]; push_cast; ring
  have a4 : f (k.f4 * 10000) = k.f4 * 10000 := by
    refine f_half hf (i4 * 10000) (by rw [abs_le]; omega) ?_
    rw [e4]; push_cast; ring
  rw [a2, a3, a4]
  have a5 : f ((n : ℚ) + k.f2 * r) = n + k.f2 * r := by
    refine f_half hf (2 * n + i2 * r) (by rw [abs_le]; omega) ?_
    rw [e2]; push_cast; ring
  rw [a5]
  have a6 : f ((n : ℚ) + k.f2 * r - k.f3 * b) = n + k.f2 * r - k.f3 * b := by
    refine f_half hf (2 * n + i2 * r - i3 * b) (by rw [abs_le]; omega) ?_
    rw [e2, e3]; push_cast; ring
  rw [a6]
  refine f_half hf (2 * n + i2 * r - i3 * b + i4 * 10000) (by rw [abs_le]; omega) ?_
  rw [e2, e3, e4]; push_cast; ring

/-- The quotient has a small relative error. -/
theorem quot_err {k1 F : ℚ} {m : Int} {T : ℚ} (hk : |k1 - F| ≤ 1 / 16777216 * |F|) :
    |f (f (f (k1 * m) / T) * 10000) - 10000 * (F * m / T)| ≤
      5 / 16777216 * |10000 * (F * m / T)| := by
  have h1 : |k1 * m - F * m| ≤ 1 / 16777216 * |F * m| := by
    rw [← sub_mul, abs_mul, abs_mul, ← mul_assoc]
    exact mul_le_mul_of_nonneg_right hk (abs_nonneg _)
  have h2 := f_rel hf h1
  have h3 : |f (k1 * m) / T - F * m / T| ≤ (1 / 16777216 + (1 + 1 / 16777216) / 16777216) * |F * m / T| := by
    rw [← sub_div, abs_div, abs_div, ← mul_div_assoc]
    exact div_le_div_of_nonneg_right h2 (abs_nonneg _)
  have h4 := f_rel hf h3
  generalize hE : (1 / 16777216 + (1 + 1 / 16777216) / 16777216 : ℚ) +
    (1 + (1 / 16777216 + (1 + 1 / 16777216) / 16777216)) / 16777216 = E at h4
  have h5 : |f (f (k1 * m) / T) * 10000 - 10000 * (F * m / T)| ≤ E * |10000 * (F * m / T)| := by
    have : f (f (k1 * m) / T) * 10000 - 10000 * (F * m / T) = 10000 * (f (f (k1 * m) / T) - F * m / T) := by
      ring
    rw [this, abs_mul, abs_mul]
    have h10 : |(10000 : ℚ)| = 10000 := by norm_num
    rw [h10]
    calc 10000 * |f (f (k1 * m) / T) - F * m / T| ≤ 10000 * (E * |F * m / T|) :=
          mul_le_mul_of_nonneg_left h4 (by norm_num)
      _ = _ := by ring
  have h6 := f_rel hf h5
  refine h6.trans (mul_le_mul_of_nonneg_right ?_ (abs_nonneg _))
  rw [← hE]
  norm_num

/-- All of `resistance`. -/
theorem resistance_cases {k : Res} {F : ℚ} {i2 i3 i4 nodata n r b : Int}
    (hk : |k.f1 - F| ≤ 1 / 16777216 * |F|)
    (e2 : k.f2 = (i2 : ℚ) / 2) (e3 : k.f3 = (i3 : ℚ) / 2)
    (e4 : k.f4 = (i4 : ℚ) / 2) (h2 : |i2| ≤ 15) (h3 : |i3| ≤ 15) (h4 : |i4| ≤ 15) (hn : Short n)
    (hr : Short r) (hb : Short b) :
    (((n : ℚ) + k.f2 * redOf k.rbc r b - k.f3 * b + k.f4 * 10000 = 0 → resistance f k nodata n r b = .ok nodata)) ∧
    ((n : ℚ) + k.f2 * redOf k.rbc r b - k.f3 * b + k.f4 * 10000 ≠ 0 →
      ∃ y, resistance f k nodata n r b = short y ∧
        |y - 10000 * (F * ((n - redOf k.rbc r b : Int) : ℚ) /
          (n + k.f2 * redOf k.rbc r b - k.f3 * b + k.f4 * 10000))| ≤
        5 / 16777216 * |10000 * (F * ((n - redOf k.rbc r b : Int) : ℚ) /
          (n + k.f2 * redOf k.rbc r b - k.f3 * b + k.f4 * 10000))|) := by
  have hred : |redOf k.rbc r b| ≤ 100000 := by
    unfold Short at hr hb; unfold redOf
    rw [abs_le]; split <;> omega
  have hden := den_eq hf (r := redOf k.rbc r b) e2 e3 e4 h2 h3 h4 hn hred hb
  have hnr : f ((n : ℚ) - (redOf k.rbc r b : Int)) = ((n - redOf k.rbc r b : Int) : ℚ) := by
    unfold Short at hn
    rw [abs_le] at hred
    rw [← f_int hf (n - redOf k.rbc r b) (by rw [abs_le]; omega)]; push_cast; rfl
  unfold resistance
  simp only [red_eq hf hr hb, hden, hnr]
  constructor
  · intro h; rw [if_pos h]
  · intro h
    rw [if_neg h]
    exact ⟨_, rfl, quot_err hf hk⟩

theorem f24 : |f (24 / 10) - 24 / 10| ≤ 1 / 16777216 * |(24 / 10 : ℚ)| := by
  have := f_err hf (24 / 10)
  linarith

end

theorem res_key {f : ℚ → ℚ} (hf : ∀ x, Nearest 24 x (f x)) {nodata n r b : Int} (hn : Short n)
    (hr : Short r) (hb : Short b) {N D : ℝ} {o : Out Int} (k : Res) (F : ℚ) (i2 i3 i4 : Int)
    (heq : o = resistance f k nodata n r b) (hk : |k.f1 - F| ≤ 1 / 16777216 * |F|)
    (e2 : k.f2 = (i2 : ℚ) / 2) (e3 : k.f3 = (i3 : ℚ) / 2) (e4 : k.f4 = (i4 : ℚ) / 2) (h2 : |i2| ≤ 15)
    (h3 : |i3| ≤ 15) (h4 : |i4| ≤ 15)
    (hnum : N = ((F * ((n - redOf k.rbc r b : Int) : ℚ) : ℚ) : ℝ) / 10000)
    (hden : D = (((n : ℚ) + k.f2 * redOf k.rbc r b - k.f3 * b + k.f4 * 10000 : ℚ) : ℝ) / 10000) :
    (D = 0 → o = .ok nodata) ∧
    (D ≠ 0 → ∃ y : ℚ, o = short y ∧ |(y : ℝ) - 10000 * (N / D)| ≤ 5 / 16777216 * |10000 * (N / D)|) := by
  have hc := resistance_cases (nodata := nodata) hf hk e2 e3 e4 h2 h3 h4 hn hr hb
  rw [heq, hnum, hden]
  generalize (n : ℚ) + k.f2 * redOf k.rbc r b - k.f3 * b + k.f4 * 10000 = T at hc ⊢
  generalize F * ((n - redOf k.rbc r b : Int) : ℚ) = M at hc ⊢
  constructor
  · intro h
    refine hc.1 ?_
    have : (T : ℝ) = 0 := by
      rcases div_eq_zero_iff.1 h with h | h
      · exact h
      · norm_num at h
    exact_mod_cast this
  · intro h
    obtain ⟨y, hy, he⟩ := hc.2 (by
      rintro rfl
      apply h; simp)
    refine ⟨y, hy, ?_⟩
    rw [div_div_div_cancel_right₀ (by norm_num)]
    have he' : ((|y - 10000 * (M / T)| : ℚ) : ℝ) ≤ ((5 / 16777216 * |10000 * (M / T)| : ℚ) : ℝ) := by
      exact_mod_cast he
    push_cast at he'
    exact he'

/-- What the code computes for an index with resistance terms. -/
theorem resistant_cases (f d ex sq : ℚ → ℚ) (hf : ∀ x, Nearest 24 x (f x)) (nodata : Int)
    {name : String} {num den : ℝ → ℝ → ℝ → ℝ} (hR : Resistant name num den) (n r b : Int)
    (hn : Short n) (hr : Short r) (hb : Short b) :
    (den (n / 10000) (r / 10000) (b / 10000) = 0 → equation f d ex sq nodata name [n, r, b] = .ok nodata) ∧
    (den (n / 10000) (r / 10000) (b / 10000) ≠ 0 → ∃ y : ℚ, equation f d ex sq nodata name [n, r, b] = short y ∧
      |(y : ℝ) - 10000 * (num (n / 10000) (r / 10000) (b / 10000) / den (n / 10000) (r / 10000) (b / 10000))| ≤
        5 / 16777216 * |10000 * (num (n / 10000) (r / 10000) (b / 10000) /
          den (n / 10000) (r / 10000) (b / 10000))|) := by
  cases hR
  · refine res_key hf hn hr hb ⟨5 / 2, 6, 15 / 2, 1, false⟩ (5 / 2) 12 15 2 ?_ (by norm_num) (by norm_num) (by norm_num)
      (by norm_num) (by norm_num) (by norm_num) (by norm_num) ?_ ?_
    · rfl
    · simp only [redOf, Bool.false_eq_true, if_false]; push_cast; ring
    · simp only [redOf, Bool.false_eq_true, if_false]; push_cast; ring
  · refine res_key hf hn hr hb ⟨1, 1, 0, 0, true⟩ 1 2 0 0 ?_ (by norm_num) (by norm_num) (by norm_num)
      (by norm_num) (by norm_num) (by norm_num) (by norm_num) ?_ ?_
    · rfl
    · simp only [redOf, if_true]; push_cast; ring
    · simp only [redOf, if_true]; push_cast; ring
  · refine res_key hf hn hr hb ⟨3 / 2, 1, 0, 1 / 2, false⟩ (3 / 2) 2 0 1 ?_ (by norm_num) (by norm_num) (by norm_num)
      (by norm_num) (by norm_num) (by norm_num) (by norm_num) ?_ ?_
    · rfl
    · simp only [redOf, Bool.false_eq_true, if_false]; push_cast; ring
    · simp only [redOf, Bool.false_eq_true, if_false]; push_cast; ring
  · refine res_key hf hn hr hb ⟨3 / 2, 1, 0, 1 / 2, true⟩ (3 / 2) 2 0 1 ?_ (by norm_num) (by norm_num) (by norm_num)
      (by norm_num) (by norm_num) (by norm_num) (by norm_num) ?_ ?_
    · rfl
    · simp only [redOf, if_true]; push_cast; ring
    · simp only [redOf, if_true]; push_cast; ring
  · refine res_key hf hn hr hb ⟨f (24 / 10), 1, 0, 1, false⟩ (24 / 10) 2 0 2 ?_ (f24 hf) (by norm_num) (by norm_num)
      (by norm_num) (by norm_num) (by norm_num) (by norm_num) ?_ ?_
    · rfl
    · simp only [redOf, Bool.false_eq_true, if_false]; push_cast; ring
    · simp only [redOf, Bool.false_eq_true, if_false]; push_cast; ring

/-- C73, in part: an index with resistance terms is missing if its denominator is zero; if 10000 times its
value is in the range of 16 bit integers, that number (up to rounding, without its fraction) is stored.
Missing: see `c73_overflow_violated`. -/
theorem c73_value_partial (f d ex sq : ℚ → ℚ) (hf : ∀ x, Nearest 24 x (f x)) (nodata : Int)
    {name : String} {num den : ℝ → ℝ → ℝ → ℝ} (hR : Resistant name num den) (n r b : Int)
    (hn : Short n) (hr : Short r) (hb : Short b) (x : ℝ)
    (hx : x = 10000 * (num (n / 10000) (r / 10000) (b / 10000) / den (n / 10000) (r / 10000) (b / 10000))) :
    (den (n / 10000) (r / 10000) (b / 10000) = 0 → equation f d ex sq nodata name [n, r, b] = .ok nodata) ∧
    (den (n / 10000) (r / 10000) (b / 10000) ≠ 0 → -32768.98 < x → x < 32767.98 →
      ∃ v, equation f d ex sq nodata name [n, r, b] = .ok v ∧ Stored (1 / 100) v x) := by
  have hc := resistant_cases f d ex sq hf nodata hR n r b hn hr hb
  refine ⟨hc.1, fun h0 hl hu => ?_⟩
  obtain ⟨y, hy, he⟩ := hc.2 h0
  rw [← hx] at he
  have hax : |x| ≤ 32769 := by rw [abs_le]; constructor <;> linarith
  rw [hy]
  exact short_stored (e := 1 / 100) (by linarith) (by linarith) (by linarith)

/-- C73, violated: whenever the formula gives a value out of the range of 16 bit integers, the behaviour is
undefined: the value is converted without a check. -/
theorem c73_overflow_violated (f d ex sq : ℚ → ℚ) (hf : ∀ x, Nearest 24 x (f x)) (nodata : Int)
    {name : String} {num den : ℝ → ℝ → ℝ → ℝ} (hR : Resistant name num den) (n r b : Int)
    (hn : Short n) (hr : Short r) (hb : Short b) (x : ℝ)
    (hx : x = 10000 * (num (n / 10000) (r / 10000) (b / 10000) / den (n / 10000) (r / 10000) (b / 10000)))
    (h0 : den (n / 10000) (r / 10000) (b / 10000) ≠ 0) (hout : x ≤ -32769.02 ∨ 32768.02 ≤ x) :
    equation f d ex sq nodata name [n, r, b] = .ub := by
  obtain ⟨y, hy, he⟩ := (resistant_cases f d ex sq hf nodata hR n r b hn hr hb).2 h0
  rw [← hx] at he
  rw [hy]
  have ha := abs_le.1 he
  apply short_ub
  rcases hout with h | h
  · right
    rw [abs_of_neg (by linarith)] at ha
    have : (y : ℝ) ≤ -32769 := by linarith [ha.2]
    exact_mod_cast this
  · left
    rw [abs_of_pos (by linarith)] at ha
    have : (32768 : ℝ) ≤ (y : ℝ) := by linarith [ha.1]
    exact_mod_cast this

/-- C73, violated: this happens with ordinary reflectances, e.g. for EVI and a blue reflectance of 13 % to
27 % over dark red and the NIR reflectance given here (0.2 % to 99.9 %). -/
theorem c73_evi_violated (f d ex sq : ℚ → ℚ) (hf : ∀ x, Nearest 24 x (f x)) (nodata m : Int)
    (h1 : 668 ≤ m) (h2 : m ≤ 1333) :
    equation f d ex sq nodata "EVI" [15 * m - 10000, 0, 2 * m - 1] = .ub := by
  have hden : ((15 * m - 10000 : Int) : ℝ) / 10000 + 6 * (((0 : Int) : ℝ) / 10000) -
      7.5 * (((2 * m - 1 : Int) : ℝ) / 10000) + 1 = 7.5 / 10000 := by push_cast; ring
  refine c73_overflow_violated f d ex sq hf nodata .evi _ _ _ ⟨by omega, by omega⟩ ⟨by omega, by omega⟩
    ⟨by omega, by omega⟩ _ rfl ?_ (Or.inr ?_)
  · rw [hden]; norm_num
  · rw [hden]
    have : (668 : ℝ) ≤ m := by exact_mod_cast h1
    push_cast
    rw [div_eq_mul_inv]
    norm_num
    linarith

/-- C73: SAVI and EVI2 of non-negative reflectances are always stored and lie in -1.5 to 1.5 and in -2.4 to
2.4. -/
theorem c73_bounded (f d ex sq : ℚ → ℚ) (hf : ∀ x, Nearest 24 x (f x)) (nodata n r b : Int)
    (hn : 0 ≤ n) (hn' : n ≤ 32767) (hr : 0 ≤ r) (hr' : r ≤ 32767) (hb : Short b) :
    (∃ v, equation f d ex sq nodata "SAVI" [n, r, b] = .ok v ∧ -15000 ≤ v ∧ v ≤ 15000) ∧
    (∃ v, equation f d ex sq nodata "EVI2" [n, r, r] = .ok v ∧ -24000 ≤ v ∧ v ≤ 24000) := by
  have hsn : Short n := ⟨by omega, by omega⟩
  have hsr : Short r := ⟨by omega, by omega⟩
  have an : (0 : ℝ) ≤ n / 10000 := by
    have : (0 : ℝ) ≤ n := by exact_mod_cast hn
    positivity
  have ar : (0 : ℝ) ≤ r / 10000 := by
    have : (0 : ℝ) ≤ r := by exact_mod_cast hr
    positivity
  have bound : ∀ (B : Int) (v : Int) (x : ℝ), 0 ≤ B → |x| ≤ B - 1 / 2 → Stored (1 / 100) v x → -B ≤ v ∧ v ≤ B := by
    rintro B v x hB hx ⟨y, hy, hp, -, -⟩
    have h1 : |y| ≤ |x| + 1 / 100 := by
      have := abs_sub_abs_le_abs_sub y x
      linarith
    have h2 : |(v : ℝ)| ≤ B := by linarith
    have h3 : |v| ≤ B := by exact_mod_cast h2
    exact abs_le.1 h3
  have n1 : (n : ℝ) / 10000 ≤ 4 := by
    have : (n : ℝ) ≤ 32767 := by exact_mod_cast hn'
    linarith
  have r1 : (r : ℝ) / 10000 ≤ 4 := by
    have : (r : ℝ) ≤ 32767 := by exact_mod_cast hr'
    linarith
  constructor
  · have hd : (0 : ℝ) < (n : ℝ) / 10000 + r / 10000 + 0.5 := by linarith
    have hx : |10000 * ((((n : ℝ) / 10000 - r / 10000) * (1 + 0.5)) / ((n : ℝ) / 10000 + r / 10000 + 0.5))| ≤
        15000 - 1 / 2 := by
      rw [abs_mul, abs_div, abs_of_pos hd, show |(10000 : ℝ)| = 10000 by norm_num, ← mul_div_assoc,
        div_le_iff₀ hd, abs_mul, show |(1 + 0.5 : ℝ)| = 1.5 by norm_num]
      have : |(n : ℝ) / 10000 - r / 10000| ≤ n / 10000 + r / 10000 := by
        rw [abs_le]; constructor <;> linarith
      nlinarith
    have hx' := abs_le.1 hx
    obtain ⟨v, hv, hs⟩ := (c73_value_partial f d ex sq hf nodata .savi n r b hsn hsr hb _ rfl).2 hd.ne'
      (by linarith) (by linarith)
    exact ⟨v, hv, bound 15000 v _ (by norm_num) (by push_cast; exact hx) hs⟩
  · have hd : (0 : ℝ) < (n : ℝ) / 10000 + r / 10000 + 1 := by linarith
    have hx : |10000 * ((2.4 * ((n : ℝ) / 10000 - r / 10000)) / ((n : ℝ) / 10000 + r / 10000 + 1))| ≤
        24000 - 1 / 2 := by
      rw [abs_mul, abs_div, abs_of_pos hd, show |(10000 : ℝ)| = 10000 by norm_num, ← mul_div_assoc,
        div_le_iff₀ hd, abs_mul, show |(2.4 : ℝ)| = 2.4 by norm_num]
      have : |(n : ℝ) / 10000 - r / 10000| ≤ n / 10000 + r / 10000 := by
        rw [abs_le]; constructor <;> linarith
      nlinarith
    have hx' := abs_le.1 hx
    obtain ⟨v, hv, hs⟩ := (c73_value_partial f d ex sq hf nodata .evi2 n r r hsn hsr hsr _ rfl).2 hd.ne'
      (by linarith) (by linarith)
    exact ⟨v, hv, bound 24000 v _ (by norm_num) (by push_cast; exact hx) hs⟩

end Verif.Index
