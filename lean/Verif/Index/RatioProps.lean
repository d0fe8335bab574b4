import Verif.Index.KernelProps

/-! # C76: red edge ratios -/

namespace Verif.Index

open Verif.Float Verif.Str Spec

section
variable {f : ℚ → ℚ} (hf : ∀ x, Nearest 24 x (f x))
variable {d : ℚ → ℚ} (hd : ∀ x, Nearest 53 x (d x))

include hd in
theorem d_accR {x : ℚ} {y e B : ℝ} (h : |(x : ℝ) - y| ≤ e) (hB : |y| ≤ B) :
    |((d x : ℚ) : ℝ) - y| ≤ e + (B + e) / 9007199254740992 := by
  have h0 : |d x - x| ≤ |x| / 9007199254740992 := by
    have := nearest_err (by norm_num) (hd x)
    rw [abs_sub_comm] at this
    norm_num at this ⊢
    exact this
  have h1 : |((d x : ℚ) : ℝ) - x| ≤ |(x : ℝ)| / 9007199254740992 := by exact_mod_cast h0
  have h2 : |(x : ℝ)| ≤ B + e := by
    have := abs_sub_abs_le_abs_sub (x : ℝ) y
    linarith
  have h3 : |((d x : ℚ) : ℝ) - y| ≤ |((d x : ℚ) : ℝ) - x| + |(x : ℝ) - y| := abs_sub_le _ _ _
  have h4 : |(x : ℝ)| / 9007199254740992 ≤ (B + e) / 9007199254740992 := by
    apply div_le_div_of_nonneg_right h2 (by norm_num)
  linarith

include hd in
theorem d_mono {x y : ℚ} (h : x ≤ y) : d x ≤ d y := by
  by_contra hc
  have hc := not_le.1 hc
  have h1 := (hd x).2 _ (hd y).1
  have h2 := (hd y).2 _ (hd x).1
  have hx : x ≠ y := by rintro rfl; exact absurd hc (lt_irrefl _)
  have hlt : x < y := lt_of_le_of_ne h hx
  rcases abs_cases (x - d x) with a | a <;> rcases abs_cases (x - d y) with b | b <;>
  rcases abs_cases (y - d x) with c | c <;> rcases abs_cases (y - d y) with e | e <;> linarith

include hd in
theorem d_int (k : Int) (hk : |k| ≤ 16777216) : d (k : ℚ) = k := by
  refine eq_of_nearest_rep (rep_int (hk.trans ?_)) (hd _)
  norm_num

include hf in
/-- Comparison with an integer survives rounding. -/
theorem f_ge {x : ℚ} (k : Int) (hk : |k| ≤ 16777216) (h : (k : ℚ) ≤ x) : (k : ℚ) ≤ f x := by
  rw [← f_int hf k hk]; exact f_mono hf h

include hf in
theorem f_le {x : ℚ} (k : Int) (hk : |k| ≤ 16777216) (h : x ≤ (k : ℚ)) : f x ≤ (k : ℚ) := by
  rw [← f_int hf k hk]; exact f_mono hf h

include hd in
theorem d_ge {x : ℚ} (k : Int) (hk : |k| ≤ 16777216) (h : (k : ℚ) ≤ x) : (k : ℚ) ≤ d x := by
  rw [← d_int hd k hk]; exact d_mono hd h

include hd in
theorem d_le {x : ℚ} (k : Int) (hk : |k| ≤ 16777216) (h : x ≤ (k : ℚ)) : d x ≤ (k : ℚ) := by
  rw [← d_int hd k hk]; exact d_mono hd h

include hf hd in
/-- The scaled ratio: far out of range, or close to the formula. -/
theorem ratio_cases {b1 b2 : Int} :
    ((b1 : ℚ) / b2 > 34 → 33000 ≤ f (f (d (f ((b1 : ℚ) / b2) - 1)) * 1000)) ∧
    ((b1 : ℚ) / b2 < -34 → f (f (d (f ((b1 : ℚ) / b2) - 1)) * 1000) ≤ -35000) ∧
    (|(b1 : ℚ) / b2| ≤ 34 →
      |((f (f (d (f ((b1 : ℚ) / b2) - 1)) * 1000) : ℚ) : ℝ) - 1000 * ((b1 : ℝ) / b2 - 1)| ≤ 1 / 100) := by
  refine ⟨fun h => ?_, fun h => ?_, fun h => ?_⟩
  · have h1 := f_ge hf 34 (by norm_num) (show ((34 : Int) : ℚ) ≤ (b1 : ℚ) / b2 by push_cast; linarith)
    push_cast at h1
    have h2 := d_ge hd 33 (by norm_num) (show ((33 : Int) : ℚ) ≤ f ((b1 : ℚ) / b2) - 1 by push_cast; linarith)
    have h3 := f_ge hf 33 (by norm_num) h2
    push_cast at h3
    have h4 := f_ge hf 33000 (by norm_num)
      (show ((33000 : Int) : ℚ) ≤ f (d (f ((b1 : ℚ) / b2) - 1)) * 1000 by push_cast; linarith)
    push_cast at h4
    exact h4
  · have h1 := f_le hf (-34) (by norm_num) (show (b1 : ℚ) / b2 ≤ ((-34 : Int) : ℚ) by push_cast; linarith)
    push_cast at h1
    have h2 := d_le hd (-35) (by norm_num) (show f ((b1 : ℚ) / b2) - 1 ≤ ((-35 : Int) : ℚ) by push_cast; linarith)
    have h3 := f_le hf (-35) (by norm_num) h2
    push_cast at h3
    have h4 := f_le hf (-35000) (by norm_num)
      (show f (d (f ((b1 : ℚ) / b2) - 1)) * 1000 ≤ ((-35000 : Int) : ℚ) by push_cast; linarith)
    push_cast at h4
    exact h4
  · have hr : |(((b1 : ℚ) / b2 : ℚ) : ℝ)| ≤ 34 := by exact_mod_cast h
    have e0 : (((b1 : ℚ) / b2 : ℚ) : ℝ) = (b1 : ℝ) / b2 := by push_cast; rfl
    rw [← e0]
    generalize (b1 : ℚ) / b2 = q at *
    have a1 := f_accR hf (x := q) (y := (q : ℝ)) (e := 0) (by simp) hr
    norm_num at a1
    have a2 : |((f q - 1 : ℚ) : ℝ) - (q - 1)| ≤ 17 / 8388608 := by
      push_cast
      rw [abs_le] at a1 ⊢; constructor <;> linarith
    have hr1 : |(q : ℝ) - 1| ≤ 35 := by
      rw [abs_le] at hr ⊢; constructor <;> linarith
    have a3 := d_accR hd a2 hr1
    have a4 := f_accR hf a3 hr1
    generalize f (d (f q - 1)) = I at *
    have a5 : |((I * 1000 : ℚ) : ℝ) - 1000 * (q - 1)| ≤ 5 / 1000 := by
      push_cast
      norm_num at a4
      rw [abs_le] at a4 ⊢; constructor <;> linarith
    have a6 := f_accR hf a5 (B := 35000) (by
      rw [abs_mul, show |(1000 : ℝ)| = 1000 by norm_num]; linarith)
    norm_num at a6 ⊢
    linarith

end

/-- C76: CIre is missing if the second band is zero or 1000 times the formula is out of the range of 16 bit
integers; otherwise that number is stored (up to rounding, without its fraction). -/
theorem c76_cire (f d ex sq : ℚ → ℚ) (hf : ∀ x, Nearest 24 x (f x)) (hd : ∀ x, Nearest 53 x (d x))
    (nodata b1 b2 : Int) (x : ℝ) (hx : x = 1000 * ((b1 : ℝ) / b2 - 1)) :
    (b2 = 0 → equation f d ex sq nodata "CIre" [b1, b2] = .ok nodata) ∧
    (b2 ≠ 0 → (x < -32768.02 ∨ 32767.02 < x) → equation f d ex sq nodata "CIre" [b1, b2] = .ok nodata) ∧
    (b2 ≠ 0 → -32767.98 < x → x < 32766.98 → ∃ v, equation f d ex sq nodata "CIre" [b1, b2] = .ok v ∧
      Stored (1 / 100) v x) ∧
    (∃ v, equation f d ex sq nodata "CIre" [b1, b2] = .ok v) := by
  have heq : equation f d ex sq nodata "CIre" [b1, b2] = ratio f d nodata b1 b2 := rfl
  rw [heq]
  by_cases h0 : b2 = 0
  · have : ratio f d nodata b1 b2 = .ok nodata := by unfold ratio; rw [if_pos h0]
    exact ⟨fun _ => this, fun h => absurd h0 h, fun h => absurd h0 h, ⟨_, this⟩⟩
  obtain ⟨c1, c2, c3⟩ := ratio_cases hf hd (b1 := b1) (b2 := b2)
  have hsafe : ∃ v, ratio f d nodata b1 b2 = .ok v := by
    unfold ratio
    rw [if_neg h0]
    simp only
    split
    · exact ⟨_, rfl⟩
    · rename_i h
      rw [not_or, not_lt, not_lt] at h
      exact ⟨_, short_ok (by linarith) (by linarith)⟩
  refine ⟨fun h => absurd h h0, fun _ hout => ?_, fun _ hl hu => ?_, hsafe⟩
  · unfold ratio
    rw [if_neg h0]
    simp only
    rw [if_pos]
    by_cases hbig : (b1 : ℚ) / b2 > 34
    · left; linarith [c1 hbig]
    · by_cases hsmall : (b1 : ℚ) / b2 < -34
      · right; linarith [c2 hsmall]
      · have h3 := abs_le.1 (c3 (abs_le.2 ⟨by linarith, by linarith⟩))
        rw [← hx] at h3
        rcases hout with h | h
        · right
          have : ((f (f (d (f ((b1 : ℚ) / b2) - 1)) * 1000) : ℚ) : ℝ) < -32768 := by linarith [h3.2]
          exact_mod_cast this
        · left
          have : (32767 : ℝ) < ((f (f (d (f ((b1 : ℚ) / b2) - 1)) * 1000) : ℚ) : ℝ) := by linarith [h3.1]
          exact_mod_cast this
  · have hq : |(b1 : ℚ) / b2| ≤ 34 := by
      have : |(b1 : ℝ) / b2| ≤ 34 := by rw [abs_le]; constructor <;> linarith
      have e0 : (b1 : ℝ) / b2 = (((b1 : ℚ) / b2 : ℚ) : ℝ) := by push_cast; rfl
      rw [e0] at this
      exact_mod_cast this
    have h3 := c3 hq
    rw [← hx] at h3
    have h3' := abs_le.1 h3
    obtain ⟨v, hv, hs⟩ := short_stored h3 (by linarith) (by linarith)
    refine ⟨v, ?_, hs⟩
    unfold ratio
    rw [if_neg h0]
    simp only
    rw [if_neg, hv]
    rw [not_or, not_lt, not_lt]
    constructor
    · have : ((f (f (d (f ((b1 : ℚ) / b2) - 1)) * 1000) : ℚ) : ℝ) ≤ 32767 := by linarith [h3'.2]
      exact_mod_cast this
    · have : (-32768 : ℝ) ≤ ((f (f (d (f ((b1 : ℚ) / b2) - 1)) * 1000) : ℚ) : ℝ) := by linarith [h3'.1]
      exact_mod_cast this

/-- The indices of this form. -/
theorem equation_msr {f d ex sq : ℚ → ℚ} {nodata b1 b2 : Int} {name : String}
    (hn : name = "MSRre" ∨ name = "MSRren") :
    equation f d ex sq nodata name [b1, b2] = msrre f d sq nodata b1 b2 := by
  rcases hn with rfl | rfl <;> rfl

/-- C76, violated: if the reflectances have different signs and the first is larger in magnitude, MSRre and
MSRren are the square root of a negative number; this is not noticed and the conversion of the result is
undefined. -/
theorem c76_nan_violated (f d ex sq : ℚ → ℚ) (hf : ∀ x, Nearest 24 x (f x)) (hd : ∀ x, Nearest 53 x (d x))
    (nodata b1 b2 : Int) (name : String) (hn : name = "MSRre" ∨ name = "MSRren") (h2 : b2 ≠ 0)
    (hs : Short b2) (h : (b1 : ℝ) / b2 < -1) :
    equation f d ex sq nodata name [b1, b2] = .ub := by
  rw [equation_msr hn]
  unfold msrre
  rw [if_neg h2]
  simp only
  rw [if_pos]
  have hq : (b1 : ℚ) / b2 < -1 := by
    have e0 : (b1 : ℝ) / b2 = (((b1 : ℚ) / b2 : ℚ) : ℝ) := by push_cast; rfl
    rw [e0] at h
    exact_mod_cast h
  have hb : (0 : ℚ) < |(b2 : ℚ)| := abs_pos.2 (by exact_mod_cast h2)
  have hb2 : |(b2 : ℚ)| ≤ 32768 := by
    unfold Short at hs
    have : |b2| ≤ 32768 := by rw [abs_le]; omega
    exact_mod_cast this
  have hq2 : (b1 : ℚ) / b2 ≤ -32769 / 32768 := by
    have habs : 1 < |(b1 : ℚ) / b2| := by rw [abs_of_neg (by linarith)]; linarith
    rw [abs_div, lt_div_iff₀ hb, one_mul] at habs
    have habs' : |b2| < |b1| := by exact_mod_cast habs
    have h3 : |(b2 : ℚ)| + 1 ≤ |(b1 : ℚ)| := by exact_mod_cast habs'
    have h4 : 32769 / 32768 ≤ |(b1 : ℚ) / b2| := by
      rw [abs_div, le_div_iff₀ hb]; linarith
    rw [abs_of_neg (by linarith)] at h4
    linarith
  have hR : f (-32769 / 32768) = -32769 / 32768 := by
    refine eq_of_nearest_rep ⟨-32769, -15, by norm_num, ?_⟩ (hf _)
    norm_num
  have h3 := f_mono hf hq2
  rw [hR] at h3
  have hR2 : d (-1 / 32768) = -1 / 32768 := by
    refine eq_of_nearest_rep ⟨-1, -15, by norm_num, ?_⟩ (hd _)
    norm_num
  have h4 := d_mono hd (show f ((b1 : ℚ) / b2) + 1 ≤ -1 / 32768 by linarith)
  rw [hR2] at h4
  have : (-1 / 32768 : ℚ) < 0 := by norm_num
  linarith

theorem sqrt_close {a A e : ℝ} (ha : 0 ≤ a) (hA : 1 ≤ A) (h : |a - A| ≤ e) : |Real.sqrt a - Real.sqrt A| ≤ e := by
  have h1 : 1 ≤ Real.sqrt A := Real.one_le_sqrt.2 hA
  have h2 := Real.sqrt_nonneg a
  have h3 : (Real.sqrt a - Real.sqrt A) * (Real.sqrt a + Real.sqrt A) = a - A := by
    have := Real.mul_self_sqrt ha
    have := Real.mul_self_sqrt (show 0 ≤ A by linarith)
    nlinarith
  have h4 : |Real.sqrt a - Real.sqrt A| * (Real.sqrt a + Real.sqrt A) = |a - A| := by
    rw [← h3, abs_mul, abs_of_nonneg (show 0 ≤ Real.sqrt a + Real.sqrt A by linarith)]
  have h5 := abs_nonneg (Real.sqrt a - Real.sqrt A)
  nlinarith

section
variable {f : ℚ → ℚ} (hf : ∀ x, Nearest 24 x (f x))
variable {d : ℚ → ℚ} (hd : ∀ x, Nearest 53 x (d x))
variable {sq : ℚ → ℚ} (hsq : ∀ x : ℚ, 0 ≤ x → |((sq x : ℚ) : ℝ) - Real.sqrt x| ≤ Real.sqrt x / 1000000000000)

include hf hd hsq

/-- Moderate ratios: the value is close to the formula. -/
theorem msr_close {q : ℚ} (h0 : 0 ≤ q) (h1 : q ≤ 15) :
    0 ≤ d (f q + 1) ∧ f (sq (d (f q + 1))) ≠ 0 ∧
    |((f (f (f (d (f q - 1)) / f (sq (d (f q + 1)))) * 10000) : ℚ) : ℝ) -
      10000 * (((q : ℝ) - 1) / Real.sqrt ((q : ℝ) + 1))| ≤ 1 / 10 := by
  have r0 : (0 : ℝ) ≤ q := by exact_mod_cast h0
  have r1 : (q : ℝ) ≤ 15 := by exact_mod_cast h1
  have hr : |(q : ℝ)| ≤ 15 := by rw [abs_of_nonneg r0]; exact r1
  have a1 := f_accR hf (x := q) (y := (q : ℝ)) (e := 0) (by simp) hr
  norm_num at a1
  have u1 : |((f q - 1 : ℚ) : ℝ) - (q - 1)| ≤ 15 / 16777216 := by
    push_cast
    rw [abs_le] at a1 ⊢; constructor <;> linarith
  have hu : |(q : ℝ) - 1| ≤ 14 := by rw [abs_le]; constructor <;> linarith
  have u2 := d_accR hd u1 hu
  have u3 := f_accR hf u2 hu
  have l1 : |((f q + 1 : ℚ) : ℝ) - (q + 1)| ≤ 15 / 16777216 := by
    push_cast
    rw [abs_le] at a1 ⊢; constructor <;> linarith
  have hl : |(q : ℝ) + 1| ≤ 16 := by rw [abs_le]; constructor <;> linarith
  have l2 := d_accR hd l1 hl
  have hf0 := f_nonneg hf h0
  have harg : 0 ≤ d (f q + 1) := by
    have := d_ge hd 1 (by norm_num) (show ((1 : Int) : ℚ) ≤ f q + 1 by push_cast; linarith)
    push_cast at this
    linarith
  refine ⟨harg, ?_⟩
  generalize f (d (f q - 1)) = U at *
  generalize d (f q + 1) = A at *
  have hA0 : (0 : ℝ) ≤ A := by exact_mod_cast harg
  have s1 := sqrt_close hA0 (show (1 : ℝ) ≤ q + 1 by linarith) l2
  have s2 := hsq A harg
  have hL4 : Real.sqrt ((q : ℝ) + 1) ≤ 4 := by
    rw [Real.sqrt_le_left (by norm_num)]; linarith
  have hL1 : 1 ≤ Real.sqrt ((q : ℝ) + 1) := Real.one_le_sqrt.2 (by linarith)
  have hquot : |((q : ℝ) - 1) / Real.sqrt ((q : ℝ) + 1)| ≤ 35 / 10 := by
    rw [abs_div, abs_of_pos (show 0 < Real.sqrt ((q : ℝ) + 1) by linarith), div_le_iff₀ (by linarith)]
    have h3 : (q : ℝ) + 1 = Real.sqrt ((q : ℝ) + 1) ^ 2 := (Real.sq_sqrt (by linarith)).symm
    generalize Real.sqrt ((q : ℝ) + 1) = L at *
    rw [abs_le]
    constructor <;> nlinarith
  generalize Real.sqrt ((q : ℝ) + 1) = L at *
  have s3 : Real.sqrt A ≤ 5 := by
    have := abs_le.1 s1
    norm_num at this
    linarith [this.2]
  have s4 : |((sq A : ℚ) : ℝ) - L| ≤ 10 / 10000000 := by
    have := abs_sub_le ((sq A : ℚ) : ℝ) (Real.sqrt A) L
    norm_num at s1
    linarith
  have s5 := f_accR hf s4 (B := 4) (by rw [abs_of_nonneg (by linarith)]; exact hL4)
  generalize f (sq A) = l at *
  have s6 : |(l : ℝ) - L| ≤ 13 / 10000000 := by norm_num at s5 ⊢; linarith
  have hl' := abs_le.1 s6
  have hlpos : (99 / 100 : ℝ) ≤ l := by linarith
  constructor
  · rintro rfl
    norm_num at hlpos
  have u4 : |(U : ℝ) - (q - 1)| ≤ 18 / 10000000 := by norm_num at u3 ⊢; linarith
  have hLpos : L ≠ 0 := by linarith
  have hq : |((U / l : ℚ) : ℝ) - ((q : ℝ) - 1) / L| ≤ 65 / 10000000 := by
    push_cast
    have e2 : (U : ℝ) / l - ((q : ℝ) - 1) / L = ((U - (q - 1)) - ((q : ℝ) - 1) / L * (l - L)) / l := by
      have : (l : ℝ) ≠ 0 := by linarith
      field_simp
      ring
    rw [e2, abs_div, abs_of_pos (show (0 : ℝ) < l by linarith), div_le_iff₀ (by linarith)]
    have h4 := abs_sub ((U : ℝ) - (q - 1)) (((q : ℝ) - 1) / L * (l - L))
    have h5 : |((q : ℝ) - 1) / L * (l - L)| ≤ 35 / 10 * (13 / 10000000) := by
      rw [abs_mul]
      exact mul_le_mul hquot s6 (abs_nonneg _) (by norm_num)
    have h6 : (35 / 10 : ℝ) * (13 / 10000000) ≤ 46 / 10000000 := by norm_num
    linarith
  have v1 := f_accR hf hq hquot
  generalize f (U / l) = I at *
  generalize ((q : ℝ) - 1) / L = Q at *
  have v2 : |((I * 10000 : ℚ) : ℝ) - 10000 * Q| ≤ 7 / 100 := by
    push_cast
    norm_num at v1
    rw [abs_le] at v1 ⊢; constructor <;> linarith
  have v3 := f_accR hf v2 (B := 35000) (by
    rw [abs_mul, show |(10000 : ℝ)| = 10000 by norm_num]; linarith)
  norm_num at v3 ⊢
  linarith

/-- Large ratios: the value is far out of range. -/
theorem msr_large {q : ℚ} (h1 : 15 ≤ q) :
    0 ≤ d (f q + 1) ∧ 33000 ≤ f (f (f (d (f q - 1)) / f (sq (d (f q + 1)))) * 10000) := by
  have hR := f_ge hf 15 (by norm_num) (show ((15 : Int) : ℚ) ≤ q by push_cast; exact h1)
  push_cast at hR
  generalize f q = R at *
  have r : (15 : ℝ) ≤ R := by exact_mod_cast hR
  have harg : 0 ≤ d (R + 1) := by
    have := d_ge hd 1 (by norm_num) (show ((1 : Int) : ℚ) ≤ R + 1 by push_cast; linarith)
    push_cast at this
    linarith
  refine ⟨harg, ?_⟩
  have u1 := d_accR hd (x := R - 1) (y := ((R - 1 : ℚ) : ℝ)) (e := 0) (by simp) (le_refl _)
  have l1 := d_accR hd (x := R + 1) (y := ((R + 1 : ℚ) : ℝ)) (e := 0) (by simp) (le_refl _)
  push_cast at u1 l1
  rw [abs_of_pos (show (0 : ℝ) < R - 1 by linarith)] at u1
  rw [abs_of_pos (show (0 : ℝ) < R + 1 by linarith)] at l1
  have u2 := f_accR hf (x := d (R - 1)) (y := ((d (R - 1) : ℚ) : ℝ)) (e := 0) (by simp) (le_refl _)
  have u1' := abs_le.1 u1
  have l1' := abs_le.1 l1
  rw [abs_of_pos (show (0 : ℝ) < ((d (R - 1) : ℚ) : ℝ) by linarith)] at u2
  have u2' := abs_le.1 u2
  generalize f (d (R - 1)) = U at *
  generalize d (R - 1) = V at *
  generalize d (R + 1) = A at *
  have hU : (99 / 100) * ((R : ℝ) - 1) ≤ U := by linarith
  have hA0 : (0 : ℝ) ≤ A := by exact_mod_cast harg
  have hA : (A : ℝ) ≤ (101 / 100) * (R + 1) := by linarith
  have s2 := hsq A harg
  have hsA := Real.sqrt_nonneg (A : ℝ)
  have s2' := abs_le.1 s2
  have s3 := f_accR hf (x := sq A) (y := ((sq A : ℚ) : ℝ)) (e := 0) (by simp) (le_refl _)
  have hsq0 : (0 : ℝ) ≤ ((sq A : ℚ) : ℝ) := by linarith
  rw [abs_of_nonneg hsq0] at s3
  have s3' := abs_le.1 s3
  have hl : ((f (sq A) : ℚ) : ℝ) ≤ (101 / 100) * Real.sqrt A := by linarith
  have hApos : (15 : ℝ) ≤ A := by linarith
  have hs3 : 3 ≤ Real.sqrt (A : ℝ) := by
    rw [Real.le_sqrt' (by norm_num)]; linarith
  have hlpos : (0 : ℝ) < ((f (sq A) : ℚ) : ℝ) := by linarith
  generalize f (sq A) = l at *
  have hAs := Real.mul_self_sqrt hA0
  have hkey : (3.4 : ℝ) * l ≤ U := by
    -- 3.4 * 1.01 * sqrt A <= 0.99 (R - 1)
    have h5 : Real.sqrt (A : ℝ) ≤ (275 / 1000) * (R - 1) + 1 / 5 := by
      rw [Real.sqrt_le_left (by linarith)]
      nlinarith
    nlinarith
  have hq : (3.4 : ℝ) ≤ ((U / l : ℚ) : ℝ) := by
    push_cast
    rw [le_div_iff₀ hlpos]; exact hkey
  have hq' : ((3 : Int) : ℚ) ≤ U / l := by
    have : (3 : ℝ) ≤ ((U / l : ℚ) : ℝ) := by linarith
    have : (3 : ℚ) ≤ U / l := by exact_mod_cast this
    exact_mod_cast this
  have v1 := f_mono hf (show (27 / 8 : ℚ) ≤ U / l by
    have : (((27 / 8 : ℚ)) : ℝ) ≤ ((U / l : ℚ) : ℝ) := by
      refine le_trans ?_ hq
      push_cast; norm_num
    exact_mod_cast this)
  have e1 : f (27 / 8) = 27 / 8 := by
    refine eq_of_nearest_rep ⟨27, -3, by norm_num, ?_⟩ (hf _)
    norm_num
  rw [e1] at v1
  have v2 := f_ge hf 33000 (by norm_num) (show ((33000 : Int) : ℚ) ≤ f (U / l) * 10000 by push_cast; linarith)
  push_cast at v2
  exact v2

end

/-- C76, in part: for a non-negative first and a positive second reflectance, MSRre and MSRren are missing if
10000 times the formula is out of the range of 16 bit integers; otherwise that number is stored (up to
rounding, without its fraction). If the second reflectance is zero, or the two are opposite, they are
missing. Not covered: see `c76_nan_violated`. -/
theorem c76_msr_partial (f d ex sq : ℚ → ℚ) (hf : ∀ x, Nearest 24 x (f x)) (hd : ∀ x, Nearest 53 x (d x))
    (hsq : ∀ x : ℚ, 0 ≤ x → |((sq x : ℚ) : ℝ) - Real.sqrt x| ≤ Real.sqrt x / 1000000000000)
    (nodata b1 b2 : Int) (name : String) (hn : name = "MSRre" ∨ name = "MSRren") :
    (b2 = 0 → equation f d ex sq nodata name [b1, b2] = .ok nodata) ∧
    (0 ≤ b1 → 0 < b2 → 32767.2 < 10000 * msr b1 b2 → equation f d ex sq nodata name [b1, b2] = .ok nodata) ∧
    (0 ≤ b1 → 0 < b2 → 10000 * msr b1 b2 < 32766.8 → ∃ v, equation f d ex sq nodata name [b1, b2] = .ok v ∧
      Stored (1 / 10) v (10000 * msr b1 b2)) ∧
    (0 ≤ b1 → 0 < b2 → ∃ v, equation f d ex sq nodata name [b1, b2] = .ok v) := by
  rw [equation_msr hn]
  refine ⟨fun h => by unfold msrre; rw [if_pos h], ?_⟩
  by_cases hp : 0 ≤ b1 ∧ 0 < b2
  swap
  · exact ⟨fun a b => absurd ⟨a, b⟩ hp, fun a b => absurd ⟨a, b⟩ hp, fun a b => absurd ⟨a, b⟩ hp⟩
  obtain ⟨p1, p2⟩ := hp
  have hq0 : (0 : ℚ) ≤ (b1 : ℚ) / b2 := div_nonneg (by exact_mod_cast p1) (by exact_mod_cast p2.le)
  have e0 : (b1 : ℝ) / b2 = (((b1 : ℚ) / b2 : ℚ) : ℝ) := by push_cast; rfl
  have hmsr : msr b1 b2 = ((((b1 : ℚ) / b2 : ℚ) : ℝ) - 1) / Real.sqrt ((((b1 : ℚ) / b2 : ℚ) : ℝ) + 1) := by
    unfold msr; rw [e0]
  rw [hmsr]
  unfold msrre
  rw [if_neg (by omega)]
  simp only
  generalize (b1 : ℚ) / b2 = q at *
  have hlow : -10000 ≤ 10000 * (((q : ℝ) - 1) / Real.sqrt ((q : ℝ) + 1)) := by
    have r0 : (0 : ℝ) ≤ q := by exact_mod_cast hq0
    have hL1 : 1 ≤ Real.sqrt ((q : ℝ) + 1) := Real.one_le_sqrt.2 (by linarith)
    have : -1 ≤ ((q : ℝ) - 1) / Real.sqrt ((q : ℝ) + 1) := by
      rw [le_div_iff₀ (by linarith)]; linarith
    linarith
  rcases le_total q 15 with h15 | h15
  · obtain ⟨g1, g2, g3⟩ := msr_close hf hd hsq hq0 h15
    rw [if_neg (not_lt.2 g1)]
    generalize 10000 * (((q : ℝ) - 1) / Real.sqrt ((q : ℝ) + 1)) = x at *
    generalize f (f (f (d (f q - 1)) / f (sq (d (f q + 1)))) * 10000) = y at *
    have g3' := abs_le.1 g3
    refine ⟨fun _ _ h => ?_, fun _ _ h => ?_, fun _ _ => ?_⟩
    · rw [if_pos]
      right; left
      have : (32767 : ℝ) < (y : ℝ) := by linarith
      exact_mod_cast this
    · obtain ⟨v, hv, hs⟩ := short_stored g3 (by linarith) (by linarith)
      refine ⟨v, ?_, hs⟩
      rw [if_neg, hv]
      rintro (h | h | h)
      · exact g2 h
      · have : (32767 : ℝ) < (y : ℝ) := by exact_mod_cast h
        linarith
      · have : (y : ℝ) < -32768 := by exact_mod_cast h
        linarith
    · split
      · exact ⟨_, rfl⟩
      · rename_i h
        rw [not_or, not_or, not_lt, not_lt] at h
        exact ⟨_, short_ok (by linarith [h.2.2]) (by linarith [h.2.1])⟩
  · obtain ⟨g1, g2⟩ := msr_large hf hd hsq h15
    rw [if_neg (not_lt.2 g1)]
    generalize f (f (f (d (f q - 1)) / f (sq (d (f q + 1)))) * 10000) = y at *
    have hx : 10000 * (((q : ℝ) - 1) / Real.sqrt ((q : ℝ) + 1)) ≥ 35000 := by
      have r1 : (15 : ℝ) ≤ q := by exact_mod_cast h15
      have hs := Real.mul_self_sqrt (show (0 : ℝ) ≤ q + 1 by linarith)
      have hs4 : 4 ≤ Real.sqrt ((q : ℝ) + 1) := by
        rw [Real.le_sqrt' (by norm_num)]; linarith
      have : (35 / 10 : ℝ) ≤ ((q : ℝ) - 1) / Real.sqrt ((q : ℝ) + 1) := by
        rw [le_div_iff₀ (by linarith)]
        nlinarith
      linarith
    refine ⟨fun _ _ _ => ?_, fun _ _ h => ?_, fun _ _ => ?_⟩
    · rw [if_pos]; right; left; linarith
    · linarith
    · rw [if_pos (Or.inr (Or.inl (by linarith)))]; exact ⟨_, rfl⟩

/-- C76: all other combinations that are defined are safe, too: MSRre of reflectances with a ratio of -1 or
more is stored or missing. -/
theorem c76_msr_safe (f d ex sq : ℚ → ℚ) (hf : ∀ x, Nearest 24 x (f x)) (hd : ∀ x, Nearest 53 x (d x))
    (nodata b1 b2 : Int) (name : String) (hn : name = "MSRre" ∨ name = "MSRren")
    (h : -1 ≤ (b1 : ℝ) / b2) : ∃ v, equation f d ex sq nodata name [b1, b2] = .ok v := by
  rw [equation_msr hn]
  unfold msrre
  by_cases h0 : b2 = 0
  · rw [if_pos h0]; exact ⟨_, rfl⟩
  rw [if_neg h0]
  simp only
  have hq : ((-1 : Int) : ℚ) ≤ (b1 : ℚ) / b2 := by
    have e0 : (b1 : ℝ) / b2 = (((b1 : ℚ) / b2 : ℚ) : ℝ) := by push_cast; rfl
    rw [e0] at h
    push_cast
    exact_mod_cast h
  have h1 := f_ge hf (-1) (by norm_num) hq
  push_cast at h1
  have h2 := d_ge hd 0 (by norm_num) (show ((0 : Int) : ℚ) ≤ f ((b1 : ℚ) / b2) + 1 by push_cast; linarith)
  push_cast at h2
  rw [if_neg (not_lt.2 h2)]
  split
  · exact ⟨_, rfl⟩
  · rename_i h
    rw [not_or, not_or, not_lt, not_lt] at h
    exact ⟨_, short_ok (by linarith [h.2.2]) (by linarith [h.2.1])⟩

end Verif.Index
