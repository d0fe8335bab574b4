import Mathlib.Data.Int.Star
import Verif.Index.Lemmas

/-! # C72: normalised differences -/

namespace Verif.Index

open Verif.Float Verif.Str Spec

theorem kind_diff : ∀ n ∈ normDiffs, kindOf n = some .differenced := by decide +kernel

theorem equation_diff {f d ex sq : ℚ → ℚ} {nodata b1 b2 : Int} {name : String} (hn : name ∈ normDiffs) :
    equation f d ex sq nodata name [b1, b2] = differenced f nodata b1 b2 := by
  unfold equation
  rw [kind_diff name hn]

section
variable {f : ℚ → ℚ} (hf : ∀ x, Nearest 24 x (f x))
include hf

/-- The first part of the computation is exact. -/
theorem differenced_eq {nodata b1 b2 : Int} (h1 : Short b1) (h2 : Short b2) :
    differenced f nodata b1 b2 =
      if b1 + b2 = 0 ∨ f (((b1 - b2 : Int) : ℚ) / ((b1 + b2 : Int) : ℚ)) < -1 ∨
        f (((b1 - b2 : Int) : ℚ) / ((b1 + b2 : Int) : ℚ)) > 1 then .ok nodata
      else short (f (f (((b1 - b2 : Int) : ℚ) / ((b1 + b2 : Int) : ℚ)) * 10000)) := by
  unfold Short at h1 h2
  unfold differenced
  simp only
  rw [f_int hf (b1 + b2) (by rw [abs_le]; omega), f_int hf (b1 - b2) (by rw [abs_le]; omega)]
  simp only [Int.cast_eq_zero]

theorem f_one_plus : f (65537 / 65536) = 65537 / 65536 := by
  refine eq_of_nearest_rep ⟨65537, -16, by norm_num, ?_⟩ (hf _)
  norm_num

theorem f_neg_one_plus : f (-65537 / 65536) = -65537 / 65536 := by
  refine eq_of_nearest_rep ⟨-65537, -16, by norm_num, ?_⟩ (hf _)
  norm_num

theorem f_quot_big {n s : Int} (hs : |s| ≤ 65536) (h0 : s ≠ 0) (h : |s| < |n|) :
    f ((n : ℚ) / s) < -1 ∨ f ((n : ℚ) / s) > 1 := by
  have hs0 : (0 : ℚ) < |(s : ℚ)| := abs_pos.2 (by exact_mod_cast h0)
  have hs1 : |(s : ℚ)| ≤ 65536 := by exact_mod_cast hs
  have hn : |(s : ℚ)| + 1 ≤ |(n : ℚ)| := by exact_mod_cast h
  have hq : 65537 / 65536 ≤ |(n : ℚ) / s| := by
    rw [abs_div, le_div_iff₀ hs0]; linarith
  rcases abs_cases ((n : ℚ) / s) with a | a
  · right
    have := f_mono hf (show 65537 / 65536 ≤ (n : ℚ) / s by linarith [a.1])
    rw [f_one_plus hf] at this
    have : (1 : ℚ) < 65537 / 65536 := by norm_num
    linarith
  · left
    have := f_mono hf (show (n : ℚ) / s ≤ -65537 / 65536 by linarith [a.1])
    rw [f_neg_one_plus hf] at this
    have : (-65537 / 65536 : ℚ) < -1 := by norm_num
    linarith

theorem quot_small {n s : Int} (h0 : s ≠ 0) (h : |n| ≤ |s|) : |(n : ℚ) / s| ≤ 1 := by
  have hs0 : (0 : ℚ) < |(s : ℚ)| := abs_pos.2 (by exact_mod_cast h0)
  have hn : |(n : ℚ)| ≤ |(s : ℚ)| := by exact_mod_cast h
  rw [abs_div, div_le_one hs0]; exact hn

theorem f_quot_small {n s : Int} (h0 : s ≠ 0) (h : |n| ≤ |s|) :
    |f ((n : ℚ) / s)| ≤ 1 := by
  have := quot_small hf h0 h
  rw [abs_le] at this ⊢
  have e1 : f 1 = 1 := by simpa using f_int hf 1 (by norm_num)
  have e2 : f (-1) = -1 := by simpa using f_int hf (-1) (by norm_num)
  have a := f_mono hf this.1
  have b := f_mono hf this.2
  rw [e1] at b; rw [e2] at a
  exact ⟨a, b⟩

/-- The scaled value: its error and its range. -/
theorem scaled {q : ℚ} (h : |q| ≤ 1) : |f (f q * 10000) - q * 10000| ≤ 1 / 500 := by
  have h1 := f_err hf q
  have h2 : |f q * 10000 - q * 10000| ≤ 10000 / 16777216 := by
    rw [← sub_mul, abs_mul]
    have : |(10000 : ℚ)| = 10000 := by norm_num
    rw [this]
    have : |q| / 16777216 ≤ 1 / 16777216 := by
      apply div_le_div_of_nonneg_right h (by norm_num)
    linarith
  have h3 : |q * 10000| ≤ 10000 := by
    rw [abs_mul]
    have : |(10000 : ℚ)| = 10000 := by norm_num
    rw [this]; linarith
  have := f_acc hf h2 h3
  norm_num at this ⊢
  linarith

theorem scaled_range {y : ℚ} (h : |y| ≤ 1) : |f (y * 10000)| ≤ 10000 := by
  rw [abs_le] at h ⊢
  have e1 : f 10000 = 10000 := by simpa using f_int hf 10000 (by norm_num)
  have e2 : f (-10000) = -10000 := by simpa using f_int hf (-10000) (by norm_num)
  have a := f_mono hf (show (-10000 : ℚ) ≤ y * 10000 by linarith)
  have b := f_mono hf (show y * 10000 ≤ (10000 : ℚ) by linarith)
  rw [e1] at b; rw [e2] at a
  exact ⟨a, b⟩

theorem differenced_ok {nodata b1 b2 : Int} (h1 : Short b1) (h2 : Short b2) (h0 : b1 + b2 ≠ 0)
    (h : |b1 - b2| ≤ |b1 + b2|) :
    differenced f nodata b1 b2 =
      .ok (truncQ (f (f (((b1 - b2 : Int) : ℚ) / ((b1 + b2 : Int) : ℚ)) * 10000))) := by
  have hq := f_quot_small hf h0 h
  have hq' := abs_le.1 hq
  rw [differenced_eq hf h1 h2, if_neg (by
    rintro (a | a | a)
    · exact h0 a
    · linarith
    · linarith)]
  have := abs_le.1 (scaled_range hf hq)
  exact short_ok (by linarith) (by linarith)

end

/-- C72: an index that is a normalised difference of two bands is missing exactly if the sum of the bands
is zero or the normalised difference is not in -1 to 1; otherwise it is 10000 times the normalised
difference (up to rounding), without its fraction, and lies in -10000 to 10000. -/
theorem c72_value (f d ex sq : ℚ → ℚ) (hf : ∀ x, Nearest 24 x (f x)) (nodata : Int) (name : String)
    (hn : name ∈ normDiffs) (b1 b2 : Int) (h1 : Short b1) (h2 : Short b2) :
    ((b1 + b2 = 0 ∨ |normDiff b1 b2| > 1) →
      equation f d ex sq nodata name [b1, b2] = .ok nodata) ∧
    ((b1 + b2 ≠ 0 ∧ |normDiff b1 b2| ≤ 1) → ∃ v, equation f d ex sq nodata name [b1, b2] = .ok v ∧
      Stored (1 / 500) v (10000 * normDiff b1 b2) ∧ -10000 ≤ v ∧ v ≤ 10000) := by
  rw [equation_diff hn]
  have key : b1 + b2 ≠ 0 → (|normDiff b1 b2| ≤ 1 ↔ |b1 - b2| ≤ |b1 + b2|) := by
    intro h0
    have hs0 : (0 : ℝ) < |(b1 : ℝ) + b2| := abs_pos.2 (by exact_mod_cast h0)
    unfold normDiff
    rw [abs_div, div_le_one hs0]
    constructor
    · intro h; exact_mod_cast h
    · intro h; exact_mod_cast h
  constructor
  · intro h
    by_cases h0 : b1 + b2 = 0
    · rw [differenced_eq hf h1 h2, if_pos (Or.inl h0)]
    · have hb : |normDiff b1 b2| > 1 := by tauto
      have hb' : |b1 + b2| < |b1 - b2| := by
        rw [← not_le, ← key h0, not_le]; exact hb
      unfold Short at h1 h2
      have := f_quot_big hf (show |b1 + b2| ≤ 65536 by rw [abs_le]; omega) h0 hb'
      rw [differenced_eq hf h1 h2, if_pos (Or.inr this)]
  · rintro ⟨h0, hb⟩
    have hb' := (key h0).1 hb
    refine ⟨_, differenced_ok hf h1 h2 h0 hb', ⟨_, ?_, integerPart _⟩, ?_⟩
    · have := scaled hf (quot_small hf h0 hb')
      have h3 : |((f (f (((b1 - b2 : Int) : ℚ) / ((b1 + b2 : Int) : ℚ)) * 10000) : ℚ) : ℝ) -
          (((b1 - b2 : Int) : ℚ) / ((b1 + b2 : Int) : ℚ) * 10000 : ℚ)| ≤ ((1 / 500 : ℚ) : ℝ) := by
        exact_mod_cast this
      unfold normDiff
      push_cast at h3 ⊢
      rw [mul_comm (10000 : ℝ)]
      exact h3
    · have hr := scaled_range hf (f_quot_small hf h0 hb')
      have ht := (truncQ_abs (f (f (((b1 - b2 : Int) : ℚ) / ((b1 + b2 : Int) : ℚ)) * 10000))).1
      have : |(truncQ (f (f (((b1 - b2 : Int) : ℚ) / ((b1 + b2 : Int) : ℚ)) * 10000)) : ℚ)| ≤ 10000 :=
        ht.trans hr
      have h4 : |truncQ (f (f (((b1 - b2 : Int) : ℚ) / ((b1 + b2 : Int) : ℚ)) * 10000))| ≤ 10000 := by
        exact_mod_cast this
      exact abs_le.1 h4

theorem truncQ_mono {x y : ℚ} (h : x ≤ y) : truncQ x ≤ truncQ y := by
  rw [truncQ_eq, truncQ_eq]
  split
  · rename_i hx
    rw [if_pos (hx.trans h)]
    exact Int.floor_le_floor h
  · rename_i hx
    have hx := not_le.1 hx
    split
    · rename_i hy
      have a : ⌈x⌉ ≤ 0 := Int.ceil_le.2 (by simpa using hx.le)
      have b := Int.floor_nonneg.2 hy
      omega
    · exact Int.ceil_le_ceil h

/-- C72: more of the first band and less of the second never lowers the value. -/
theorem c72_order (f d ex sq : ℚ → ℚ) (hf : ∀ x, Nearest 24 x (f x)) (nodata : Int) (name : String)
    (hn : name ∈ normDiffs) (b1 b2 c1 c2 : Int) (h1 : 0 ≤ b1) (hbc1 : b1 ≤ c1) (hc1 : c1 ≤ 32767)
    (h2 : 0 ≤ c2) (hbc2 : c2 ≤ b2) (hb2 : b2 ≤ 32767) (hb : 0 < b1 + b2) (hc : 0 < c1 + c2) :
    ∃ v w, equation f d ex sq nodata name [b1, b2] = .ok v ∧
      equation f d ex sq nodata name [c1, c2] = .ok w ∧ v ≤ w := by
  rw [equation_diff hn, equation_diff hn]
  have e1 := differenced_ok (nodata := nodata) hf (b1 := b1) (b2 := b2) ⟨by omega, by omega⟩
    ⟨by omega, by omega⟩ (by omega) (by rw [abs_of_pos hb, abs_le]; omega)
  have e2 := differenced_ok (nodata := nodata) hf (b1 := c1) (b2 := c2) ⟨by omega, by omega⟩
    ⟨by omega, by omega⟩ (by omega) (by rw [abs_of_pos hc, abs_le]; omega)
  refine ⟨_, _, e1, e2, truncQ_mono (f_mono hf ?_)⟩
  have : f (((b1 - b2 : Int) : ℚ) / ((b1 + b2 : Int) : ℚ)) ≤
      f (((c1 - c2 : Int) : ℚ) / ((c1 + c2 : Int) : ℚ)) := by
    apply f_mono hf
    have hb' : (0 : ℚ) < ((b1 + b2 : Int) : ℚ) := by exact_mod_cast hb
    have hc' : (0 : ℚ) < ((c1 + c2 : Int) : ℚ) := by exact_mod_cast hc
    rw [div_le_div_iff₀ hb' hc']
    have : (b1 - b2) * (c1 + c2) ≤ (c1 - c2) * (b1 + b2) := by nlinarith
    exact_mod_cast this
  linarith

theorem truncQ_neg (x : ℚ) : truncQ (-x) = -truncQ x := by
  unfold truncQ
  rw [Rat.num_neg_eq_neg_num, Rat.den_neg_eq_den, Int.neg_tdiv]

/-- C72: exchanging the two bands changes the sign of the value and nothing else (with a rounding that is
symmetric, as the default one). -/
theorem c72_swap (f d ex sq : ℚ → ℚ) (hf : ∀ x, Nearest 24 x (f x)) (hodd : ∀ x, f (-x) = -f x)
    (nodata : Int) (name : String) (hn : name ∈ normDiffs) (b1 b2 : Int) (h1 : Short b1)
    (h2 : Short b2) (h0 : b1 + b2 ≠ 0) (h : |normDiff b1 b2| ≤ 1) :
    ∃ v, equation f d ex sq nodata name [b1, b2] = .ok v ∧
      equation f d ex sq nodata name [b2, b1] = .ok (-v) := by
  rw [equation_diff hn, equation_diff hn]
  have hb' : |b1 - b2| ≤ |b1 + b2| := by
    have hs0 : (0 : ℝ) < |(b1 : ℝ) + b2| := abs_pos.2 (by exact_mod_cast h0)
    unfold normDiff at h
    rw [abs_div, div_le_one hs0] at h
    exact_mod_cast h
  refine ⟨_, differenced_ok hf h1 h2 h0 hb', ?_⟩
  rw [differenced_ok hf h2 h1 (by omega) (by rw [abs_sub_comm, add_comm]; exact hb')]
  congr 1
  rw [← truncQ_neg, ← hodd]
  congr 2
  rw [neg_mul_eq_neg_mul, ← hodd]
  congr 2
  push_cast
  rw [add_comm (b2 : ℚ), ← neg_div, neg_sub]

/-- C72: the value depends on the proportion of the bands only. -/
theorem c72_proportion (f d ex sq : ℚ → ℚ) (hf : ∀ x, Nearest 24 x (f x)) (nodata : Int) (name : String)
    (hn : name ∈ normDiffs) (k b1 b2 : Int) (hk : 0 < k) (h1 : Short b1) (h2 : Short b2)
    (h3 : Short (k * b1)) (h4 : Short (k * b2)) :
    equation f d ex sq nodata name [k * b1, k * b2] = equation f d ex sq nodata name [b1, b2] := by
  rw [equation_diff hn, equation_diff hn, differenced_eq hf h1 h2, differenced_eq hf h3 h4]
  have e : (((k * b1 - k * b2 : Int) : ℚ) / ((k * b1 + k * b2 : Int) : ℚ)) =
      ((b1 - b2 : Int) : ℚ) / ((b1 + b2 : Int) : ℚ) := by
    have hk' : (k : ℚ) ≠ 0 := by exact_mod_cast hk.ne'
    rw [← mul_sub, ← mul_add]
    push_cast
    rw [mul_div_mul_left _ _ hk']
  have e2 : k * b1 + k * b2 = 0 ↔ b1 + b2 = 0 := by
    rw [← mul_add]
    constructor
    · intro h; rcases mul_eq_zero.1 h with h | h
      · omega
      · exact h
    · intro h; rw [h, mul_zero]
  rw [e]
  simp only [e2]

/-- C72: with reflectances in 0 to 10000 that are not both zero the value is never -9999, which would mark
it as missing. -/
theorem c72_not_missing (f d ex sq : ℚ → ℚ) (hf : ∀ x, Nearest 24 x (f x)) (name : String)
    (hn : name ∈ normDiffs) (b1 b2 : Int) (h1 : 0 ≤ b1) (h1' : b1 ≤ 10000) (h2 : 0 ≤ b2)
    (h2' : b2 ≤ 10000) (h0 : 0 < b1 + b2) :
    equation f d ex sq (-9999) name [b1, b2] ≠ .ok (-9999) := by
  have hs1 : Short b1 := ⟨by omega, by omega⟩
  have hs2 : Short b2 := ⟨by omega, by omega⟩
  by_cases hz : b1 = 0
  · subst hz
    rw [equation_diff hn, differenced_ok hf hs1 hs2 (by omega)
      (by rw [abs_of_pos h0, abs_le]; omega)]
    have hb2 : (b2 : ℚ) ≠ 0 := by
      have : b2 ≠ 0 := by omega
      exact_mod_cast this
    have : ((0 - b2 : Int) : ℚ) / ((0 + b2 : Int) : ℚ) = -1 := by
      push_cast; rw [zero_sub, zero_add, neg_div, div_self hb2]
    rw [this, show f (-1) = -1 by simpa using f_int hf (-1) (by norm_num),
      show (-1 : ℚ) * 10000 = ((-10000 : Int) : ℚ) by norm_num, f_int hf _ (by norm_num)]
    intro h
    injection h with h
    have : truncQ ((-10000 : Int) : ℚ) = -10000 := by
      rw [truncQ_eq, if_neg (by norm_num)]; exact Int.ceil_intCast _
    omega
  · have hpos : (0 : ℝ) < (b1 : ℝ) + b2 := by exact_mod_cast h0
    obtain ⟨v, hv, ⟨y, hy, hp⟩, -⟩ := (c72_value f d ex sq hf (-9999) name hn b1 b2 hs1 hs2).2
      ⟨by omega, by
        unfold normDiff
        rw [abs_div, abs_of_pos hpos, div_le_one hpos, abs_le]
        have a1 : (0 : ℝ) ≤ b1 := by exact_mod_cast h1
        have a2 : (0 : ℝ) ≤ b2 := by exact_mod_cast h2
        constructor <;> linarith⟩
    rw [hv]
    intro h
    injection h with h
    subst h
    unfold IntegerPart at hp
    push_cast at hp
    have hy0 : y ≤ 0 := by nlinarith [hp.2.2]
    rw [abs_of_nonpos hy0, show |(-9999 : ℝ)| = 9999 by norm_num] at hp
    have hyl := abs_le.1 hy
    have hlow : -9998.5 ≤ 10000 * normDiff b1 b2 := by
      unfold normDiff
      rw [← mul_div_assoc, le_div_iff₀ hpos]
      have a1 : (1 : ℝ) ≤ b1 := by
        have : 1 ≤ b1 := by omega
        exact_mod_cast this
      have a2 : (b2 : ℝ) ≤ 10000 := by exact_mod_cast h2'
      nlinarith
    linarith [hp.1]

end Verif.Index
