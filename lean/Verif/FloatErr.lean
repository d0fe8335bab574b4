import Verif.Float

/-!
# Error of rounding to nearest
-/

namespace Verif.Float

/-- The relative error of rounding to nearest is at most half a unit in the last place. -/
theorem nearest_err {p : Nat} (hp : 0 < p) {x r : ℚ} (h : Nearest p x r) : |x - r| ≤ |x| / 2 ^ p := by
  rcases eq_or_ne x 0 with rfl | hx
  · have := eq_of_nearest_rep (p := p) ⟨0, 0, by positivity, by simp⟩ h
    subst this; simp
  have hax : 0 < |x| := abs_pos.2 hx
  set e : ℤ := Int.log 2 |x| - ((p - 1 : ℕ) : ℤ) with he
  have pe : (0 : ℚ) < (2 : ℚ) ^ e := by positivity
  have two : (2 : ℚ) ≠ 0 := by norm_num
  have lo : (2 : ℚ) ^ (p - 1) * (2 : ℚ) ^ e ≤ |x| := by
    have := Int.zpow_log_le_self (b := 2) (by norm_num) hax
    rw [← zpow_natCast, ← zpow_add₀ two, he]
    simpa using this
  have hi : |x| < (2 : ℚ) ^ p * (2 : ℚ) ^ e := by
    have := Int.lt_zpow_succ_log_self (b := 2) (by norm_num) |x|
    rw [← zpow_natCast, ← zpow_add₀ two, he, show (p : ℤ) + (Int.log 2 |x| - ((p - 1 : ℕ) : ℤ)) =
      Int.log 2 |x| + 1 by omega]
    simpa using this
  have hq : |x / (2 : ℚ) ^ e| < 2 ^ p := by
    rw [abs_div, abs_of_pos pe, div_lt_iff₀ pe]; exact hi
  have hr : Rep p ((round (x / (2 : ℚ) ^ e) : ℤ) * (2 : ℚ) ^ e) := by
    refine ⟨_, e, ?_, rfl⟩
    have h1 := abs_sub_round (x / (2 : ℚ) ^ e)
    rw [abs_le] at h1
    rw [abs_lt] at hq
    have a1 : ((round (x / (2 : ℚ) ^ e) : ℤ) : ℚ) < ((2 ^ p + 1 : ℤ) : ℚ) := by
      push_cast; linarith [h1.1, hq.2]
    have a2 : ((-(2 ^ p + 1) : ℤ) : ℚ) < ((round (x / (2 : ℚ) ^ e) : ℤ) : ℚ) := by
      push_cast; linarith [h1.2, hq.1]
    have b1 := Int.cast_lt.1 a1
    have b2 := Int.cast_lt.1 a2
    rw [abs_le]
    constructor <;> omega
  refine (h.2 _ hr).trans ?_
  have e1 : |x - (round (x / (2 : ℚ) ^ e) : ℤ) * (2 : ℚ) ^ e| =
      |x / (2 : ℚ) ^ e - (round (x / (2 : ℚ) ^ e) : ℤ)| * (2 : ℚ) ^ e := by
    rw [← abs_of_pos pe, ← abs_mul, abs_of_pos pe, sub_mul, div_mul_cancel₀ _ pe.ne']
  rw [e1, le_div_iff₀ (by positivity)]
  have h1 := abs_sub_round (x / (2 : ℚ) ^ e)
  have h2 : (2 : ℚ) ^ p = 2 * 2 ^ (p - 1) := by
    rw [← pow_succ']; congr 1; omega
  have h3 : |x / (2 : ℚ) ^ e - (round (x / (2 : ℚ) ^ e) : ℤ)| * (2 : ℚ) ^ e ≤ 1 / 2 * (2 : ℚ) ^ e :=
    mul_le_mul_of_nonneg_right h1 pe.le
  have h4 : (0 : ℚ) < 2 ^ p := by positivity
  calc _ ≤ 1 / 2 * (2 : ℚ) ^ e * 2 ^ p := mul_le_mul_of_nonneg_right h3 h4.le
    _ = 2 ^ (p - 1) * (2 : ℚ) ^ e := by rw [h2]; ring
    _ ≤ |x| := lo

/-- Representable numbers of at least `2^(e+p-1)` are multiples of `2^e`. -/
theorem rep_multiple {p : Nat} (hp : 0 < p) {r : ℚ} (h : Rep p r) {e : ℤ}
    (hr : (2 : ℚ) ^ (e + p - 1) ≤ |r|) : ∃ k : ℤ, r = k * (2 : ℚ) ^ e := by
  obtain ⟨m, e', hm, rfl⟩ := h
  have two : (2 : ℚ) ≠ 0 := by norm_num
  rcases le_or_gt e e' with hle | hlt
  · refine ⟨m * 2 ^ (e' - e).toNat, ?_⟩
    have h1 : e' = e + ((e' - e).toNat : ℤ) := by omega
    conv_lhs => rw [h1]
    rw [zpow_add₀ two, zpow_natCast]
    push_cast
    ring
  · have pe : (0 : ℚ) < (2 : ℚ) ^ e' := by positivity
    have c1 : |(m : ℚ)| ≤ 2 ^ p := by exact_mod_cast hm
    have c2 : (2 : ℚ) ^ e' ≤ (2 : ℚ) ^ (e - 1) := zpow_le_zpow_right₀ (by norm_num) (by omega)
    have c3 : (2 : ℚ) ^ (e + p - 1) = 2 ^ p * (2 : ℚ) ^ (e - 1) := by
      rw [← zpow_natCast, ← zpow_add₀ two]; congr 1; omega
    rw [c3, abs_mul, abs_of_pos pe] at hr
    have c4 : |(m : ℚ)| * (2 : ℚ) ^ e' ≤ 2 ^ p * (2 : ℚ) ^ (e - 1) :=
      mul_le_mul c1 c2 pe.le (by positivity)
    have c5 : |(m : ℚ) * (2 : ℚ) ^ e'| = (2 : ℚ) ^ (p - 1) * (2 : ℚ) ^ e := by
      rw [abs_mul, abs_of_pos pe, le_antisymm c4 hr, ← zpow_natCast, ← zpow_natCast,
        ← zpow_add₀ two, ← zpow_add₀ two]
      congr 1; omega
    rcases abs_choice ((m : ℚ) * (2 : ℚ) ^ e') with h1 | h1
    · exact ⟨2 ^ (p - 1), by rw [← h1, c5]; push_cast; ring⟩
    · refine ⟨-2 ^ (p - 1), ?_⟩
      have : (m : ℚ) * (2 : ℚ) ^ e' = -|(m : ℚ) * (2 : ℚ) ^ e'| := by rw [h1]; ring
      rw [this, c5]; push_cast; ring

/-- The nearest number is unique if it is less than half a unit in the last place away. -/
theorem nearest_unique {p : Nat} (hp : 0 < p) {x r : ℚ} (h : Nearest p x r) (k e : ℤ)
    (hk : |k| ≤ 2 ^ p) (hx : (2 : ℚ) ^ (e + p - 1) + (2 : ℚ) ^ e / 2 ≤ |x|)
    (hd : |x - k * (2 : ℚ) ^ e| < (2 : ℚ) ^ e / 2) : r = k * (2 : ℚ) ^ e := by
  have pe : (0 : ℚ) < (2 : ℚ) ^ e := by positivity
  have h1 : |x - r| < (2 : ℚ) ^ e / 2 := (h.2 _ ⟨k, e, hk, rfl⟩).trans_lt hd
  have h2 : (2 : ℚ) ^ (e + p - 1) ≤ |r| := by
    have := abs_sub_abs_le_abs_sub x r
    linarith
  obtain ⟨j, hj⟩ := rep_multiple hp h.1 h2
  have h3 : |r - k * (2 : ℚ) ^ e| < (2 : ℚ) ^ e := by
    calc _ = |(x - k * (2 : ℚ) ^ e) - (x - r)| := by congr 1; ring
      _ ≤ |x - k * (2 : ℚ) ^ e| + |x - r| := abs_sub _ _
      _ < _ := by linarith
  rw [hj, ← sub_mul, abs_mul, abs_of_pos pe] at h3
  have h4 : |((j - k : ℤ) : ℚ)| < 1 := by
    push_cast
    by_contra hc
    push Not at hc
    nlinarith
  have h5 : |j - k| < 1 := by exact_mod_cast h4
  have h6 : j = k := by rw [Int.abs_lt_one_iff] at h5; omega
  rw [hj, h6]

/-- The same for a number that is not below the smallest one of its unit. -/
theorem nearest_unique_of_ge {p : Nat} (hp : 0 < p) {x r : ℚ} (h : Nearest p x r) (k e : ℤ)
    (hk : |k| ≤ 2 ^ p) (hx : (2 : ℚ) ^ (e + p - 1) ≤ x)
    (hd : |x - k * (2 : ℚ) ^ e| < (2 : ℚ) ^ e / 2) : r = k * (2 : ℚ) ^ e := by
  have pe : (0 : ℚ) < (2 : ℚ) ^ e := by positivity
  have pe' : (0 : ℚ) < (2 : ℚ) ^ (e + p - 1) := by positivity
  have h1 : |x - r| < (2 : ℚ) ^ e / 2 := (h.2 _ ⟨k, e, hk, rfl⟩).trans_lt hd
  have h2 : (2 : ℚ) ^ (e + p - 1) ≤ |r| := by
    have h3 := h.2 ((2 : ℚ) ^ (e + p - 1)) ⟨1, e + p - 1, by
      rw [abs_one]; exact_mod_cast Nat.one_le_two_pow, by push_cast; ring⟩
    rw [abs_of_nonneg (by linarith : 0 ≤ x - (2 : ℚ) ^ (e + p - 1)), abs_le] at h3
    exact le_trans (by linarith [h3.2]) (le_abs_self r)
  obtain ⟨j, hj⟩ := rep_multiple hp h.1 h2
  have h3 : |r - k * (2 : ℚ) ^ e| < (2 : ℚ) ^ e := by
    calc _ = |(x - k * (2 : ℚ) ^ e) - (x - r)| := by congr 1; ring
      _ ≤ |x - k * (2 : ℚ) ^ e| + |x - r| := abs_sub _ _
      _ < _ := by linarith
  rw [hj, ← sub_mul, abs_mul, abs_of_pos pe] at h3
  have h4 : |((j - k : ℤ) : ℚ)| < 1 := by
    push_cast
    by_contra hc
    push Not at hc
    nlinarith
  have h5 : |j - k| < 1 := by exact_mod_cast h4
  have h6 : j = k := by rw [Int.abs_lt_one_iff] at h5; omega
  rw [hj, h6]

end Verif.Float
