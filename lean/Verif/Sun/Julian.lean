import Verif.Sun.Model
import Verif.Sun.Spec
import Verif.FloatErr
import Mathlib.Tactic.IntervalCases

/-! # Theorems on the Julian day -/

namespace Verif.Sun

open Spec
open Verif.Float

theorem leap_count (y : ℕ) : (y : ℤ) / 4 - (y : ℤ) / 100 + (y : ℤ) / 400 =
    ((y : ℤ) - 1) / 4 - ((y : ℤ) - 1) / 100 + ((y : ℤ) - 1) / 400 + (if Leap y then 1 else 0) := by
  have step : ∀ n : ℤ, 0 < n → (y : ℤ) / n = ((y : ℤ) - 1) / n + (if (y : ℤ) % n = 0 then 1 else 0) := by
    intro n hn
    have h1 := Int.mul_ediv_add_emod (y : ℤ) n
    have h3 := Int.emod_nonneg (y : ℤ) hn.ne'
    have h4 := Int.emod_lt_of_pos (y : ℤ) hn
    have h2 : ((y : ℤ) - 1) = ((y : ℤ) % n - 1) + n * ((y : ℤ) / n) := by omega
    rw [h2, Int.add_mul_ediv_left _ _ hn.ne']
    split
    · rename_i h
      rw [h, show (0 : ℤ) - 1 = -1 from rfl, Int.neg_one_ediv, Int.sign_eq_one_of_pos hn]
      omega
    · have : ((y : ℤ) % n - 1) / n = 0 := Int.ediv_eq_zero_of_lt (by omega) (by omega)
      rw [this]
      omega
  rw [step 4 (by norm_num), step 100 (by norm_num), step 400 (by norm_num)]
  by_cases h : Leap y
  · rw [if_pos h]
    unfold Leap at h
    rw [if_pos (by omega)]
    rcases h.2 with h2 | h2
    · rw [if_neg (by omega), if_neg (by omega)]; ring
    · rw [if_pos (by omega), if_pos (by omega)]; ring
  · rw [if_neg h]
    unfold Leap at h
    by_cases h4 : (y : ℤ) % 4 = 0
    · rw [if_pos h4, if_pos (by omega), if_neg (by omega)]; ring
    · rw [if_neg h4, if_neg (by omega), if_neg (by omega)]; ring

theorem daysBefore_eq (y : ℕ) : daysBefore y = 365 * y + 1 + (((y : ℤ) - 1) / 4 - ((y : ℤ) - 1) / 100 + ((y : ℤ) - 1) / 400) := by
  induction y with
  | zero => rfl
  | succ y ih =>
    have := leap_count y
    rw [daysBefore, ih]
    push_cast
    rw [add_sub_cancel_right, this]
    unfold yearLength
    split <;> ring

theorem floor_306 (rd : ℚ → ℚ) (h : ∀ x, Nearest 53 x (rd x)) (k : ℤ) (v : ℤ) (h1 : 4 ≤ k) (h2 : k ≤ 15)
    (hv : (v : ℚ) + 1 / 10000 ≤ 306001 / 10000 * k ∧ 306001 / 10000 * (k : ℚ) + 1 / 10000 ≤ (v : ℚ) + 1) :
    ⌊rd (rd (306001 / 10000) * k)⌋ = v := by
  have e1 := nearest_err (by norm_num) (h (306001 / 10000))
  have e2 := nearest_err (by norm_num) (h (rd (306001 / 10000) * k))
  have k1 : (4 : ℚ) ≤ k := by exact_mod_cast h1
  have k2 : (k : ℚ) ≤ 15 := by exact_mod_cast h2
  rw [abs_of_nonneg (by norm_num : (0 : ℚ) ≤ 306001 / 10000), abs_le] at e1
  norm_num at e1
  set c := rd (306001 / 10000)
  have p : 0 ≤ c * k := mul_nonneg (by linarith [e1.1]) (by linarith)
  have q : c * k ≤ 600 := by nlinarith [e1.2]
  rw [abs_of_nonneg p, abs_le] at e2
  have q2 : c * k / 2 ^ 53 ≤ 1 / 1000000 := by
    rw [div_le_iff₀ (by positivity)]
    norm_num
    linarith
  have a1 : c * k ≤ 306001 / 10000 * k + 1 / 100000 := by nlinarith [e1.1]
  have a2 : 306001 / 10000 * k ≤ c * k + 1 / 100000 := by nlinarith [e1.2]
  rw [Int.floor_eq_iff]
  constructor <;> linarith [e2.1, e2.2, hv.1, hv.2]

theorem floor_div (a : ℤ) (b : ℕ) : ⌊(a : ℚ) / (b : ℚ)⌋ = a / b := Rat.floor_intCast_div_natCast a b

theorem floor_36525 (y : ℤ) : ⌊(1461 / 4 : ℚ) * (y + 4716)⌋ = 1461 * (y + 4716) / 4 := by
  have : (1461 / 4 : ℚ) * (y + 4716) = ((1461 * (y + 4716) : ℤ) : ℚ) / ((4 : ℕ) : ℚ) := by push_cast; ring
  rw [this, floor_div]
  rfl

theorem midnight_of (rd : ℚ → ℚ) (h : ∀ x, Nearest 53 x (rd x)) (y m : ℕ) (d : ℤ) (z k v : ℤ) (hk1 : 4 ≤ k) (hk2 : k ≤ 15)
    (hv : (v : ℚ) + 1 / 10000 ≤ 306001 / 10000 * k ∧ 306001 / 10000 * (k : ℚ) + 1 / 10000 ≤ (v : ℚ) + 1)
    (hz : z = (if (m : ℤ) ≤ 2 then (y : ℤ) - 1 else y)) (hk : k = (if (m : ℤ) ≤ 2 then (m : ℤ) + 12 else m) + 1)
    (e : 1461 * (z + 4716) / 4 + v + (2 - z / 100 + z / 100 / 4) - 1524 = dayNumber y m 0 - 730486 + 2451545) :
    midnight rd y m d = julian y m d := by
  have c100 : ∀ z : ℤ, ⌊(z : ℚ) / 100⌋ = z / 100 := fun z => by exact_mod_cast floor_div z 100
  have c4 : ∀ z : ℤ, ⌊(z : ℚ) / 4⌋ = z / 4 := fun z => by exact_mod_cast floor_div z 4
  have lit : dayNumber 2000 1 1 = 730486 := by
    unfold dayNumber; rw [daysBefore_eq]; rfl
  have key : ∀ (z k v : ℤ), 4 ≤ k → k ≤ 15 →
      ((v : ℚ) + 1 / 10000 ≤ 306001 / 10000 * k ∧ 306001 / 10000 * (k : ℚ) + 1 / 10000 ≤ (v : ℚ) + 1) →
      1461 * (z + 4716) / 4 + v + (2 - z / 100 + z / 100 / 4) - 1524 = dayNumber y m 0 - 730486 + 2451545 →
      (⌊(1461 / 4 : ℚ) * (z + 4716)⌋ : ℚ) + (⌊rd (rd (306001 / 10000) * k)⌋ : ℚ) + d + (2 - ⌊(z : ℚ) / 100⌋ + ⌊((⌊(z : ℚ) / 100⌋ : ℤ) : ℚ) / 4⌋ : ℤ) - 3049 / 2
        = julian y m d := by
    intro z k v hk1 hk2 hv e
    rw [floor_36525, floor_306 rd h k v hk1 hk2 hv, c100, c4]
    unfold julian
    rw [lit]
    have e2 : dayNumber y m d = dayNumber y m 0 + d := by unfold dayNumber; ring
    rw [e2]
    have e3 : dayNumber y m 0 = 1461 * (z + 4716) / 4 + v + (2 - z / 100 + z / 100 / 4) - 1524 + 730486 - 2451545 := by omega
    rw [e3]
    push_cast
    ring
  rw [← key z k v hk1 hk2 hv e, hz, hk]
  unfold midnight
  push_cast
  rfl

theorem calendar (y m : ℕ) (h1 : 1 ≤ m) (h2 : m ≤ 12) : ∃ z k v : ℤ, 4 ≤ k ∧ k ≤ 15 ∧
    ((v : ℚ) + 1 / 10000 ≤ 306001 / 10000 * k ∧ 306001 / 10000 * (k : ℚ) + 1 / 10000 ≤ (v : ℚ) + 1) ∧
    z = (if (m : ℤ) ≤ 2 then (y : ℤ) - 1 else y) ∧ k = (if (m : ℤ) ≤ 2 then (m : ℤ) + 12 else m) + 1 ∧
    1461 * (z + 4716) / 4 + v + (2 - z / 100 + z / 100 / 4) - 1524 = dayNumber y m 0 - 730486 + 2451545 := by
  have q0 : ∀ z : ℤ, 1461 * (z + 4716) / 4 = 365 * (z + 4716) + z / 4 + 1179 := fun z => by omega
  have q1 : ∀ z : ℤ, z / 100 / 4 = z / 400 := fun z => by omega
  have q2 := leap_count y
  have q3 := daysBefore_eq y
  interval_cases m
  · refine ⟨(y - 1), 14, 428, by norm_num, by norm_num, by norm_num, by norm_num, by norm_num, ?_⟩
    unfold dayNumber; rw [q0, q1]
    simp only [monthsBefore, monthLength]
    by_cases h : Leap y
    · simp only [h, if_true] at q2 ⊢; norm_num; linarith
    · simp only [h, if_false] at q2 ⊢; norm_num; linarith
  · refine ⟨(y - 1), 15, 459, by norm_num, by norm_num, by norm_num, by norm_num, by norm_num, ?_⟩
    unfold dayNumber; rw [q0, q1]
    simp only [monthsBefore, monthLength]
    by_cases h : Leap y
    · simp only [h, if_true] at q2 ⊢; norm_num; linarith
    · simp only [h, if_false] at q2 ⊢; norm_num; linarith
  · refine ⟨y, 4, 122, by norm_num, by norm_num, by norm_num, by norm_num, by norm_num, ?_⟩
    unfold dayNumber; rw [q0, q1]
    simp only [monthsBefore, monthLength]
    by_cases h : Leap y
    · simp only [h, if_true] at q2 ⊢; norm_num; linarith
    · simp only [h, if_false] at q2 ⊢; norm_num; linarith
  · refine ⟨y, 5, 153, by norm_num, by norm_num, by norm_num, by norm_num, by norm_num, ?_⟩
    unfold dayNumber; rw [q0, q1]
    simp only [monthsBefore, monthLength]
    by_cases h : Leap y
    · simp only [h, if_true] at q2 ⊢; norm_num; linarith
    · simp only [h, if_false] at q2 ⊢; norm_num; linarith
  · refine ⟨y, 6, 183, by norm_num, by norm_num, by norm_num, by norm_num, by norm_num, ?_⟩
    unfold dayNumber; rw [q0, q1]
    simp only [monthsBefore, monthLength]
    by_cases h : Leap y
    · simp only [h, if_true] at q2 ⊢; norm_num; linarith
    · simp only [h, if_false] at q2 ⊢; norm_num; linarith
  · refine ⟨y, 7, 214, by norm_num, by norm_num, by norm_num, by norm_num, by norm_num, ?_⟩
    unfold dayNumber; rw [q0, q1]
    simp only [monthsBefore, monthLength]
    by_cases h : Leap y
    · simp only [h, if_true] at q2 ⊢; norm_num; linarith
    · simp only [h, if_false] at q2 ⊢; norm_num; linarith
  · refine ⟨y, 8, 244, by norm_num, by norm_num, by norm_num, by norm_num, by norm_num, ?_⟩
    unfold dayNumber; rw [q0, q1]
    simp only [monthsBefore, monthLength]
    by_cases h : Leap y
    · simp only [h, if_true] at q2 ⊢; norm_num; linarith
    · simp only [h, if_false] at q2 ⊢; norm_num; linarith
  · refine ⟨y, 9, 275, by norm_num, by norm_num, by norm_num, by norm_num, by norm_num, ?_⟩
    unfold dayNumber; rw [q0, q1]
    simp only [monthsBefore, monthLength]
    by_cases h : Leap y
    · simp only [h, if_true] at q2 ⊢; norm_num; linarith
    · simp only [h, if_false] at q2 ⊢; norm_num; linarith
  · refine ⟨y, 10, 306, by norm_num, by norm_num, by norm_num, by norm_num, by norm_num, ?_⟩
    unfold dayNumber; rw [q0, q1]
    simp only [monthsBefore, monthLength]
    by_cases h : Leap y
    · simp only [h, if_true] at q2 ⊢; norm_num; linarith
    · simp only [h, if_false] at q2 ⊢; norm_num; linarith
  · refine ⟨y, 11, 336, by norm_num, by norm_num, by norm_num, by norm_num, by norm_num, ?_⟩
    unfold dayNumber; rw [q0, q1]
    simp only [monthsBefore, monthLength]
    by_cases h : Leap y
    · simp only [h, if_true] at q2 ⊢; norm_num; linarith
    · simp only [h, if_false] at q2 ⊢; norm_num; linarith
  · refine ⟨y, 12, 367, by norm_num, by norm_num, by norm_num, by norm_num, by norm_num, ?_⟩
    unfold dayNumber; rw [q0, q1]
    simp only [monthsBefore, monthLength]
    by_cases h : Leap y
    · simp only [h, if_true] at q2 ⊢; norm_num; linarith
    · simp only [h, if_false] at q2 ⊢; norm_num; linarith
  · refine ⟨y, 13, 397, by norm_num, by norm_num, by norm_num, by norm_num, by norm_num, ?_⟩
    unfold dayNumber; rw [q0, q1]
    simp only [monthsBefore, monthLength]
    by_cases h : Leap y
    · simp only [h, if_true] at q2 ⊢; norm_num; linarith
    · simp only [h, if_false] at q2 ⊢; norm_num; linarith

theorem midnight_eq (rd : ℚ → ℚ) (h : ∀ x, Nearest 53 x (rd x)) (y m : ℕ) (d : ℤ) (hv : ValidDate y m d) :
    midnight rd y m d = julian y m d := by
  obtain ⟨z, k, v, a, b, c, d1, e, f⟩ := calendar y m hv.1 hv.2.1
  exact midnight_of rd h y m d z k v a b c d1 e f

theorem monthsBefore_bounds (y m : ℕ) (h : m ≤ 12) : 0 ≤ monthsBefore y m ∧ monthsBefore y m ≤ 335 := by
  interval_cases m <;> simp only [monthsBefore, monthLength] <;> by_cases h : Leap y <;> simp [h]

theorem daysBefore_bounds (y : ℕ) : 365 * (y : ℤ) ≤ daysBefore y ∧ daysBefore y ≤ 366 * y := by
  induction y with
  | zero => exact ⟨le_refl _, le_refl _⟩
  | succ y ih =>
    rw [daysBefore]
    unfold yearLength
    push_cast
    split <;> constructor <;> linarith [ih.1, ih.2]

theorem monthLength_le (y m : ℕ) : monthLength y m ≤ 31 := by
  unfold monthLength
  split_ifs <;> norm_num

theorem dayNumber_2000 : dayNumber 2000 1 1 = 730486 := by
  unfold dayNumber; rw [daysBefore_eq]; rfl

theorem julian_bounds (y m : ℕ) (d : ℤ) (hv : ValidDate y m d) :
    1721058 + 365 * (y : ℚ) ≤ julian y m d ∧ julian y m d ≤ 1721058 + 366 * (y : ℚ) + 367 := by
  obtain ⟨h1, h2, h3, h4⟩ := hv
  have a := monthsBefore_bounds y m h2
  have b := daysBefore_bounds y
  have c := monthLength_le y m
  unfold julian
  rw [dayNumber_2000]
  have k1 : 365 * (y : ℤ) + 1 ≤ dayNumber y m d := by unfold dayNumber; omega
  have k2 : dayNumber y m d ≤ 366 * (y : ℤ) + 366 := by unfold dayNumber; omega
  have k1 : 365 * (y : ℚ) + 1 ≤ dayNumber y m d := by exact_mod_cast k1
  have k2 : (dayNumber y m d : ℚ) ≤ 366 * (y : ℚ) + 366 := by exact_mod_cast k2
  push_cast
  constructor <;> linarith

/-- Numbers up to 2^22 are rounded to quarters at worst. -/
theorem quarter {x r : ℚ} (h : Nearest 24 x r) (hx : |x| ≤ 2 ^ 22) : |x - r| ≤ 1 / 8 := by
  have h1 := abs_sub_round (x * 4)
  have h2 : |round (x * 4)| ≤ 2 ^ 24 := by
    have h3 : |((round (x * 4) : ℤ) : ℚ)| ≤ 2 ^ 24 + 1 / 2 := by
      calc _ = |x * 4 - (x * 4 - (round (x * 4) : ℤ))| := by rw [sub_sub_cancel]
        _ ≤ |x * 4| + |x * 4 - (round (x * 4) : ℤ)| := abs_sub _ _
        _ ≤ _ := by rw [abs_mul, abs_of_pos (by norm_num : (0 : ℚ) < 4)]; linarith
    by_contra hc
    have : (2 : ℤ) ^ 24 + 1 ≤ |round (x * 4)| := by omega
    have : ((2 ^ 24 + 1 : ℤ) : ℚ) ≤ ((|round (x * 4)| : ℤ) : ℚ) := by exact_mod_cast this
    push_cast at this
    linarith
  have h3 := h.2 _ ⟨round (x * 4), -2, h2, rfl⟩
  refine h3.trans ?_
  have : x - (round (x * 4) : ℤ) * (2 : ℚ) ^ (-2 : ℤ) = (x * 4 - (round (x * 4) : ℤ)) / 4 := by
    rw [zpow_neg]; norm_num; ring
  rw [this, abs_div, abs_of_pos (by norm_num : (0 : ℚ) < 4)]
  linarith

theorem quarter_exact {k : ℤ} {r : ℚ} (hk : |k| ≤ 2 ^ 24) (h : Nearest 24 ((k : ℚ) / 4) r) : r = k / 4 :=
  eq_of_nearest_rep ⟨k, -2, hk, by rw [zpow_neg]; norm_num; ring⟩ h

theorem flt_midnight (flt dbl : ℚ → ℚ) (hf : ∀ x, Nearest 24 x (flt x)) (hd : ∀ x, Nearest 53 x (dbl x)) (y m : ℕ) (d : ℤ)
    (hv : ValidDate y m d) (hy : y ≤ 6700) : flt (midnight dbl y m d) = julian y m d := by
  rw [midnight_eq dbl hd y m d hv]
  have hb := julian_bounds y m d hv
  have hy : (y : ℚ) ≤ 6700 := by exact_mod_cast hy
  have e : julian y m d = ((9806178 + 4 * (dayNumber y m d - dayNumber 2000 1 1) : ℤ) : ℚ) / 4 := by
    unfold julian; push_cast; ring
  have p : (0 : ℚ) ≤ y := by positivity
  have hk : |9806178 + 4 * (dayNumber y m d - dayNumber 2000 1 1)| ≤ 2 ^ 24 := by
    have a1 : |((9806178 + 4 * (dayNumber y m d - dayNumber 2000 1 1) : ℤ) : ℚ)| ≤ 2 ^ 24 := by
      have e' : ((9806178 + 4 * (dayNumber y m d - dayNumber 2000 1 1) : ℤ) : ℚ) = 4 * julian y m d := by rw [e]; ring
      rw [e', abs_le]
      constructor <;> linarith [hb.1, hb.2]
    exact_mod_cast a1
  have := hf (julian y m d)
  rw [e] at this ⊢
  exact quarter_exact hk this

/-- C108: at midnight, the Julian day is the one of the date, for every date of the Gregorian calendar; up to the year 6700, the conversion to
`float` is exact. -/
theorem c108_calendar (flt dbl : ℚ → ℚ) (hf : ∀ x, Nearest 24 x (flt x)) (hd : ∀ x, Nearest 53 x (dbl x)) (y m : ℕ) (d : ℤ)
    (hv : ValidDate y m d) :
    midnight dbl y m d = julian y m d ∧ (y ≤ 6700 → flt (midnight dbl y m d) = julian y m d) :=
  ⟨midnight_eq dbl hd y m d hv, flt_midnight flt dbl hf hd y m d hv⟩

/-- The sum before it is converted to `float`. -/
theorem sum_err (dbl : ℚ → ℚ) (hd : ∀ x, Nearest 53 x (dbl x)) (j t : ℚ) (hj : 0 ≤ j ∧ j ≤ 4190000) (ht : -24 ≤ t ∧ t ≤ 48) :
    |dbl (j + dbl (t / 24)) - (j + t / 24)| ≤ 1 / 1000000 := by
  have e1 := nearest_err (by norm_num) (hd (t / 24))
  have a1 : |t / 24| ≤ 2 := by rw [abs_le]; constructor <;> linarith [ht.1, ht.2]
  have b1 : |t / 24 - dbl (t / 24)| ≤ 1 / 10000000 := by
    refine e1.trans ?_
    rw [div_le_iff₀ (by positivity)]
    refine a1.trans ?_
    norm_num
  have e2 := nearest_err (by norm_num) (hd (j + dbl (t / 24)))
  have a2 : |j + dbl (t / 24)| ≤ 4190004 := by
    rw [abs_le] at a1 b1 ⊢
    constructor <;> linarith [a1.1, a1.2, b1.1, b1.2, hj.1, hj.2]
  have b2 : |j + dbl (t / 24) - dbl (j + dbl (t / 24))| ≤ 1 / 10000000 := by
    refine e2.trans ?_
    rw [div_le_iff₀ (by positivity)]
    refine a2.trans ?_
    norm_num
  rw [abs_le] at b1 b2 ⊢
  constructor <;> linarith [b1.1, b1.2, b2.1, b2.2]

/-- C108, proved part: the Julian day is wrong by at most three hours (and a second). -/
theorem c108_accuracy_partial (flt dbl : ℚ → ℚ) (hf : ∀ x, Nearest 24 x (flt x)) (hd : ∀ x, Nearest 53 x (dbl x)) (y m : ℕ) (d : ℤ)
    (hv : ValidDate y m d) (hy : y ≤ 6700) (t : ℚ) (ht : -24 ≤ t ∧ t ≤ 48) :
    |julianDay flt dbl y m d t - (julian y m d + t / 24)| ≤ (3 + 1 / 3600) / 24 := by
  have hb := julian_bounds y m d hv
  have hy' : (y : ℚ) ≤ 6700 := by exact_mod_cast hy
  have p : (0 : ℚ) ≤ y := by positivity
  unfold julianDay
  rw [flt_midnight flt dbl hf hd y m d hv hy]
  have s := sum_err dbl hd (julian y m d) t ⟨by linarith [hb.1], by linarith [hb.2]⟩ ht
  have q := quarter (hf (dbl (julian y m d + dbl (t / 24)))) (by
    rw [abs_le] at s ⊢
    constructor <;> linarith [s.1, s.2, hb.1, hb.2, ht.1, ht.2])
  rw [abs_le] at s q ⊢
  constructor <;> linarith [s.1, s.2, q.1, q.2]

/-- C108, partial: with the conversion to Julian centuries since 1 January 2000, 12:00 (36525 days each), the error is at most a quarter of a day. -/
theorem c108_centuries_partial (flt dbl : ℚ → ℚ) (hf : ∀ x, Nearest 24 x (flt x)) (hd : ∀ x, Nearest 53 x (dbl x)) (y m : ℕ) (d : ℤ)
    (hv : ValidDate y m d) (hy : y ≤ 6700) (t : ℚ) (ht : -24 ≤ t ∧ t ≤ 48) :
    |(2451545 + 36525 * sunJC flt dbl y m d t) - (julian y m d + t / 24)| ≤ 1 / 4 := by
  have hb := julian_bounds y m d hv
  have hy' : (y : ℚ) ≤ 6700 := by exact_mod_cast hy
  have p : (0 : ℚ) ≤ y := by positivity
  have h := c108_accuracy_partial flt dbl hf hd y m d hv hy t ht
  unfold sunJC
  generalize julianDay flt dbl y m d t = j at h
  generalize julian y m d = J at *
  rw [abs_le] at h
  have j1 : |j - 2451545| ≤ 1800000 := by
    rw [abs_le]
    constructor <;> linarith [h.1, h.2, hb.1, hb.2, ht.1, ht.2]
  have e1 := nearest_err (by norm_num) (hd (j - 2451545))
  have e2 := nearest_err (by norm_num) (hd (dbl (j - 2451545) / 36525))
  have e3 := nearest_err (by norm_num) (hf (dbl (dbl (j - 2451545) / 36525)))
  generalize dbl (j - 2451545) = a at *
  generalize dbl (a / 36525) = b at *
  generalize flt b = c at *
  have f1 : |j - 2451545 - a| ≤ 1 / 1000000 := by
    refine e1.trans ?_
    rw [div_le_iff₀ (by positivity)]
    norm_num
    linarith
  rw [abs_le] at f1 j1
  have f2 : |a / 36525| ≤ 50 := by
    rw [abs_le]
    constructor <;> linarith [f1.1, f1.2, j1.1, j1.2]
  have f3 : |a / 36525 - b| ≤ 1 / 10000000000 := by
    refine e2.trans ?_
    rw [div_le_iff₀ (by positivity)]
    norm_num
    linarith
  rw [abs_le] at f2 f3
  have f4 : |b| ≤ 51 := by
    rw [abs_le]
    constructor <;> linarith [f2.1, f2.2, f3.1, f3.2]
  have f5 : |b - c| ≤ 51 / 2 ^ 24 := e3.trans (div_le_div_of_nonneg_right f4 (by positivity))
  rw [abs_le] at f5
  rw [abs_le]
  norm_num at f5
  constructor <;> linarith [f1.1, f1.2, f3.1, f3.2, f5.1, f5.2, h.1, h.2]

/-- The Julian day is one of four values per day. -/
theorem julianDay_window (flt dbl : ℚ → ℚ) (hf : ∀ x, Nearest 24 x (flt x)) (hd : ∀ x, Nearest 53 x (dbl x)) (y m : ℕ) (d : ℤ)
    (hv : ValidDate y m d) (hy1 : 1100 ≤ y) (hy : y ≤ 6700) (k : ℤ) (hk : 0 ≤ k ∧ k ≤ 4) (t : ℚ)
    (ht : 6 * k - 3 + 1 / 60 ≤ t ∧ t ≤ 6 * k + 3 - 1 / 60) :
    julianDay flt dbl y m d t = julian y m d + k / 4 := by
  have hb := julian_bounds y m d hv
  have hy' : (y : ℚ) ≤ 6700 := by exact_mod_cast hy
  have hy1' : (1100 : ℚ) ≤ y := by exact_mod_cast hy1
  have k1 : (0 : ℚ) ≤ k := by exact_mod_cast hk.1
  have k2 : (k : ℚ) ≤ 4 := by exact_mod_cast hk.2
  unfold julianDay
  rw [flt_midnight flt dbl hf hd y m d hv hy]
  have s := sum_err dbl hd (julian y m d) t ⟨by linarith [hb.1], by linarith [hb.2]⟩ ⟨by linarith [ht.1], by linarith [ht.2]⟩
  rw [abs_le] at s
  have e : julian y m d + k / 4 = ((9806178 + 4 * (dayNumber y m d - dayNumber 2000 1 1) + k : ℤ) : ℚ) * 2 ^ (-2 : ℤ) := by
    unfold julian; push_cast; rw [zpow_neg]; norm_num; ring
  rw [e]
  refine nearest_unique_of_ge (by norm_num) (hf _) _ (-2) ?_ ?_ ?_
  · have a1 : |((9806178 + 4 * (dayNumber y m d - dayNumber 2000 1 1) + k : ℤ) : ℚ)| ≤ 2 ^ 24 := by
      have e' : ((9806178 + 4 * (dayNumber y m d - dayNumber 2000 1 1) + k : ℤ) : ℚ) = 4 * (julian y m d + k / 4) := by
        rw [e, zpow_neg]; norm_num; ring
      rw [e', abs_le]
      constructor <;> linarith [hb.1, hb.2]
    exact_mod_cast a1
  · norm_num
    linarith [s.1, hb.1, ht.1]
  · rw [← e, abs_lt, zpow_neg]
    norm_num
    constructor <;> linarith [s.1, s.2, ht.1, ht.2]

/-- C108, violated: the time of the day is only known to six hours: for all times from 6k-3 hours (and one minute) to 6k+3 hours (less one minute) of a
day, the Julian centuries, and with them declination and equation of time, are the same. -/
theorem c108_time_violated (flt dbl : ℚ → ℚ) (hf : ∀ x, Nearest 24 x (flt x)) (hd : ∀ x, Nearest 53 x (dbl x)) (y m : ℕ) (d : ℤ)
    (hv : ValidDate y m d) (hy1 : 1100 ≤ y) (hy : y ≤ 6700) (k : ℤ) (hk : 0 ≤ k ∧ k ≤ 4) (t t' : ℚ)
    (ht : 6 * k - 3 + 1 / 60 ≤ t ∧ t ≤ 6 * k + 3 - 1 / 60) (ht' : 6 * k - 3 + 1 / 60 ≤ t' ∧ t' ≤ 6 * k + 3 - 1 / 60) :
    sunJC flt dbl y m d t = sunJC flt dbl y m d t' := by
  unfold sunJC
  rw [julianDay_window flt dbl hf hd y m d hv hy1 hy k hk t ht, julianDay_window flt dbl hf hd y m d hv hy1 hy k hk t' ht']

end Verif.Sun
