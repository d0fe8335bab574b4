import Mathlib.Data.Rat.Floor
import Mathlib.Data.Nat.Log
import Mathlib.Tactic.Linarith
import Mathlib.Tactic.Ring
import Mathlib.Tactic.FieldSimp
import Mathlib.Tactic.Positivity
import Mathlib.Tactic.NormNum
import Mathlib.Algebra.Order.Field.Power
import Mathlib.Algebra.Order.Round
import Mathlib.Data.Int.Log

/-!
# Rounding of floating-point division

Specification of IEEE rounding to nearest for a binary format with `p` significant bits
(`p = 24`: float, `p = 53`: double). The exponent range is unbounded: the operands used here are
far from the limits of the real formats. Any tie-breaking rule is allowed.
-/

namespace Verif.Float

/-- Representable numbers: `m * 2^e` with at most `p` significant bits. -/
def Rep (p : Nat) (x : ℚ) : Prop := ∃ (m e : ℤ), |m| ≤ 2 ^ p ∧ x = m * (2 : ℚ) ^ e

/-- `r` is a nearest representable number to `x`. -/
def Nearest (p : Nat) (x r : ℚ) : Prop := Rep p r ∧ ∀ f, Rep p f → |x - r| ≤ |x - f|

/-- `t = floor(a / (float) b)` for machine integers `a`, `b`: conversion of both operands,
division, each rounded to nearest, then the exact floor. -/
def DivFloor (p : Nat) (a b : ℤ) (t : ℤ) : Prop :=
  ∃ fa fb r : ℚ, Nearest p a fa ∧ Nearest p b fb ∧ Nearest p (fa / fb) r ∧ t = ⌊r⌋

theorem rep_int {p : Nat} {k : ℤ} (h : |k| ≤ 2 ^ p) : Rep p k := ⟨k, 0, h, by simp⟩

theorem nearest_of_rep {p : Nat} {x : ℚ} (h : Rep p x) : Nearest p x x :=
  ⟨h, fun f _ => by simp⟩

theorem eq_of_nearest_rep {p : Nat} {x r : ℚ} (h : Rep p x) (hn : Nearest p x r) : r = x := by
  have := hn.2 x h
  simp at this
  linarith [sub_eq_zero.1 this]

/-- The floating-point quotient of two integers below `2^p` has the exact floor. -/
theorem divFloor_exact {p : Nat} {a b t : ℤ} (ha : 0 ≤ a) (hb : 0 < b) (hap : a < 2 ^ p)
    (hbp : b ≤ 2 ^ p) (h : DivFloor p a b t) : t = a / b := by
  obtain ⟨fa, fb, r, h1, h2, h3, ht⟩ := h
  have e1 := eq_of_nearest_rep (rep_int (p := p) (k := a) (by rw [abs_of_nonneg ha]; omega)) h1
  have e2 := eq_of_nearest_rep (rep_int (p := p) (k := b) (by rw [abs_of_pos hb]; omega)) h2
  subst e1 e2
  set k := a / b with hk
  have hk0 : 0 ≤ k := Int.ediv_nonneg ha hb.le
  have hkb : k * b ≤ a := Int.ediv_mul_le a hb.ne'
  have hkb' : a < (k + 1) * b := by rw [hk]; exact Int.lt_ediv_add_one_mul_self a hb
  have hkp : k < 2 ^ p := by nlinarith
  have hbq : (0 : ℚ) < b := by exact_mod_cast hb
  have hq1 : (k : ℚ) ≤ a / b := by
    rw [le_div_iff₀ hbq]; exact_mod_cast hkb
  have hq2 : (a : ℚ) / b + 1 / b ≤ k + 1 := by
    rw [← add_div, div_le_iff₀ hbq]
    have : a + 1 ≤ (k + 1) * b := hkb'
    exact_mod_cast this
  have h1b : (0 : ℚ) < 1 / b := by positivity
  -- lower bound
  have hlow : (k : ℚ) ≤ r := by
    by_contra hlt
    push Not at hlt
    have := h3.2 k (rep_int (by rw [abs_of_nonneg hk0]; exact hkp.le))
    rw [abs_of_nonneg (by linarith), abs_of_nonneg (by linarith)] at this
    linarith
  -- upper bound
  have hup : r < k + 1 := by
    by_contra hge
    push Not at hge
    -- the representable number just below k + 1
    obtain ⟨f, hf, hfl, hfd⟩ : ∃ f : ℚ, Rep p f ∧ f < k + 1 ∧ k + 1 - f < 2 / b := by
      rcases eq_or_lt_of_le hk0 with hk0 | hk0
      · refine ⟨(2 ^ p - 1 : ℤ) * (2 : ℚ) ^ (-(p : ℤ)), ⟨2 ^ p - 1, -p, ?_, rfl⟩, ?_, ?_⟩
        · rw [abs_of_nonneg]
          · linarith
          · have : (1 : ℤ) ≤ 2 ^ p := one_le_pow₀ (by norm_num)
            linarith
        · rw [← hk0, zpow_neg, zpow_natCast]
          have h2 : (0 : ℚ) < 2 ^ p := by positivity
          push_cast
          rw [sub_mul, mul_inv_cancel₀ h2.ne']
          have : (0 : ℚ) < 1 * (2 ^ p)⁻¹ := by positivity
          linarith
        · rw [← hk0, zpow_neg, zpow_natCast]
          have h2 : (0 : ℚ) < 2 ^ p := by positivity
          push_cast
          rw [sub_mul, mul_inv_cancel₀ h2.ne']
          have hb2 : (b : ℚ) ≤ 2 ^ p := by exact_mod_cast hbp
          have h3 : (2 ^ p : ℚ)⁻¹ ≤ 1 / b := by
            rw [one_div]; exact inv_anti₀ hbq hb2
          have h4 : (2 : ℚ) / b = 1 / b + 1 / b := by ring
          rw [h4]; linarith
      · -- 2^e ≤ k < 2^(e+1)
        let e := Nat.log 2 k.toNat
        have hkn : k.toNat ≠ 0 := by omega
        have he1 : 2 ^ e ≤ k.toNat := Nat.pow_log_le_self 2 hkn
        have he2 : k.toNat < 2 ^ (e + 1) := Nat.lt_pow_succ_log_self (by norm_num) _
        have hcast : ((k.toNat : ℕ) : ℤ) = k := Int.toNat_of_nonneg hk0.le
        have he1' : (2 : ℤ) ^ e ≤ k := by rw [← hcast]; exact_mod_cast he1
        have he2' : k + 1 ≤ (2 : ℤ) ^ (e + 1) := by
          rw [← hcast]; exact_mod_cast he2
        have hep : e < p := by
          by_contra hc
          have : (2 : ℤ) ^ p ≤ 2 ^ e := pow_le_pow_right₀ (by norm_num) (by omega)
          omega
        -- ulp = 2^(e+1-p)
        have hexp : (2 : ℚ) ^ ((e : ℤ) + 1 - p) * 2 ^ (p - (e + 1)) = 1 := by
          rw [← zpow_natCast, ← zpow_add₀ (by norm_num)]
          have : (e : ℤ) + 1 - p + ((p - (e + 1) : ℕ) : ℤ) = 0 := by omega
          rw [this, zpow_zero]
        set u := (2 : ℚ) ^ ((e : ℤ) + 1 - p) with hu
        have hupos : 0 < u := by positivity
        refine ⟨((k + 1) * 2 ^ (p - (e + 1)) - 1 : ℤ) * u, ⟨_, (e : ℤ) + 1 - p, ?_, rfl⟩, ?_, ?_⟩
        · have hpos : (1 : ℤ) ≤ 2 ^ (p - (e + 1)) := one_le_pow₀ (by norm_num)
          rw [abs_of_nonneg (by nlinarith)]
          have hmul : (2 : ℤ) ^ (e + 1) * 2 ^ (p - (e + 1)) = 2 ^ p := by
            rw [← pow_add]; congr 1; omega
          nlinarith
        · push_cast
          have : ((k : ℚ) + 1) * 2 ^ (p - (e + 1)) * u = k + 1 := by
            rw [mul_assoc, mul_comm ((2 : ℚ) ^ (p - (e + 1))) u, hexp, mul_one]
          rw [sub_mul, this]; linarith
        · push_cast
          have : ((k : ℚ) + 1) * 2 ^ (p - (e + 1)) * u = k + 1 := by
            rw [mul_assoc, mul_comm ((2 : ℚ) ^ (p - (e + 1))) u, hexp, mul_one]
          rw [sub_mul, this]
          -- u < 2/b because b * 2^e ≤ a < 2^p
          have hb2 : b * 2 ^ e < 2 ^ p := by nlinarith
          have hb2q : (b : ℚ) * 2 ^ e < 2 ^ p := by exact_mod_cast hb2
          have hu2 : u * 2 ^ p = 2 * 2 ^ e := by
            have : (2 : ℚ) ^ p = 2 ^ (p - (e + 1)) * 2 ^ (e + 1) := by
              rw [← pow_add]; congr 1; omega
            rw [this, ← mul_assoc, hexp, pow_succ]; ring
          have h2p : (0 : ℚ) < 2 ^ p := by positivity
          rw [lt_div_iff₀ hbq]
          have : u * b * 2 ^ p < 2 * 2 ^ p := by
            calc u * b * 2 ^ p = (u * 2 ^ p) * b := by ring
              _ = 2 * (b * 2 ^ e) := by rw [hu2]; ring
              _ < 2 * 2 ^ p := by linarith
          have := lt_of_mul_lt_mul_right this h2p.le
          linarith
    have hmin := h3.2 f hf
    rw [abs_of_nonpos (by linarith : (a : ℚ) / b - r ≤ 0)] at hmin
    have h2b : (2 : ℚ) / b = 1 / b + 1 / b := by ring
    rcases le_total f ((a : ℚ) / b) with hfq | hfq
    · rw [abs_of_nonneg (by linarith)] at hmin
      linarith
    · rw [abs_of_nonpos (by linarith)] at hmin
      linarith
  rw [ht]
  exact Int.floor_eq_iff.2 ⟨hlow, by exact_mod_cast hup⟩

/-- Rounding to nearest exists: the hypotheses `∀ x, Nearest p x (rd x)` can be met. -/
theorem exists_nearest (p : Nat) (hp : 0 < p) (x : ℚ) : ∃ r, Nearest p x r := by
  rcases eq_or_ne x 0 with rfl | hx
  · exact ⟨0, nearest_of_rep ⟨0, 0, by positivity, by simp⟩⟩
  have hax : 0 < |x| := abs_pos.2 hx
  set e : ℤ := Int.log 2 |x| - ((p - 1 : ℕ) : ℤ) with he
  have pe : (0 : ℚ) < (2 : ℚ) ^ e := by positivity
  have two : (2 : ℚ) ≠ 0 := by norm_num
  have lo : (2 : ℚ) ^ (p - 1) * (2 : ℚ) ^ e ≤ |x| := by
    have := Int.zpow_log_le_self (b := 2) (by norm_num) hax
    rw [← zpow_natCast, ← zpow_add₀ two, he]
    simpa using this
  have hi : |x| < (2 : ℚ) ^ p * (2 : ℚ) ^ e := by
    have := Int.lt_zpow_succ_log_self (b := 2) (by norm_num) |x|
    rw [← zpow_natCast, ← zpow_add₀ two, he, show (p : ℤ) + (Int.log 2 |x| - ((p - 1 : ℕ) : ℤ)) =
      Int.log 2 |x| + 1 by omega]
    simpa using this
  have mul_out : ∀ k : ℤ, |x - k * (2 : ℚ) ^ e| = |x / (2 : ℚ) ^ e - k| * (2 : ℚ) ^ e := by
    intro k
    rw [← abs_of_pos pe, ← abs_mul, abs_of_pos pe, sub_mul, div_mul_cancel₀ _ pe.ne']
  have near : ∀ k : ℤ, |x - (round (x / (2 : ℚ) ^ e) : ℤ) * (2 : ℚ) ^ e| ≤ |x - k * (2 : ℚ) ^ e| := by
    intro k
    rw [mul_out, mul_out]
    exact mul_le_mul_of_nonneg_right (round_le _ k) pe.le
  have hq : |x / (2 : ℚ) ^ e| < 2 ^ p := by
    rw [abs_div, abs_of_pos pe, div_lt_iff₀ pe]; exact hi
  refine ⟨(round (x / (2 : ℚ) ^ e) : ℤ) * (2 : ℚ) ^ e, ⟨_, e, ?_, rfl⟩, ?_⟩
  · have h1 := abs_sub_round (x / (2 : ℚ) ^ e)
    rw [abs_le] at h1
    rw [abs_lt] at hq
    have a1 : ((round (x / (2 : ℚ) ^ e) : ℤ) : ℚ) < ((2 ^ p + 1 : ℤ) : ℚ) := by
      push_cast; linarith [h1.1, hq.2]
    have a2 : ((-(2 ^ p + 1) : ℤ) : ℚ) < ((round (x / (2 : ℚ) ^ e) : ℤ) : ℚ) := by
      push_cast; linarith [h1.2, hq.1]
    have b1 := Int.cast_lt.1 a1
    have b2 := Int.cast_lt.1 a2
    rw [abs_le]
    constructor <;> omega
  · rintro f ⟨m', e', hm', rfl⟩
    rcases le_or_gt e e' with hle | hlt
    · have : (m' : ℚ) * (2 : ℚ) ^ e' = ((m' * 2 ^ (e' - e).toNat : ℤ) : ℚ) * (2 : ℚ) ^ e := by
        have h1 : e' = e + ((e' - e).toNat : ℤ) := by omega
        conv_lhs => rw [h1]
        rw [zpow_add₀ two, zpow_natCast]
        push_cast
        ring
      rw [this]
      exact near _
    · have hf : |(m' : ℚ) * (2 : ℚ) ^ e'| ≤ (2 : ℚ) ^ (p - 1) * (2 : ℚ) ^ e := by
        rw [abs_mul, abs_of_pos (by positivity : (0 : ℚ) < (2 : ℚ) ^ e')]
        have c1 : |(m' : ℚ)| ≤ 2 ^ p := by exact_mod_cast hm'
        have c2 : (2 : ℚ) ^ e' ≤ (2 : ℚ) ^ (e - 1) := zpow_le_zpow_right₀ (by norm_num) (by omega)
        have c3 : (2 : ℚ) ^ (p - 1) * (2 : ℚ) ^ e = 2 ^ p * (2 : ℚ) ^ (e - 1) := by
          rw [← zpow_natCast, ← zpow_natCast, ← zpow_add₀ two, ← zpow_add₀ two]
          congr 1
          omega
        rw [c3]
        exact mul_le_mul c1 c2 (by positivity) (by positivity)
      have d1 : |x| - (2 : ℚ) ^ (p - 1) * (2 : ℚ) ^ e ≤ |x - m' * (2 : ℚ) ^ e'| := by
        have := abs_sub_abs_le_abs_sub x ((m' : ℚ) * (2 : ℚ) ^ e')
        linarith
      refine le_trans ?_ d1
      rcases lt_or_gt_of_ne hx with hneg | hpos
      · refine le_trans (near (-(2 ^ (p - 1)))) ?_
        push_cast
        rw [abs_of_neg hneg] at lo ⊢
        rw [abs_of_nonpos (by linarith)]
        linarith
      · refine le_trans (near (2 ^ (p - 1))) ?_
        push_cast
        rw [abs_of_pos hpos] at lo ⊢
        rw [abs_of_nonneg (by linarith)]

theorem exists_round (p : Nat) (hp : 0 < p) : ∃ rd : ℚ → ℚ, ∀ x, Nearest p x (rd x) := by
  choose rd h using exists_nearest p hp
  exact ⟨rd, h⟩

end Verif.Float
