import Mathlib.Algebra.Order.Archimedean.Basic
import Mathlib.Tactic.NormNum
import Mathlib.Tactic.Linarith
import Mathlib.Tactic.Positivity
import Mathlib.Tactic.Ring
import Mathlib.Tactic.FieldSimp
import Verif.FloatErr
import Verif.Train.Count
import Verif.Gas.Model

/-!
# C248, C250: table of transmittances, objective
-/

namespace Verif.Gas

open Verif.Float
open Verif.Train (nearest_ge nearest_le)

/-- Rounding up to an integer is not possible below it, and a value a little below an integer is rounded to it. -/
theorem bin {rd : ℚ → ℚ} (hrd : ∀ x, Nearest 53 x (rd x)) {w : ℚ} (hw : Rep 24 w) (h0 : 0 ≤ w) (h8 : w ≤ 8) :
    index rd w = ⌊100 * w⌋ := by
  unfold index
  have hD : hundredth = 5764607523034235 / 576460752303423488 := by norm_num [hundredth]
  have hN := hrd (w / hundredth)
  generalize rd (w / hundredth) = r at hN
  have hx : w / hundredth = 100 * w * (576460752303423488 / 576460752303423500) := by
    rw [hD]; field_simp; ring
  rw [hx] at hN
  rw [Int.floor_eq_iff]
  obtain ⟨hn1, hn2⟩ := Int.floor_eq_iff.1 (rfl : ⌊100 * w⌋ = ⌊100 * w⌋)
  generalize hn : ⌊100 * w⌋ = n at hn1 hn2 ⊢
  have hn0 : 0 ≤ n := by rw [← hn]; exact Int.floor_nonneg.2 (by linarith)
  constructor
  · rcases hn0.eq_or_lt with h | h
    · rw [← h, Int.cast_zero]
      refine nearest_ge hN ⟨0, 0, by norm_num, by norm_num⟩ ?_
      have : 0 ≤ 100 * w := by linarith
      positivity
    · have hnq : (0 : ℚ) < n := by exact_mod_cast h
      by_cases hge : (n : ℚ) ≤ 100 * w * (576460752303423488 / 576460752303423500)
      · refine nearest_ge hN ⟨n, 0, ?_, by norm_num⟩ hge
        have : (n : ℚ) ≤ 800 := by linarith
        have : n ≤ 800 := by exact_mod_cast this
        rw [abs_of_pos h]; norm_num; omega
      · push Not at hge
        obtain ⟨L, hL1, hL2⟩ := exists_mem_Ioc_zpow hnq (by norm_num : (1 : ℚ) < 2)
        have e1 : (n : ℚ) = ((n : ℤ) : ℚ) := rfl
        have hLp : (0 : ℚ) < (2 : ℚ) ^ L := by positivity
        have h2 : (2 : ℚ) ^ (L + 1) = 2 * (2 : ℚ) ^ L := by rw [zpow_add₀ (by norm_num), zpow_one]; ring
        have hlow : (n : ℚ) * (576460752303423488 / 576460752303423500) ≤ 100 * w * (576460752303423488 / 576460752303423500) := by
          linarith
        have hn800 : (n : ℚ) ≤ 800 := by linarith
        have hL : L ≤ 9 := by
          by_contra hc
          push Not at hc
          have : (2 : ℚ) ^ (10 : ℤ) ≤ (2 : ℚ) ^ L := zpow_le_zpow_right₀ (by norm_num) (by omega)
          have h10 : (2 : ℚ) ^ (10 : ℤ) = 1024 := by norm_num
          linarith
        have hLlow : -1 ≤ L := by
          by_contra hc
          push Not at hc
          have t1 : (2 : ℚ) ^ (L + 1) ≤ (2 : ℚ) ^ (-1 : ℤ) := zpow_le_zpow_right₀ (by norm_num) (by omega)
          have t2 : (1 : ℚ) ≤ n := by exact_mod_cast h
          rw [zpow_neg_one] at t1
          norm_num at t1
          linarith only [t1, t2, hL2]
        obtain ⟨k, hk⟩ : ∃ k : ℕ, (k : ℤ) = 52 - L := ⟨(52 - L).toNat, by omega⟩
        have hke : (2 : ℚ) ^ (L - 52) = (2 : ℚ) ^ L / 4503599627370496 := by
          rw [zpow_sub₀ (by norm_num)]; norm_num
        have hkk : (n : ℚ) = ((n * 2 ^ k : ℤ) : ℚ) * (2 : ℚ) ^ (L - 52) := by
          have : (2 : ℚ) ^ (L - 52) = ((2 : ℚ) ^ k)⁻¹ := by
            rw [← zpow_natCast, hk, ← zpow_neg]; congr 1; ring
          rw [this]; push_cast; field_simp
        have hkp : (2 : ℚ) ^ k = 4503599627370496 / (2 : ℚ) ^ L := by
          rw [← zpow_natCast, hk, zpow_sub₀ (by norm_num)]; norm_num
        have key := nearest_unique_of_ge (by norm_num) hN (n * 2 ^ k) (L - 52) ?_ ?_ ?_
        · rw [key, ← hkk]
        · have : ((|n * 2 ^ k| : ℤ) : ℚ) ≤ ((2 ^ 53 : ℤ) : ℚ) := by
            rw [abs_of_nonneg (by positivity)]
            push_cast
            rw [hkp]
            rw [mul_div_assoc', div_le_iff₀ hLp]
            norm_num
            linarith
          exact_mod_cast this
        · rw [show L - 52 + (53 : ℕ) - 1 = L by push_cast; ring]
          rcases eq_or_lt_of_le (show 1 ≤ n from h) with h1 | h1
          · have hL' : L = -1 := by
              have : (2 : ℚ) ^ L < 1 := by rw [← h1] at hL1; simpa using hL1
              have : L < 0 := by
                by_contra hc
                push Not at hc
                have := one_le_zpow₀ (by norm_num : (1 : ℚ) ≤ 2) hc
                linarith
              omega
            rw [hL']
            have : (1 : ℚ) ≤ n := by exact_mod_cast h
            have h10 : (2 : ℚ) ^ (-1 : ℤ) = 1 / 2 := by norm_num
            rw [h10]; linarith
          · have hL0 : 0 ≤ L := by
              by_contra hc
              push Not at hc
              have t1 : (2 : ℚ) ^ (L + 1) ≤ (2 : ℚ) ^ (0 : ℤ) := zpow_le_zpow_right₀ (by norm_num) (by omega)
              have t2 : (2 : ℚ) ≤ n := by exact_mod_cast h1
              rw [zpow_zero] at t1
              linarith only [t1, t2, hL2]
            obtain ⟨l, rfl⟩ := Int.eq_ofNat_of_zero_le hL0
            have h3 : ((2 ^ l : ℤ) : ℚ) < ((n : ℤ) : ℚ) := by
              push_cast; simpa [zpow_natCast] using hL1
            have h4 : (2 ^ l : ℤ) < n := by exact_mod_cast h3
            have h5 : ((2 ^ l + 1 : ℤ) : ℚ) ≤ (n : ℚ) := by exact_mod_cast (show (2 ^ l + 1 : ℤ) ≤ n by omega)
            push_cast at h5
            have h6 : (2 : ℚ) ^ (l : ℤ) = 2 ^ l := zpow_natCast 2 l
            rw [h6]
            linarith
        · rw [← hkk, abs_of_neg (by linarith), hke]
          linarith
  · have herr := nearest_err (by norm_num) hN
    have hxle : 100 * w * (576460752303423488 / 576460752303423500) ≤ 100 * w := by
      have : 0 ≤ 100 * w := by linarith
      linarith
    have hxnn : 0 ≤ 100 * w * (576460752303423488 / 576460752303423500) := by
      have : 0 ≤ 100 * w := by linarith
      linarith
    rw [abs_of_nonneg hxnn] at herr
    have hr := (abs_le.1 herr).1
    have hsmall : 100 * w * (576460752303423488 / 576460752303423500) / 2 ^ 53 ≤ 800 / 2 ^ 53 := by
      apply div_le_div_of_nonneg_right _ (by positivity)
      linarith
    by_cases hsm : w < 1 / 128
    · have : (1 : ℚ) ≤ n + 1 := by
        have : (0 : ℚ) ≤ n := by exact_mod_cast hn0
        linarith
      norm_num at hsmall hr ⊢
      linarith
    · push Not at hsm
      obtain ⟨k, hk⟩ := rep_multiple (e := -30) (by norm_num) hw (by
        rw [abs_of_nonneg h0]; norm_num; linarith)
      have h30 : (2 : ℚ) ^ (-30 : ℤ) = 1 / 1073741824 := by norm_num
      rw [h30] at hk
      have hlt : ((100 * k : ℤ) : ℚ) < (((n + 1) * 1073741824 : ℤ) : ℚ) := by
        push_cast
        rw [hk] at hn2
        have := hn2
        field_simp at this
        linarith
      have hlt' : 100 * k + 1 ≤ (n + 1) * 1073741824 := by
        have : 100 * k < (n + 1) * 1073741824 := by exact_mod_cast hlt
        omega
      have hq : ((100 * k + 1 : ℤ) : ℚ) ≤ (((n + 1) * 1073741824 : ℤ) : ℚ) := by exact_mod_cast hlt'
      push_cast at hq
      have : 100 * w + 1 / 1073741824 ≤ n + 1 := by
        rw [hk]; linarith
      norm_num at hsmall hr
      linarith

/-- C248: the tabulated value that is used for the cosine of an angle (a float between 0 and 1) is the one for this cosine
rounded down to two decimals. -/
theorem c248_angle {rd : ℚ → ℚ} (hrd : ∀ x, Nearest 53 x (rd x)) {m : ℚ} (hm : Rep 24 m) (h0 : 0 ≤ m) (h1 : m ≤ 1) :
    ((index rd m : ℚ) / 100 ≤ m ∧ m < (index rd m : ℚ) / 100 + 1 / 100) ∧ 0 ≤ index rd m ∧ index rd m ≤ 100 := by
  rw [bin hrd hm h0 (by linarith)]
  have h := Int.floor_le (100 * m)
  have h' := Int.lt_floor_add_one (100 * m)
  refine ⟨⟨by linarith, by linarith⟩, Int.floor_nonneg.2 (by linarith), ?_⟩
  have : (⌊100 * m⌋ : ℚ) ≤ 100 := by linarith
  exact_mod_cast this

/-- C248: every value that is used has been tabulated: only cosines between the lowest and the highest one occur. -/
theorem c248_tabulated {rd : ℚ → ℚ} (hrd : ∀ x, Nearest 53 x (rd x)) {m lo hi : ℚ} (hm : Rep 24 m) (h0 : 0 ≤ lo)
    (hlo : lo ≤ m) (hhi : m ≤ hi) (h1 : hi ≤ 1) : lowest lo ≤ index rd m ∧ index rd m ≤ highest hi ∧ highest hi ≤ 100 := by
  rw [bin hrd hm (by linarith) (by linarith)]
  refine ⟨Int.floor_le_floor (by linarith), ?_, Int.ceil_le.2 (by push_cast; linarith)⟩
  exact (Int.floor_le_ceil _).trans (Int.ceil_le_ceil (by linarith))

theorem vapor_float {rf rd : ℚ → ℚ} (hrf : ∀ x, Nearest 24 x (rf x)) (hrd : ∀ x, Nearest 53 x (rd x)) (v : Int)
    (h0 : 0 ≤ v) (h7 : v ≤ 7000) : |rf (rd ((v : ℚ) / 1000)) - v / 1000| ≤ 7 / 10000000 ∧ 0 ≤ rf (rd ((v : ℚ) / 1000)) := by
  have hv0 : (0 : ℚ) ≤ v := by exact_mod_cast h0
  have hv7 : (v : ℚ) ≤ 7000 := by exact_mod_cast h7
  have e1 := nearest_err (by norm_num) (hrd ((v : ℚ) / 1000))
  have e2 := nearest_err (by norm_num) (hrf (rd ((v : ℚ) / 1000)))
  have n1 : 0 ≤ rd ((v : ℚ) / 1000) := nearest_ge (hrd _) ⟨0, 0, by norm_num, by norm_num⟩ (by linarith)
  have n2 : 0 ≤ rf (rd ((v : ℚ) / 1000)) := nearest_ge (hrf _) ⟨0, 0, by norm_num, by norm_num⟩ n1
  refine ⟨?_, n2⟩
  rw [abs_of_nonneg (a := (v : ℚ) / 1000) (by linarith)] at e1
  rw [abs_of_nonneg (a := rd ((v : ℚ) / 1000)) n1] at e2
  generalize rf (rd ((v : ℚ) / 1000)) = b at *
  generalize rd ((v : ℚ) / 1000) = a at *
  have f1 : (v : ℚ) / 1000 / 2 ^ 53 ≤ 7 / 2 ^ 53 := div_le_div_of_nonneg_right (by linarith) (by positivity)
  obtain ⟨a1, a2⟩ := abs_le.1 e1
  have ha : a ≤ 8 := by norm_num at f1 a1; linarith
  have f2 : a / 2 ^ 24 ≤ 8 / 2 ^ 24 := div_le_div_of_nonneg_right ha (by positivity)
  obtain ⟨b1, b2⟩ := abs_le.1 e2
  rw [abs_le]
  norm_num at *
  constructor <;> linarith

/-- C248: the tabulated value that is used for a pixel of the water vapour map is the one for this water vapour rounded down
to two decimals, unless it has no more than two decimals. (Missing: see `c248_exact_violated`.) -/
theorem c248_vapor_partial {rf rd : ℚ → ℚ} (hrf : ∀ x, Nearest 24 x (rf x)) (hrd : ∀ x, Nearest 53 x (rd x)) (v : Int)
    (h0 : 0 ≤ v) (h7 : v ≤ 7000) (h : ¬ (10 : Int) ∣ v) : vaporIndex rf rd v = v / 10 := by
  obtain ⟨h1, h2⟩ := vapor_float hrf hrd v h0 h7
  have hv7 : (v : ℚ) ≤ 7000 := by exact_mod_cast h7
  obtain ⟨b1, b2⟩ := abs_le.1 h1
  unfold vaporIndex
  rw [bin hrd (hrf _).1 h2 (by linarith), Int.floor_eq_iff]
  have e : v = 10 * (v / 10) + v % 10 := by omega
  have m1 : 1 ≤ v % 10 := by omega
  have m2 : v % 10 ≤ 9 := by omega
  have eq : (v : ℚ) = 10 * ((v / 10 : Int) : ℚ) + ((v % 10 : Int) : ℚ) := by exact_mod_cast e
  have q1 : (1 : ℚ) ≤ ((v % 10 : Int) : ℚ) := by exact_mod_cast m1
  have q2 : ((v % 10 : Int) : ℚ) ≤ 9 := by exact_mod_cast m2
  constructor <;> linarith

/-- C248: in any case it is at most one hundredth below, and the index is in the table of 701 entries. -/
theorem c248_close_partial {rf rd : ℚ → ℚ} (hrf : ∀ x, Nearest 24 x (rf x)) (hrd : ∀ x, Nearest 53 x (rd x)) (v : Int)
    (h0 : 0 ≤ v) (h7 : v ≤ 7000) : (vaporIndex rf rd v = v / 10 ∨ vaporIndex rf rd v = v / 10 - 1) ∧
      0 ≤ vaporIndex rf rd v ∧ vaporIndex rf rd v ≤ 700 := by
  obtain ⟨h1, h2⟩ := vapor_float hrf hrd v h0 h7
  have hv7 : (v : ℚ) ≤ 7000 := by exact_mod_cast h7
  by_cases h : (10 : Int) ∣ v
  · obtain ⟨k, rfl⟩ := h
    obtain ⟨b1, b2⟩ := abs_le.1 h1
    have hi : vaporIndex rf rd (10 * k) = ⌊100 * rf (rd (((10 * k : Int) : ℚ) / 1000))⌋ := by
      unfold vaporIndex
      rw [bin hrd (hrf _).1 h2 (by linarith)]
    generalize rf (rd (((10 * k : Int) : ℚ) / 1000)) = r at *
    push_cast at b1 b2
    have l1 : k - 1 ≤ ⌊100 * r⌋ := Int.le_floor.2 (by push_cast; linarith)
    have l2 : ⌊100 * r⌋ < k + 1 := Int.floor_lt.2 (by push_cast; linarith)
    have l3 : 0 ≤ ⌊100 * r⌋ := Int.floor_nonneg.2 (by linarith)
    rw [hi, Int.mul_ediv_cancel_left _ (by decide)]
    omega
  · rw [c248_vapor_partial hrf hrd v h0 h7 h]
    omega

/-- C248, violated: water vapour of exactly 0.29 cm is treated as 0.28 cm. -/
theorem c248_exact_violated {rf rd : ℚ → ℚ} (hrf : ∀ x, Nearest 24 x (rf x)) (hrd : ∀ x, Nearest 53 x (rd x)) :
    vaporIndex rf rd 290 = 28 := by
  obtain ⟨-, h2⟩ := vapor_float hrf hrd 290 (by decide) (by decide)
  have e1 := nearest_err (by norm_num) (hrd (((290 : Int) : ℚ) / 1000))
  obtain ⟨a1, a2⟩ := abs_le.1 e1
  have hr : rf (rd (((290 : Int) : ℚ) / 1000)) = ((9730785 : Int) : ℚ) * (2 : ℚ) ^ (-25 : ℤ) := by
    apply nearest_unique_of_ge (by norm_num) (hrf _)
    · norm_num
    · norm_num at a1 a2 ⊢; linarith
    · rw [abs_lt]; norm_num at a1 a2 ⊢; constructor <;> linarith
  unfold vaporIndex
  rw [bin hrd (hrf _).1 h2 (by rw [hr]; norm_num), hr, Int.floor_eq_iff]
  constructor <;> norm_num

/-- A rounding to float and to double exists, so that the hypotheses above are satisfied. -/
example : ∃ rf rd : ℚ → ℚ, (∀ x, Nearest 24 x (rf x)) ∧ (∀ x, Nearest 53 x (rd x)) := by
  obtain ⟨rf, h⟩ := exists_round 24 (by norm_num)
  obtain ⟨rd, h'⟩ := exists_round 53 (by norm_num)
  exact ⟨rf, rd, h, h'⟩

/-! ## C250 -/

/-- Reflectance at the sensor over a surface with reflectance `ρ`. -/
def sensor (b : Band) (tw ρ : ℚ) : ℚ := b.rhoP + tw * b.o * (b.t * ρ / (1 - b.s * ρ))

theorem surface_sensor (b : Band) (tw ρ : ℚ) (h1 : tw ≠ 0) (h2 : b.o ≠ 0) (h3 : b.t ≠ 0) (h4 : 1 - b.s * ρ ≠ 0) :
    surface b tw (sensor b tw ρ) = ρ := by
  unfold surface sensor
  have e : (b.rhoP + tw * b.o * (b.t * ρ / (1 - b.s * ρ)) - b.rhoP) / (tw * b.o) = b.t * ρ / (1 - b.s * ρ) := by
    field_simp; ring
  have e2 : b.t + b.s * (b.t * ρ / (1 - b.s * ρ)) = b.t / (1 - b.s * ρ) := by field_simp; ring
  dsimp only
  rw [e, e2, div_div_div_cancel_right₀ h4, mul_comm, mul_div_assoc, div_self h3, mul_one]

/-- C250: if both bands see a surface of the same reflectance through the water vapour `w`, then `w` minimises the objective of
the search; the objective is never negative. -/
theorem c250_truth (nir vap : Band) (tw : Bool → ℚ → ℚ) (ρ w : ℚ) (hw : 0 ≤ w) (ht : ∀ b, tw b w ≠ 0)
    (hn : nir.o ≠ 0 ∧ nir.t ≠ 0 ∧ 1 - nir.s * ρ ≠ 0) (hv : vap.o ≠ 0 ∧ vap.t ≠ 0 ∧ 1 - vap.s * ρ ≠ 0) (w' : ℚ) :
    objective nir vap tw (sensor nir (tw false w) ρ) (sensor vap (tw true w) ρ) w = 0 ∧
    0 ≤ objective nir vap tw (sensor nir (tw false w) ρ) (sensor vap (tw true w) ρ) w' := by
  constructor
  · unfold objective
    simp only [if_neg (not_lt.2 hw)]
    rw [surface_sensor _ _ _ (ht _) hn.1 hn.2.1 hn.2.2, surface_sensor _ _ _ (ht _) hv.1 hv.2.1 hv.2.2, sub_self, abs_zero]
  · exact abs_nonneg _

/-- C250: the objective is zero only where both bands give the same surface reflectance. Negative water vapour counts as
none. -/
theorem c250_zero (nir vap : Band) (tw : Bool → ℚ → ℚ) (a b w : ℚ) :
    (objective nir vap tw a b w = 0 ↔ surface nir (tw false (max w 0)) a = surface vap (tw true (max w 0)) b) ∧
    (w < 0 → objective nir vap tw a b w = objective nir vap tw a b 0) := by
  have e : (if w < 0 then 0 else w) = max w 0 := by
    split
    · exact (max_eq_right (by linarith)).symm
    · exact (max_eq_left (by linarith)).symm
  constructor
  · unfold objective
    dsimp only
    rw [e, abs_eq_zero, sub_eq_zero]
  · intro h
    unfold objective
    simp [h]

example : objective ⟨0, 1, 0, 1⟩ ⟨0, 1, 0, 1⟩ (fun b w => if b then 1 / (1 + w) else 1) (1 / 2) (1 / 4) 1 = 0 := by
  norm_num [objective, surface]

end Verif.Gas
