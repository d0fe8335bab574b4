import Verif.Topo.Props
import Mathlib.Analysis.SpecialFunctions.Trigonometric.Bounds

/-!
# Illumination
-/

namespace Verif.Topo

open Real Verif.Str Verif.Topo.Spec

/-- The normal of the plane from slope and aspect. -/
theorem normal_angles {p q s a : ℝ} (h0 : 0 ≤ s) (h1 : s < π / 2) (ht : tan s = √(p ^ 2 + q ^ 2)) (hf : p = 0 ∧ q = 0 → a = 0)
    (hd : ¬ (p = 0 ∧ q = 0) → sin a * √(p ^ 2 + q ^ 2) = -p ∧ cos a * √(p ^ 2 + q ^ 2) = -q) :
    normal p q = (sin s * sin a, sin s * cos a, cos s) := by
  have hc : 0 < cos s := cos_pos_of_mem_Ioo ⟨by linarith [pi_pos], h1⟩
  have hcos : cos s = 1 / √(p ^ 2 + q ^ 2 + 1) := by
    have e : p ^ 2 + q ^ 2 + 1 = (1 / cos s) ^ 2 := by
      have e1 : p ^ 2 + q ^ 2 = tan s ^ 2 := by rw [ht, sq_sqrt (by positivity)]
      rw [e1, tan_eq_sin_div_cos]
      field_simp
      exact sin_sq_add_cos_sq s
    rw [e, sqrt_sq (by positivity)]
    field_simp
  have hsin : sin s = √(p ^ 2 + q ^ 2) * cos s := by
    rw [← ht, tan_mul_cos hc.ne']
  unfold normal
  rw [show -p / √(p ^ 2 + q ^ 2 + 1) = -p * cos s by rw [hcos]; ring, show -q / √(p ^ 2 + q ^ 2 + 1) = -q * cos s by rw [hcos]; ring, ← hcos]
  by_cases h : p = 0 ∧ q = 0
  · rw [h.1, h.2] at hsin ⊢
    simp at hsin
    simp [hsin]
  · obtain ⟨e1, e2⟩ := hd h
    rw [hsin, ← e1, ← e2]
    refine Prod.ext ?_ (Prod.ext ?_ rfl) <;> · simp only; ring

theorem floor_close {x : ℝ} (h : 0 ≤ x) : |((⌊10000 * x⌋₊ : ℕ) : ℝ) / 10000 - x| ≤ 1 / 10000 := by
  have h1 := Nat.floor_le (a := 10000 * x) (by positivity)
  have h2 := Nat.lt_floor_add_one (10000 * x)
  rw [abs_le]
  constructor <;> linarith

theorem illumin_close (z sa s s' a a' : ℝ) (hs : |s' - s| ≤ 1 / 10000) (ha : |a' - a| ≤ 1 / 10000) :
    |illumin (cos z) (sin z) (cos s') (sin s') sa a' - illumin (cos z) (sin z) (cos s) (sin s) sa a| ≤ 3 / 10000 := by
  unfold illumin
  have e : cos z * cos s' + sin z * sin s' * cos (sa - a') - (cos z * cos s + sin z * sin s * cos (sa - a)) =
      cos z * (cos s' - cos s) + (sin z * cos (sa - a')) * (sin s' - sin s) + (sin z * sin s) * (cos (sa - a') - cos (sa - a)) := by ring
  rw [e]
  have b : ∀ x y : ℝ, |x| ≤ 1 → |y| ≤ 1 / 10000 → |x * y| ≤ 1 / 10000 := by
    intro x y hx hy
    rw [abs_mul]
    calc |x| * |y| ≤ 1 * (1 / 10000) := mul_le_mul hx hy (abs_nonneg _) (by norm_num)
      _ = 1 / 10000 := by norm_num
  have m : ∀ x y : ℝ, |x| ≤ 1 → |y| ≤ 1 → |x * y| ≤ 1 := by
    intro x y hx hy
    rw [abs_mul]
    exact mul_le_one₀ hx (abs_nonneg _) hy
  have h1 := b _ _ (abs_cos_le_one z) ((abs_cos_sub_cos_le s' s).trans hs)
  have h2 := b _ _ (m _ _ (abs_sin_le_one z) (abs_cos_le_one (sa - a'))) ((abs_sin_sub_sin_le s' s).trans hs)
  have h3 := b _ _ (m _ _ (abs_sin_le_one z) (abs_sin_le_one s)) ((abs_cos_sub_cos_le (sa - a') (sa - a)).trans (by
    rw [show sa - a' - (sa - a) = -(a' - a) by ring, abs_neg]; exact ha))
  refine (abs_add_le _ _).trans ?_
  have := abs_add_le (cos z * (cos s' - cos s)) ((sin z * cos (sa - a')) * (sin s' - sin s))
  linarith

theorem toShort_close {x : ℝ} (h : |x| ≤ 30000) : ∃ k : ℤ, toShort x = .ok k ∧ |(k : ℝ) - x| ≤ 1 := by
  obtain ⟨h1, h2⟩ := abs_le.1 h
  unfold toShort
  rw [if_pos ⟨by linarith, by linarith⟩]
  refine ⟨_, rfl, ?_⟩
  split
  · rw [abs_le]
    constructor <;> linarith [Int.floor_le x, Int.lt_floor_add_one x]
  · rw [abs_le]
    constructor <;> linarith [Int.le_ceil x, Int.ceil_lt_add_one x]

theorem dot_angles (z sa s a : ℝ) : dot (sun z sa) (sin s * sin a, sin s * cos a, cos s) = illumin (cos z) (sin z) (cos s) (sin s) sa a := by
  unfold dot sun illumin
  simp only
  rw [cos_sub]
  ring

theorem dot_bound (z sa p q : ℝ) : |dot (sun z sa) (normal p q)| ≤ 1 := by
  have hpos : (0 : ℝ) < p ^ 2 + q ^ 2 + 1 := by positivity
  have hn : (normal p q).1 ^ 2 + (normal p q).2.1 ^ 2 + (normal p q).2.2 ^ 2 = 1 := by
    unfold normal
    simp only [div_pow, sq_sqrt hpos.le]
    field_simp
  have hs : (sun z sa).1 ^ 2 + (sun z sa).2.1 ^ 2 + (sun z sa).2.2 ^ 2 = 1 := by
    unfold sun
    simp only
    have h1 := sin_sq_add_cos_sq z
    have h2 := sin_sq_add_cos_sq sa
    linear_combination h1 + sin z ^ 2 * h2
  unfold dot
  generalize normal p q = n at *
  generalize sun z sa = v at *
  obtain ⟨n1, n2, n3⟩ := n
  obtain ⟨v1, v2, v3⟩ := v
  simp only at *
  rw [abs_le]
  constructor
  · nlinarith [sq_nonneg (v1 + n1), sq_nonneg (v2 + n2), sq_nonneg (v3 + n3)]
  · nlinarith [sq_nonneg (v1 - n1), sq_nonneg (v2 - n2), sq_nonneg (v3 - n3)]

/-- C170: for terrain that rises by `p` to the east and by `q` to the north, the stored illumination is the cosine of the angle between the direction of the sun
and the normal of the terrain, up to 4/10000. -/
theorem c170_cosine (z0 p q res : ℝ) (hr : 0 < res) (z sa : ℝ) (s a : Nat) (b : Bool) (h : exposition (plane z0 p q res) res = .ok (s, a, b)) :
    ∃ k : ℤ, illumination z sa s a = .ok k ∧ |(k : ℝ) / 10000 - dot (sun z sa) (normal p q)| ≤ 4 / 10000 := by
  obtain ⟨S, A, h1, h2, h3, h4, h5, h6, h7, h8⟩ := c169_plane z0 p q res hr
  rw [h1] at h
  injection h with h
  have es : ⌊10000 * S⌋₊ = s := congrArg Prod.fst h
  have ea : ⌊10000 * A⌋₊ = a := congrArg (fun x => x.2.1) h
  have cs : |(s : ℝ) / 10000 - S| ≤ 1 / 10000 := es ▸ floor_close h2
  have ca : |(a : ℝ) / 10000 - A| ≤ 1 / 10000 := ea ▸ floor_close h5
  have hn := normal_angles h2 h3 h4 h7 h8
  have hb := dot_bound z sa p q
  rw [hn, dot_angles] at hb ⊢
  have hclose := illumin_close z sa S _ A _ cs ca
  have hb' : |illumin (cos z) (sin z) (cos ((s : ℝ) / 10000)) (sin ((s : ℝ) / 10000)) sa ((a : ℝ) / 10000) * 10000| ≤ 30000 := by
    rw [abs_le] at *
    constructor <;> linarith
  have hill : illumination z sa s a = toShort (illumin (cos z) (sin z) (cos ((s : ℝ) / 10000)) (sin ((s : ℝ) / 10000)) sa ((a : ℝ) / 10000) * 10000) := by
    unfold illumination
    split
    · rename_i e
      rw [e]
      unfold illumin
      simp
    · rfl
  obtain ⟨k, e1, e2⟩ := toShort_close hb'
  refine ⟨k, hill.trans e1, ?_⟩
  rw [abs_le] at *
  constructor <;> linarith

theorem cos_80 : 1736 / 10000 < cos (80 * (π / 180)) ∧ cos (80 * (π / 180)) < 1737 / 10000 := by
  have hpi := pi_pos
  have h3 : cos (3 * (80 * (π / 180))) = -(1 / 2) := by
    rw [show 3 * (80 * (π / 180)) = π / 3 + π by ring, cos_add_pi, cos_pi_div_three]
  rw [cos_three_mul] at h3
  have h1 : cos (80 * (π / 180)) < 1 / 2 := by
    rw [← cos_pi_div_three]
    exact cos_lt_cos_of_nonneg_of_le_pi (by linarith) (by linarith) (by linarith)
  have h0 : 0 < cos (80 * (π / 180)) := cos_pos_of_mem_Ioo ⟨by linarith, by linarith⟩
  generalize cos (80 * (π / 180)) = c at *
  constructor
  · by_contra hc
    nlinarith [mul_pos h0 h0, mul_nonneg h0.le (sub_nonneg.2 (not_lt.1 hc))]
  · by_contra hc
    nlinarith [mul_pos h0 h0, mul_nonneg (sub_nonneg.2 (not_lt.1 hc)) (sub_nonneg.2 h1.le), mul_nonneg h0.le (mul_nonneg (sub_nonneg.2 (not_lt.1 hc)) (sub_nonneg.2 h1.le))]

theorem cos_55 : 5735 / 10000 < cos (55 * (π / 180)) ∧ cos (55 * (π / 180)) < 5736 / 10000 := by
  have hpi := pi_pos
  have h15 : 96591 / 100000 < cos (π / 12) ∧ cos (π / 12) < 965990 / 1000000 := by
    have h2 := cos_sq (π / 12)
    rw [show 2 * (π / 12) = π / 6 by ring, cos_pi_div_six] at h2
    have h0 : 0 < cos (π / 12) := cos_pos_of_mem_Ioo ⟨by linarith, by linarith⟩
    have hs := sq_sqrt (show (0 : ℝ) ≤ 3 by norm_num)
    have hs0 := sqrt_nonneg (3 : ℝ)
    have s1 : 17320 / 10000 < √3 := by by_contra hc; nlinarith
    have s2 : √3 < 17321 / 10000 := by by_contra hc; nlinarith
    constructor
    · by_contra hc; nlinarith
    · by_contra hc; nlinarith
  have h3 : cos (3 * (55 * (π / 180))) = -cos (π / 12) := by
    rw [show 3 * (55 * (π / 180)) = π - π / 12 by ring, cos_pi_sub]
  rw [cos_three_mul] at h3
  have h1 : 1 / 2 < cos (55 * (π / 180)) := by
    rw [← cos_pi_div_three]
    exact cos_lt_cos_of_nonneg_of_le_pi (by linarith) (by linarith) (by linarith)
  have hle := cos_le_one (55 * (π / 180))
  generalize cos (55 * (π / 180)) = c at *
  obtain ⟨g1, g2⟩ := h15
  generalize cos (π / 12) = d at *
  constructor
  · by_contra hc
    have hc := not_lt.1 hc
    nlinarith [mul_nonneg (sub_nonneg.2 h1.le) (sub_nonneg.2 hc), mul_nonneg (mul_nonneg (sub_nonneg.2 h1.le) (sub_nonneg.2 hc)) (by linarith : (0 : ℝ) ≤ c)]
  · by_contra hc
    have hc := not_lt.1 hc
    nlinarith [mul_nonneg (sub_nonneg.2 h1.le) (sub_nonneg.2 hc), mul_nonneg (mul_nonneg (sub_nonneg.2 h1.le) (sub_nonneg.2 hc)) (by linarith : (0 : ℝ) ≤ c)]

/-- C170: the illumination flag tells if the sun is less than 55, between 55 and 80, between 80 and 90, or more than 90 degrees from the normal of the terrain;
the limits are met up to 6/10000 of the cosine. -/
theorem c170_flag (z0 p q res : ℝ) (hr : 0 < res) (z sa : ℝ) (s a : Nat) (b : Bool) (h : exposition (plane z0 p q res) res = .ok (s, a, b)) (k : ℤ)
    (hk : illumination z sa s a = .ok k) (c : ℝ) (hc : c = dot (sun z sa) (normal p q)) :
    (cos (55 * (π / 180)) + 6 / 10000 ≤ c → illuminationFlag k = 0) ∧
      (cos (80 * (π / 180)) + 6 / 10000 ≤ c ∧ c ≤ cos (55 * (π / 180)) - 6 / 10000 → illuminationFlag k = 1) ∧
      (6 / 10000 ≤ c ∧ c ≤ cos (80 * (π / 180)) - 6 / 10000 → illuminationFlag k = 2) ∧ (c ≤ -6 / 10000 → illuminationFlag k = 3) := by
  obtain ⟨k', e1, e2⟩ := c170_cosine z0 p q res hr z sa s a b h
  rw [hk] at e1
  injection e1 with e1
  rw [← e1, ← hc, abs_le] at e2
  obtain ⟨a1, a2⟩ := cos_80
  obtain ⟨b1, b2⟩ := cos_55
  obtain ⟨d1, d2⟩ := e2
  have up : ∀ n : ℤ, (n : ℝ) ≤ k → n ≤ k := fun n hn => by exact_mod_cast hn
  have dn : ∀ n : ℤ, (k : ℝ) ≤ n → k ≤ n := fun n hn => by exact_mod_cast hn
  have g0 : k < 0 → illuminationFlag k = 3 := fun hh => if_pos hh
  have g1 : 0 ≤ k → k ≤ 1736 → illuminationFlag k = 2 := by
    intro hh h2
    unfold illuminationFlag
    have : (k : ℚ) ≤ 1736 := by exact_mod_cast h2
    rw [if_neg (by omega), if_pos (by linarith)]
  have g2 : 1737 ≤ k → k ≤ 5735 → illuminationFlag k = 1 := by
    intro hh h2
    unfold illuminationFlag
    have q1 : (1737 : ℚ) ≤ k := by exact_mod_cast hh
    have q2 : (k : ℚ) ≤ 5735 := by exact_mod_cast h2
    rw [if_neg (by omega), if_neg (by linarith), if_pos (by linarith)]
  have g3 : 5736 ≤ k → illuminationFlag k = 0 := by
    intro hh
    unfold illuminationFlag
    have q1 : (5736 : ℚ) ≤ k := by exact_mod_cast hh
    rw [if_neg (by omega), if_neg (by linarith), if_neg (by linarith)]
  refine ⟨fun hh => g3 (up 5736 (by push_cast; linarith)), fun hh => g2 (up 1737 (by push_cast; linarith [hh.1])) (dn 5735 (by push_cast; linarith [hh.2])),
    fun hh => g1 (up 0 (by push_cast; linarith [hh.1])) (dn 1736 (by push_cast; linarith [hh.2])), fun hh => g0 ?_⟩
  have := dn (-1) (by push_cast; linarith)
  omega

end Verif.Topo
