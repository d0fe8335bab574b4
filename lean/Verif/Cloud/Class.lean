import Verif.Cloud.Model
import Verif.Index.Lemmas
import Mathlib.Tactic.Linarith
import Mathlib.Tactic.Positivity
import Mathlib.Tactic.FieldSimp
import Mathlib.Tactic.NormNum

/-!
# Potential clouds (C131)
-/

namespace Verif.Cloud

open Verif.Str (Out)

/-- `r` is the normalized difference of two bands, 0.01 if their sum is zero. -/
def IsNd (a b : Int) (r : ℚ) : Prop := if a + b = 0 then r = 1 / 100 else r * (a + b) = a - b

theorem nd_spec (a b : Int) (r : ℚ) : IsNd a b r ↔ r = nd a b := by
  unfold IsNd nd
  by_cases h : a + b = 0
  · simp [h]
  · have h' : ((a : ℚ) + b) ≠ 0 := by exact_mod_cast h
    simp only [h, if_false, ne_eq, not_false_eq_true, if_true]
    push_cast
    exact (eq_div_iff h').symm

/-- **C131** A pixel that is not saturated is a potential cloud if and only if it passes all spectral tests (reflectance in 1/10000, temperature in 1/100 K): snow index and vegetation index below
0.8, second short-wave infrared above 0.03, not warmer than 300.15 K (if there is a temperature band), mean of the visible bands above 0.15, visible bands similar (deviations from their mean
add up to less than 70 % of it), blue minus half of red above 0.08, and near infrared more than 75 % of the first short-wave infrared. Saturated pixels always are potential clouds. -/
theorem c131_potential (x : Pixel) (v s : ℚ) (hv : IsNd x.nir x.red v) (hs : IsNd x.green x.sw1 s) :
    (x.sat = true → x.potential = true) ∧
    (x.sat = false → (x.potential = true ↔
      s < 8 / 10 ∧ v < 8 / 10 ∧ x.sw2 > 300 ∧ (∀ t, x.temp = some t → t ≤ 30015) ∧
      (x.blue + x.green + x.red : Int) > 4500 ∧
      (let m : ℚ := ((x.blue + x.green + x.red : Int) : ℚ) / 3
       |(x.blue : ℚ) - m| + |(x.green : ℚ) - m| + |(x.red : ℚ) - m| < 7 / 10 * m) ∧
      (x.blue : ℚ) - x.red / 2 > 800 ∧ x.sw1 ≠ 0 ∧ (x.nir : ℚ) / x.sw1 > 75 / 100)) := by
  rw [nd_spec] at hv hs
  have ev : x.ndvi = v := hv.symm
  have es : x.ndsi = s := hs.symm
  constructor
  · intro h
    simp [Pixel.potential, h]
  · intro h
    have hb : x.bright = true ↔ (x.blue + x.green + x.red : Int) > 4500 := by
      have e : x.vis * 3 = ((x.blue + x.green + x.red : Int) : ℚ) := by unfold Pixel.vis; ring
      unfold Pixel.bright
      rw [decide_eq_true_eq]
      constructor
      · intro h
        have : ((x.blue + x.green + x.red : Int) : ℚ) > ((4500 : Int) : ℚ) := by rw [← e]; push_cast; linarith
        exact_mod_cast this
      · intro h
        have : ((x.blue + x.green + x.red : Int) : ℚ) > ((4500 : Int) : ℚ) := by exact_mod_cast h
        rw [← e] at this
        push_cast at this; linarith
    have hw : x.bright = true → ((match x.white with | some w => decide (w < 7 / 10) | none => false) = true ↔
        |(x.blue : ℚ) - x.vis| + |(x.green : ℚ) - x.vis| + |(x.red : ℚ) - x.vis| < 7 / 10 * x.vis) := by
      intro hbr
      have hpos : x.vis > 1500 := by simpa [Pixel.bright] using hbr
      have hp0 : (0 : ℚ) < x.vis := by linarith
      unfold Pixel.white
      simp only [ne_of_gt hp0, if_false]
      by_cases h1 : (|(x.blue : ℚ) - x.vis| + |(x.green : ℚ) - x.vis| + |(x.red : ℚ) - x.vis|) / x.vis > 1
      · simp only [h1, if_true, decide_eq_true_eq]
        rw [gt_iff_lt, lt_div_iff₀ hp0] at h1
        constructor
        · intro h; norm_num at h
        · intro h; linarith
      · simp only [h1, if_false, decide_eq_true_eq]
        rw [div_lt_iff₀ hp0]
    have hr : x.r45 > 75 / 100 ↔ x.sw1 ≠ 0 ∧ (x.nir : ℚ) / x.sw1 > 75 / 100 := by
      unfold Pixel.r45
      by_cases h0 : x.sw1 = 0
      · simp [h0]; norm_num
      · simp [h0]
    have hh : x.hot > 0 ↔ (x.blue : ℚ) - x.red / 2 > 800 := by
      unfold Pixel.hot
      constructor <;> intro h <;> linarith
    have hbasic : x.basic = true ↔ (s < 8 / 10 ∧ v < 8 / 10 ∧ x.sw2 > 300) ∧ ∀ t, x.temp = some t → t ≤ 30015 := by
      unfold Pixel.basic
      rw [ev, es, Bool.and_eq_true, decide_eq_true_eq]
      cases x.temp <;> simp
    simp only [Pixel.potential, h, Bool.false_or, Bool.and_eq_true, decide_eq_true_eq, hbasic, hr, hh]
    change _ ↔ s < 8 / 10 ∧ v < 8 / 10 ∧ x.sw2 > 300 ∧ (∀ t, x.temp = some t → t ≤ 30015) ∧ (x.blue + x.green + x.red : Int) > 4500 ∧
      |(x.blue : ℚ) - x.vis| + |(x.green : ℚ) - x.vis| + |(x.red : ℚ) - x.vis| < 7 / 10 * x.vis ∧ (x.blue : ℚ) - x.red / 2 > 800 ∧ x.sw1 ≠ 0 ∧ (x.nir : ℚ) / x.sw1 > 75 / 100
    constructor
    · rintro ⟨⟨⟨⟨⟨⟨a, b, c⟩, d⟩, e⟩, f⟩, g⟩, i, j⟩
      exact ⟨a, b, c, d, hb.1 f, (hw f).1 e, g, i, j⟩
    · rintro ⟨a, b, c, d, f, e, g, i, j⟩
      exact ⟨⟨⟨⟨⟨⟨a, b, c⟩, d⟩, (hw (hb.2 f)).2 e⟩, hb.2 f⟩, g⟩, i, j⟩

/-- **C131** Snow and water before buffering: the documented spectral rules. -/
theorem c131_snow_water (x : Pixel) (v s : ℚ) (hv : IsNd x.nir x.red v) (hs : IsNd x.green x.sw1 s) :
    (x.snow = true ↔ x.nir > 1100 ∧ x.green > 1000 ∧ ((s > 15 / 100 ∧ ∃ t, x.temp = some t ∧ t < 28300) ∨ (s > 4 / 10 ∧ x.sw2 < 1100))) ∧
    (x.water = true ↔ x.slope < 870 ∧ ((v < 1 / 100 ∧ x.nir < 1100) ∨ (0 < v ∧ v < 1 / 10 ∧ x.nir < 500))) := by
  rw [nd_spec] at hv hs
  have ev : x.ndvi = v := hv.symm
  have es : x.ndsi = s := hs.symm
  constructor
  · unfold Pixel.snow
    rw [es]
    cases h : x.temp with
    | none =>
      simp
      tauto
    | some t =>
      simp
      tauto
  · unfold Pixel.water
    rw [ev]
    simp
    tauto

/-- **C131** Clear and land pixels: a clear pixel is neither a potential cloud nor snow; a land pixel is a clear pixel without water. The numbers of these pixels are ordered. -/
theorem c131_clear (px : List (Pixel × Bool)) :
    (∀ x ∈ px, ((classify x.1 x.2).clear = true ↔ x.1.potential = false ∧ x.2 = false) ∧
      ((classify x.1 x.2).land = true ↔ (classify x.1 x.2).clear = true ∧ x.1.water = false)) ∧
    (counts px).2.2 ≤ (counts px).2.1 ∧ (counts px).2.1 ≤ (counts px).1 := by
  refine ⟨?_, ?_, ?_⟩
  · intro x _
    simp only [classify, Bool.and_eq_true, Bool.not_eq_true']
    tauto
  · simp only [counts]
    induction px with
    | nil => simp
    | cons a l ih =>
      by_cases h : (classify a.1 a.2).land = true
      · have : (classify a.1 a.2).clear = true := by
          simp only [classify, Bool.and_eq_true, Bool.not_eq_true'] at h ⊢
          exact ⟨h.1.1, h.2⟩
        simp [h, this, ih]
      · by_cases hc : (classify a.1 a.2).clear = true
        · simp [h, hc]; omega
        · simp [h, hc, ih]
  · simp only [counts]
    exact List.length_filter_le _ _

/-- **C131** Landsat: only bright pixels become clouds; all saturated bright pixels do; and a pixel that is a cloud stays one if its probability is higher, the thresholds are lower, or
the pixel is colder. -/
theorem c131_probability (pcp water sat bright : Bool) (t t' : Int) (lp lp' wp wp' lc lc' wc wc' low low' : ℚ) (h1 : lp ≤ lp') (h2 : wp ≤ wp') (h3 : lc' ≤ lc) (h4 : wc' ≤ wc)
    (h5 : low ≤ low') (h6 : t' ≤ t) :
    (cloudy pcp water sat bright t lp wp lc wc low = true → bright = true ∧ cloudy pcp water sat bright t' lp' wp' lc' wc' low' = true) ∧
    (bright = true → sat = true → cloudy pcp water sat bright t lp wp lc wc low = true) ∧
    (cloudy pcp water sat bright t lp wp lc wc low = true → sat = true ∨ (t : ℚ) < low - 3500 ∨ (pcp = true ∧ if water = true then wp > wc else lp > lc)) := by
  have h6' : (t' : ℚ) ≤ t := by exact_mod_cast h6
  simp only [cloudy, Bool.and_eq_true, Bool.or_eq_true, decide_eq_true_eq, Bool.not_eq_true']
  refine ⟨?_, ?_, ?_⟩
  · rintro ⟨(((⟨⟨a, b⟩, c⟩ | ⟨⟨a, b⟩, c⟩) | c) | c), d⟩
    · exact ⟨d, Or.inl (Or.inl (Or.inl ⟨⟨a, b⟩, by linarith⟩)), d⟩
    · exact ⟨d, Or.inl (Or.inl (Or.inr ⟨⟨a, b⟩, by linarith⟩)), d⟩
    · exact ⟨d, Or.inl (Or.inr (by linarith)), d⟩
    · exact ⟨d, Or.inr c, d⟩
  · intro a b
    exact ⟨Or.inr b, a⟩
  · rintro ⟨(((⟨⟨a, b⟩, c⟩ | ⟨⟨a, b⟩, c⟩) | c) | c), d⟩
    · exact Or.inr (Or.inr ⟨a, by simpa [b] using c⟩)
    · exact Or.inr (Or.inr ⟨a, by simpa [b] using c⟩)
    · exact Or.inr (Or.inl c)
    · exact Or.inl c

theorem nd_abs {a b : Int} (ha : 0 ≤ a) (hb : 0 ≤ b) : |nd a b| ≤ 1 := by
  unfold nd
  by_cases h : a + b = 0
  · simp [h, abs_le]; norm_num
  · have hpos : (0 : ℚ) < ((a + b : Int) : ℚ) := by exact_mod_cast (by omega : 0 < a + b)
    simp only [ne_eq, h, not_false_eq_true, if_true]
    rw [abs_div, abs_of_pos hpos, div_le_one hpos]
    have h1 : (0 : ℚ) ≤ a := by exact_mod_cast ha
    have h2 : (0 : ℚ) ≤ b := by exact_mod_cast hb
    push_cast
    rw [abs_le]
    constructor <;> linarith

/-- **C131** The variability probability of a pixel without negative reflectance, and with some reflectance in the visible bands, is between 0 and 10000. What is missing: dark pixels and
negative reflectance. -/
theorem c131_variability_partial (x : Pixel) (h1 : 0 ≤ x.blue) (h2 : 0 ≤ x.green) (h3 : 0 ≤ x.red) (h4 : 0 ≤ x.nir) (h5 : 0 ≤ x.sw1)
    (hv : 0 < x.blue + x.green + x.red) : ∃ v, x.variability = .ok v ∧ 0 ≤ v ∧ v ≤ 10000 := by
  have hvis : 0 < x.vis := by
    unfold Pixel.vis
    have : (0 : ℚ) < ((x.blue + x.green + x.red : Int) : ℚ) := by exact_mod_cast hv
    linarith
  obtain ⟨w, hw, w0, w1⟩ : ∃ w, x.white = some w ∧ 0 ≤ w ∧ w ≤ 1 := by
    unfold Pixel.white
    simp only [ne_of_gt hvis, if_false]
    split_ifs with h
    · exact ⟨1, rfl, by norm_num, le_rfl⟩
    · exact ⟨_, rfl, by positivity, by linarith⟩
  have n1 : |x.ndvi| ≤ 1 := nd_abs h4 h3
  have n2 : |x.ndsi| ≤ 1 := nd_abs h2 h5
  have m1 := abs_nonneg x.ndvi
  have m2 := abs_nonneg x.ndsi
  have key : ∀ a b : ℚ, 0 ≤ a → a ≤ 1 → 0 ≤ b → b ≤ 1 →
      ∃ v, Index.short ((1 - (if a ≥ b then (if a ≥ w then a else w) else (if b ≥ w then b else w))) * 10000) = .ok v ∧ 0 ≤ v ∧ v ≤ 10000 := by
    intro a b a0 a1 b0 b1
    obtain ⟨y, hy⟩ : ∃ y, y = (1 - (if a ≥ b then (if a ≥ w then a else w) else (if b ≥ w then b else w))) * 10000 := ⟨_, rfl⟩
    have y0 : 0 ≤ y ∧ y ≤ 10000 := by
      rw [hy]
      split_ifs <;> constructor <;> linarith
    rw [← hy, Index.short_ok (by linarith) (by linarith)]
    refine ⟨_, rfl, ?_, ?_⟩
    · rw [Index.truncQ_eq, if_pos y0.1]
      exact Int.floor_nonneg.2 y0.1
    · rw [Index.truncQ_eq, if_pos y0.1]
      have := Int.floor_le y
      have : ((⌊y⌋ : Int) : ℚ) ≤ ((10000 : Int) : ℚ) := by push_cast; linarith
      exact_mod_cast this
  unfold Pixel.variability
  simp only [hw]
  have ha : ∀ (c : Prop) [Decidable c] (z : ℚ), 0 ≤ z → z ≤ 1 → 0 ≤ (if c then 0 else z) ∧ (if c then 0 else z) ≤ 1 := by
    intro c _ z z0 z1
    split_ifs
    · exact ⟨le_rfl, by norm_num⟩
    · exact ⟨z0, z1⟩
  have a1 := ha (x.sat = true ∧ x.ndvi > 0) |x.ndvi| m1 n1
  have a2 := ha (x.sat = true ∧ x.ndsi < 0) |x.ndsi| m2 n2
  exact key _ _ a1.1 a1.2 a2.1 a2.2

/-- C131, violated: for a pixel without any reflectance in the visible bands, the conversion of the variability probability is undefined (0/0). -/
theorem c131_dark_violated (x : Pixel) (h1 : x.blue = 0) (h2 : x.green = 0) (h3 : x.red = 0) : x.variability = .ub := by
  have : x.white = none := by
    unfold Pixel.white Pixel.vis
    simp [h1, h2, h3]
  unfold Pixel.variability
  rw [this]

/-- C131, violated: if one of the red and the near infrared reflectances is negative, such that their sum is small compared with their difference, the variability probability does not fit
into 16 bits, and the conversion is undefined. -/
theorem c131_negative_violated (x : Pixel) (hsat : x.sat = false) (hs : x.nir + x.red ≠ 0) (hd : 5 * |x.nir + x.red| ≤ |x.nir - x.red|) : x.variability = .ub := by
  have hv : |x.ndvi| ≥ 5 := by
    unfold Pixel.ndvi nd
    simp only [ne_eq, hs, not_false_eq_true, if_true]
    have hpos : (0 : ℚ) < |((x.nir + x.red : Int) : ℚ)| := abs_pos.2 (by exact_mod_cast hs)
    rw [abs_div, ge_iff_le, le_div_iff₀ hpos]
    exact_mod_cast hd
  unfold Pixel.variability
  simp only [hsat, Bool.false_eq_true, false_and, if_false]
  cases hw : x.white with
  | none => rfl
  | some w =>
    simp only
    apply Index.short_ub
    right
    split_ifs <;> linarith

end Verif.Cloud
