import Verif.Index.DiffProps
import Verif.Index.LinProps
import Verif.Index.RatioProps
import Verif.Index.SeriesProps

/-! # The hypotheses can be met -/

namespace Verif.Index

open Verif.Float Verif.Str Spec

instance (v : Int) : Decidable (Short v) := by unfold Short; infer_instance

/-- There are roundings and library functions as assumed. -/
theorem functions : ∃ f d ex sq : ℚ → ℚ, (∀ x, Nearest 24 x (f x)) ∧ (∀ x, Nearest 53 x (d x)) ∧
    (∀ x : ℚ, x ≤ 0 → |((ex x : ℚ) : ℝ) - Real.exp x| ≤ 1 / 10000000) ∧
    (∀ x : ℚ, 0 ≤ x → |((sq x : ℚ) : ℝ) - Real.sqrt x| ≤ Real.sqrt x / 1000000000000) := by
  obtain ⟨f, hf⟩ := exists_round 24 (by norm_num)
  obtain ⟨d, hd⟩ := exists_round 53 (by norm_num)
  have he : ∀ x : ℚ, ∃ q : ℚ, |((q : ℚ) : ℝ) - Real.exp x| ≤ 1 / 10000000 := by
    intro x
    obtain ⟨q, h1, h2⟩ := exists_rat_btwn (show Real.exp x < Real.exp x + 1 / 10000000 by linarith)
    exact ⟨q, by rw [abs_le]; constructor <;> linarith⟩
  have hs : ∀ x : ℚ, ∃ q : ℚ, 0 ≤ x → |((q : ℚ) : ℝ) - Real.sqrt x| ≤ Real.sqrt x / 1000000000000 := by
    intro x
    rcases (Real.sqrt_nonneg (x : ℝ)).lt_or_eq with h | h
    · obtain ⟨q, h1, h2⟩ := exists_rat_btwn (show Real.sqrt x < Real.sqrt x + Real.sqrt x / 1000000000000 by
        have : 0 < Real.sqrt x / 1000000000000 := by positivity
        linarith)
      exact ⟨q, fun _ => by rw [abs_le]; constructor <;> linarith⟩
    · exact ⟨0, fun _ => by rw [← h]; simp⟩
  choose ex hex using he
  choose sq hsq using hs
  exact ⟨f, d, ex, sq, hf, hd, fun x _ => hex x, hsq⟩

/-- C72: NDVI of NIR 40 % and RED 10 % is 0.6. -/
example (f d ex sq : ℚ → ℚ) (hf : ∀ x, Nearest 24 x (f x)) :
    ∃ v, equation f d ex sq (-9999) "NDVI" [4000, 1000] = .ok v ∧ Stored (1 / 500) v 6000 := by
  have hv : (10000 : ℝ) * normDiff 4000 1000 = 6000 := by unfold normDiff; norm_num
  obtain ⟨v, h1, h2, -⟩ := (c72_value f d ex sq hf (-9999) "NDVI" (by decide) 4000 1000 (by decide) (by decide)).2
    ⟨by norm_num, by unfold normDiff; rw [abs_le]; norm_num⟩
  rw [hv] at h2
  exact ⟨v, h1, h2⟩

/-- C72: a negative reflectance can put the index out of range. -/
example (f d ex sq : ℚ → ℚ) (hf : ∀ x, Nearest 24 x (f x)) :
    equation f d ex sq (-9999) "NDWI" [300, -100] = .ok (-9999) :=
  (c72_value f d ex sq hf (-9999) "NDWI" (by decide) 300 (-100) (by decide) (by decide)).1
    (Or.inr (by unfold normDiff; norm_num))

/-- C72: swapped bands. -/
example (f d ex sq : ℚ → ℚ) (hf : ∀ x, Nearest 24 x (f x)) (ho : ∀ x, f (-x) = -f x) :
    ∃ v, equation f d ex sq (-9999) "NDMI" [3000, 1000] = .ok v ∧
      equation f d ex sq (-9999) "NDMI" [1000, 3000] = .ok (-v) :=
  c72_swap f d ex sq hf ho (-9999) "NDMI" (by decide) 3000 1000 (by decide) (by decide) (by decide)
    (by unfold normDiff; rw [abs_le]; norm_num)

/-- C73: EVI of NIR 40 %, RED 10 %, BLUE 5 % is 0.75 / 1.625. -/
example (f d ex sq : ℚ → ℚ) (hf : ∀ x, Nearest 24 x (f x)) :
    ∃ v, equation f d ex sq (-9999) "EVI" [4000, 1000, 500] = .ok v ∧
      Stored (1 / 100) v (10000 * (0.75 / 1.625)) := by
  have hx : (10000 : ℝ) * (0.75 / 1.625) = 10000 * ((2.5 * (((4000 : Int) : ℝ) / 10000 - ((1000 : Int) : ℝ) / 10000)) /
      (((4000 : Int) : ℝ) / 10000 + 6 * (((1000 : Int) : ℝ) / 10000) - 7.5 * (((500 : Int) : ℝ) / 10000) + 1)) := by
    norm_num
  exact (c73_value_partial f d ex sq hf (-9999) .evi 4000 1000 500 (by decide) (by decide) (by decide) _ hx).2
    (by norm_num) (by norm_num) (by norm_num)

/-- C73: ARVI over a hazy dark target is out of range. -/
example (f d ex sq : ℚ → ℚ) (hf : ∀ x, Nearest 24 x (f x)) :
    equation f d ex sq (-9999) "ARVI" [501, 500, 1500] = .ub :=
  c73_overflow_violated f d ex sq hf (-9999) .arvi 501 500 1500 (by decide) (by decide) (by decide) _ rfl
    (by norm_num) (Or.inr (by norm_num))

/-- C74: brightness of a pixel with 10 % in all bands. -/
example (f d ex sq : ℚ → ℚ) (hf : ∀ x, Nearest 24 x (f x)) :
    ∃ v, equation f d ex sq (-9999) "TC-BRIGHT" [1000, 1000, 1000, 1000, 1000, 1000] = .ok v ∧
      Stored (1 / 6) v (tcb (1000 : Int) (1000 : Int) (1000 : Int) (1000 : Int) (1000 : Int) (1000 : Int)) :=
  c74_tasseled_partial f d ex sq hf (-9999) .bright 1000 1000 1000 1000 1000 1000 (by decide) (by decide)
    (by decide) (by decide) (by decide) (by decide) (by unfold tcb; norm_num) (by unfold tcb; norm_num)

/-- C74: the disturbance index of bright visible and short-wave bands over a dark NIR is out of range. -/
example (f d ex sq : ℚ → ℚ) (hf : ∀ x, Nearest 24 x (f x)) :
    equation f d ex sq (-9999) "TC-DI" [10000, 10000, 10000, 0, 10000, 10000] = .ub :=
  c74_overflow_violated f d ex sq hf (-9999) .disturbance 10000 10000 10000 0 10000 10000 (by decide) (by decide)
    (by decide) (by decide) (by decide) (by decide) (Or.inr (by unfold tcb tcg tcw; norm_num))

/-- C74: continuum removal. -/
example (f d ex sq : ℚ → ℚ) (hf : ∀ x, Nearest 24 x (f x)) :
    ∃ v, equation f d ex sq (-9999) "ContRemSWIR" [2500, 4000, 1500] = .ok v ∧
      Stored (1 / 20) v (contRem (2500 : Int) (4000 : Int) (1500 : Int)) :=
  c74_continuum f d ex sq hf (-9999) 2500 4000 1500 (by decide) (by decide) (by decide)
    (by unfold contRem; norm_num) (by unfold contRem; norm_num)

/-- C75: a vegetated pixel. -/
example (f d ex sq : ℚ → ℚ) (hf : ∀ x, Nearest 24 x (f x)) (hd : ∀ x, Nearest 53 x (d x))
    (hex : ∀ x : ℚ, x ≤ 0 → |((ex x : ℚ) : ℝ) - Real.exp x| ≤ 1 / 10000000) :
    ∃ v, equation f d ex sq (-9999) "kNDVI" [4000, 500] = .ok v ∧ Stored (1 / 10) v (10000 * kndvi (4000 : Int) (500 : Int)) := by
  obtain ⟨v, h1, h2, -⟩ := (c75_kndvi f d ex sq hf hd hex (-9999) 4000 500 (by decide) (by decide)).2 (by decide)
  exact ⟨v, h1, h2⟩

/-- C76: CIre of 30 % and 10 % is 2. -/
example (f d ex sq : ℚ → ℚ) (hf : ∀ x, Nearest 24 x (f x)) (hd : ∀ x, Nearest 53 x (d x)) :
    ∃ v, equation f d ex sq (-9999) "CIre" [3000, 1000] = .ok v ∧ Stored (1 / 100) v 2000 :=
  (c76_cire f d ex sq hf hd (-9999) 3000 1000 2000 (by norm_num)).2.2.1 (by decide) (by norm_num) (by norm_num)

/-- C76: a slightly negative red edge reflectance. -/
example (f d ex sq : ℚ → ℚ) (hf : ∀ x, Nearest 24 x (f x)) (hd : ∀ x, Nearest 53 x (d x)) :
    equation f d ex sq (-9999) "MSRre" [500, -10] = .ub :=
  c76_nan_violated f d ex sq hf hd (-9999) 500 (-10) "MSRre" (Or.inl rfl) (by decide) (by decide) (by norm_num)

/-- C77: three dates, the second is masked. -/
example : series (some true) (-9999) bandValue [(true, 5), (false, 6), (true, 7)] = .ok [5, -9999, 7] := by
  decide

end Verif.Index
