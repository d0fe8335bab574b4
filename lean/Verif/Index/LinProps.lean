import Verif.Index.Lemmas

/-! # C74: tasseled cap and continuum removal -/

namespace Verif.Index

open Verif.Float Verif.Str Spec

section
variable {f : ℚ → ℚ} (hf : ∀ x, Nearest 24 x (f x))
include hf

theorem f_f (x : ℚ) : f (f x) = f x := eq_of_nearest_rep (hf x).1 (hf _)

theorem f_neg_f (x : ℚ) : f (-f x) = -f x := by
  obtain ⟨m, e, hm, hx⟩ := (hf x).1
  refine eq_of_nearest_rep ⟨-m, e, by rwa [abs_neg], ?_⟩ (hf _)
  rw [hx]; push_cast; ring

/-- One product of a coefficient and a band. -/
theorem prod_err {c : ℚ} {b : Int} (hb : Short b) : |f (f c * b) - c * b| ≤ |c| / 255 := by
  have hb' : |(b : ℚ)| ≤ 32768 := by
    unfold Short at hb
    have : |b| ≤ 32768 := by rw [abs_le]; omega
    exact_mod_cast this
  have hc := abs_nonneg c
  have h1 : |f c * b - c * b| ≤ |c| / 512 := by
    rw [← sub_mul, abs_mul]
    have h2 := f_err hf c
    calc |f c - c| * |(b : ℚ)| ≤ |c| / 16777216 * 32768 :=
          mul_le_mul h2 hb' (abs_nonneg _) (by positivity)
      _ = |c| / 512 := by ring
  have h3 : |c * b| ≤ |c| * 32768 := by
    rw [abs_mul]; exact mul_le_mul_of_nonneg_left hb' hc
  have := f_acc hf h1 h3
  linarith

/-- One sum. -/
theorem sum_err {s p S P e e' : ℚ} (h1 : |s - S| ≤ e) (h2 : |p - P| ≤ e') (he : e + e' ≤ 1)
    (hB : |S + P| ≤ 130000) : |f (s + p) - (S + P)| ≤ e + e' + 1 / 128 := by
  have h3 : |s + p - (S + P)| ≤ e + e' := by
    rw [abs_le] at h1 h2 ⊢; constructor <;> linarith
  have := f_acc hf h3 hB
  linarith

theorem mul_abs {c B : ℚ} {b : Int} (hb : Short b) (hc : |c| ≤ B) : -(B * 32768) ≤ c * b ∧ c * b ≤ B * 32768 := by
  have hb' : |(b : ℚ)| ≤ 32768 := by
    unfold Short at hb
    have : |b| ≤ 32768 := by rw [abs_le]; omega
    exact_mod_cast this
  rw [← abs_le, abs_mul]
  exact mul_le_mul hc hb' (abs_nonneg _) ((abs_nonneg _).trans hc)

/-- One component. -/
theorem tcSum_err {c0 c1 c2 c3 c4 c5 b0 b1 b2 b3 b4 b5 : Int} (h0 : Short b0) (h1 : Short b1)
    (h2 : Short b2) (h3 : Short b3) (h4 : Short b4) (h5 : Short b5)
    (hc : |c0| + |c1| + |c2| + |c3| + |c4| + |c5| ≤ 23000) :
    ∃ x, tcSum f [c0, c1, c2, c3, c4, c5] [b0, b1, b2, b3, b4, b5] = f x ∧
    |f x - ((c0 : ℚ) / 10000 * b0 + (c1 : ℚ) / 10000 * b1 +
      (c2 : ℚ) / 10000 * b2 + (c3 : ℚ) / 10000 * b3 + (c4 : ℚ) / 10000 * b4 + (c5 : ℚ) / 10000 * b5)| ≤ 1 / 20 := by
  simp only [tcSum, List.zip, List.zipWith, List.foldl]
  refine ⟨_, rfl, ?_⟩
  have hq : |(c0 : ℚ) / 10000| + |(c1 : ℚ) / 10000| + |(c2 : ℚ) / 10000| + |(c3 : ℚ) / 10000| +
      |(c4 : ℚ) / 10000| + |(c5 : ℚ) / 10000| ≤ 23 / 10 := by
    simp only [abs_div]
    have : |(10000 : ℚ)| = 10000 := by norm_num
    rw [this]
    have : |(c0 : ℚ)| + |(c1 : ℚ)| + |(c2 : ℚ)| + |(c3 : ℚ)| + |(c4 : ℚ)| + |(c5 : ℚ)| ≤ 23000 := by
      exact_mod_cast hc
    linarith
  generalize (c0 : ℚ) / 10000 = q0 at *
  generalize (c1 : ℚ) / 10000 = q1 at *
  generalize (c2 : ℚ) / 10000 = q2 at *
  generalize (c3 : ℚ) / 10000 = q3 at *
  generalize (c4 : ℚ) / 10000 = q4 at *
  generalize (c5 : ℚ) / 10000 = q5 at *
  have n0 := abs_nonneg q0
  have n1 := abs_nonneg q1
  have n2 := abs_nonneg q2
  have n3 := abs_nonneg q3
  have n4 := abs_nonneg q4
  have n5 := abs_nonneg q5
  have p0 := prod_err hf (c := q0) h0
  have p1 := prod_err hf (c := q1) h1
  have p2 := prod_err hf (c := q2) h2
  have p3 := prod_err hf (c := q3) h3
  have p4 := prod_err hf (c := q4) h4
  have p5 := prod_err hf (c := q5) h5
  have m0 := mul_abs hf h0 (le_refl |q0|)
  have m1 := mul_abs hf h1 (le_refl |q1|)
  have m2 := mul_abs hf h2 (le_refl |q2|)
  have m3 := mul_abs hf h3 (le_refl |q3|)
  have m4 := mul_abs hf h4 (le_refl |q4|)
  have m5 := mul_abs hf h5 (le_refl |q5|)
  have s1 := sum_err hf p0 p1 (by linarith) (by rw [abs_le]; constructor <;> linarith)
  have s2 := sum_err hf s1 p2 (by linarith) (by rw [abs_le]; constructor <;> linarith)
  have s3 := sum_err hf s2 p3 (by linarith) (by rw [abs_le]; constructor <;> linarith)
  have s4 := sum_err hf s3 p4 (by linarith) (by rw [abs_le]; constructor <;> linarith)
  have s5 := sum_err hf s4 p5 (by linarith) (by rw [abs_le]; constructor <;> linarith)
  refine s5.trans ?_
  linarith

theorem tcInd_one {bands : List Int} {t : Nat} {x : ℚ} (h : tcSum f (tcCoef[t]?.getD []) bands = f x) :
    tcInd f bands [((1 : ℚ), t)] = f x := by
  simp only [tcInd, List.foldl, h, one_mul, zero_add, f_f hf]

theorem tcInd_three {bands : List Int} {x0 x1 x2 X0 X1 X2 : ℚ} (h0 : tcSum f (tcCoef[0]?.getD []) bands = f x0)
    (h1 : tcSum f (tcCoef[1]?.getD []) bands = f x1) (h2 : tcSum f (tcCoef[2]?.getD []) bands = f x2)
    (e0 : |f x0 - X0| ≤ 1 / 20) (e1 : |f x1 - X1| ≤ 1 / 20) (e2 : |f x2 - X2| ≤ 1 / 20)
    (hB1 : |X0 + -X1| ≤ 130000) (hB2 : |X0 + -X1 + -X2| ≤ 130000) :
    |tcInd f bands [((1 : ℚ), 0), (-1, 1), (-1, 2)] - (X0 - X1 - X2)| ≤ 1 / 6 := by
  simp only [tcInd, List.foldl, h0, h1, h2, one_mul, zero_add, f_f hf, neg_mul, f_neg_f hf]
  have e1' : |-f x1 - -X1| ≤ 1 / 20 := by rw [← abs_neg, neg_sub, neg_sub_neg]; rwa [abs_sub_comm] at e1 ⊢
  have e2' : |-f x2 - -X2| ≤ 1 / 20 := by rw [← abs_neg, neg_sub, neg_sub_neg]; rwa [abs_sub_comm] at e2 ⊢
  have s1 := sum_err hf e0 e1' (by norm_num) hB1
  have s2 := sum_err hf s1 e2' (by norm_num) hB2
  have : X0 - X1 - X2 = X0 + -X1 + -X2 := by ring
  rw [this]
  refine s2.trans ?_
  norm_num

end

theorem cast_err {y X : ℚ} {x e : ℝ} {e' : ℚ} (h : |y - X| ≤ e') (hx : x = (X : ℝ)) (he : e = (e' : ℝ)) :
    |(y : ℝ) - x| ≤ e := by
  rw [hx, he]
  exact_mod_cast h

/-- The four components, before the conversion. -/
theorem tasseled_cases (f d ex sq : ℚ → ℚ) (hf : ∀ x, Nearest 24 x (f x)) (nodata : Int)
    (b g r n s1 s2 : Int) (hb : Short b) (hg : Short g) (hr : Short r) (hn : Short n) (h1 : Short s1)
    (h2 : Short s2) :
    (∃ y : ℚ, equation f d ex sq nodata "TC-BRIGHT" [b, g, r, n, s1, s2] = short y ∧
      |(y : ℝ) - tcb b g r n s1 s2| ≤ 1 / 20) ∧
    (∃ y : ℚ, equation f d ex sq nodata "TC-GREEN" [b, g, r, n, s1, s2] = short y ∧
      |(y : ℝ) - tcg b g r n s1 s2| ≤ 1 / 20) ∧
    (∃ y : ℚ, equation f d ex sq nodata "TC-WET" [b, g, r, n, s1, s2] = short y ∧
      |(y : ℝ) - tcw b g r n s1 s2| ≤ 1 / 20) ∧
    (∃ y : ℚ, equation f d ex sq nodata "TC-DI" [b, g, r, n, s1, s2] = short y ∧
      |(y : ℝ) - (tcb b g r n s1 s2 - (tcg b g r n s1 s2 + tcw b g r n s1 s2))| ≤ 1 / 6) := by
  obtain ⟨x0, ex0, er0⟩ := tcSum_err hf (c0 := 2043) (c1 := 4158) (c2 := 5524) (c3 := 5741) (c4 := 3124)
    (c5 := 2303) hb hg hr hn h1 h2 (by norm_num)
  obtain ⟨x1, ex1, er1⟩ := tcSum_err hf (c0 := -1603) (c1 := -2819) (c2 := -4934) (c3 := 7940) (c4 := -2)
    (c5 := -1446) hb hg hr hn h1 h2 (by norm_num)
  obtain ⟨x2, ex2, er2⟩ := tcSum_err hf (c0 := 315) (c1 := 2021) (c2 := 3102) (c3 := 1594) (c4 := -6806)
    (c5 := -6109) hb hg hr hn h1 h2 (by norm_num)
  refine ⟨⟨f x0, ?_, cast_err er0 ?_ (by norm_num)⟩, ⟨f x1, ?_, cast_err er1 ?_ (by norm_num)⟩,
    ⟨f x2, ?_, cast_err er2 ?_ (by norm_num)⟩,
    ⟨tcInd f [b, g, r, n, s1, s2] [((1 : ℚ), 0), (-1, 1), (-1, 2)], rfl,
      cast_err (tcInd_three hf ex0 ex1 ex2 er0 er1 er2 ?_ ?_) ?_ (by norm_num)⟩⟩
  · rw [← tcInd_one hf (t := 0) (bands := [b, g, r, n, s1, s2]) ex0]; rfl
  · unfold tcb; push_cast; ring
  · rw [← tcInd_one hf (t := 1) (bands := [b, g, r, n, s1, s2]) ex1]; rfl
  · unfold tcg; push_cast; ring
  · rw [← tcInd_one hf (t := 2) (bands := [b, g, r, n, s1, s2]) ex2]; rfl
  · unfold tcw; push_cast; ring
  · unfold Short at *
    have q0 : (-32768 : ℚ) ≤ b ∧ (b : ℚ) ≤ 32767 := by exact_mod_cast hb
    have q1 : (-32768 : ℚ) ≤ g ∧ (g : ℚ) ≤ 32767 := by exact_mod_cast hg
    have q2 : (-32768 : ℚ) ≤ r ∧ (r : ℚ) ≤ 32767 := by exact_mod_cast hr
    have q3 : (-32768 : ℚ) ≤ n ∧ (n : ℚ) ≤ 32767 := by exact_mod_cast hn
    have q4 : (-32768 : ℚ) ≤ s1 ∧ (s1 : ℚ) ≤ 32767 := by exact_mod_cast h1
    have q5 : (-32768 : ℚ) ≤ s2 ∧ (s2 : ℚ) ≤ 32767 := by exact_mod_cast h2
    push_cast
    rw [abs_le]; constructor <;> linarith
  · unfold Short at *
    have q0 : (-32768 : ℚ) ≤ b ∧ (b : ℚ) ≤ 32767 := by exact_mod_cast hb
    have q1 : (-32768 : ℚ) ≤ g ∧ (g : ℚ) ≤ 32767 := by exact_mod_cast hg
    have q2 : (-32768 : ℚ) ≤ r ∧ (r : ℚ) ≤ 32767 := by exact_mod_cast hr
    have q3 : (-32768 : ℚ) ≤ n ∧ (n : ℚ) ≤ 32767 := by exact_mod_cast hn
    have q4 : (-32768 : ℚ) ≤ s1 ∧ (s1 : ℚ) ≤ 32767 := by exact_mod_cast h1
    have q5 : (-32768 : ℚ) ≤ s2 ∧ (s2 : ℚ) ≤ 32767 := by exact_mod_cast h2
    push_cast
    rw [abs_le]; constructor <;> linarith
  · unfold tcb tcg tcw; push_cast; ring

theorem cap_cases (f d ex sq : ℚ → ℚ) (hf : ∀ x, Nearest 24 x (f x)) (nodata : Int) {name : String}
    {form : ℝ → ℝ → ℝ → ℝ → ℝ → ℝ → ℝ} (hC : Cap name form)
    (b g r n s1 s2 : Int) (hb : Short b) (hg : Short g) (hr : Short r) (hn : Short n) (h1 : Short s1)
    (h2 : Short s2) :
    ∃ y : ℚ, equation f d ex sq nodata name [b, g, r, n, s1, s2] = short y ∧
      |(y : ℝ) - form b g r n s1 s2| ≤ 1 / 6 := by
  have h := tasseled_cases f d ex sq hf nodata b g r n s1 s2 hb hg hr hn h1 h2
  cases hC
  · obtain ⟨y, hy, he⟩ := h.1; exact ⟨y, hy, by linarith⟩
  · obtain ⟨y, hy, he⟩ := h.2.1; exact ⟨y, hy, by linarith⟩
  · obtain ⟨y, hy, he⟩ := h.2.2.1; exact ⟨y, hy, by linarith⟩
  · exact h.2.2.2

/-- C74, in part: a tasseled cap index is the documented combination of the bands (up to rounding, without
its fraction) whenever that is in the range of 16 bit integers. Missing: see `c74_overflow_violated`. -/
theorem c74_tasseled_partial (f d ex sq : ℚ → ℚ) (hf : ∀ x, Nearest 24 x (f x)) (nodata : Int) {name : String}
    {form : ℝ → ℝ → ℝ → ℝ → ℝ → ℝ → ℝ} (hC : Cap name form)
    (b g r n s1 s2 : Int) (hb : Short b) (hg : Short g) (hr : Short r) (hn : Short n) (h1 : Short s1)
    (h2 : Short s2) (hl : -32768.8 < form b g r n s1 s2) (hu : form b g r n s1 s2 < 32767.8) :
    ∃ v, equation f d ex sq nodata name [b, g, r, n, s1, s2] = .ok v ∧
      Stored (1 / 6) v (form b g r n s1 s2) := by
  obtain ⟨y, hy, he⟩ := cap_cases f d ex sq hf nodata hC b g r n s1 s2 hb hg hr hn h1 h2
  rw [hy]
  exact short_stored he (by linarith) (by linarith)

/-- C74, violated: a tasseled cap index out of the range of 16 bit integers is converted without a check. -/
theorem c74_overflow_violated (f d ex sq : ℚ → ℚ) (hf : ∀ x, Nearest 24 x (f x)) (nodata : Int) {name : String}
    {form : ℝ → ℝ → ℝ → ℝ → ℝ → ℝ → ℝ} (hC : Cap name form)
    (b g r n s1 s2 : Int) (hb : Short b) (hg : Short g) (hr : Short r) (hn : Short n) (h1 : Short s1)
    (h2 : Short s2) (ho : form b g r n s1 s2 ≤ -32769.2 ∨ 32768.2 ≤ form b g r n s1 s2) :
    equation f d ex sq nodata name [b, g, r, n, s1, s2] = .ub := by
  obtain ⟨y, hy, he⟩ := cap_cases f d ex sq hf nodata hC b g r n s1 s2 hb hg hr hn h1 h2
  rw [hy]
  refine short_overflow he ?_
  rcases ho with h | h
  · right; linarith
  · left; linarith

/-- C74: the three components of reflectances in 0 to 10000 are always stored; brightness is not negative. -/
theorem c74_bounded (f d ex sq : ℚ → ℚ) (hf : ∀ x, Nearest 24 x (f x)) (nodata : Int) (name : String)
    (hname : name = "TC-BRIGHT" ∨ name = "TC-GREEN" ∨ name = "TC-WET") (b g r n s1 s2 : Int)
    (hb : 0 ≤ b ∧ b ≤ 10000) (hg : 0 ≤ g ∧ g ≤ 10000) (hr : 0 ≤ r ∧ r ≤ 10000) (hn : 0 ≤ n ∧ n ≤ 10000)
    (h1 : 0 ≤ s1 ∧ s1 ≤ 10000) (h2 : 0 ≤ s2 ∧ s2 ≤ 10000) :
    ∃ v, equation f d ex sq nodata name [b, g, r, n, s1, s2] = .ok v ∧
      (name = "TC-BRIGHT" → 0 ≤ v) := by
  have q0 : (0 : ℝ) ≤ b ∧ (b : ℝ) ≤ 10000 := by exact_mod_cast hb
  have q1 : (0 : ℝ) ≤ g ∧ (g : ℝ) ≤ 10000 := by exact_mod_cast hg
  have q2 : (0 : ℝ) ≤ r ∧ (r : ℝ) ≤ 10000 := by exact_mod_cast hr
  have q3 : (0 : ℝ) ≤ n ∧ (n : ℝ) ≤ 10000 := by exact_mod_cast hn
  have q4 : (0 : ℝ) ≤ s1 ∧ (s1 : ℝ) ≤ 10000 := by exact_mod_cast h1
  have q5 : (0 : ℝ) ≤ s2 ∧ (s2 : ℝ) ≤ 10000 := by exact_mod_cast h2
  have sh : ∀ z : Int, 0 ≤ z ∧ z ≤ 10000 → Short z := fun z hz => ⟨by omega, by omega⟩
  rcases hname with rfl | rfl | rfl
  · obtain ⟨v, hv, y, hy, hp⟩ := c74_tasseled_partial f d ex sq hf nodata .bright b g r n s1 s2 (sh _ hb) (sh _ hg) (sh _ hr)
      (sh _ hn) (sh _ h1) (sh _ h2) (by unfold tcb; linarith) (by unfold tcb; linarith)
    refine ⟨v, hv, fun _ => ?_⟩
    by_contra hneg
    have hv1 : v ≤ -1 := by omega
    have hv2 : (v : ℝ) ≤ -1 := by exact_mod_cast hv1
    have hyl := (abs_le.1 hy).1
    have : 0 ≤ tcb b g r n s1 s2 := by unfold tcb; linarith
    unfold IntegerPart at hp
    have h3 := hp.1
    rw [abs_of_neg (by linarith)] at h3
    rcases abs_cases y with a | a
    · nlinarith [hp.2.2]
    · linarith
  · obtain ⟨v, hv, -⟩ := c74_tasseled_partial f d ex sq hf nodata .green b g r n s1 s2 (sh _ hb) (sh _ hg) (sh _ hr)
      (sh _ hn) (sh _ h1) (sh _ h2) (by unfold tcg; linarith) (by unfold tcg; linarith)
    exact ⟨v, hv, fun h => by simp at h⟩
  · obtain ⟨v, hv, -⟩ := c74_tasseled_partial f d ex sq hf nodata .wet b g r n s1 s2 (sh _ hb) (sh _ hg) (sh _ hr)
      (sh _ hn) (sh _ h1) (sh _ h2) (by unfold tcw; linarith) (by unfold tcw; linarith)
    exact ⟨v, hv, fun h => by simp at h⟩

section
variable {f : ℚ → ℚ} (hf : ∀ x, Nearest 24 x (f x))
include hf

/-- A difference of two rounded constants. -/
theorem wl_err {a b D : ℚ} (ha : |a| ≤ 2186 / 1000) (hb : |b| ≤ 2186 / 1000) (hD : D = a - b)
    (hD' : |D| ≤ 1323 / 1000) : |f (f a - f b) - D| ≤ 6 / 16777216 := by
  have h1 := f_err hf a
  have h2 := f_err hf b
  have h3 : |f a - f b - D| ≤ (2186 / 1000 + 2186 / 1000) / 16777216 := by
    rw [hD]
    rw [abs_le] at h1 h2 ⊢
    constructor <;> linarith
  have := f_acc hf h3 hD'
  norm_num at this ⊢
  linarith

/-- A band times a weight. -/
theorem weight_err {b : Int} {w W : ℚ} (hb : Short b) (hw : |w - W| ≤ 6 / 16777216) (hW : |W| ≤ 1) :
    |f (b * w) - b * W| ≤ 1 / 70 := by
  have hb' : |(b : ℚ)| ≤ 32768 := by
    unfold Short at hb
    have : |b| ≤ 32768 := by rw [abs_le]; omega
    exact_mod_cast this
  have h1 : |(b : ℚ) * w - b * W| ≤ 32768 * (6 / 16777216) := by
    rw [← mul_sub, abs_mul]
    exact mul_le_mul hb' hw (abs_nonneg _) (by norm_num)
  have h2 : |(b : ℚ) * W| ≤ 32768 := by
    rw [abs_mul]
    calc |(b : ℚ)| * |W| ≤ 32768 * 1 := mul_le_mul hb' hW (abs_nonneg _) (by norm_num)
      _ = 32768 := by norm_num
  have := f_acc hf h1 h2
  norm_num at this ⊢
  linarith

theorem contRemove_err {b b1 b2 : Int} (hb : Short b) (h1 : Short b1) (h2 : Short b2) :
    ∃ y : ℚ, contRemove f b b1 b2 = short y ∧
      |y - ((b : ℚ) - ((b1 : ℚ) * (2186 - 1610) + b2 * (1610 - 864)) / (2186 - 864))| ≤ 1 / 20 := by
  unfold contRemove
  refine ⟨_, rfl, ?_⟩
  have w1 := wl_err hf (a := 2186 / 1000) (b := 1610 / 1000) (D := 576 / 1000) (by norm_num) (by norm_num)
    (by norm_num) (by norm_num)
  have w2 := wl_err hf (a := 1610 / 1000) (b := 864 / 1000) (D := 746 / 1000) (by norm_num) (by norm_num)
    (by norm_num) (by norm_num)
  have w3 := wl_err hf (a := 2186 / 1000) (b := 864 / 1000) (D := 1322 / 1000) (by norm_num) (by norm_num)
    (by norm_num) (by norm_num)
  generalize f (f (2186 / 1000) - f (1610 / 1000)) = A at *
  generalize f (f (1610 / 1000) - f (864 / 1000)) = B at *
  generalize f (f (2186 / 1000) - f (864 / 1000)) = D at *
  have p1 := weight_err hf h1 w1 (by norm_num)
  have p2 := weight_err hf h2 w2 (by norm_num)
  have q1 : (-32768 : ℚ) ≤ b1 ∧ (b1 : ℚ) ≤ 32767 := by unfold Short at h1; exact_mod_cast h1
  have q2 : (-32768 : ℚ) ≤ b2 ∧ (b2 : ℚ) ≤ 32767 := by unfold Short at h2; exact_mod_cast h2
  have q0 : (-32768 : ℚ) ≤ b ∧ (b : ℚ) ≤ 32767 := by unfold Short at hb; exact_mod_cast hb
  have s : |f (b1 * A) + f (b2 * B) - ((b1 : ℚ) * (576 / 1000) + b2 * (746 / 1000))| ≤ 1 / 35 := by
    rw [abs_le] at p1 p2 ⊢; constructor <;> linarith
  have s1 := f_acc hf s (B := 43400) (by rw [abs_le]; constructor <;> linarith)
  generalize f (f (b1 * A) + f (b2 * B)) = N at *
  have hN : |N - ((b1 : ℚ) * (576 / 1000) + b2 * (746 / 1000))| ≤ 1 / 31 := by
    norm_num at s1 ⊢
    linarith
  have hD := abs_le.1 w3
  have hDpos : (132 / 100 : ℚ) ≤ D := by linarith
  -- the quotient
  have hq : |N / D - ((b1 : ℚ) * (2186 - 1610) + b2 * (1610 - 864)) / (2186 - 864)| ≤ 1 / 27 := by
    have e : ((b1 : ℚ) * (2186 - 1610) + b2 * (1610 - 864)) / (2186 - 864) =
        ((b1 : ℚ) * (576 / 1000) + b2 * (746 / 1000)) / (1322 / 1000) := by ring
    rw [e]
    have hNb : |((b1 : ℚ) * (576 / 1000) + b2 * (746 / 1000)) / (1322 / 1000)| ≤ 32768 := by
      rw [abs_le, le_div_iff₀ (by norm_num), div_le_iff₀ (by norm_num)]; constructor <;> linarith
    have e2 : N / D - ((b1 : ℚ) * (576 / 1000) + b2 * (746 / 1000)) / (1322 / 1000) =
        ((N - ((b1 : ℚ) * (576 / 1000) + b2 * (746 / 1000))) -
          ((b1 : ℚ) * (576 / 1000) + b2 * (746 / 1000)) / (1322 / 1000) * (D - 1322 / 1000)) / D := by
      field_simp
      ring
    rw [e2, abs_div, abs_of_pos (show (0 : ℚ) < D by linarith), div_le_iff₀ (by linarith)]
    generalize ((b1 : ℚ) * (576 / 1000) + b2 * (746 / 1000)) / (1322 / 1000) = Q at *
    have h3 : |Q * (D - 1322 / 1000)| ≤ 32768 * (6 / 16777216) := by
      rw [abs_mul]
      exact mul_le_mul hNb w3 (abs_nonneg _) (by norm_num)
    have h4 := abs_sub (N - ((b1 : ℚ) * (576 / 1000) + b2 * (746 / 1000))) (Q * (D - 1322 / 1000))
    have h5 : (32768 : ℚ) * (6 / 16777216) ≤ 1 / 85 := by norm_num
    linarith
  have hQb : |((b1 : ℚ) * (2186 - 1610) + b2 * (1610 - 864)) / (2186 - 864)| ≤ 32768 := by
    rw [abs_le, le_div_iff₀ (by norm_num), div_le_iff₀ (by norm_num)]; constructor <;> linarith
  have s2 := f_acc hf hq hQb
  generalize ((b1 : ℚ) * (2186 - 1610) + b2 * (1610 - 864)) / (2186 - 864) = Q at *
  have s3 : |(b : ℚ) - f (N / D) - (b - Q)| ≤ 1 / 25 := by
    norm_num at s2
    rw [abs_le] at s2 ⊢
    constructor <;> linarith
  have hQ := abs_le.1 hQb
  have s4 := f_acc hf s3 (B := 65536) (by rw [abs_le]; constructor <;> linarith)
  norm_num at s4 ⊢
  linarith

end

/-- C74: the continuum-removed SWIR1 reflectance is the height above the line between NIR and SWIR2 (up to
rounding, without its fraction) whenever it is in the range of 16 bit integers, in particular for all
reflectances in 0 to 10000. -/
theorem c74_continuum (f d ex sq : ℚ → ℚ) (hf : ∀ x, Nearest 24 x (f x)) (nodata s1 n s2 : Int)
    (h1 : Short s1) (hn : Short n) (h2 : Short s2) (hl : -32768.9 < contRem s1 n s2)
    (hu : contRem s1 n s2 < 32767.9) :
    ∃ v, equation f d ex sq nodata "ContRemSWIR" [s1, n, s2] = .ok v ∧ Stored (1 / 20) v (contRem s1 n s2) := by
  obtain ⟨y, hy, he⟩ := contRemove_err hf h1 hn h2
  have heq : equation f d ex sq nodata "ContRemSWIR" [s1, n, s2] = contRemove f s1 n s2 := rfl
  rw [heq, hy]
  refine short_stored (cast_err he ?_ (by norm_num)) (by linarith) (by linarith)
  unfold contRem; push_cast; ring

theorem c74_continuum_reflectance (s1 n s2 : Int) (h1 : 0 ≤ s1 ∧ s1 ≤ 10000) (hn : 0 ≤ n ∧ n ≤ 10000)
    (h2 : 0 ≤ s2 ∧ s2 ≤ 10000) : -10000 ≤ contRem s1 n s2 ∧ contRem s1 n s2 ≤ 10000 := by
  have q0 : (0 : ℝ) ≤ s1 ∧ (s1 : ℝ) ≤ 10000 := by exact_mod_cast h1
  have q1 : (0 : ℝ) ≤ n ∧ (n : ℝ) ≤ 10000 := by exact_mod_cast hn
  have q2 : (0 : ℝ) ≤ s2 ∧ (s2 : ℝ) ≤ 10000 := by exact_mod_cast h2
  unfold contRem
  constructor <;> linarith

end Verif.Index
