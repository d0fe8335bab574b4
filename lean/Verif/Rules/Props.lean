import Mathlib.Data.Int.Interval
import Mathlib.Tactic.Linarith
import Mathlib.Tactic.Positivity
import Mathlib.Tactic.FieldSimp
import Mathlib.Tactic.Ring
import Verif.FloatErr
import Verif.Index.Lemmas
import Verif.Rules.Spec

/-!
# Theorems about the rules for parameters: C208 to C213
-/

namespace Verif.Rules

open Spec
open Verif.Str (Out)

theorem fmod_nonneg (a b : ℚ) (ha : 0 ≤ a) (hb : 0 < b) :
    ∃ r, fmod a b = some r ∧ a = b * ⌊a / b⌋ + r ∧ 0 ≤ r ∧ r < b := by
  have hd : 0 ≤ a / b := by positivity
  refine ⟨a - b * ⌊a / b⌋, ?_, by ring, ?_, ?_⟩
  · rw [fmod, if_neg hb.ne', Index.truncQ_eq, if_pos hd]
  · have := Int.floor_le (a / b)
    rw [le_div_iff₀ hb] at this
    linarith [mul_comm b (⌊a / b⌋ : ℚ)]
  · have := Int.lt_floor_add_one (a / b)
    rw [div_lt_iff₀ hb] at this
    linarith [mul_comm b (⌊a / b⌋ : ℚ), add_mul (⌊a / b⌋ : ℚ) 1 b]

theorem off_nonneg (a b : ℚ) (ha : 0 ≤ a) (hb : 0 < b) : off a b = true ↔ tol < a - b * ⌊a / b⌋ := by
  obtain ⟨r, h1, h2, -, -⟩ := fmod_nonneg a b ha hb
  have hr : r = a - b * ⌊a / b⌋ := by linarith
  unfold off
  rw [h1]
  simp [hr]

theorem off_unit (u : ℚ) (hu : 6 / 1000 ≤ u) (a b : ℤ) (ha : 0 ≤ a) (hb : 0 < b) :
    off (a * u) (b * u) = false ↔ b ∣ a := by
  have pu : (0 : ℚ) < u := by linarith
  have pb : (0 : ℚ) < b := by exact_mod_cast hb
  have pa : (0 : ℚ) ≤ a := by exact_mod_cast ha
  have e : (a : ℚ) * u / (b * u) = a / b := by field_simp
  have hf : ⌊(a : ℚ) / b⌋ = a / b := by
    have := Rat.floor_intCast_div_natCast a b.toNat
    have hc : ((b.toNat : ℕ) : ℤ) = b := Int.toNat_of_nonneg hb.le
    rw [hc] at this
    rw [← this]
    congr 2
    exact_mod_cast hc.symm
  have key : (a : ℚ) * u - b * u * ((a / b : ℤ) : ℚ) = ((a % b : ℤ) : ℚ) * u := by
    have := Int.mul_ediv_add_emod a b
    have h2 : (a : ℚ) = b * ((a / b : ℤ) : ℚ) + ((a % b : ℤ) : ℚ) := by exact_mod_cast this.symm
    linear_combination u * h2
  have ht : tol < 6 / 1000 := by unfold tol; norm_num
  have ht0 : 0 < tol := by unfold tol; norm_num
  rw [← Bool.not_eq_true, off_nonneg _ _ (by positivity) (by positivity), e, hf, key, Int.dvd_iff_emod_eq_zero]
  constructor
  · intro h
    by_contra hne
    have h1 : 1 ≤ a % b := by
      have := Int.emod_nonneg a hb.ne'
      omega
    have h2 : (1 : ℚ) ≤ ((a % b : ℤ) : ℚ) := by exact_mod_cast h1
    have h3 : u ≤ ((a % b : ℤ) : ℚ) * u := by nlinarith
    exact h (by linarith)
  · intro h
    rw [h]
    simp only [Int.cast_zero, zero_mul]
    linarith

/-! ## C208 -/

/-- C208 (partial: for numbers that are exact, in a unit larger than the tolerance, such as metres): a
chunk size is accepted if and only if it is positive and a multiple of the resolution. -/
theorem c208_grid_partial (u : ℚ) (hu : 6 / 1000 ≤ u) (res cx cy : ℤ) (hr : 0 < res) (hx : 0 < cx) (hy : 0 < cy) :
    gridOk (res * u) (cx * u) (cy * u) = true ↔ Multiple (cx * u) (res * u) ∧ Multiple (cy * u) (res * u) := by
  have pu : (0 : ℚ) < u := by linarith
  have dv : ∀ c : ℤ, Multiple (c * u) (res * u) ↔ res ∣ c := by
    intro c
    constructor
    · rintro ⟨k, hk⟩
      refine ⟨k, ?_⟩
      have h2 : (c : ℚ) * u = ((res * k : ℤ) : ℚ) * u := by rw [hk]; push_cast; ring
      have := mul_right_cancel₀ pu.ne' h2
      exact_mod_cast this
    · rintro ⟨k, rfl⟩
      exact ⟨k, by push_cast; ring⟩
  have p1 : ¬ ((res : ℚ) * u ≤ 0) := by
    have : (0 : ℚ) < res := by exact_mod_cast hr
    have := mul_pos this pu
    linarith
  have p2 : ¬ ((cx : ℚ) * u ≤ 0) := by
    have : (0 : ℚ) < cx := by exact_mod_cast hx
    have := mul_pos this pu
    linarith
  have p3 : ¬ ((cy : ℚ) * u ≤ 0) := by
    have : (0 : ℚ) < cy := by exact_mod_cast hy
    have := mul_pos this pu
    linarith
  rw [dv, dv, ← off_unit u hu cx res hx.le hr, ← off_unit u hu cy res hy.le hr]
  unfold gridOk
  simp only [p1, p2, p3, decide_false, Bool.or_false, Bool.not_false, Bool.and_true, Bool.not_eq_true', Bool.or_eq_false_iff]

/-- C208: a resolution or a chunk size that is not positive is refused. -/
theorem c208_positive (res cx cy : ℚ) (h : res ≤ 0 ∨ cx ≤ 0 ∨ cy ≤ 0) : gridOk res cx cy = false := by
  unfold gridOk
  rcases h with h | h | h <;> simp [h]

/-- C208, violated: with a resolution up to 0.005 (a data cube in degrees) every positive chunk size is
accepted, whether it is a multiple of the resolution or not. -/
theorem c208_small_violated (res cx cy : ℚ) (h0 : 0 < res) (h1 : res ≤ 5 / 1000) (hx : 0 < cx) (hy : 0 < cy) :
    gridOk res cx cy = true := by
  have ht : (5 : ℚ) / 1000 < tol := by unfold tol; norm_num
  have key : ∀ c : ℚ, 0 < c → off c res = false := by
    intro c hc
    obtain ⟨r, e1, e2, e3, e4⟩ := fmod_nonneg c res hc.le h0
    unfold off
    rw [e1]
    simp only [decide_eq_false_iff_not, not_lt]
    linarith
  unfold gridOk
  rw [key cx hx, key cy hy]
  simp [not_le.2 h0, not_le.2 hx, not_le.2 hy]

/-- C208, violated: with a resolution of 0.1, as it is stored in a `double`, no chunk size of whole units
is accepted, although all of them are multiples. -/
theorem c208_tenth_violated (r : ℚ) (hr : Float.Nearest 53 (1 / 10) r) (n k : ℕ) (h1 : 1 ≤ n) (h2 : n ≤ 10 ^ 12) :
    gridOk r n k = false ∧ gridOk r k n = false ∧ Multiple n (1 / 10) := by
  have er : r = ((7205759403792794 : ℤ) : ℚ) * (2 : ℚ) ^ (-56 : ℤ) :=
    Float.nearest_unique_of_ge (by norm_num) hr 7205759403792794 (-56) (by norm_num) (by norm_num)
      (by rw [abs_lt]; constructor <;> norm_num)
  have er' : r = 3602879701896397 / 36028797018963968 := by rw [er]; norm_num
  have pr : 0 < r := by rw [er']; norm_num
  have hn1 : (1 : ℚ) ≤ n := by exact_mod_cast h1
  have hn2 : (n : ℚ) ≤ 10 ^ 12 := by exact_mod_cast h2
  have hfl : ⌊(n : ℚ) / r⌋ = 10 * (n : ℤ) - 1 := by
    rw [Int.floor_eq_iff]
    push_cast
    rw [le_div_iff₀ pr, sub_add_cancel, div_lt_iff₀ pr, er']
    constructor <;> linarith
  have ho : off n r = true := by
    rw [off_nonneg _ _ (by linarith) pr, hfl, er']
    push_cast
    unfold tol
    linarith
  refine ⟨?_, ?_, 10 * n, by push_cast; ring⟩
  · simp [gridOk, ho]
  · simp [gridOk, ho]

example : ∃ r, Float.Nearest 53 (1 / 10) r := Float.exists_nearest 53 (by norm_num) _
example : gridOk 10 3000 3000 = true ∧ gridOk 10 3005 3000 = false := by
  constructor
  · have := (c208_grid_partial 1 (by norm_num) 10 3000 3000 (by norm_num) (by norm_num) (by norm_num)).2
      ⟨⟨300, by norm_num⟩, ⟨300, by norm_num⟩⟩
    simpa using this
  · have h := (off_unit 1 (by norm_num) 3005 10 (by norm_num) (by norm_num)).not.2 (by decide)
    simp only [Int.cast_ofNat, mul_one, Bool.not_eq_false] at h
    simp [gridOk, h]

/-! ## C209 -/

theorem pixels_bound (x res : ℚ) (hx : 0 ≤ x) (hr : 0 < res) : 0 ≤ pixels x res ∧ (pixels x res : ℚ) * res ≤ x := by
  have hd : 0 ≤ x / res := by positivity
  rw [pixels, Index.truncQ_eq, if_pos hd]
  refine ⟨Int.floor_nonneg.2 hd, ?_⟩
  have := Int.floor_le (x / res)
  rwa [le_div_iff₀ hr] at this

/-- C209: for every submodule, the margin that is read around a block is at least as wide as the
neighbourhood of a pixel (for texture: times the number of iterations). -/
theorem c209_margin (m : Module) (r : Radii) (res : ℚ) (hr : 0 < res) (h1 : 0 ≤ r.txtRadius) (h2 : 0 ≤ r.lsmRadius)
    (h3 : 0 ≤ r.pred) (h4 : 0 ≤ r.text) :
    ∀ k ∈ kernels m r res, 0 ≤ k ∧ (k : ℚ) * res * (if m = .txt then (r.txtIter : ℚ) else 1) ≤ radius m r := by
  have b1 := pixels_bound r.txtRadius res h1 hr
  have b2 := pixels_bound r.lsmRadius res h2 hr
  have b3 := pixels_bound r.pred res h3 hr
  have b4 := pixels_bound r.text res h4 hr
  have hi : (0 : ℚ) ≤ r.txtIter := by positivity
  intro k hk
  cases m <;> simp only [kernels, List.mem_cons, List.not_mem_nil, or_false] at hk <;>
    simp only [radius, reduceCtorEq, if_false, if_true, mul_one]
  · rcases hk with rfl | rfl
    · exact ⟨b3.1, by split <;> linarith [b3.2]⟩
    · exact ⟨b4.1, by split <;> linarith [b4.2]⟩
  · rcases hk with rfl | rfl
    · exact ⟨b3.1, by split <;> linarith [b3.2]⟩
    · exact ⟨b4.1, by split <;> linarith [b4.2]⟩
  · subst hk; exact ⟨b1.1, mul_le_mul_of_nonneg_right b1.2 hi⟩
  · subst hk; exact b2

theorem off_multiple (x res : ℚ) (hx : 0 ≤ x) (hr : 0 < res) (h : Multiple x res) : off x res = false := by
  obtain ⟨k, rfl⟩ := h
  rw [← Bool.not_eq_true, off_nonneg _ _ hx hr]
  have : (k : ℚ) * res / res = k := by field_simp
  rw [this, Int.floor_intCast, mul_comm res, sub_self, not_lt]
  unfold tol
  norm_num

/-- C209 (partial: landscape metrics; for texture the rule is one for the product of radius and
iterations, for ImproPhe one for the larger of two radii): for lengths in a unit larger than the
tolerance, a radius is accepted if and only if it is a multiple of the resolution; then the
neighbourhood has exactly this radius. -/
theorem c209_multiple_partial (r : Radii) (u : ℚ) (hu : 6 / 1000 ≤ u) (res x : ℤ) (hr : 0 < res) (hx : 0 ≤ x)
    (he : r.lsmRadius = x * u) :
    (radiusOk .lsm r (res * u) = true ↔ Multiple r.lsmRadius (res * u)) ∧
    (radiusOk .lsm r (res * u) = true → ∀ k ∈ kernels .lsm r (res * u), (k : ℚ) * (res * u) = r.lsmRadius) := by
  have pu : (0 : ℚ) < u := by linarith
  have pr : (0 : ℚ) < res := by exact_mod_cast hr
  have px : (0 : ℚ) ≤ x := by exact_mod_cast hx
  have h1 : radiusOk .lsm r (res * u) = true ↔ Multiple r.lsmRadius (res * u) := by
    unfold radiusOk radius
    dsimp only
    rw [he]
    by_cases h0 : (x : ℚ) * u = 0
    · simp only [h0, ne_eq, not_true, decide_false, Bool.false_and, Bool.not_false, true_iff]
      exact ⟨0, by simp⟩
    · simp only [ne_eq, h0, not_false_iff, decide_true, Bool.true_and, Bool.not_eq_true']
      rw [off_unit u hu x res hx hr]
      constructor
      · rintro ⟨k, rfl⟩
        exact ⟨k, by push_cast; ring⟩
      · rintro ⟨k, hk⟩
        refine ⟨k, ?_⟩
        have h2 : (x : ℚ) * u = ((res * k : ℤ) : ℚ) * u := by rw [hk]; push_cast; ring
        have := mul_right_cancel₀ pu.ne' h2
        exact_mod_cast this
  refine ⟨h1, fun h => ?_⟩
  obtain ⟨k, hk⟩ := h1.1 h
  intro k' hk'
  simp only [kernels, List.mem_singleton] at hk'
  subst hk'
  have hq : r.lsmRadius / (res * u) = (k : ℚ) := by rw [hk]; field_simp
  have h0 : (0 : ℚ) ≤ k := by rw [← hq, he]; positivity
  rw [pixels, hq, Index.truncQ_eq, if_pos h0, Int.floor_intCast, ← hk]

/-- C209, violated: for texture, any radius is accepted if its product with the number of iterations is
a multiple of the resolution; if it is not a multiple itself, the neighbourhood is smaller than
requested. -/
theorem c209_texture_violated (r : Radii) (res : ℚ) (hr : 0 < res) (h0 : 0 ≤ r.txtRadius)
    (hm : Multiple (r.txtRadius * r.txtIter) res) (hn : ¬ Multiple r.txtRadius res) :
    radiusOk .txt r res = true ∧ ∀ k ∈ kernels .txt r res, (k : ℚ) * res < r.txtRadius := by
  refine ⟨?_, ?_⟩
  · unfold radiusOk radius
    dsimp only
    rw [off_multiple _ _ (by positivity) hr hm]
    simp
  · intro k hk
    simp only [kernels, List.mem_singleton] at hk
    subst hk
    refine lt_of_le_of_ne (pixels_bound _ _ h0 hr).2 fun he => hn ⟨_, he.symm⟩

/-- C209, violated: for ImproPhe only the larger one of the two radii has to be a multiple of the
resolution. -/
theorem c209_kernel_violated (m : Module) (hm : m = .l2i ∨ m = .cfi) (r : Radii) (res : ℚ) (hr : 0 < res)
    (h0 : 0 ≤ r.text) (h1 : r.text < r.pred) (hp : Multiple r.pred res) (hn : ¬ Multiple r.text res) :
    radiusOk m r res = true ∧ ∃ k ∈ kernels m r res, (k : ℚ) * res < r.text := by
  have hrad : radius m r = r.pred := by rcases hm with rfl | rfl <;> simp [radius, h1]
  refine ⟨?_, pixels r.text res, ?_, ?_⟩
  · unfold radiusOk
    rw [hrad, off_multiple _ _ (by linarith) hr hp]
    simp
  · rcases hm with rfl | rfl <;> simp [kernels]
  · refine lt_of_le_of_ne (pixels_bound _ _ h0 hr).2 fun he => hn ⟨_, he.symm⟩

theorem half_not_multiple (a b : ℚ) (k : ℤ) (hb : 0 < b) (h : a = (k + 1 / 2) * b) : ¬ Multiple a b := by
  rintro ⟨j, hj⟩
  have h2 : ((k : ℚ) + 1 / 2) = j := mul_right_cancel₀ hb.ne' (by rw [← h, hj])
  have h3 : (2 : ℚ) * k + 1 = 2 * j := by linarith
  have h4 : 2 * k + 1 = 2 * j := by exact_mod_cast h3
  omega

-- a radius of 15 m, 2 iterations and a resolution of 10 m
example : Multiple (15 * 2) 10 ∧ ¬ Multiple 15 10 := ⟨⟨3, by norm_num⟩, half_not_multiple 15 10 1 (by norm_num) (by norm_num)⟩

/-! ## C210 -/

/-- C210: after parsing, the tile ranges are in order and contain the same tiles. -/
theorem c210_tiles (m : Module) (p q : Par) (h : rules m p = some q) :
    q.tx = (min p.tx.1 p.tx.2, max p.tx.1 p.tx.2) ∧ q.ty = (min p.ty.1 p.ty.2, max p.ty.1 p.ty.2) := by
  have ho : ∀ t : Int × Int, order t = (min t.1 t.2, max t.1 t.2) := by
    rintro ⟨a, b⟩
    unfold order
    dsimp only
    split
    · rw [min_eq_right (by omega), max_eq_left (by omega)]
    · rw [min_eq_left (by omega), max_eq_right (by omega)]
  unfold rules at h
  split at h
  · rw [Option.some.injEq] at h
    subst h
    have : ∀ x : Par, (switchOff m x).tx = x.tx ∧ (switchOff m x).ty = x.ty := fun x => by cases m <;> exact ⟨rfl, rfl⟩
    rw [(this _).1, (this _).2]
    exact ⟨ho _, ho _⟩
  · cases h

/-- C210, violated: the order of the dates is not looked at. With any accepted parameters, a period that
ends before it begins is accepted as well; its number of years is not positive. -/
theorem c210_dates_violated (m : Module) (hm : m ≠ .cfi) (p q : Par) (h : rules m p = some q) (ymin ymax : Int)
    (hy : ymax < ymin) : (rules m { p with ymin := ymin, ymax := ymax }).isSome = true ∧ years ymin ymax ≤ 0 := by
  refine ⟨?_, by unfold years; omega⟩
  have e : moduleOk m { p with ymin := ymin, ymax := ymax } = moduleOk m p := by cases m <;> first | rfl | exact absurd rfl hm
  unfold rules at h ⊢
  dsimp only at h ⊢
  rw [e]
  split at h
  · rename_i hc
    have : commonOk { p with ymin := ymin, ymax := ymax } = commonOk p := rfl
    rw [this, if_pos hc]
    rfl
  · cases h

/-- C210: the number of years of a period in order is the number of its calendar years. -/
theorem c210_years (ymin ymax : Int) (h : ymin ≤ ymax + 1) : years ymin ymax = ((Finset.Icc ymin ymax).card : Int) := by
  rw [Int.card_Icc]
  unfold years
  omega

example : years 2015 2020 = 6 := by decide

/-! ## C211 -/

/-- C211: the features are numbered in the order of the lines and of the bands in a line: the feature of
the `j`-th band of a line comes after all features of the lines before it and the bands before it in
its line, and has the file name of its line. -/
theorem c211_order (tags : List (List (List Char))) (i j : Nat) (name : List Char) (bands : List (List Char))
    (b : List Char) (ht : tags[i]? = some (name :: bands)) (hb : bands[j]? = some b) :
    (features tags)[((tags.take i).map fun t => t.length - 1).sum + j]? = some (name, Libc.atoi b) := by
  induction tags generalizing i with
  | nil => simp at ht
  | cons t ts ih =>
    have hlen : (featuresOf t).length = t.length - 1 := by cases t <;> simp [featuresOf]
    unfold features at ih ⊢
    rw [List.flatMap_cons]
    cases i with
    | zero =>
      simp only [List.getElem?_cons_zero, Option.some.injEq] at ht
      subst ht
      simp only [List.take_zero, List.map_nil, List.sum_nil, Nat.zero_add]
      rw [featuresOf, List.getElem?_append_left (by
        rw [List.length_map]; exact (List.getElem?_eq_some_iff.1 hb).1), List.getElem?_map, hb]
      rfl
    | succ i =>
      rw [List.getElem?_cons_succ] at ht
      rw [List.take_succ_cons, List.map_cons, List.sum_cons, List.getElem?_append_right (by rw [hlen]; omega), hlen,
        show t.length - 1 + ((ts.take i).map fun t => t.length - 1).sum + j - (t.length - 1) =
          ((ts.take i).map fun t => t.length - 1).sum + j by omega]
      exact ih i ht

/-- C211: there are no other features. -/
theorem c211_count (tags : List (List (List Char))) :
    (features tags).length = (tags.map fun t => t.length - 1).sum := by
  unfold features
  rw [List.length_flatMap]
  congr 1
  refine List.map_congr_left fun t _ => ?_
  cases t <;> simp [featuresOf]

/-- C211, violated: features with a path, without a file extension, or with a negative band number are
recognised, but not refused: all of them are used. -/
theorem c211_refused_violated (tags : List (List (List Char))) (name : List Char) (band : Int)
    (h : (name, band) ∈ features tags) (hb : '/' ∈ name ∨ '.' ∉ name ∨ band < 0) :
    parseFtr tags = false ∧ ∃ l, usedFeatures tags = some l ∧ (name, band) ∈ l := by
  refine ⟨?_, _, rfl, h⟩
  unfold parseFtr
  rw [List.all_eq_false]
  refine ⟨_, h, ?_⟩
  unfold featureOk
  rcases hb with hb | hb | hb <;> simp [hb]

example : (["a.tif".toList, "1".toList, "3".toList] :: [["b/c".toList, "-2".toList]])[1]? =
    some ["b/c".toList, "-2".toList] ∧
    features [["a.tif".toList, "1".toList, "3".toList], ["b/c".toList, "-2".toList]] =
      [("a.tif".toList, 1), ("a.tif".toList, 3), ("b/c".toList, -2)] := by decide +kernel

/-! ## C212 -/

theorem auxOk_iff (aux : List String) (tag : String) (w : ℚ) (hw : 0 ≤ w) : auxOk aux tag w = true ↔ (0 < w ↔ tag ∈ aux) := by
  have h1 : decide (w = 0) = !decide (w > 0) := by
    by_cases h : w = 0
    · simp [h]
    · have : 0 < w := lt_of_le_of_ne hw (Ne.symm h)
      simp [h, this]
  have h2 : aux.contains tag = decide (tag ∈ aux) := by simp
  unfold auxOk
  rw [h1, h2]
  by_cases a : 0 < w <;> by_cases b : tag ∈ aux <;> simp [a, b]

/-- C212: for every submodule and all parameters whose lengths are positive multiples of the resolution:
they are accepted if and only if they agree with each other. -/
theorem c212_consistent (m : Module) (p : Par) (hr : 0 < p.res) (hx : 0 < p.cx) (hy : 0 < p.cy)
    (hmx : Multiple p.cx p.res) (hmy : Multiple p.cy p.res) (hr0 : 0 ≤ radius m p.radii)
    (hmr : Multiple (radius m p.radii) p.res) (h1 : 0 ≤ p.wc) (h2 : 0 ≤ p.wh) (h3 : 0 ≤ p.wv) :
    (rules m p).isSome = true ↔ Consistent m p := by
  have g : gridOk p.res p.cx p.cy = true := by
    unfold gridOk
    rw [off_multiple _ _ hx.le hr hmx, off_multiple _ _ hy.le hr hmy]
    simp [not_le.2 hr, not_le.2 hx, not_le.2 hy]
  have gr : radiusOk m p.radii p.res = true := by
    unfold radiusOk
    rw [off_multiple _ _ hr0 hr hmr]
    simp
  have hiff : (rules m p).isSome = true ↔ moduleOk m p = true ∧ commonOk p = true := by
    unfold rules
    rw [g, gr]
    cases moduleOk m p <;> cases commonOk p <;> simp
  rw [hiff]
  have hc : commonOk p = true ↔ (p.dirMask = true → p.baseMask = true) ∧ (p.custom = true → p.optFile = true) := by
    unfold commonOk
    cases p.dirMask <;> cases p.baseMask <;> cases p.custom <;> cases p.optFile <;> simp
  rw [hc]
  unfold Consistent
  generalize (p.dirMask = true → p.baseMask = true) = A
  generalize (p.custom = true → p.optFile = true) = B
  have hw : (!decide ((p.windows : Int) - 1 ≤ 0)) = true ↔ 2 ≤ p.windows := by
    simp only [Bool.not_eq_true', decide_eq_false_iff_not]; omega
  have hy : (p.cfiYears.all fun y => !(decide (y < p.ymin) || decide (y > p.ymax))) = true ↔
      ∀ y ∈ p.cfiYears, p.ymin ≤ y ∧ y ≤ p.ymax := by
    simp only [List.all_eq_true, Bool.not_eq_true', Bool.or_eq_false_iff, decide_eq_false_iff_not, not_lt, gt_iff_lt]
  have hl : (!decide (p.nthreshold ≠ p.nfeature) && !decide (p.nquery ≠ p.nfeature)) = true ↔
      p.nthreshold = p.nfeature ∧ p.nquery = p.nfeature := by simp
  have ha : (auxOk p.aux "DST" p.wc && auxOk p.aux "HOT" p.wh && auxOk p.aux "VZN" p.wv) = true ↔
      (0 < p.wc ↔ "DST" ∈ p.aux) ∧ (0 < p.wh ↔ "HOT" ∈ p.aux) ∧ (0 < p.wv ↔ "VZN" ∈ p.aux) := by
    rw [Bool.and_eq_true, Bool.and_eq_true, auxOk_iff _ _ _ h1, auxOk_iff _ _ _ h2, auxOk_iff _ _ _ h3, and_assoc]
  have hcfi : moduleOk .cfi p = true ↔ 2 ≤ p.windows ∧ ∀ y ∈ p.cfiYears, p.ymin ≤ y ∧ y ≤ p.ymax := by
    rw [← hw, ← hy, ← Bool.and_eq_true]; rfl
  have hl2i : moduleOk .l2i p = true ↔ 2 ≤ p.windows := hw
  have hbap : moduleOk .bap p = true ↔ _ := ha
  have hlsm : moduleOk .lsm p = true ↔ _ := hl
  have ho : ∀ n : Module, n ≠ .l2i → n ≠ .cfi → n ≠ .bap → n ≠ .lsm → moduleOk n p = true := by
    intro n a b c d
    cases n <;> first | rfl | exact absurd rfl a | exact absurd rfl b | exact absurd rfl c | exact absurd rfl d
  cases m
  case l2i =>
    rw [hl2i]
    exact ⟨fun ⟨d, a, b⟩ => ⟨a, b, fun _ => d, (fun h => by cases h), (fun h => by cases h), (fun h => by cases h)⟩,
      fun ⟨a, b, d, _⟩ => ⟨d (.inl rfl), a, b⟩⟩
  case cfi =>
    rw [hcfi]
    exact ⟨fun ⟨⟨d, c⟩, a, b⟩ => ⟨a, b, fun _ => d, fun _ => c, (fun h => by cases h), (fun h => by cases h)⟩,
      fun ⟨a, b, d, c, _⟩ => ⟨⟨d (.inr rfl), c rfl⟩, a, b⟩⟩
  case bap =>
    rw [hbap]
    exact ⟨fun ⟨e, a, b⟩ => ⟨a, b, (fun h => by rcases h with h | h <;> cases h), (fun h => by cases h), fun _ => e,
      (fun h => by cases h)⟩, fun ⟨a, b, _, _, e, _⟩ => ⟨e rfl, a, b⟩⟩
  case lsm =>
    rw [hlsm]
    exact ⟨fun ⟨e, a, b⟩ => ⟨a, b, (fun h => by rcases h with h | h <;> cases h), (fun h => by cases h),
      (fun h => by cases h), fun _ => e⟩, fun ⟨a, b, _, _, _, e⟩ => ⟨e rfl, a, b⟩⟩
  all_goals
    rw [ho _ (by simp) (by simp) (by simp) (by simp)]
    exact ⟨fun ⟨_, a, b⟩ => ⟨a, b, (fun h => by rcases h with h | h <;> cases h), (fun h => by cases h),
      (fun h => by cases h), (fun h => by cases h)⟩, fun ⟨a, b, _⟩ => ⟨rfl, a, b⟩⟩

/-- Parameters for the examples. -/
def exPar : Par where
  res := 10
  cx := 3000
  cy := 30000
  tx := (5, 2)
  ty := (1, 1)
  dirMask := true
  baseMask := true
  ymin := 2015
  ymax := 2020
  radii := ⟨15, 2, 50, 120, 50⟩
  windows := 3
  aux := ["DST"]
  wc := 1 / 2
  wh := 0
  wv := 0
  nthreshold := 2
  nquery := 2
  nfeature := 2
  cfiYears := [2016, 2020]
  orfp := true
  orfm := true
  rfc := false
  pypOut := true
  pypCode := true
  rspOut := false
  rspCode := true
  stream := true
  custom := false
  optFile := false

-- accepted by all submodules; refused with a missing auxiliary product, a year outside of the period, ...
example : (rules .txt exPar).isSome = true ∧ (rules .bap exPar).isSome = true ∧ (rules .cfi exPar).isSome = true ∧
    (rules .lsm exPar).isSome = true ∧ (rules .bap { exPar with wh := 1 / 3 }).isSome = false ∧
    (rules .cfi { exPar with ymax := 2019 }).isSome = false ∧ (rules .lsm { exPar with nquery := 3 }).isSome = false ∧
    (rules .udf { exPar with baseMask := false }).isSome = false := by decide +kernel

/-- C212: user code is run only if its output is requested and there is code, streaming is off with R
code, and probabilities and margins are only given by random forest classification. -/
theorem c212_switches (m : Module) (p q : Par) (h : rules m p = some q) :
    (m = .udf → (q.pypOut = true ↔ p.pypOut = true ∧ p.pypCode = true) ∧ (q.rspOut = true ↔ p.rspOut = true ∧ p.rspCode = true) ∧
      q.pypCode = q.pypOut ∧ q.rspCode = q.rspOut ∧ (q.stream = true ↔ p.stream = true ∧ q.rspOut = false)) ∧
    (m = .ml → (q.orfp = true ↔ p.orfp = true ∧ p.rfc = true) ∧ (q.orfm = true ↔ p.orfm = true ∧ p.rfc = true)) := by
  unfold rules at h
  split at h
  · rw [Option.some.injEq] at h
    subst h
    constructor
    · rintro rfl
      cases p.pypOut <;> cases p.pypCode <;> cases p.rspOut <;> cases p.rspCode <;> cases p.stream <;> simp_all [switchOff]
    · rintro rfl
      simp [switchOff]
  · cases h

/-! ## C213 -/

theorem detect_iff (w : String) (x : Module × Input × Input) : detect w = some x ↔ (w, x) ∈ starts := by
  unfold detect
  split_ifs with h1 h2 h3 h4 h5 h6 h7 h8 h9 h10 h11
  all_goals first
    | subst w; simp only [starts, List.mem_cons, Prod.mk.injEq, Option.some.injEq, List.not_mem_nil, or_false]
      rw [eq_comm]; simp
    | simp [starts, h1, h2, h3, h4, h5, h6, h7, h8, h9, h10, h11]

theorem word_eq (pre w post : List Char) (hp : ∀ c ∈ pre, isSpace c = true) (hw : ∀ c ∈ w, isSpace c = false)
    (hne : w ≠ []) (hpost : ∀ c, post.head? = some c → isSpace c = true) : word (pre ++ w ++ post) = w := by
  have h1 : (pre ++ w ++ post).dropWhile isSpace = w ++ post := by
    rw [List.append_assoc, List.dropWhile_append_of_pos hp]
    cases w with
    | nil => exact absurd rfl hne
    | cons c w => simp [hw c (by simp)]
  unfold word
  rw [h1, List.takeWhile_append_of_pos (fun c hc => by simp [hw c hc])]
  cases post with
  | nil => simp
  | cons c post => simp [hpost c rfl]

theorem space_iff (c : Char) : isSpace c = true ↔ White c := by
  unfold isSpace White
  simp only [Bool.or_eq_true, decide_eq_true_eq, or_assoc]

/-- C213 (partial: for first words shorter than 65536 characters): whatever white space comes before it
and whatever follows, the first word of the parameter file decides about the submodule; a file whose
first word is no start tag is refused. -/
theorem c213_first_word_partial (pre w post : List Char) (hp : ∀ c ∈ pre, White c)
    (hw : ∀ c ∈ w, ¬ White c) (hne : w ≠ []) (hpost : ∀ c, post.head? = some c → White c)
    (hl : w.length < 65536) :
    (∀ x, submodule (pre ++ w ++ post) = .ok x ↔ (String.ofList w, x) ∈ starts) ∧
    (submodule (pre ++ w ++ post) = .exit ↔ ∀ x, (String.ofList w, x) ∉ starts) := by
  simp only [← space_iff, Bool.not_eq_true] at hp hw hpost
  unfold submodule
  rw [word_eq pre w post hp hw hne hpost, if_neg hne, if_neg (by omega)]
  have hd := fun x => detect_iff (String.ofList w) x
  cases he : detect (String.ofList w) with
  | some y =>
    rw [he] at hd
    simp only [← hd, Option.some.injEq, Out.ok.injEq, reduceCtorEq, false_iff, not_forall, not_not, implies_true,
      true_and, exists_eq']
  | none =>
    rw [he] at hd
    simp [← hd]

/-- C213: different submodules have different start tags. -/
theorem c213_distinct : (starts.map (·.1)).Nodup ∧ (starts.map (·.2.1)).Nodup := by decide +kernel

/-- C213, violated: a file that begins with a longer word (a binary file, say) overruns the buffer. -/
theorem c213_long_violated (pre w post : List Char) (hp : ∀ c ∈ pre, White c)
    (hw : ∀ c ∈ w, ¬ White c) (hpost : ∀ c, post.head? = some c → White c)
    (hl : 65536 ≤ w.length) : submodule (pre ++ w ++ post) = .ub := by
  have hne : w ≠ [] := by rintro rfl; simp at hl
  simp only [← space_iff, Bool.not_eq_true] at hp hw hpost
  unfold submodule
  rw [word_eq pre w post hp hw hne hpost, if_neg hne, if_pos (by omega)]

example : submodule "\n ++PARAM_CSO_START++\n# INPUT".toList = .ok (.cso, .qai, .none) := by decide +kernel

end Verif.Rules
