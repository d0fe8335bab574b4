import Mathlib.Tactic.FieldSimp
import Mathlib.Tactic.Linarith
import Mathlib.Tactic.NormNum
import Mathlib.Tactic.Positivity
import Mathlib.Tactic.Ring
import Verif.Tscore.Model

/-!
# Properties C289 and C290: critical values and significance
-/

namespace Verif.Tscore

/-! ## Specification -/

/-- Student's distribution with 1 to 4 degrees of freedom: the probability of values up to `t`. -/
noncomputable def Spec.cdf (df : Int) (t : ℝ) : ℝ :=
  if df = 1 then 1 / 2 + Real.arctan t / Real.pi
  else if df = 2 then 1 / 2 + t / (2 * √(t * t + 2))
  else if df = 3 then 1 / 2 + (Real.arctan (t / √3) + t * √3 / (t * t + 3)) / Real.pi
  else 1 / 2 + t * (1 + 2 / (t * t + 4)) / (2 * √(t * t + 4))

/-- The probability of a value that is at least as extreme as `t`. -/
noncomputable def Spec.prob (df : Int) (tail : Tail) (t : ℝ) : ℝ :=
  match tail with
  | .left => Spec.cdf df t
  | .right => 1 - Spec.cdf df t
  | .two => 2 * (1 - Spec.cdf df |t|)

/-! ## Lemmas -/

theorem neg_two (p : ℝ) : negative p .two = false := by unfold negative; simp

theorem neg_left (p : ℝ) : negative p .left = decide (p < 1 / 2) := by
  unfold negative
  norm_num [show (Tail.left = Tail.right) = False from by simp, show (Tail.right = Tail.left) = False from by simp]

theorem neg_right (p : ℝ) : negative p .right = decide (1 / 2 < p) := by
  unfold negative
  norm_num [show (Tail.left = Tail.right) = False from by simp, show (Tail.right = Tail.left) = False from by simp]

theorem level_eq (p : ℝ) (tail : Tail) : tail2twotail p tail (negative p tail) =
    match tail with
    | .two => p
    | _ => 2 * min p (1 - p) := by
  unfold tail2twotail left2twotail tail2left
  cases tail with
  | two =>
    have := neg_two p
    rw [this]
    simp only [Bool.false_eq_true, if_false]
    ring
  | left =>
    dsimp only
    by_cases h : p < 1 / 2
    · have : negative p .left = true := by rw [neg_left]; exact decide_eq_true h
      rw [this, min_eq_left (by linarith)]
      simp only [if_true]
      ring
    · have : negative p .left = false := by rw [neg_left]; exact decide_eq_false h
      rw [this, min_eq_right (by linarith)]
      simp only [Bool.false_eq_true, if_false]
  | right =>
    dsimp only
    by_cases h : p > 1 / 2
    · have : negative p .right = true := by rw [neg_right]; exact decide_eq_true h
      rw [this, min_eq_right (by linarith)]
      simp only [if_true]
      ring
    · have : negative p .right = false := by rw [neg_right]; exact decide_eq_false h
      rw [this, min_eq_left (by linarith)]
      simp only [Bool.false_eq_true, if_false]
      ring

theorem level_range (p : ℝ) (tail : Tail) (h0 : 0 < p) (h1 : p < 1) :
    0 < tail2twotail p tail (negative p tail) ∧ tail2twotail p tail (negative p tail) ≤ 1 := by
  rw [level_eq]
  cases tail
  · dsimp only
    have : min p (1 - p) ≤ 1 / 2 := by
      rcases le_total p (1 / 2) with h | h
      · exact (min_le_left _ _).trans h
      · exact (min_le_right _ _).trans (by linarith)
    have : 0 < min p (1 - p) := lt_min h0 (by linarith)
    constructor <;> linarith
  · exact ⟨h0, h1.le⟩
  · dsimp only
    have : min p (1 - p) ≤ 1 / 2 := by
      rcases le_total p (1 / 2) with h | h
      · exact (min_le_left _ _).trans h
      · exact (min_le_right _ _).trans (by linarith)
    have : 0 < min p (1 - p) := lt_min h0 (by linarith)
    constructor <;> linarith

theorem search_spec (p0 : ℝ) (df : Int) (p1 t : ℝ) (h : search p0 df p1 = some t) :
    |tp t df - p0| ≤ 0.0001 ∧ ∃ q, t = hill q df := by
  revert h
  refine search.partial_correctness (p0 := p0) (df := df) (fun _ t => |tp t df - p0| ≤ 0.0001 ∧ ∃ q, t = hill q df) ?_ p1 t
  intro f ih p1 t h
  split at h
  · exact ih _ _ h
  · cases h
    rename_i h
    exact ⟨not_lt.1 h, p1, rfl⟩

theorem tp_neg (t : ℝ) (df : Int) : tp (-t) df = tp t df := by
  unfold tp
  rw [abs_neg, neg_mul_neg]

theorem hill_nonneg (q : ℝ) (df : Int) (h : df ≠ 1) : 0 ≤ hill q df := by
  unfold hill
  dsimp only
  rw [if_neg (by exact_mod_cast h)]
  split
  · exact Real.sqrt_nonneg _
  · split <;> exact Real.sqrt_nonneg _

theorem hill_one (p : ℝ) (h0 : 0 < p) (h1 : p ≤ 1) : 0 ≤ hill p 1 ∧ tp (hill p 1) 1 = p := by
  have hpi := Real.pi_pos
  have e : hill p 1 = Real.tan (Real.pi / 2 - p * Real.pi / 2) := by
    unfold hill
    dsimp only
    rw [if_pos (by norm_num), Real.tan_pi_div_two_sub, Real.tan_eq_sin_div_cos, inv_div]
  have a1 : 0 ≤ Real.pi / 2 - p * Real.pi / 2 := by nlinarith
  have a2 : Real.pi / 2 - p * Real.pi / 2 < Real.pi / 2 := by nlinarith
  have hn : 0 ≤ hill p 1 := by
    rw [e]
    exact Real.tan_nonneg_of_nonneg_of_le_pi_div_two a1 a2.le
  refine ⟨hn, ?_⟩
  unfold tp
  dsimp only
  rw [if_pos rfl, abs_of_nonneg hn, e, Real.arctan_tan (by linarith) a2]
  field_simp
  ring

theorem hill_two (p : ℝ) (h0 : 0 < p) (h1 : p ≤ 1) : tp (hill p 2) 2 = p := by
  have hq : 0 < p * (2 - p) := mul_pos h0 (by linarith)
  have hle : p * (2 - p) ≤ 1 := by nlinarith [sq_nonneg (1 - p)]
  have hx : 0 ≤ 2 / (p * (2 - p)) - 2 := by
    have : 2 ≤ 2 / (p * (2 - p)) := by
      rw [le_div_iff₀ hq]; linarith
    linarith
  have e : hill p 2 = √(2 / (p * (2 - p)) - 2) := by
    unfold hill
    dsimp only
    rw [if_neg (by norm_num), if_pos (by norm_num)]
  unfold tp
  dsimp only
  rw [if_neg (by decide), if_pos rfl, e, abs_of_nonneg (Real.sqrt_nonneg _), Real.mul_self_sqrt hx, sub_add_cancel,
    ← Real.sqrt_div hx]
  have : (2 / (p * (2 - p)) - 2) / (2 / (p * (2 - p))) = (1 - p) ^ 2 := by
    have hp : p ≠ 0 := h0.ne'
    have hp2 : 2 - p ≠ 0 := by linarith
    field_simp
    ring
  rw [this, Real.sqrt_sq (by linarith)]
  ring

theorem cdf_tp (df : Int) (h : df = 1 ∨ df = 2 ∨ df = 3 ∨ df = 4) (t : ℝ) :
    Spec.cdf df t = if 0 ≤ t then 1 - tp t df / 2 else tp t df / 2 := by
  have hpi := Real.pi_pos.ne'
  unfold Spec.cdf tp
  by_cases ht : 0 ≤ t
  · rw [if_pos ht, abs_of_nonneg ht]
    rcases h with rfl | rfl | rfl | rfl
    · norm_num
      field_simp
      ring
    · norm_num
      have : √(t * t + 2) ≠ 0 := (Real.sqrt_pos.2 (by nlinarith [mul_self_nonneg t])).ne'
      field_simp
      ring
    · norm_num
      field_simp
      ring
    · norm_num
      have : √(t * t + 4) ≠ 0 := (Real.sqrt_pos.2 (by nlinarith [mul_self_nonneg t])).ne'
      field_simp
      ring
  · rw [if_neg ht, abs_of_neg (not_le.1 ht)]
    rcases h with rfl | rfl | rfl | rfl
    · norm_num [Real.arctan_neg]
      field_simp
      ring
    · norm_num
      have : √(t * t + 2) ≠ 0 := (Real.sqrt_pos.2 (by nlinarith [mul_self_nonneg t])).ne'
      field_simp
      ring
    · norm_num [neg_div, Real.arctan_neg]
      field_simp
      ring
    · norm_num
      have : √(t * t + 4) ≠ 0 := (Real.sqrt_pos.2 (by nlinarith [mul_self_nonneg t])).ne'
      field_simp
      ring

/-- The search ends at once if the first guess is exact. -/
theorem search_exact (p0 : ℝ) (df : Int) (h : tp (hill p0 df) df = p0) : search p0 df p0 = some (hill p0 df) := by
  rw [search, h, sub_self, abs_zero, if_neg (by norm_num)]

/-- What is known of a result. -/
theorem tscore_inv (p : ℝ) (df : Int) (tail : Tail) (t : ℝ) (h : tscore p df tail = some (some t)) :
    (0 < p ∧ p < 1) ∧ 1 ≤ df ∧ ∃ u, 0 ≤ u ∧ t = (if negative p tail then -u else u) ∧
      search (tail2twotail p tail (negative p tail)) df (tail2twotail p tail (negative p tail)) = some u := by
  unfold tscore at h
  split at h
  · cases h
  · rename_i hc
    rw [not_or, not_or, not_le, ge_iff_le, not_le, not_lt] at hc
    obtain ⟨h0, h1, hd⟩ := hc
    dsimp only at h
    cases e : search (tail2twotail p tail (negative p tail)) df (tail2twotail p tail (negative p tail)) with
    | none => rw [e] at h; cases h
    | some u =>
      rw [e] at h
      simp only [Option.bind_some, Option.some.injEq] at h
      refine ⟨⟨h0, h1⟩, hd, u, ?_, h.symm, rfl⟩
      by_cases hd1 : df = 1
      · subst hd1
        obtain ⟨g0, g1⟩ := level_range p tail h0 h1
        obtain ⟨k0, k1⟩ := hill_one _ g0 g1
        rw [search_exact _ _ k1] at e
        cases e
        exact k0
      · obtain ⟨_, q, rfl⟩ := search_spec _ _ _ _ e
        exact hill_nonneg q df hd1

/-! ## C289: critical values -/

/-- C289: levels that are not between 0 and 1 and missing degrees of freedom are refused. -/
theorem c289_refused (p : ℝ) (df : Int) (tail : Tail) (h : p ≤ 0 ∨ 1 ≤ p ∨ df < 1) : tscore p df tail = some none := by
  unfold tscore
  rw [if_pos h]

theorem prob_of (p : ℝ) (df : Int) (tail : Tail) (hdf : df = 1 ∨ df = 2 ∨ df = 3 ∨ df = 4) (u : ℝ) (hu : 0 ≤ u) (ε : ℝ)
    (h : |tp u df - tail2twotail p tail (negative p tail)| ≤ ε) :
    |Spec.prob df tail (if negative p tail then -u else u) - p| ≤ if tail = .two then ε else ε / 2 := by
  have hc : ∀ b : Bool, Spec.cdf df (if b then -u else u) = if b = true then tp u df / 2 else 1 - tp u df / 2 := by
    intro b
    cases b
    · simp only [Bool.false_eq_true, if_false]
      rw [cdf_tp df hdf, if_pos hu]
    · simp only [if_true]
      rw [cdf_tp df hdf, tp_neg]
      by_cases h : 0 ≤ -u
      · have : u = 0 := by linarith
        rw [if_pos h, this]
        have : tp 0 df = 1 := by
          unfold tp
          rcases hdf with rfl | rfl | rfl | rfl <;> norm_num
        rw [this]
        norm_num
      · rw [if_neg h]
  rw [level_eq] at h
  rw [abs_le] at h ⊢
  unfold Spec.prob
  cases tail with
  | two =>
    have := neg_two p
    have ha : |(if negative p .two then -u else u)| = u := by
      rw [this]; simp [abs_of_nonneg hu]
    dsimp only at h ⊢
    have := hc false
    simp only [Bool.false_eq_true, if_false] at this
    rw [ha, this, if_pos rfl]
    constructor <;> linarith [h.1, h.2]
  | left =>
    dsimp only at h ⊢
    rw [hc, if_neg (by decide)]
    by_cases hn : p < 1 / 2
    · have : negative p .left = true := by rw [neg_left]; exact decide_eq_true hn
      rw [this, if_pos rfl]
      rw [min_eq_left (by linarith)] at h
      constructor <;> linarith [h.1, h.2]
    · have : negative p .left = false := by rw [neg_left]; exact decide_eq_false hn
      rw [this, if_neg (by decide)]
      rw [min_eq_right (by linarith)] at h
      constructor <;> linarith [h.1, h.2]
  | right =>
    dsimp only at h ⊢
    rw [hc, if_neg (by decide)]
    by_cases hn : p > 1 / 2
    · have : negative p .right = true := by rw [neg_right]; exact decide_eq_true hn
      rw [this, if_pos rfl]
      rw [min_eq_right (by linarith)] at h
      constructor <;> linarith [h.1, h.2]
    · have : negative p .right = false := by rw [neg_right]; exact decide_eq_false hn
      rw [this, if_neg (by decide)]
      rw [min_eq_left (by linarith)] at h
      constructor <;> linarith [h.1, h.2]

/-- C289: with up to four degrees of freedom, the probability of a value at least as extreme as the returned one
differs from the given level by at most 0.0001, one-sided by at most 0.00005, and the two-sided value is not negative. -/
theorem c289_probability (p : ℝ) (df : Int) (tail : Tail) (hdf : df ≤ 4) (t : ℝ)
    (h : tscore p df tail = some (some t)) :
    |Spec.prob df tail t - p| ≤ (if tail = .two then 0.0001 else 0.00005) ∧ (tail = .two → 0 ≤ t) := by
  obtain ⟨-, hd, u, hu, rfl, hs⟩ := tscore_inv p df tail t h
  have h4 : df = 1 ∨ df = 2 ∨ df = 3 ∨ df = 4 := by omega
  refine ⟨?_, ?_⟩
  · refine (prob_of p df tail h4 u hu 0.0001 (search_spec _ _ _ _ hs).1).trans ?_
    split <;> norm_num
  · rintro rfl
    rw [neg_two]
    exact hu

theorem tscore_exact (p : ℝ) (df : Int) (tail : Tail) (h0 : 0 < p) (h1 : p < 1) (hdf : df = 1 ∨ df = 2) :
    ∃ t, tscore p df tail = some (some t) ∧ Spec.prob df tail t = p ∧ (tail = .two → 0 ≤ t) := by
  obtain ⟨g0, g1⟩ := level_range p tail h0 h1
  have hx : tp (hill (tail2twotail p tail (negative p tail)) df) df = tail2twotail p tail (negative p tail) := by
    rcases hdf with rfl | rfl
    · exact (hill_one _ g0 g1).2
    · exact hill_two _ g0 g1
  have hs := search_exact _ _ hx
  have ht : tscore p df tail = some (some (if negative p tail then -(hill (tail2twotail p tail (negative p tail)) df) else hill (tail2twotail p tail (negative p tail)) df)) := by
    unfold tscore
    rw [if_neg (by rw [not_or, not_or]; exact ⟨not_le.2 h0, not_le.2 h1, by omega⟩)]
    dsimp only
    rw [hs]
    rfl
  refine ⟨_, ht, ?_, ?_⟩
  · obtain ⟨-, hd, u, hu, he, hs'⟩ := tscore_inv p df tail _ ht
    rw [hs] at hs'
    cases hs'
    have := prob_of p df tail (by omega) _ hu 0 (by rw [hx, sub_self, abs_zero])
    rw [zero_div, ite_self] at this
    linarith [abs_nonpos_iff.1 this]
  · rintro rfl
    obtain ⟨-, hd, u, hu, he, hs'⟩ := tscore_inv p df .two _ ht
    rw [he, neg_two]
    exact hu

/-- C289: with one or two degrees of freedom there is a value for every level, and its probability is the level. -/
theorem c289_exact (p : ℝ) (df : Int) (tail : Tail) (h0 : 0 < p) (h1 : p < 1) (hdf : df = 1 ∨ df = 2) :
    ∃ t, tscore p df tail = some (some t) ∧ Spec.prob df tail t = p ∧ (tail = .two → 0 ≤ t) :=
  tscore_exact p df tail h0 h1 hdf

/-- C289: with more degrees of freedom, the probability the program itself gives to the returned value differs from the
two-sided level by at most 0.0001, and the value lies on the side of the level. -/
theorem c289_side (p : ℝ) (df : Int) (tail : Tail) (t : ℝ) (h : tscore p df tail = some (some t)) :
    (0 < p ∧ p < 1 ∧ 1 ≤ df) ∧ |tp t df - (if tail = .two then p else 2 * min p (1 - p))| ≤ 0.0001 ∧
      (tail = .left → (p < 1 / 2 → t ≤ 0) ∧ (1 / 2 ≤ p → 0 ≤ t)) ∧
      (tail = .right → (1 / 2 < p → t ≤ 0) ∧ (p ≤ 1 / 2 → 0 ≤ t)) ∧ (tail = .two → 0 ≤ t) := by
  obtain ⟨⟨h0, h1⟩, hd, u, hu, rfl, hs⟩ := tscore_inv p df tail t h
  refine ⟨⟨h0, h1, hd⟩, ?_, ?_, ?_, ?_⟩
  · have e : tp (if negative p tail = true then -u else u) df = tp u df := by
      split
      · exact tp_neg u df
      · rfl
    rw [e]
    have := (search_spec _ _ _ _ hs).1
    rw [level_eq] at this
    cases tail <;> exact this
  · rintro rfl
    rw [neg_left]
    constructor
    · intro h; rw [decide_eq_true h]; simpa using hu
    · intro h; rw [decide_eq_false (not_lt.2 h)]; simpa using hu
  · rintro rfl
    rw [neg_right]
    constructor
    · intro h; rw [decide_eq_true h]; simpa using hu
    · intro h; rw [decide_eq_false (not_lt.2 h)]; simpa using hu
  · rintro rfl
    rw [neg_two]
    simpa using hu

/-! ## C290: significance -/

theorem cdf_mono (df : Int) (hdf : df = 1 ∨ df = 2) : StrictMono (Spec.cdf df) := by
  intro s t h
  rcases hdf with rfl | rfl
  · unfold Spec.cdf
    rw [if_pos rfl, if_pos rfl]
    have := Real.arctan_strictMono h
    have := (div_lt_div_iff_of_pos_right Real.pi_pos).2 this
    linarith
  · unfold Spec.cdf
    rw [if_neg (by decide), if_pos rfl, if_neg (by decide), if_pos rfl]
    have hs : 0 < √(s * s + 2) := Real.sqrt_pos.2 (by nlinarith [mul_self_nonneg s])
    have ht : 0 < √(t * t + 2) := Real.sqrt_pos.2 (by nlinarith [mul_self_nonneg t])
    have key : s * √(t * t + 2) < t * √(s * s + 2) := by
      have es := Real.mul_self_sqrt (show 0 ≤ s * s + 2 by nlinarith [mul_self_nonneg s])
      have et := Real.mul_self_sqrt (show 0 ≤ t * t + 2 by nlinarith [mul_self_nonneg t])
      by_cases s0 : 0 ≤ s
      · have t0 : 0 < t := lt_of_le_of_lt s0 h
        refine lt_of_pow_lt_pow_left₀ 2 (by positivity) ?_
        rw [mul_pow, mul_pow, Real.sq_sqrt (by positivity), Real.sq_sqrt (by positivity)]
        nlinarith
      · by_cases t0 : 0 ≤ t
        · have := mul_pos (neg_pos.2 (not_le.1 s0)) ht
          have := mul_nonneg t0 hs.le
          linarith
        · have s1 := not_le.1 s0
          have t1 := not_le.1 t0
          have : (-t) * √(s * s + 2) < (-s) * √(t * t + 2) := by
            refine lt_of_pow_lt_pow_left₀ 2 (mul_nonneg (by linarith) ht.le) ?_
            rw [mul_pow, mul_pow, Real.sq_sqrt (by nlinarith [mul_self_nonneg s]), Real.sq_sqrt (by nlinarith [mul_self_nonneg t])]
            nlinarith
          linarith
    have : s / (2 * √(s * s + 2)) < t / (2 * √(t * t + 2)) := by
      rw [div_lt_div_iff₀ (by positivity) (by positivity)]
      linarith
    linarith

theorem cdf_neg (df : Int) (hdf : df = 1 ∨ df = 2) (t : ℝ) : Spec.cdf df (-t) = 1 - Spec.cdf df t := by
  unfold Spec.cdf
  rcases hdf with rfl | rfl
  · rw [if_pos rfl, if_pos rfl, Real.arctan_neg]
    ring
  · rw [if_neg (by decide), if_pos rfl, if_neg (by decide), if_pos rfl, neg_mul_neg]
    ring

/-- C290: with three or four samples the slope is reported as decreasing exactly if the probability of a test statistic
that is at most as large does not exceed the level, for a test to the left. -/
theorem c290_left (p : ℝ) (n : Int) (b b0 seb : ℝ) (h0 : 0 < p) (h1 : p < 1) (_hs : 0 < seb) (hn : n = 3 ∨ n = 4) :
    significant p .left n b b0 seb = some (if Spec.cdf (n - 2) ((b - b0) / seb) ≤ p then -1 else 0) := by
  have hdf : n - 2 = 1 ∨ n - 2 = 2 := by omega
  obtain ⟨t, ht, hp, -⟩ := tscore_exact p (n - 2) .left h0 h1 hdf
  unfold significant
  rw [ht]
  have hm := (cdf_mono (n - 2) hdf).le_iff_le (a := (b - b0) / seb) (b := t)
  change Spec.cdf (n - 2) t = p at hp
  rw [hp] at hm
  by_cases hc : (b - b0) / seb ≤ t
  · rw [if_pos (hm.2 hc)]
    simp [hc]
  · rw [if_neg (fun h => hc (hm.1 h))]
    simp [hc]

/-- C290: a test to the right. -/
theorem c290_right (p : ℝ) (n : Int) (b b0 seb : ℝ) (h0 : 0 < p) (h1 : p < 1) (_hs : 0 < seb) (hn : n = 3 ∨ n = 4) :
    significant p .right n b b0 seb = some (if 1 - Spec.cdf (n - 2) ((b - b0) / seb) ≤ p then 1 else 0) := by
  have hdf : n - 2 = 1 ∨ n - 2 = 2 := by omega
  obtain ⟨t, ht, hp, -⟩ := tscore_exact p (n - 2) .right h0 h1 hdf
  unfold significant
  rw [ht]
  have hm := (cdf_mono (n - 2) hdf).le_iff_le (a := t) (b := (b - b0) / seb)
  change 1 - Spec.cdf (n - 2) t = p at hp
  by_cases hc : t ≤ (b - b0) / seb
  · have := hm.2 hc
    rw [if_pos (by linarith)]
    simp [hc]
  · have : ¬ Spec.cdf (n - 2) t ≤ Spec.cdf (n - 2) ((b - b0) / seb) := fun h => hc (hm.1 h)
    rw [if_neg (fun h => this (by linarith))]
    simp [hc]

/-- C290: a two-sided test: the slope is significant exactly if the probability of a test statistic that is at least as
far from zero does not exceed the level, and its sign is reported. -/
theorem c290_two (p : ℝ) (n : Int) (b b0 seb : ℝ) (h0 : 0 < p) (h1 : p < 1) (_hs : 0 < seb) (hn : n = 3 ∨ n = 4) :
    significant p .two n b b0 seb = some (if Spec.prob (n - 2) .two ((b - b0) / seb) ≤ p
      then (if (b - b0) / seb < 0 then -1 else 1) else 0) := by
  have hdf : n - 2 = 1 ∨ n - 2 = 2 := by omega
  obtain ⟨t, ht, hp, h2⟩ := tscore_exact p (n - 2) .two h0 h1 hdf
  have tn := h2 rfl
  have hh : Spec.cdf (n - 2) 0 = 1 / 2 := by
    unfold Spec.cdf
    rcases hdf with e | e <;> rw [e] <;> norm_num
  unfold significant
  rw [ht]
  generalize (b - b0) / seb = x
  change 2 * (1 - Spec.cdf (n - 2) |t|) = p at hp
  rw [abs_of_nonneg tn] at hp
  have tpos : 0 < t := by
    rcases tn.lt_or_eq with h | h
    · exact h
    · rw [← h, hh] at hp
      linarith
  have hm := (cdf_mono (n - 2) hdf).le_iff_le (a := t) (b := |x|)
  have hc : Spec.prob (n - 2) .two x ≤ p ↔ t ≤ |x| := by
    rw [← hm]
    change 2 * (1 - Spec.cdf (n - 2) |x|) ≤ p ↔ _
    constructor <;> intro h <;> linarith
  rw [if_congr hc rfl rfl]
  simp only [Option.bind_some, reduceCtorEq, false_and, if_false, true_and]
  by_cases hx : x < 0
  · rw [abs_of_neg hx, if_pos hx]
    by_cases h : x ≤ -t
    · rw [if_pos h, if_pos (by linarith)]
    · rw [if_neg h, if_neg (by intro h'; exact absurd (show t ≤ x from h') (by linarith)), if_neg (by intro h'; exact h (by linarith))]
  · rw [abs_of_nonneg (not_lt.1 hx), if_neg hx, if_neg (by intro h; linarith)]
    by_cases h : t ≤ x
    · rw [if_pos h, if_pos h]
    · rw [if_neg h, if_neg h]

/-- C290: with fewer than three samples no slope is significant. -/
theorem c290_few (p : ℝ) (tail : Tail) (n : Int) (b b0 seb : ℝ) (hn : n < 3) : significant p tail n b b0 seb = some 0 := by
  unfold significant
  rw [c289_refused p (n - 2) tail (Or.inr (Or.inr (by omega)))]
  rfl

/-! ## Concrete cases -/

/-- The critical value of a two-sided test at one half with one degree of freedom is 1. -/
example : tscore (1 / 2) 1 .two = some (some 1) := by
  obtain ⟨t, ht, hp, h0⟩ := c289_exact (1 / 2) 1 .two (by norm_num) (by norm_num) (Or.inl rfl)
  rw [ht]
  have : Spec.cdf 1 1 = 3 / 4 := by
    unfold Spec.cdf
    rw [if_pos rfl, Real.arctan_one]
    have := Real.pi_pos.ne'
    field_simp
    norm_num
  change 2 * (1 - Spec.cdf 1 |t|) = 1 / 2 at hp
  rw [abs_of_nonneg (h0 rfl)] at hp
  have : t = 1 := (cdf_mono 1 (Or.inl rfl)).injective (by linarith)
  rw [this]

/-- A statistic of -2 is significant at one half to both sides, with three samples. -/
example : significant (1 / 2) .two 3 (-2) 0 1 = some (-1) := by
  rw [c290_two _ _ _ _ _ (by norm_num) (by norm_num) (by norm_num) (Or.inl rfl)]
  have hm : Spec.cdf 1 1 < Spec.cdf 1 2 := cdf_mono 1 (Or.inl rfl) (by norm_num)
  have : Spec.cdf 1 1 = 3 / 4 := by
    unfold Spec.cdf
    rw [if_pos rfl, Real.arctan_one]
    have := Real.pi_pos.ne'
    field_simp
    norm_num
  have h : Spec.prob (3 - 2) .two ((-2 - 0) / 1) ≤ 1 / 2 := by
    change 2 * (1 - Spec.cdf 1 |((-2 - 0) / 1 : ℝ)|) ≤ 1 / 2
    have e : |((-2 - 0) / 1 : ℝ)| = 2 := by norm_num
    rw [e]
    linarith
  rw [if_pos h, if_pos (by norm_num)]

end Verif.Tscore
