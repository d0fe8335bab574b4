import Mathlib.Tactic.Linarith
import Mathlib.Tactic.Ring
import Mathlib.Tactic.NormNum
import Mathlib.Tactic.Positivity
import Mathlib.Tactic.FieldSimp
import Verif.Fold.Spec
import Verif.Stats.Props
import Verif.Season.Props
import Verif.Date.Props

/-!
# Theorems about the temporal aggregation: C41
-/

namespace Verif.Fold

open Spec
open Verif.Stats.Spec (mean moment)
open Verif.Str (Out)
open Verif.Date (DateT)

/-! ## The accumulators -/

/-- The accumulators after the values `vs`. -/
noncomputable def accAll (rd : ℝ → ℝ) (vs : List Int) (a : Acc) : Acc :=
  vs.foldl (fun a v => accStep rd v a) a

theorem foldLoop_eq (rd : ℝ → ℝ) (by_ : Per) (nodata : Int) (f : DateT) (series : List (DateT × Int))
    (a : Acc) :
    foldLoop rd by_ nodata f series a = accAll rd (selected by_ nodata (period by_ f) series) a := by
  induction series generalizing a with
  | nil => rfl
  | cons o ts ih =>
    obtain ⟨d, v⟩ := o
    have hp : inPeriod by_ d f = true ↔ period by_ d = period by_ f := by
      cases by_ <;> simp [inPeriod, period]
    unfold foldLoop
    by_cases h1 : inPeriod by_ d f = true
    · by_cases h2 : v = nodata
      · simp [h1, h2, ih, selected]
      · simp [h1, h2, ih, selected, hp.1 h1, accAll]
    · have h3 : ¬ period by_ d = period by_ f := fun h => h1 (hp.2 h)
      simp [h1, ih, selected, h3]

theorem stmLoop_eq (rd : ℝ → ℝ) (nodata : Int) (series : List Int) (a : Acc) :
    stmLoop rd nodata series a = accAll rd (series.filter (· ≠ nodata)) a := by
  induction series generalizing a with
  | nil => rfl
  | cons v ts ih =>
    unfold stmLoop
    by_cases h2 : v = nodata
    · simp [h2, ih]
    · simp [h2, ih, accAll]

theorem accAll_snoc (rd : ℝ → ℝ) (vs : List Int) (v : Int) (a : Acc) :
    accAll rd (vs ++ [v]) a = accStep rd v (accAll rd vs a) := by
  simp [accAll]

theorem accAll_basic (rd : ℝ → ℝ) (vs : List Int) :
    (accAll rd vs acc0).n = vs.length ∧ (accAll rd vs acc0).q = vs := by
  induction vs using List.reverseRecOn with
  | nil => exact ⟨rfl, rfl⟩
  | append_singleton l x ih => rw [accAll_snoc]; simp [accStep, ih.1, ih.2]

theorem accAll_bounds (rd : ℝ → ℝ) (vs : List Int) (hs : Shorts vs) :
    (∀ v ∈ vs, (accAll rd vs acc0).mini ≤ v ∧ v ≤ (accAll rd vs acc0).maxi) ∧
    ((accAll rd vs acc0).mini ∈ vs ∨ (accAll rd vs acc0).mini = 32767) ∧
    ((accAll rd vs acc0).maxi ∈ vs ∨ (accAll rd vs acc0).maxi = -32768) := by
  induction vs using List.reverseRecOn with
  | nil => exact ⟨by simp, Or.inr rfl, Or.inr rfl⟩
  | append_singleton l x ih =>
    obtain ⟨h1, h2, h3⟩ := ih fun v hv => hs v (by simp [hv])
    rw [accAll_snoc]
    simp only [accStep, List.mem_append, List.mem_singleton]
    refine ⟨?_, ?_, ?_⟩
    · rintro v (hv | rfl)
      · have := h1 v hv
        split <;> split <;> omega
      · split <;> split <;> omega
    · split
      · simp
      · rcases h2 with h2 | h2
        · exact Or.inl (Or.inl h2)
        · exact Or.inr h2
    · split
      · simp
      · rcases h3 with h3 | h3
        · exact Or.inl (Or.inl h3)
        · exact Or.inr h3

theorem accAll_min (rd : ℝ → ℝ) (vs : List Int) (hs : Shorts vs) (hne : vs ≠ []) :
    (accAll rd vs acc0).mini ∈ vs ∧ (accAll rd vs acc0).maxi ∈ vs := by
  obtain ⟨h1, h2, h3⟩ := accAll_bounds rd vs hs
  obtain ⟨x, hx⟩ := List.exists_mem_of_ne_nil vs hne
  have b1 := h1 x hx
  have b2 := hs x hx
  constructor
  · rcases h2 with h2 | h2
    · exact h2
    · have : x = (accAll rd vs acc0).mini := by omega
      rw [← this]; exact hx
  · rcases h3 with h3 | h3
    · exact h3
    · have : x = (accAll rd vs acc0).maxi := by omega
      rw [← this]; exact hx

theorem kurtRec_id (x mx vx sx kx n : ℝ) :
    kurtRec id x mx vx sx kx n = Stats.kurtRec x mx vx sx kx n := rfl

theorem accAll_moments (vs : List Int) (hne : vs ≠ []) :
    (accAll id vs acc0).mean = mean (reals vs) ∧ (accAll id vs acc0).var = moment 2 (reals vs) ∧
    (accAll id vs acc0).skew = moment 3 (reals vs) ∧ (accAll id vs acc0).kurt = moment 4 (reals vs) := by
  have key : ((accAll id vs acc0).n, (accAll id vs acc0).mean, (accAll id vs acc0).var,
      (accAll id vs acc0).skew, (accAll id vs acc0).kurt) =
      Stats.kurtLoop (reals vs) (0, 0, 0, 0, 0) := by
    clear hne
    induction vs using List.reverseRecOn with
    | nil => rfl
    | append_singleton l x ih =>
      rw [accAll_snoc, show reals (l ++ [x]) = reals l ++ [(x : ℝ)] by simp [reals],
        Stats.kurtLoop_snoc, ← ih]
      by_cases hl : l = []
      · subst hl
        simp [accAll, accStep, acc0, Stats.kurtLoop, kurtRec]
      · have h0 := (accAll_basic id l).1
        have hne : ¬ (accAll id l acc0).n + 1 = 1 := by
          have := List.length_pos_iff.2 hl; omega
        simp only [accStep, kurtRec_id, Stats.kurtLoop, if_neg hne]
  have hr : reals vs ≠ [] := by simpa [reals] using hne
  rw [Stats.c36_kurtosis_sums (reals vs) hr] at key
  simp only [Prod.mk.injEq] at key
  exact key.2

/-! ## Conversion -/

theorem truncR_intPart (x : ℝ) : IntPart x (truncR x) := by
  unfold IntPart truncR
  split
  · exact ⟨Int.floor_le x, Int.lt_floor_add_one x⟩
  · refine ⟨Int.le_ceil x, ?_⟩
    have := Int.ceil_lt_add_one x
    linarith

theorem shortOf_intPart (x : ℝ) (h1 : -32769 < x) (h2 : x < 32768) :
    ∃ r, shortOf (some x) = .ok r ∧ IntPart x r := by
  refine ⟨truncR x, ?_, truncR_intPart x⟩
  simp only [shortOf]
  apply if_pos
  unfold truncR
  split
  next h =>
    refine ⟨?_, ?_⟩
    · have := Int.floor_nonneg.2 h; omega
    · have : ⌊x⌋ < 32768 := Int.floor_lt.2 (by exact_mod_cast h2)
      omega
  next h =>
    refine ⟨?_, ?_⟩
    · have : -32769 < ⌈x⌉ := Int.lt_ceil.2 (by exact_mod_cast h1)
      omega
    · have : ⌈x⌉ ≤ 0 := Int.ceil_le.2 (by push_cast; linarith)
      omega

theorem limit_eq (x : ℝ) :
    (if x < -30000 then -30000 else if x > 30000 then 30000 else x) = limit x := by
  unfold limit
  split
  · rw [min_eq_right (by linarith), max_eq_left (by linarith)]
  · split
    · rw [min_eq_left (by linarith), max_eq_right (by norm_num)]
    · rw [min_eq_right (by linarith), max_eq_right (by linarith)]

theorem limit_bounds (x : ℝ) : -30000 ≤ limit x ∧ limit x ≤ 30000 :=
  ⟨le_max_left _ _, max_le (by norm_num) (min_le_left _ _)⟩

theorem wrapShort_eq {x : Int} (h : -32768 ≤ x ∧ x ≤ 32767) : wrapShort x = x := by
  unfold wrapShort; omega

theorem mean_bounds (vs : List Int) (hs : Shorts vs) (hne : vs ≠ []) :
    -32768 ≤ mean (reals vs) ∧ mean (reals vs) ≤ 32767 := by
  have hl : (0 : ℝ) < (reals vs).length := by
    have := List.length_pos_iff.2 hne
    simpa [reals] using this
  have key : -32768 * ((reals vs).length : ℝ) ≤ (reals vs).sum ∧
      (reals vs).sum ≤ 32767 * ((reals vs).length : ℝ) := by
    clear hl hne
    induction vs with
    | nil => simp [reals]
    | cons v t ih =>
      obtain ⟨i1, i2⟩ := ih fun w hw => hs w (by simp [hw])
      have hv := hs v (by simp)
      have a1 : (-32768 : ℝ) ≤ v := by exact_mod_cast hv.1
      have a2 : (v : ℝ) ≤ 32767 := by exact_mod_cast hv.2
      simp only [reals, List.map_cons, List.sum_cons, List.length_cons] at i1 i2 ⊢
      push_cast
      constructor <;> linarith
  unfold mean
  rw [le_div_iff₀ hl, div_le_iff₀ hl]
  exact key

theorem moment2_nonneg (l : List ℝ) : 0 ≤ moment 2 l := by
  unfold moment
  apply List.sum_nonneg
  intro x hx
  obtain ⟨y, _, rfl⟩ := List.mem_map.1 hx
  positivity

theorem moment2_pos (vs : List Int) (h : ∃ a ∈ vs, ∃ b ∈ vs, a ≠ b) : 0 < moment 2 (reals vs) := by
  rcases (moment2_nonneg (reals vs)).lt_or_eq with h0 | h0
  · exact h0
  · exfalso
    obtain ⟨a, ha, b, hb, hab⟩ := h
    have hz : ∀ x ∈ reals vs, x = mean (reals vs) := by
      intro x hx
      have : (x - mean (reals vs)) ^ 2 ≤ moment 2 (reals vs) := by
        unfold moment
        apply List.single_le_sum
        · intro y hy
          obtain ⟨z, _, rfl⟩ := List.mem_map.1 hy
          positivity
        · exact List.mem_map.2 ⟨x, hx, rfl⟩
      rw [← h0] at this
      have : (x - mean (reals vs)) ^ 2 = 0 := le_antisymm this (by positivity)
      have := pow_eq_zero_iff (two_ne_zero) |>.1 this
      linarith
    have h1 := hz a (List.mem_map.2 ⟨a, ha, rfl⟩)
    have h2 := hz b (List.mem_map.2 ⟨b, hb, rfl⟩)
    exact hab (by exact_mod_cast h1.trans h2.symm)

/-! ## C41 -/

/-- The values of the statistics, exact arithmetic. -/
theorem foldValue_exact (quant : List Int → Nat → ℝ) (sta : Sta) (nodata : Int) (vs : List Int)
    (hs : Shorts vs) (hne : vs ≠ []) (hf : Fits quant sta vs) :
    ∃ r, foldValue ⟨id, quant⟩ sta nodata (accAll id vs acc0) = .ok r ∧ IsStat quant sta vs r := by
  obtain ⟨hn, hq⟩ := accAll_basic id vs
  obtain ⟨m1, m2, m3, m4⟩ := accAll_moments vs hne
  obtain ⟨b1, _, _⟩ := accAll_bounds id vs hs
  obtain ⟨b2, b3⟩ := accAll_min id vs hs hne
  have hpos : 0 < vs.length := List.length_pos_iff.2 hne
  have hlen : (reals vs).length = vs.length := by simp [reals]
  have hposr : (0 : ℝ) < vs.length := by exact_mod_cast hpos
  have hgt : (accAll id vs acc0).n > 0 := by rw [hn]; exact hpos
  unfold foldValue
  rw [if_pos hgt]
  cases sta with
  | num =>
    have hf : vs.length ≤ 32767 := hf
    exact ⟨_, rfl, by simp only [IsStat, hn]; exact wrapShort_eq (by omega)⟩
  | min => exact ⟨_, rfl, b2, fun v hv => (b1 v hv).1⟩
  | max => exact ⟨_, rfl, b3, fun v hv => (b1 v hv).2⟩
  | rng =>
    have hf := hf _ b2 _ b3
    have := b1 _ b2
    exact ⟨_, rfl, _, b2, _, b3, b1, wrapShort_eq (by omega)⟩
  | avg =>
    simp only [m1]
    obtain ⟨c1, c2⟩ := mean_bounds vs hs hne
    exact shortOf_intPart _ (by linarith) (by linarith)
  | std =>
    obtain ⟨f1, f2⟩ := hf
    have : standdev id (accAll id vs acc0).var (accAll id vs acc0).n = some (std (reals vs)) := by
      unfold standdev
      rw [if_neg]
      · simp only [id, m2, hn, std, hlen]
      · simp only [id, hn]
        have : (2 : ℝ) ≤ vs.length := by exact_mod_cast f1
        linarith
    simp only [this]
    exact shortOf_intPart _ (by have := Real.sqrt_nonneg (moment 2 (reals vs) / ((reals vs).length - 1));
                                unfold std; linarith) f2
  | skw =>
    have hp := moment2_pos vs hf
    have hv : 0 < Real.sqrt (moment 2 (reals vs) / vs.length) := Real.sqrt_pos.2 (by positivity)
    have : skewScaled id (accAll id vs acc0) = some (limit (Spec.skewness (reals vs) * 1000)) := by
      unfold skewScaled skewness standdev
      have h1 : id (id (((accAll id vs acc0).n : ℝ) + 1) - 1) = (vs.length : ℝ) := by
        simp [hn]
      rw [h1, if_neg hposr.ne']
      simp only [id, m2, m3, hn]
      rw [if_neg (by positivity)]
      simp only [Option.map_some, clamp, limit_eq]
      congr 3
      rw [Spec.skewness, hlen, div_div]
    simp only [this]
    have := limit_bounds (Spec.skewness (reals vs) * 1000)
    exact shortOf_intPart _ (by linarith) (by linarith)
  | krt =>
    have hp := moment2_pos vs hf
    have hv : 0 < moment 2 (reals vs) / vs.length := by positivity
    have : kurtScaled id (accAll id vs acc0) = some (limit (Spec.kurtosis (reals vs) * 1000)) := by
      unfold kurtScaled kurtosis
      have h1 : id (id (((accAll id vs acc0).n : ℝ) + 1) - 1) = (vs.length : ℝ) := by
        simp [hn]
      rw [h1, if_neg hposr.ne']
      simp only [id, m2, m4, hn]
      rw [if_neg (by positivity)]
      simp only [Option.map_some, clamp, limit_eq]
      congr 3
      rw [Spec.kurtosis, hlen]
      congr 1
      rw [div_div, pow_two, mul_assoc]
    simp only [this]
    have := limit_bounds (Spec.kurtosis (reals vs) * 1000)
    exact shortOf_intPart _ (by linarith) (by linarith)
  | iqr =>
    have hf : |_| < _ := hf
    rw [abs_lt] at hf
    simp only [quantile, hq]
    exact shortOf_intPart _ (by linarith [hf.1]) hf.2
  | q k =>
    obtain ⟨a, ha, b, hb, c1, c2⟩ := hf
    have a1 : (-32768 : ℝ) ≤ a := by exact_mod_cast (hs a ha).1
    have a2 : (b : ℝ) ≤ 32767 := by exact_mod_cast (hs b hb).2
    simp only [quantile, hq]
    exact shortOf_intPart _ (by linarith) (by linarith)

/-- C41 (partial: exact arithmetic, and results that exist and fit into 16 bits): in an unmasked pixel,
the value folded at date `f` is the statistic of exactly the valid values in the period of `f`. -/
theorem c41_fold_partial (quant : List Int → Nat → ℝ) (sta : Sta) (by_ : Per) (nodata : Int)
    (series : List (DateT × Int)) (folds : List DateT) (i : Nat) (hi : i < folds.length)
    (hs : Shorts (series.map Prod.snd))
    (hne : selected by_ nodata (period by_ folds[i]) series ≠ [])
    (hf : Fits quant sta (selected by_ nodata (period by_ folds[i]) series)) :
    ∃ r, (foldPixel ⟨id, quant⟩ sta by_ nodata true series folds)[i]? = some (.ok r) ∧
      IsStat quant sta (selected by_ nodata (period by_ folds[i]) series) r := by
  have hs' : Shorts (selected by_ nodata (period by_ folds[i]) series) := by
    intro v hv
    obtain ⟨o, ho, rfl⟩ := List.mem_map.1 hv
    exact hs _ (List.mem_map.2 ⟨o, (List.mem_filter.1 ho).1, rfl⟩)
  obtain ⟨r, h1, h2⟩ := foldValue_exact quant sta nodata _ hs' hne hf
  refine ⟨r, ?_, h2⟩
  simp [foldPixel, hi, foldLoop_eq, h1]

/-- C41: folded values without a valid value in the period, and all of a masked pixel, are nodata,
whatever the arithmetic. -/
theorem c41_nodata (E : Env) (sta : Sta) (by_ : Per) (nodata : Int) (mask : Bool)
    (series : List (DateT × Int)) (folds : List DateT) (i : Nat) (hi : i < folds.length)
    (h : mask = false ∨ ∀ o ∈ series, period by_ o.1 = period by_ folds[i] → o.2 = nodata) :
    (foldPixel E sta by_ nodata mask series folds)[i]? = some (.ok nodata) := by
  unfold foldPixel
  cases mask with
  | false => simp [hi]
  | true =>
    have hsel : selected by_ nodata (period by_ folds[i]) series = [] := by
      simp only [Bool.true_eq_false, false_or] at h
      simp only [selected, List.map_eq_nil_iff, List.filter_eq_nil_iff, decide_eq_true_eq, not_and,
        not_not]
      exact h
    simp [hi, foldLoop_eq, hsel, accAll, foldValue, acc0]


/-! ### Rounding of the average -/

/-- The mean of the one-pass recurrence in rational arithmetic with rounding `rq`. -/
def meanQ (rq : ℚ → ℚ) (vs : List Int) : ℚ × Nat :=
  vs.foldl (fun s v => (rq (s.1 + rq (rq (v - s.1) / ((s.2 + 1 : ℕ) : ℚ))), s.2 + 1)) (0, 0)

theorem meanQ_snoc (rq : ℚ → ℚ) (vs : List Int) (v : Int) :
    meanQ rq (vs ++ [v]) = (rq ((meanQ rq vs).1 + rq (rq (v - (meanQ rq vs).1) /
      (((meanQ rq vs).2 + 1 : ℕ) : ℚ))), (meanQ rq vs).2 + 1) := by
  simp [meanQ]

theorem meanQ_len (rq : ℚ → ℚ) (vs : List Int) : (meanQ rq vs).2 = vs.length := by
  induction vs using List.reverseRecOn with
  | nil => rfl
  | append_singleton l x ih => rw [meanQ_snoc]; simp [ih]

theorem double_rq {rd : ℝ → ℝ} (h : Double rd) :
    ∃ rq : ℚ → ℚ, (∀ x : ℚ, rd x = rq x) ∧ ∀ x, Verif.Float.Nearest 53 x (rq x) := by
  choose rq h1 h2 using h
  exact ⟨rq, h1, h2⟩

theorem mean_meanQ {rd : ℝ → ℝ} {rq : ℚ → ℚ} (h : ∀ x : ℚ, rd x = rq x) (vs : List Int) :
    (accAll rd vs acc0).mean = (meanQ rq vs).1 ∧ (meanQ rq vs).2 = vs.length := by
  induction vs using List.reverseRecOn with
  | nil => simp [accAll, acc0, meanQ]
  | append_singleton l x ih =>
    obtain ⟨i1, i2⟩ := ih
    rw [accAll_snoc, meanQ_snoc]
    refine ⟨?_, by simp [i2]⟩
    simp only [accStep, kurtRec, i1, (accAll_basic rd l).1, i2]
    have e1 : ((x : ℝ) - ((meanQ rq l).1 : ℝ)) = ((x - (meanQ rq l).1 : ℚ) : ℝ) := by push_cast; rfl
    rw [e1, h]
    have e2 : ((rq (x - (meanQ rq l).1) : ℚ) : ℝ) / ((l.length + 1 : ℕ) : ℝ) =
        ((rq (x - (meanQ rq l).1) / ((l.length + 1 : ℕ) : ℚ) : ℚ) : ℝ) := by push_cast; rfl
    rw [e2, h]
    have e3 : ∀ a b : ℚ, (a : ℝ) + (b : ℝ) = ((a + b : ℚ) : ℝ) := by intros; push_cast; rfl
    rw [e3, h]

/-- Integers as rationals. -/
def rats (vs : List Int) : List ℚ := vs.map fun v : Int => (v : ℚ)

theorem mean_rats_bound (vs : List Int) (hs : Shorts vs) : |mean (rats vs)| ≤ 32768 := by
  by_cases hne : vs = []
  · subst hne; simp [rats, mean]
  have hl : (0 : ℚ) < (rats vs).length := by
    have := List.length_pos_iff.2 hne
    simpa [rats] using this
  have key : -32768 * ((rats vs).length : ℚ) ≤ (rats vs).sum ∧
      (rats vs).sum ≤ 32768 * ((rats vs).length : ℚ) := by
    clear hl hne
    induction vs with
    | nil => simp [rats]
    | cons v t ih =>
      obtain ⟨i1, i2⟩ := ih fun w hw => hs w (by simp [hw])
      have hv := hs v (by simp)
      have a1 : (-32768 : ℚ) ≤ v := by exact_mod_cast hv.1
      have a2 : (v : ℚ) ≤ 32767 := by exact_mod_cast hv.2
      simp only [rats, List.map_cons, List.sum_cons, List.length_cons] at i1 i2 ⊢
      push_cast
      constructor <;> linarith
  unfold mean
  rw [abs_le, le_div_iff₀ hl, div_le_iff₀ hl]
  exact key

theorem meanQ_err {rq : ℚ → ℚ} (h : ∀ x, Verif.Float.Nearest 53 x (rq x)) (vs : List Int)
    (hs : Shorts vs) (hn : vs.length ≤ 65536) :
    |(meanQ rq vs).1 - mean (rats vs)| ≤ vs.length / 2 ^ 34 := by
  induction vs using List.reverseRecOn with
  | nil => simp [meanQ, rats, mean]
  | append_singleton l x ih =>
    have hs' : Shorts l := fun v hv => hs v (by simp [hv])
    have hx := hs x (by simp)
    have hl : l.length ≤ 65535 := by simp at hn; omega
    have ih := ih hs' (by omega)
    have hlen := meanQ_len rq l
    have hb := mean_rats_bound l hs'
    rw [meanQ_snoc]
    simp only [hlen]
    have hmu : mean (rats (l ++ [x])) = mean (rats l) + (x - mean (rats l)) / ((l.length + 1 : ℕ) : ℚ) := by
      rw [show rats (l ++ [x]) = rats l ++ [(x : ℚ)] by simp [rats]]
      by_cases hne : l = []
      · subst hne; simp [rats, mean]
      · rw [Stats.mean_snoc (rats l) x (by simpa [rats] using hne)]
        simp [rats]
    rw [hmu]
    set m := (meanQ rq l).1
    set μ := mean (rats l)
    have hlq : (l.length : ℚ) ≤ 65535 := by exact_mod_cast hl
    have hn1 : (1 : ℚ) ≤ ((l.length + 1 : ℕ) : ℚ) := by exact_mod_cast (by omega : 1 ≤ l.length + 1)
    set n : ℚ := ((l.length + 1 : ℕ) : ℚ) with hndef
    have hx1 : (-32768 : ℚ) ≤ x := by exact_mod_cast hx.1
    have hx2 : (x : ℚ) ≤ 32767 := by exact_mod_cast hx.2
    have e1 := Verif.Float.nearest_err (by norm_num) (h (x - m))
    have e2 := Verif.Float.nearest_err (by norm_num) (h (rq (x - m) / n))
    have e3 := Verif.Float.nearest_err (by norm_num) (h (m + rq (rq (x - m) / n)))
    set d := rq (x - m)
    set q := rq (d / n)
    set m' := rq (m + q)
    have hnl : ((l ++ [x]).length : ℚ) = l.length + 1 := by simp
    rw [hnl]
    rw [abs_le] at hb ih
    have hm : |m| ≤ 32769 := by
      have : (l.length : ℚ) / 2 ^ 34 ≤ 1 := by rw [div_le_one (by norm_num)]; linarith
      rw [abs_le]; constructor <;> linarith [ih.1, ih.2, hb.1, hb.2]
    have hxm : |(x : ℚ) - m| ≤ 65538 := by
      rw [abs_le] at hm ⊢; constructor <;> linarith [hm.1, hm.2]
    have e1' : |(x : ℚ) - m - d| ≤ 65538 / 2 ^ 53 := e1.trans (by gcongr)
    have hd : |d| ≤ 65539 := by
      have := abs_sub_abs_le_abs_sub d ((x : ℚ) - m)
      rw [abs_sub_comm d] at this
      have h2 : (65538 : ℚ) / 2 ^ 53 ≤ 1 := by norm_num
      linarith
    have hdn : |d / n| ≤ 65539 := by
      rw [abs_div, abs_of_pos (by linarith : (0 : ℚ) < n), div_le_iff₀ (by linarith)]
      nlinarith [abs_nonneg d]
    have e2' : |d / n - q| ≤ 65539 / 2 ^ 53 := e2.trans (by gcongr)
    have hq : |q| ≤ 65540 := by
      have := abs_sub_abs_le_abs_sub q (d / n)
      rw [abs_sub_comm q] at this
      have h2 : (65539 : ℚ) / 2 ^ 53 ≤ 1 := by norm_num
      linarith
    have hmq : |m + q| ≤ 98309 := by
      have := abs_add_le m q; linarith
    have e3' : |m + q - m'| ≤ 98309 / 2 ^ 53 := e3.trans (by gcongr)
    have e1'' : |((x : ℚ) - m) / n - d / n| ≤ 65538 / 2 ^ 53 := by
      rw [← sub_div, abs_div, abs_of_pos (by linarith : (0 : ℚ) < n), div_le_iff₀ (by linarith)]
      refine e1'.trans ?_
      have : (0 : ℚ) ≤ 65538 / 2 ^ 53 := by norm_num
      nlinarith
    have hfac : |m + (x - m) / n - (μ + (x - μ) / n)| ≤ l.length / 2 ^ 34 := by
      have h0 : m + (x - m) / n - (μ + (x - μ) / n) = (m - μ) * (1 - 1 / n) := by
        field_simp; ring
      rw [h0, abs_mul]
      have h1 : |1 - 1 / n| ≤ 1 := by
        rw [abs_le]
        have : 1 / n ≤ 1 := by rw [div_le_one (by linarith)]; exact hn1
        have : 0 ≤ 1 / n := by positivity
        constructor <;> linarith
      calc |m - μ| * |1 - 1 / n| ≤ |m - μ| * 1 := mul_le_mul_of_nonneg_left h1 (abs_nonneg _)
        _ ≤ _ := by rw [mul_one, abs_le]; exact ih
    have hsum : m' - (μ + (x - μ) / n) = (m + (x - m) / n - (μ + (x - μ) / n))
        - ((x - m) / n - d / n) - (d / n - q) - (m + q - m') := by ring
    rw [hsum]
    have t1 := abs_sub ((m + (x - m) / n - (μ + (x - μ) / n)) - ((x - m) / n - d / n) - (d / n - q))
      (m + q - m')
    have t2 := abs_sub ((m + (x - m) / n - (μ + (x - μ) / n)) - ((x - m) / n - d / n)) (d / n - q)
    have t3 := abs_sub (m + (x - m) / n - (μ + (x - μ) / n)) ((x - m) / n - d / n)
    have hfin : (65538 : ℚ) / 2 ^ 53 + 65539 / 2 ^ 53 + 98309 / 2 ^ 53 ≤ 1 / 2 ^ 34 := by norm_num
    rw [add_div]
    linarith

theorem mean_cast (vs : List Int) : mean (reals vs) = ((mean (rats vs) : ℚ) : ℝ) := by
  unfold mean
  have h1 : (reals vs).sum = (((rats vs).sum : ℚ) : ℝ) := by
    induction vs with
    | nil => simp [reals, rats]
    | cons v t ih =>
      simp only [reals, rats, List.map_cons, List.sum_cons] at ih ⊢
      rw [ih]; push_cast; rfl
  rw [h1]
  simp [reals, rats]

theorem mean_frac (vs : List Int) (hne : vs ≠ []) :
    (∃ k : Int, mean (rats vs) = k) ∨ ∃ k : Int, (k : ℚ) + 1 / vs.length ≤ mean (rats vs) ∧
      mean (rats vs) ≤ k + 1 - 1 / vs.length := by
  have hpos : 0 < vs.length := List.length_pos_iff.2 hne
  have hq : (0 : ℚ) < vs.length := by exact_mod_cast hpos
  have hsum : ∃ S : Int, (rats vs).sum = S := by
    refine ⟨vs.sum, ?_⟩
    clear hne hpos hq
    induction vs with
    | nil => simp [rats]
    | cons v t ih => simp only [rats, List.map_cons, List.sum_cons] at ih ⊢; rw [ih]; push_cast; rfl
  obtain ⟨S, hS⟩ := hsum
  have hlen : (rats vs).length = vs.length := by simp [rats]
  unfold mean
  rw [hS, hlen]
  obtain ⟨n, hnn⟩ : ∃ n : Int, n = (vs.length : Int) := ⟨_, rfl⟩
  have hn : 0 < n := by omega
  have hnc : (vs.length : ℚ) = (n : ℚ) := by rw [hnn]; simp
  rw [hnc] at hq ⊢
  have hdiv := Int.emod_add_mul_ediv S n
  have hm0 := Int.emod_nonneg S hn.ne'
  have hm1 := Int.emod_lt_of_pos S hn
  by_cases hz : S % n = 0
  · left
    refine ⟨S / n, ?_⟩
    rw [div_eq_iff hq.ne']
    have : S = S / n * n := by rw [mul_comm]; omega
    exact_mod_cast this
  · right
    refine ⟨S / n, ?_, ?_⟩
    · rw [le_div_iff₀ hq, add_mul, div_mul_cancel₀ _ hq.ne']
      have : S / n * n + 1 ≤ S := by
        have : n * (S / n) = S / n * n := mul_comm _ _
        omega
      exact_mod_cast this
    · rw [div_le_iff₀ hq, sub_mul, div_mul_cancel₀ _ hq.ne']
      have : S + 1 ≤ (S / n + 1) * n := by
        have : n * (S / n) = S / n * n := mul_comm _ _
        have e : (S / n + 1) * n = S / n * n + n := by ring
        omega
      have : (S : ℚ) + 1 ≤ ((S / n : ℤ) + 1) * n := by exact_mod_cast this
      linarith

theorem truncR_of {x : ℝ} {r : Int} (h : IntPart x r) : truncR x = r := by
  unfold IntPart at h
  unfold truncR
  split at h
  next h0 => rw [if_pos h0]; exact Int.floor_eq_iff.2 ⟨h.1, h.2⟩
  next h0 => rw [if_neg h0]; exact Int.ceil_eq_iff.2 ⟨h.2, h.1⟩

theorem average_round {rd : ℝ → ℝ} (hd : Double rd) (vs : List Int) (hs : Shorts vs) (hne : vs ≠ [])
    (hn : vs.length ≤ 65536) :
    ∃ r, shortOf (some (accAll rd vs acc0).mean) = .ok r ∧
      (IntPart (mean (reals vs)) r ∨
        ∃ k : Int, k ≠ 0 ∧ mean (reals vs) = k ∧ r = k - k.sign) := by
  obtain ⟨rq, h1, h2⟩ := double_rq hd
  have herr := meanQ_err h2 vs hs hn
  have hpos : 0 < vs.length := List.length_pos_iff.2 hne
  have hlq : (vs.length : ℚ) ≤ 65536 := by exact_mod_cast hn
  have hlp : (0 : ℚ) < vs.length := by exact_mod_cast hpos
  rw [(mean_meanQ h1 vs).1, mean_cast]
  set m := (meanQ rq vs).1
  set μ := mean (rats vs) with hμ
  have hb := mean_rats_bound vs hs
  have hb2 : μ ≤ 32767 := by
    have := (mean_bounds vs hs hne).2
    rw [mean_cast] at this
    exact_mod_cast this
  have herr2 : (vs.length : ℚ) / 2 ^ 34 ≤ 1 / 2 ^ 18 := by
    rw [div_le_div_iff₀ (by norm_num) (by norm_num)]; linarith
  have herr3 : |m - μ| ≤ 1 / 2 ^ 18 := herr.trans herr2
  rw [abs_le] at herr3 hb
  have hinv : (1 : ℚ) / 65536 ≤ 1 / vs.length := by gcongr
  have hc : (1 : ℚ) / 2 ^ 18 < 1 / 65536 := by norm_num
  obtain ⟨r, hr1, hr2⟩ := shortOf_intPart (m : ℝ)
    (by have : (-32769 : ℚ) < m := by linarith [herr3.1, hb.1]
        exact_mod_cast this)
    (by have : m < (32768 : ℚ) := by linarith [herr3.2, hb2]
        exact_mod_cast this)
  refine ⟨r, hr1, ?_⟩
  unfold IntPart at hr2 ⊢
  rcases mean_frac vs hne with ⟨k, hk⟩ | ⟨k, hk1, hk2⟩
  · rw [← hμ] at hk
    rw [hk]
    by_cases hk0 : k = 0
    · left
      subst hk0
      rw [hk] at herr3
      have : r = 0 := by
        have e := truncR_of (x := (m : ℝ)) (r := r) hr2
        rw [← e]
        apply truncR_of
        unfold IntPart
        have a1 : (-1 : ℚ) < m := by push_cast at herr3; linarith [herr3.1]
        have a2 : m < (1 : ℚ) := by push_cast at herr3; linarith [herr3.2]
        have a1' : (-1 : ℝ) < m := by exact_mod_cast a1
        have a2' : (m : ℝ) < 1 := by exact_mod_cast a2
        split
        · push_cast; constructor <;> linarith
        · push_cast; constructor <;> linarith
      subst this
      simp
    · have a1 : (k : ℚ) - 1 < m := by rw [hk] at herr3; linarith [herr3.1]
      have a2 : m < (k : ℚ) + 1 := by rw [hk] at herr3; linarith [herr3.2]
      have a1' : (k : ℝ) - 1 < m := by exact_mod_cast a1
      have a2' : (m : ℝ) < k + 1 := by exact_mod_cast a2
      rcases lt_or_gt_of_ne hk0 with hneg | hpos'
      · have b1 : (k : ℝ) ≤ -1 := by exact_mod_cast (by omega : k ≤ -1)
        rw [if_neg (by push_cast; linarith)]
        have hs1 : k.sign = -1 := Int.sign_eq_neg_one_of_neg hneg
        by_cases hm0 : (0 : ℝ) ≤ m
        · rw [if_pos hm0] at hr2
          right
          refine ⟨k, hk0, by push_cast; rfl, ?_⟩
          have : (r : ℝ) < k + 1 := by linarith [hr2.1]
          have h3 : (k : ℝ) < r + 1 := by linarith [hr2.2]
          have c1 : r < k + 1 := by exact_mod_cast this
          have c2 : k < r + 1 := by exact_mod_cast h3
          have c3 : (-1 : ℝ) < r := by linarith [hr2.2]
          have c4 : -1 < r := by exact_mod_cast c3
          omega
        · rw [if_neg hm0] at hr2
          have h3 : (k : ℝ) - 1 < r := by linarith [hr2.1]
          have h4 : (r : ℝ) < k + 2 := by linarith [hr2.2]
          have c1 : k - 1 < r := by exact_mod_cast h3
          have c2 : r < k + 2 := by exact_mod_cast h4
          rcases (by omega : r = k ∨ r = k + 1) with rfl | rfl
          · left; push_cast; exact ⟨le_refl _, by linarith⟩
          · right; exact ⟨k, hk0, by push_cast; rfl, by omega⟩
      · have b1 : (1 : ℝ) ≤ k := by exact_mod_cast (by omega : 1 ≤ k)
        rw [if_pos (by push_cast; linarith)]
        have hs1 : k.sign = 1 := Int.sign_eq_one_of_pos hpos'
        rw [if_pos (by linarith)] at hr2
        have h3 : (k : ℝ) - 1 < r + 1 := by linarith [hr2.2]
        have h4 : (r : ℝ) < k + 1 := by linarith [hr2.1]
        have c1 : k - 1 < r + 1 := by exact_mod_cast h3
        have c2 : r < k + 1 := by exact_mod_cast h4
        rcases (by omega : r = k ∨ r = k - 1) with rfl | rfl
        · left; push_cast; exact ⟨le_refl _, by linarith⟩
        · right; exact ⟨k, hk0, by push_cast; rfl, by omega⟩
  · left
    rw [← hμ] at hk1 hk2
    have a1 : (k : ℚ) < m := by linarith [herr3.1]
    have a2 : m < (k : ℚ) + 1 := by linarith [herr3.2]
    have b1 : (k : ℚ) < μ := by linarith
    have b2 : μ < (k : ℚ) + 1 := by linarith
    have a1' : (k : ℝ) < m := by exact_mod_cast a1
    have a2' : (m : ℝ) < k + 1 := by exact_mod_cast a2
    have b1' : (k : ℝ) < (μ : ℝ) := by exact_mod_cast b1
    have b2' : (μ : ℝ) < k + 1 := by exact_mod_cast b2
    rcases le_or_gt 0 k with hk0 | hk0
    · have c0 : (0 : ℝ) ≤ k := by exact_mod_cast hk0
      rw [if_pos (by linarith)] at hr2 ⊢
      have h3 : (k : ℝ) < r + 1 := by linarith [hr2.2]
      have h4 : (r : ℝ) < k + 1 := by linarith [hr2.1]
      have c1 : k < r + 1 := by exact_mod_cast h3
      have c2 : r < k + 1 := by exact_mod_cast h4
      have : r = k := by omega
      subst this
      exact ⟨b1'.le, b2'⟩
    · have c0 : (k : ℝ) ≤ -1 := by exact_mod_cast (by omega : k ≤ -1)
      rw [if_neg (by linarith)] at hr2 ⊢
      have h3 : (k : ℝ) < r := by linarith [hr2.1]
      have h4 : (r : ℝ) < k + 2 := by linarith [hr2.2]
      have c1 : k < r := by exact_mod_cast h3
      have c2 : r < k + 2 := by exact_mod_cast h4
      have : r = k + 1 := by omega
      subst this
      push_cast
      exact ⟨b2'.le, by linarith⟩

/-- C41 (partial: at most 65536 values): with `double` arithmetic of any rounding to nearest, the folded
average is the integer part of the mean, or one less in magnitude if the mean is an integer. -/
theorem c41_average_partial (E : Env) (hd : Double E.rd) (by_ : Per) (nodata : Int)
    (series : List (DateT × Int)) (folds : List DateT) (i : Nat) (hi : i < folds.length)
    (hs : Shorts (series.map Prod.snd)) (hn : series.length ≤ 65536)
    (hne : selected by_ nodata (period by_ folds[i]) series ≠ []) :
    ∃ r, (foldPixel E .avg by_ nodata true series folds)[i]? = some (.ok r) ∧
      (IntPart (mean (reals (selected by_ nodata (period by_ folds[i]) series))) r ∨
        ∃ k : Int, k ≠ 0 ∧ mean (reals (selected by_ nodata (period by_ folds[i]) series)) = k ∧
          r = k - k.sign) := by
  set vs := selected by_ nodata (period by_ folds[i]) series with hvs
  have hs' : Shorts vs := by
    intro v hv
    obtain ⟨o, ho, rfl⟩ := List.mem_map.1 hv
    exact hs _ (List.mem_map.2 ⟨o, (List.mem_filter.1 ho).1, rfl⟩)
  have hn' : vs.length ≤ 65536 := by
    rw [hvs, selected, List.length_map]
    exact (List.length_filter_le _ _).trans hn
  obtain ⟨r, h1, h2⟩ := average_round hd vs hs' hne hn'
  refine ⟨r, ?_, h2⟩
  have hgt : (accAll E.rd vs acc0).n > 0 := by
    rw [(accAll_basic E.rd vs).1]; exact List.length_pos_iff.2 hne
  simp only [foldPixel, Bool.not_true, Bool.false_eq_true, if_false, List.getElem?_map,
    List.getElem?_eq_getElem hi, Option.map_some, foldLoop_eq, ← hvs, foldValue, if_pos hgt, h1]


/-! ### Witnesses and limits -/

/-- A date in the year `y`. -/
def yearOf (y : Int) : DateT := { Date.initDate with year := y }

/-- A time series in the year 2020. -/
def demo (vs : List Int) : List (DateT × Int) := vs.map fun v => (yearOf 2020, v)

/-- The hypotheses of `c41_fold_partial` can be met. -/
example (sta : Sta) (h : sta = .std ∨ sta = .krt ∨ sta = .rng ∨ sta = .avg) :
    selected .year (-9999) 2020 (demo [3, -9999, 7] ++ [(yearOf 2021, 100)]) = [3, 7] ∧
    Shorts ((demo [3, -9999, 7] ++ [(yearOf 2021, 100)]).map Prod.snd) ∧
    Fits (fun _ _ => 0) sta [3, 7] := by
  refine ⟨rfl, by unfold Shorts; decide, ?_⟩
  rcases h with rfl | rfl | rfl | rfl
  · refine ⟨by decide, ?_⟩
    have : moment 2 (reals [3, 7]) = 8 := by norm_num [moment, mean, reals]
    simp only [std, this]
    norm_num [reals]
    have : Real.sqrt 8 ≤ Real.sqrt (3 * 3) := Real.sqrt_le_sqrt (by norm_num)
    rw [Real.sqrt_mul_self (by norm_num)] at this
    linarith
  · exact ⟨3, by simp, 7, by simp, by norm_num⟩
  · intro a ha b hb
    simp only [List.mem_cons, List.not_mem_nil, or_false] at ha hb
    rcases ha with rfl | rfl <;> rcases hb with rfl | rfl <;> norm_num
  · trivial

theorem double_exists : ∃ rd : ℝ → ℝ, Double rd := by
  classical
  obtain ⟨rq, h⟩ := Verif.Float.exists_round 53 (by norm_num)
  refine ⟨fun x => if hx : ∃ q : ℚ, (q : ℝ) = x then (rq hx.choose : ℝ) else x, fun x => ⟨rq x, ?_, h x⟩⟩
  have hx : ∃ q : ℚ, (q : ℝ) = (x : ℝ) := ⟨x, rfl⟩
  simp only [dif_pos hx]
  have : hx.choose = x := by exact_mod_cast hx.choose_spec
  rw [this]

theorem rq_rep {rq : ℚ → ℚ} (h : ∀ x, Verif.Float.Nearest 53 x (rq x)) (m e : ℤ) (x : ℚ)
    (hm : |m| ≤ 2 ^ 53) (hx : x = m * (2 : ℚ) ^ e) : rq x = x :=
  Verif.Float.eq_of_nearest_rep ⟨m, e, hm, hx⟩ (h x)

/-- The one-pass mean of 7, 7, 4, 1, 4, 1 (true mean: 4) is just below 4, for every rounding to nearest. -/
theorem meanQ_witness {rq : ℚ → ℚ} (h : ∀ x, Verif.Float.Nearest 53 x (rq x)) :
    (meanQ rq [7, 7, 4, 1, 4, 1]).1 = 9007199254740991 * (2 : ℚ) ^ (-51 : ℤ) := by
  have r7 : rq 7 = 7 := rq_rep h 7 0 7 (by norm_num) (by norm_num)
  have r0 : rq 0 = 0 := rq_rep h 0 0 0 (by norm_num) (by norm_num)
  have rm3 : rq (-3) = -3 := rq_rep h (-3) 0 (-3) (by norm_num) (by norm_num)
  have rm1 : rq (-1) = -1 := rq_rep h (-1) 0 (-1) (by norm_num) (by norm_num)
  have r6 : rq 6 = 6 := rq_rep h 6 0 6 (by norm_num) (by norm_num)
  have rm5 : rq (-5) = -5 := rq_rep h (-5) 0 (-5) (by norm_num) (by norm_num)
  have rm54 : rq (-(5 / 4)) = -(5 / 4) := rq_rep h (-5) (-2) (-(5 / 4)) (by norm_num) (by norm_num)
  have r194 : rq (19 / 4) = 19 / 4 := rq_rep h 19 (-2) (19 / 4) (by norm_num) (by norm_num)
  have rm34 : rq (-(3 / 4)) = -(3 / 4) := rq_rep h (-3) (-2) (-(3 / 4)) (by norm_num) (by norm_num)
  have s5 : rq (-(3 / 20)) = (-5404319552844595 : ℤ) * (2 : ℚ) ^ (-55 : ℤ) :=
    Verif.Float.nearest_unique (by norm_num) (h _) _ _ (by norm_num) (by norm_num [zpow_neg, abs_of_neg])
      (by norm_num [zpow_neg, abs_lt])
  have m5 : rq (19 / 4 + (-5404319552844595 : ℤ) * (2 : ℚ) ^ (-55 : ℤ)) =
      (5179139571476070 : ℤ) * (2 : ℚ) ^ (-50 : ℤ) :=
    Verif.Float.nearest_unique (by norm_num) (h _) _ _ (by norm_num)
      (by norm_num [zpow_neg, abs_of_pos]) (by norm_num [zpow_neg, abs_lt])
  have d6 : rq (1 - (5179139571476070 : ℤ) * (2 : ℚ) ^ (-50 : ℤ)) =
      1 - (5179139571476070 : ℤ) * (2 : ℚ) ^ (-50 : ℤ) :=
    rq_rep h (2 ^ 50 - 5179139571476070) (-50) _ (by norm_num) (by norm_num [zpow_neg])
  have s6 : rq ((1 - (5179139571476070 : ℤ) * (2 : ℚ) ^ (-50 : ℤ)) / 6) =
      (-5404319552844595 : ℤ) * (2 : ℚ) ^ (-53 : ℤ) :=
    Verif.Float.nearest_unique (by norm_num) (h _) _ _ (by norm_num)
      (by norm_num [zpow_neg, abs_of_neg]) (by norm_num [zpow_neg, abs_lt])
  have m6 : rq ((5179139571476070 : ℤ) * (2 : ℚ) ^ (-50 : ℤ) +
      (-5404319552844595 : ℤ) * (2 : ℚ) ^ (-53 : ℤ)) = (9007199254740991 : ℤ) * (2 : ℚ) ^ (-51 : ℤ) :=
    Verif.Float.nearest_unique (by norm_num) (h _) _ _ (by norm_num)
      (by norm_num [zpow_neg, abs_of_pos]) (by norm_num [zpow_neg, abs_lt])
  have g0 : meanQ rq [] = (0, 0) := rfl
  have g1 : meanQ rq [7] = (7, 1) := by
    rw [show ([7] : List Int) = [] ++ [7] from rfl, meanQ_snoc, g0]; norm_num [r7]
  have g2 : meanQ rq [7, 7] = (7, 2) := by
    rw [show ([7, 7] : List Int) = [7] ++ [7] from rfl, meanQ_snoc, g1]; norm_num [r7, r0]
  have g3 : meanQ rq [7, 7, 4] = (6, 3) := by
    rw [show ([7, 7, 4] : List Int) = [7, 7] ++ [4] from rfl, meanQ_snoc, g2]; norm_num [rm3, rm1, r6]
  have g4 : meanQ rq [7, 7, 4, 1] = (19 / 4, 4) := by
    rw [show ([7, 7, 4, 1] : List Int) = [7, 7, 4] ++ [1] from rfl, meanQ_snoc, g3]
    norm_num [rm5, rm54, r194]
  have g5 : meanQ rq [7, 7, 4, 1, 4] = ((5179139571476070 : ℤ) * (2 : ℚ) ^ (-50 : ℤ), 5) := by
    rw [show ([7, 7, 4, 1, 4] : List Int) = [7, 7, 4, 1] ++ [4] from rfl, meanQ_snoc, g4, ← m5, ← s5]
    norm_num [rm34]
  rw [show ([7, 7, 4, 1, 4, 1] : List Int) = [7, 7, 4, 1, 4] ++ [1] from rfl, meanQ_snoc, g5]
  have e : (((5, 5) : ℚ × ℕ).2 + 1 : ℕ) = 6 := rfl
  simp only [Int.cast_one, Nat.reduceAdd, Nat.cast_ofNat]
  rw [d6, s6, m6]
  push_cast; rfl

/-- The same values in another order: every step is exact. -/
theorem meanQ_witness' {rq : ℚ → ℚ} (h : ∀ x, Verif.Float.Nearest 53 x (rq x)) :
    (meanQ rq [7, 7, 1, 4, 1, 4]).1 = 4 := by
  have r7 : rq 7 = 7 := rq_rep h 7 0 7 (by norm_num) (by norm_num)
  have r0 : rq 0 = 0 := rq_rep h 0 0 0 (by norm_num) (by norm_num)
  have r4 : rq 4 = 4 := rq_rep h 4 0 4 (by norm_num) (by norm_num)
  have r5 : rq 5 = 5 := rq_rep h 5 0 5 (by norm_num) (by norm_num)
  have rm6 : rq (-6) = -6 := rq_rep h (-6) 0 (-6) (by norm_num) (by norm_num)
  have rm2 : rq (-2) = -2 := rq_rep h (-2) 0 (-2) (by norm_num) (by norm_num)
  have rm1 : rq (-1) = -1 := rq_rep h (-1) 0 (-1) (by norm_num) (by norm_num)
  have rm14 : rq (-(1 / 4)) = -(1 / 4) := rq_rep h (-1) (-2) (-(1 / 4)) (by norm_num) (by norm_num)
  have r194 : rq (19 / 4) = 19 / 4 := rq_rep h 19 (-2) (19 / 4) (by norm_num) (by norm_num)
  have rm154 : rq (-(15 / 4)) = -(15 / 4) := rq_rep h (-15) (-2) (-(15 / 4)) (by norm_num) (by norm_num)
  have rm34 : rq (-(3 / 4)) = -(3 / 4) := rq_rep h (-3) (-2) (-(3 / 4)) (by norm_num) (by norm_num)
  norm_num [meanQ, r7, r0, r4, r5, rm6, rm2, rm1, rm14, r194, rm154, rm34]

/-- C41, C42 fail for the average: with `double` arithmetic of any rounding to nearest, six values with
mean 4 have the folded average 3. -/
theorem c41_average_violated (E : Env) (hd : Double E.rd) (nodata : Int) (hn : nodata < 0) :
    foldPixel E .avg .year nodata true (demo [7, 7, 4, 1, 4, 1]) [yearOf 2020] = [.ok 3] ∧
    mean (reals [7, 7, 4, 1, 4, 1]) = 4 := by
  obtain ⟨rq, h1, h2⟩ := double_rq hd
  refine ⟨?_, by norm_num [mean, reals]⟩
  have hsel : selected .year nodata 2020 (demo [7, 7, 4, 1, 4, 1]) = [7, 7, 4, 1, 4, 1] := by
    have a : ∀ k : Int, 0 < k → ¬ k = nodata := by intros; omega
    simp [selected, demo, period, yearOf, a]
  have hgt : (accAll E.rd [7, 7, 4, 1, 4, 1] acc0).n > 0 := by rw [(accAll_basic _ _).1]; decide
  have hv : shortOf (some (accAll E.rd [7, 7, 4, 1, 4, 1] acc0).mean) = .ok 3 := by
    rw [(mean_meanQ h1 _).1, meanQ_witness h2]
    have : truncR (((9007199254740991 * (2 : ℚ) ^ (-51 : ℤ) : ℚ)) : ℝ) = 3 := by
      apply truncR_of
      unfold IntPart
      rw [if_pos (by push_cast; positivity)]
      constructor <;> norm_num [zpow_neg]
    simp only [shortOf, this]
    norm_num
  have hp : period .year (yearOf 2020) = 2020 := rfl
  simp [foldPixel, foldLoop_eq, hp, hsel, foldValue, hgt, hv]

/-- C41 fails for the range: a range beyond 16 bits is stored modulo 2^16, as a negative number. -/
theorem c41_range_violated (E : Env) (by_ : Per) (nodata : Int) (series : List (DateT × Int))
    (folds : List DateT) (i : Nat) (hi : i < folds.length) (hs : Shorts (series.map Prod.snd))
    (a b : Int) (ha : a ∈ selected by_ nodata (period by_ folds[i]) series)
    (hb : b ∈ selected by_ nodata (period by_ folds[i]) series) (hab : b - a > 32767) :
    ∃ r, (foldPixel E .rng by_ nodata true series folds)[i]? = some (.ok r) ∧ r < 0 := by
  set vs := selected by_ nodata (period by_ folds[i]) series with hvs
  have hs' : Shorts vs := by
    intro v hv
    obtain ⟨o, ho, rfl⟩ := List.mem_map.1 hv
    exact hs _ (List.mem_map.2 ⟨o, (List.mem_filter.1 ho).1, rfl⟩)
  have hne : vs ≠ [] := List.ne_nil_of_mem ha
  have hgt : (accAll E.rd vs acc0).n > 0 := by
    rw [(accAll_basic E.rd vs).1]; exact List.length_pos_iff.2 hne
  refine ⟨wrapShort ((accAll E.rd vs acc0).maxi - (accAll E.rd vs acc0).mini), ?_, ?_⟩
  · simp only [foldPixel, Bool.not_true, Bool.false_eq_true, if_false, List.getElem?_map,
      List.getElem?_eq_getElem hi, Option.map_some, foldLoop_eq, ← hvs, foldValue, if_pos hgt]
  · have h1 := (accAll_bounds E.rd vs hs').1
    have h2 := accAll_min E.rd vs hs' hne
    have b1 := hs' _ h2.1
    have b2 := hs' _ h2.2
    have c1 := h1 a ha
    have c2 := h1 b hb
    unfold wrapShort
    omega

/-- C41 fails for the standard deviation of a single value, which is the conversion of NaN. -/
theorem c41_std_single_violated (E : Env) (hE : E.rd 0 = 0) (by_ : Per) (nodata : Int)
    (series : List (DateT × Int)) (folds : List DateT) (i : Nat) (hi : i < folds.length)
    (h1 : (selected by_ nodata (period by_ folds[i]) series).length = 1) :
    (foldPixel E .std by_ nodata true series folds)[i]? = some .ub := by
  have hn := (accAll_basic E.rd (selected by_ nodata (period by_ folds[i]) series)).1
  have hgt : (accAll E.rd (selected by_ nodata (period by_ folds[i]) series) acc0).n > 0 := by
    rw [hn, h1]; decide
  simp only [foldPixel, Bool.not_true, Bool.false_eq_true, if_false, List.getElem?_map,
    List.getElem?_eq_getElem hi, Option.map_some, foldLoop_eq, foldValue, if_pos hgt, standdev, hn, h1]
  simp [hE, shortOf]

theorem accAll_const (rd : ℝ → ℝ) (h0 : rd 0 = 0) (c : Int) (hc : rd c = c) (k : Nat) :
    (k = 0 ∨ (accAll rd (List.replicate k c) acc0).mean = c) ∧
    (accAll rd (List.replicate k c) acc0).var = 0 := by
  induction k with
  | zero => exact ⟨Or.inl rfl, rfl⟩
  | succ k ih =>
    rw [List.replicate_succ', accAll_snoc]
    have hn := (accAll_basic rd (List.replicate k c)).1
    rw [List.length_replicate] at hn
    by_cases hk : k = 0
    · subst hk
      simp [accAll, accStep, acc0, kurtRec, h0, hc]
    · obtain ⟨i1, i2⟩ := ih
      have i1 := i1.resolve_left hk
      refine ⟨Or.inr ?_, ?_⟩ <;> simp [accStep, kurtRec, i1, i2, h0, hc]

/-- C41 fails for skewness and kurtosis of constant values, which are the conversion of NaN (0/0). -/
theorem c41_constant_violated (E : Env) (h0 : E.rd 0 = 0) (c : Int) (hc : E.rd c = c) (by_ : Per)
    (nodata : Int) (series : List (DateT × Int)) (folds : List DateT) (i : Nat) (hi : i < folds.length)
    (k : Nat) (h1 : selected by_ nodata (period by_ folds[i]) series = List.replicate (k + 1) c) :
    (foldPixel E .skw by_ nodata true series folds)[i]? = some .ub ∧
    (foldPixel E .krt by_ nodata true series folds)[i]? = some .ub := by
  have hn := (accAll_basic E.rd (List.replicate (k + 1) c)).1
  have hv := (accAll_const E.rd h0 c hc (k + 1)).2
  have hgt : (accAll E.rd (List.replicate (k + 1) c) acc0).n > 0 := by
    rw [hn]; simp
  simp only [foldPixel, Bool.not_true, Bool.false_eq_true, if_false, List.getElem?_map,
    List.getElem?_eq_getElem hi, Option.map_some, foldLoop_eq, foldValue, h1, if_pos hgt]
  constructor
  · simp only [skewScaled, skewness, standdev, hv, zero_div, h0, Real.sqrt_zero]
    by_cases h : E.rd (E.rd (((accAll E.rd (List.replicate (k + 1) c) acc0).n : ℝ) + 1) - 1) = 0
    · simp [h, shortOf, clamp]
    · simp [h, h0, shortOf, clamp]
  · simp only [kurtScaled, kurtosis, hv, zero_div, h0, mul_zero]
    split <;> simp [shortOf, clamp]

example : ∃ rd : ℝ → ℝ, rd 0 = 0 ∧ rd ((5 : Int) : ℝ) = (5 : Int) := ⟨id, rfl, rfl⟩

/-! ### Periods -/

theorem carry_period (by_ : Per) (set : DateT → Int → DateT) (ks : List Int) (date : DateT)
    (hd : Date.Consistent date)
    (h : ∀ r k, Date.Consistent r → k ∈ ks → Date.Consistent (set r k) ∧ period by_ (set r k) = k) :
    (carry set ks date).map (period by_) = ks := by
  induction ks generalizing date with
  | nil => rfl
  | cons k ks ih =>
    have hk := h date k hd (by simp)
    simp only [carry, List.map_cons, hk.2]
    rw [ih _ hk.1 fun r j hr hj => h r j hr (by simp [hj])]

theorem mem_interval {a : Int} {n : Nat} {d : Int} :
    d ∈ Season.Spec.interval a n ↔ a ≤ d ∧ d < a + n := by
  simp only [Season.Spec.interval, List.mem_map, List.mem_range]
  constructor
  · rintro ⟨i, hi, rfl⟩; omega
  · intro h; exact ⟨(d - a).toNat, by omega, by omega⟩

theorem interval_nodup (a : Int) (n : Nat) : (Season.Spec.interval a n).Nodup := by
  unfold Season.Spec.interval
  refine List.Nodup.map ?_ List.nodup_range
  intro i j h
  simp only at h
  omega

/-- C41: the folded layers stand for distinct periods: the years of the date range, and the weeks,
months, quarters or days of the year that are in the window. -/
theorem c41_periods (lo hi ymin : Int) (ny : Nat) (date : DateT) (hd : Date.Consistent date) (by_ : Per) :
    let w := Season.window lo hi
    (foldDates by_ w ymin ny date).map (period by_) =
      (match by_ with
      | .year => Season.Spec.interval ymin ny
      | .quarter => (Season.Spec.interval 1 4).filter w.quarters
      | .month => (Season.Spec.interval 1 12).filter w.months
      | .week => (Season.Spec.interval 1 52).filter w.weeks
      | .doy => (Season.Spec.interval 1 365).filter w.days) ∧
    ((foldDates by_ w ymin ny date).map (period by_)).Nodup := by
  intro w
  obtain ⟨l1, l2, l3, l4⟩ := Season.c50_labels lo hi
  have key : (foldDates by_ w ymin ny date).map (period by_) =
      (match by_ with
      | .year => Season.Spec.interval ymin ny
      | .quarter => (Season.Spec.interval 1 4).filter w.quarters
      | .month => (Season.Spec.interval 1 12).filter w.months
      | .week => (Season.Spec.interval 1 52).filter w.weeks
      | .doy => (Season.Spec.interval 1 365).filter w.days) := by
    cases by_ with
    | year =>
      simp only [foldDates, yearDates, List.map_map, Season.Spec.interval]
      rfl
    | quarter =>
      simp only [foldDates, l4, w]
      refine carry_period _ _ _ _ hd fun r k hr hk => ?_
      have hm := mem_interval.1 (List.mem_filter.1 hk).1
      have := Date.op_step r (.quarter k) ⟨hm.1, by omega⟩ hr
      exact ⟨this.1, this.2.1⟩
    | month =>
      simp only [foldDates, l3, w]
      refine carry_period _ _ _ _ hd fun r k hr hk => ?_
      have hm := mem_interval.1 (List.mem_filter.1 hk).1
      have := Date.op_step r (.month k) ⟨hm.1, by omega⟩ hr
      exact ⟨this.1, this.2.1⟩
    | week =>
      simp only [foldDates, l2, w]
      refine carry_period _ _ _ _ hd fun r k hr hk => ?_
      have hm := mem_interval.1 (List.mem_filter.1 hk).1
      have := Date.op_step r (.week k) ⟨hm.1, by omega⟩ hr
      exact ⟨this.1, this.2⟩
    | doy =>
      simp only [foldDates, l1, w]
      refine carry_period _ _ _ _ hd fun r k hr hk => ?_
      have hm := mem_interval.1 (List.mem_filter.1 hk).1
      have := Date.op_step r (.doy k) ⟨hm.1, by omega⟩ hr
      exact ⟨this.1, this.2⟩
  refine ⟨key, ?_⟩
  rw [key]
  cases by_
  · exact interval_nodup _ _
  all_goals exact (interval_nodup _ _).filter _

/-- C41: each value contributes to at most one folded layer. -/
theorem c41_one_period (lo hi ymin : Int) (ny : Nat) (date : DateT) (hd : Date.Consistent date) (by_ : Per)
    (d : DateT) (i j : Nat) :
    let folds := foldDates by_ (Season.window lo hi) ymin ny date
    ∀ (hi' : i < folds.length) (hj' : j < folds.length), period by_ d = period by_ folds[i] →
      period by_ d = period by_ folds[j] → i = j := by
  intro folds hi' hj' h1 h2
  have hnd := (c41_periods lo hi ymin ny date hd by_).2
  have := (List.Nodup.getElem_inj_iff hnd (i := i) (hi := by simpa using hi') (j := j)
    (hj := by simpa using hj')).1
  apply this
  simp only [List.getElem_map]
  exact h1.symm.trans h2

end Verif.Fold
