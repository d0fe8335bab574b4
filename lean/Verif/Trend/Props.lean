import Mathlib.Tactic.Linarith
import Mathlib.Tactic.Positivity
import Mathlib.Tactic.NormNum
import Verif.Stats.Props
import Verif.Fold.Props
import Verif.Trend.Spec

/-!
# Properties of standardization, trend and change
-/

namespace Verif.Trend

open Verif.Str (Out)
open Verif.Fold (truncR shortOf truncR_intPart truncR_of)
open Verif.Fold.Spec (IntPart reals std)
open Verif.Stats.Spec (mean moment comoment sse)
open Verif.Stats
open Verif.Trend.Spec

theorem bind_ok {α β : Type} {o : Out α} {f : α → Out β} {r : β} (h : o.bind f = .ok r) :
    ∃ a, o = .ok a ∧ f a = .ok r := by
  cases o with
  | ok a => exact ⟨a, rfl, h⟩
  | exit => cases h
  | ub => cases h

theorem shortOf_some (x : ℝ) :
    shortOf (some x) = if -32768 ≤ truncR x ∧ truncR x ≤ 32767 then .ok (truncR x) else .ub := rfl

theorem shortOf_ok {x : ℝ} {n : Int} (h : shortOf (some x) = .ok n) : IntPart x n := by
  rw [shortOf_some] at h
  split at h
  · cases h; exact truncR_intPart x
  · cases h

theorem shortOf_of {x : ℝ} (h : |x| < 32768) : ∃ n, shortOf (some x) = .ok n := by
  rw [abs_lt] at h
  refine ⟨truncR x, ?_⟩
  rw [shortOf_some, if_pos]
  unfold truncR
  split
  · refine ⟨?_, ?_⟩
    · have := Int.floor_nonneg.2 ‹0 ≤ x›; omega
    · have : ⌊x⌋ < 32768 := Int.floor_lt.2 (by exact_mod_cast h.2)
      omega
  · refine ⟨?_, ?_⟩
    · have : -32768 < ⌈x⌉ := Int.lt_ceil.2 (by push_cast; exact h.1)
      omega
    · have : ⌈x⌉ ≤ 0 := Int.ceil_le.2 (by push_cast; linarith)
      omega

theorem shortOf_ub {x : ℝ} (h : 32768 ≤ x ∨ x ≤ -32769) : shortOf (some x) = .ub := by
  rw [shortOf_some, if_neg]
  unfold truncR
  rcases h with h | h
  · rw [if_pos (by linarith)]
    have : 32768 ≤ ⌊x⌋ := Int.le_floor.2 (by exact_mod_cast h)
    omega
  · rw [if_neg (by linarith)]
    have : ⌈x⌉ ≤ -32769 := Int.ceil_le.2 (by push_cast; exact h)
    omega

theorem intPart_int {z n : Int} (h : IntPart (z : ℝ) n) : n = z := by
  have := truncR_of h
  rw [← this]
  unfold truncR
  split <;> simp

/-! ## C60: trend -/

theorem observations_eq (nodata t0 : Int) (l : List Layer) : points nodata t0 l = observations nodata t0 l := by
  unfold points observations
  apply List.map_congr_left
  intro f _
  push_cast
  rfl

theorem residuals_eq (mx slp off : ℝ) (pts : List (ℝ × ℝ)) (r0 : Res) :
    let r := pts.foldl (resStep mx slp off) r0
    r.ssqe = r0.ssqe + sse pts off slp ∧ r.sae = r0.sae + (pts.map (resid off slp)).sum ∧
      r.sxsq = r0.sxsq + (pts.map fun p => (p.1 - mx) ^ 2).sum ∧
      (∀ p ∈ pts, resid off slp p ≤ r.maxe) ∧ r0.maxe ≤ r.maxe ∧
      (r.maxe = r0.maxe ∨ ∃ p ∈ pts, r.maxe = resid off slp p) := by
  induction pts generalizing r0 with
  | nil => simp [sse]
  | cons p l ih =>
    obtain ⟨h1, h2, h3, h4, h5, h6⟩ := ih (resStep mx slp off r0 p)
    simp only [List.foldl_cons]
    have e : |p.2 - linregPredict p.1 slp off| = resid off slp p := rfl
    have em : (resStep mx slp off r0 p).maxe = if resid off slp p > r0.maxe then resid off slp p else r0.maxe := by
      simp only [resStep, e]
    refine ⟨?_, ?_, ?_, ?_, ?_, ?_⟩
    · rw [h1]
      simp only [resStep, sse, List.map_cons, List.sum_cons, linregPredict]; ring
    · rw [h2]
      simp only [resStep, e, List.map_cons, List.sum_cons]; ring
    · rw [h3]
      simp only [resStep, List.map_cons, List.sum_cons]; ring
    · intro q hq
      rcases List.mem_cons.1 hq with rfl | hq
      · refine le_trans ?_ h5
        rw [em]; split
        · exact le_refl _
        · exact not_lt.1 ‹_›
      · exact h4 q hq
    · refine le_trans ?_ h5
      rw [em]; split
      · exact le_of_lt ‹_›
      · exact le_refl _
    · rcases h6 with h6 | ⟨q, hq, h6⟩
      · rw [em] at h6
        split at h6
        · exact .inr ⟨p, List.mem_cons_self .., h6⟩
        · exact .inl h6
      · exact .inr ⟨q, List.mem_cons_of_mem _ hq, h6⟩

/-- The fit of at least two points whose variances are not 0. -/
theorem fit_eq (pts : List (ℝ × ℝ)) (h : 2 ≤ pts.length) :
    let f := fit pts
    f.k = pts.length ∧ f.mx = mean (pts.map Prod.fst) ∧ f.my = mean (pts.map Prod.snd) ∧
      (f.den = 0 ↔ moment 2 (pts.map Prod.fst) = 0 ∨ moment 2 (pts.map Prod.snd) = 0) ∧
      (f.den ≠ 0 → BestFit pts f.off f.slp ∧
        f.rsq = 10000 * (1 - sse pts f.off f.slp / moment 2 (pts.map Prod.snd)) ∧ 0 ≤ f.rsq ∧ f.rsq ≤ 10000) := by
  have hne : pts ≠ [] := by rintro rfl; simp at h
  have hn : (pts.length : ℝ) - 1 ≠ 0 := by
    rw [sub_ne_zero]
    exact_mod_cast (by omega : pts.length ≠ 1)
  have hden : (fit pts).den = 0 ↔ moment 2 (pts.map Prod.fst) = 0 ∨ moment 2 (pts.map Prod.snd) = 0 := by
    simp only [fit, c36_covariance_full pts hne, variance, mul_eq_zero, div_eq_zero_iff]
    tauto
  refine ⟨?_, ?_, ?_, hden, ?_⟩
  · simp only [fit, c36_covariance_full pts hne]
  · simp only [fit, c36_covariance_full pts hne]
  · simp only [fit, c36_covariance_full pts hne]
  · intro hd
    rw [Ne, hden, not_or] at hd
    have h1 := fun a b => c51_least_squares pts h hd.1 a b
    have h2 := c51_rsquared pts h hd.1 hd.2
    refine ⟨fun a s => h1 a s, ?_, ?_, ?_⟩
    · rw [show (fit pts).rsq = _ * 10000 from rfl, h2.1, mul_comm]; rfl
    · have := h2.2.1
      exact mul_nonneg this (by norm_num)
    · have := h2.2.2
      show _ * 10000 ≤ (10000 : ℝ)
      linarith

theorem fit_k (pts : List (ℝ × ℝ)) : (fit pts).k = pts.length := by
  by_cases h : pts = []
  · subst h; rfl
  · simp only [fit, c36_covariance_full pts h]

theorem store_ok {b : Bands ℝ} {o : Bands Int} (h : store b = .ok o) :
    IntPart b.mean o.mean ∧ IntPart b.offset o.offset ∧ IntPart b.slope o.slope ∧ IntPart b.prcGain o.prcGain ∧
    IntPart b.absGain o.absGain ∧ IntPart b.rsq o.rsq ∧ IntPart b.sig o.sig ∧ IntPart b.rmse o.rmse ∧
    IntPart b.mae o.mae ∧ IntPart b.maxe o.maxe ∧ IntPart b.num o.num ∧ IntPart b.len o.len := by
  unfold store at h
  obtain ⟨_, h1, h⟩ := bind_ok h
  obtain ⟨_, h2, h⟩ := bind_ok h
  obtain ⟨_, h3, h⟩ := bind_ok h
  obtain ⟨_, h4, h⟩ := bind_ok h
  obtain ⟨_, h5, h⟩ := bind_ok h
  obtain ⟨_, h6, h⟩ := bind_ok h
  obtain ⟨_, h7, h⟩ := bind_ok h
  obtain ⟨_, h8, h⟩ := bind_ok h
  obtain ⟨_, h9, h⟩ := bind_ok h
  obtain ⟨_, h10, h⟩ := bind_ok h
  obtain ⟨_, h11, h⟩ := bind_ok h
  obtain ⟨_, h12, h⟩ := bind_ok h
  cases h
  exact ⟨shortOf_ok h1, shortOf_ok h2, shortOf_ok h3, shortOf_ok h4, shortOf_ok h5, shortOf_ok h6, shortOf_ok h7,
    shortOf_ok h8, shortOf_ok h9, shortOf_ok h10, shortOf_ok h11, shortOf_ok h12⟩

theorem sig_eq (tc : Option ℝ) (tail : Int) (b seb : ℝ) (c : ℝ) (h : tc = some c) (hs : seb ≠ 0) :
    slopeSignificant tc tail b seb = tTest tail c (b / seb) := by
  subst h
  simp only [slopeSignificant, tLe, tGe, if_neg hs, tTest]
  by_cases h1 : tail = -1
  · subst h1; simp
  by_cases h2 : tail = 1
  · subst h2; simp
  by_cases h3 : tail = 0
  · subst h3; simp
  · simp [h1, h2, h3]

theorem moment_nonneg (l : List ℝ) : 0 ≤ moment 2 l := by
  unfold moment
  apply List.sum_nonneg
  intro x hx
  obtain ⟨y, _, rfl⟩ := List.mem_map.1 hx
  positivity

theorem stdErr_eq (pts : List (ℝ × ℝ)) (f : Fit) (hk : f.k = pts.length) (hmx : f.mx = mean (pts.map Prod.fst)) :
    stdErr f.k (residuals f.mx f.slp f.off pts) = slopeError pts f.off f.slp := by
  obtain ⟨h1, -, h3, -, -, -⟩ := residuals_eq f.mx f.slp f.off pts ⟨0, 0, 0, -32768⟩
  unfold stdErr slopeError residuals
  rw [h1, h3, hk, hmx]
  congr 2
  · simp only [zero_add]; rw [one_div, inv_mul_eq_div]
  · simp only [zero_add, moment, List.map_map]; rfl

theorem slopeError_ne (pts : List (ℝ × ℝ)) (a s : ℝ) (h3 : 3 ≤ pts.length) (hv : moment 2 (pts.map Prod.fst) ≠ 0)
    (hs : 0 < sse pts a s) : slopeError pts a s ≠ 0 := by
  unfold slopeError
  have h3' : (3 : ℝ) ≤ pts.length := by exact_mod_cast h3
  have : 0 < moment 2 (pts.map Prod.fst) := lt_of_le_of_ne (moment_nonneg _) (Ne.symm hv)
  have : 0 < sse pts a s / (pts.length - 2) := div_pos hs (by linarith)
  positivity

theorem partRaw_eq_trendRaw (c : Conf) (hc : c.inCe = false) (n : Nat) (pts : List (ℝ × ℝ)) (f : Fit) :
    partRaw c n 0 n pts f = trendRaw c n pts f := by
  simp [partRaw, trendRaw, hc, linregPredict]

/-- The bands of a segment with at least three values. -/
theorem segment (c : Conf) (hc : c.inCe = false) (n lo len : Nat) (pts : List (ℝ × ℝ)) (h3 : 3 ≤ pts.length)
    (hd0 : (fit pts).den ≠ 0) (b : Bands Int) (h : store (partRaw c n lo len pts (fit pts)) = .ok b) :
    IsTrend c.tcrit c.tail pts len lo (fit pts).off (fit pts).slp b := by
  obtain ⟨hk, hmx, hmy, hd, hf⟩ := fit_eq pts (by omega)
  obtain ⟨hb, hr, hr0, hr1⟩ := hf hd0
  have hse := stdErr_eq pts (fit pts) hk hmx
  obtain ⟨g1, g2, g3, g4, g5, g6, g7, g8, g9, g10, g11, g12⟩ := store_ok h
  simp only [partRaw, hc, Bool.false_eq_true, if_false, linregPredict] at g1 g2 g3 g4 g5 g6 g7 g8 g9 g10 g11 g12
  rw [hse] at g7
  obtain ⟨e1, e2, e3, e4, e5, e6⟩ := residuals_eq (fit pts).mx (fit pts).slp (fit pts).off pts ⟨0, 0, 0, -32768⟩
  have hm : pts.map Prod.fst ≠ [] ∧ moment 2 (pts.map Prod.fst) ≠ 0 := by
    rw [Ne, hd, not_or] at hd0
    exact ⟨by intro h0; simp at h0; subst h0; simp at h3, hd0.1⟩
  refine ⟨hb, by rw [← hmy]; exact g1, g2, g3, g5, g4, by rw [← hr]; exact g6, ?_, ?_, ?_, ?_, ?_, ?_⟩
  · intro t ht hs
    rw [intPart_int g7]
    rw [hk]
    exact sig_eq _ _ _ _ _ ht (slopeError_ne pts _ _ h3 hm.2 hs)
  · rw [show (residuals _ _ _ pts).ssqe = _ from e1, hk, zero_add] at g8
    exact g8
  · rw [show (residuals _ _ _ pts).sae = _ from e2, hk, zero_add] at g9
    exact g9
  · refine ⟨_, ⟨?_, ?_⟩, g10⟩
    · rcases e6 with e6 | e6
      · exfalso
        obtain ⟨p, l', rfl⟩ : ∃ p l', pts = p :: l' := by
          cases pts with
          | nil => simp at h3
          | cons p l' => exact ⟨p, l', rfl⟩
        have := e4 p (List.mem_cons_self ..)
        rw [e6] at this
        have h0 : 0 ≤ resid (fit (p :: l')).off (fit (p :: l')).slp p := abs_nonneg _
        norm_num at this
        linarith
      · exact e6
    · rintro _ ⟨p, hp, rfl⟩
      exact e4 p hp
  · have := intPart_int (z := ((fit pts).k : Int)) (by exact_mod_cast g11)
    rw [this, hk]
  · exact intPart_int (z := (len : Int)) (by exact_mod_cast g12)

/-- C60: if the trend of a pixel is computed, its bands are those of the regression line of the valid values on time
(here: values that are not given in continuous days). -/
theorem c60_regression (c : Conf) (hc : c.inCe = false) (l : List Layer) (b : Bands Int)
    (h3 : 3 ≤ (observations c.nodata (start l) l).length) (h : trend c true l = .ok b) :
    ∃ a s, IsTrend c.tcrit c.tail (observations c.nodata (start l) l) l.length 0 a s b := by
  unfold trend at h
  rw [observations_eq] at h
  simp only [Bool.not_true, Bool.false_eq_true, if_false] at h
  generalize observations c.nodata (start l) l = pts at h h3 ⊢
  rw [if_neg (by rw [fit_k]; omega)] at h
  by_cases hd0 : (fit pts).den = 0
  · rw [if_pos hd0] at h; cases h
  rw [if_neg hd0, ← partRaw_eq_trendRaw c hc] at h
  exact ⟨_, _, by simpa using segment c hc _ 0 _ pts h3 hd0 b h⟩

example (c : Conf) (h : c.nodata = -9999) :
    3 ≤ (observations c.nodata 1990 [⟨1990, 100⟩, ⟨1991, -9999⟩, ⟨1992, 300⟩, ⟨1993, 200⟩]).length := by
  rw [h]; simp [observations]

/-- C60: masked pixels and pixels with less than three valid values are nodata in all bands. -/
theorem c60_nodata (c : Conf) (valid : Bool) (l : List Layer)
    (h : valid = false ∨ (observations c.nodata (start l) l).length < 3) :
    trend c valid l = .ok (Bands.const c.nodata) := by
  unfold trend
  cases valid with
  | false => rfl
  | true =>
    have h : (observations c.nodata (start l) l).length < 3 := by simpa using h
    simp only [Bool.not_true, Bool.false_eq_true, if_false]
    rw [if_pos (by rw [fit_k, observations_eq]; exact h)]

theorem sum_zero {l : List ℝ} (h0 : ∀ x ∈ l, 0 ≤ x) (h : l.sum = 0) : ∀ x ∈ l, x = 0 := by
  induction l with
  | nil => simp
  | cons a l ih =>
    have h1 : 0 ≤ a := h0 a (List.mem_cons_self ..)
    have h2 : 0 ≤ l.sum := List.sum_nonneg fun x hx => h0 x (List.mem_cons_of_mem _ hx)
    rw [List.sum_cons] at h
    intro x hx
    rcases List.mem_cons.1 hx with rfl | hx
    · linarith
    · exact ih (fun x hx => h0 x (List.mem_cons_of_mem _ hx)) (by linarith) x hx

theorem mem_moment {l : List ℝ} (h : moment 2 l = 0) (x : ℝ) (hx : x ∈ l) : x = mean l := by
  unfold moment at h
  have h0 := sum_zero (l := l.map fun x => (x - mean l) ^ 2) (by
    intro y hy
    obtain ⟨z, _, rfl⟩ := List.mem_map.1 hy
    positivity) h ((x - mean l) ^ 2) (List.mem_map.2 ⟨x, hx, rfl⟩)
  have := pow_eq_zero_iff (two_ne_zero) |>.1 h0
  linarith

theorem moment_const {l : List ℝ} {v : ℝ} (h : ∀ x ∈ l, x = v) (hne : l ≠ []) : moment 2 l = 0 := by
  have e : l = List.replicate l.length v := List.eq_replicate_iff.2 ⟨rfl, h⟩
  have hn : (l.length : ℝ) ≠ 0 := by simpa using hne
  have em : mean l = v := by
    unfold mean
    rw [e]
    simp [hn]
  unfold moment
  rw [em, e]
  simp

/-- C60, violated: R² of a constant series is 0/0 (and undefined as an integer). -/
theorem c60_constant_violated (c : Conf) (l : List Layer) (v : Int)
    (h3 : 3 ≤ (observations c.nodata (start l) l).length) (hv : ∀ f ∈ l, f.v = c.nodata ∨ f.v = v) :
    trend c true l = .ub := by
  have hy : ∀ x ∈ (observations c.nodata (start l) l).map Prod.snd, x = (v : ℝ) := by
    intro x hx
    simp only [observations, List.map_map, List.mem_map, List.mem_filter] at hx
    obtain ⟨f, ⟨hf, hn⟩, rfl⟩ := hx
    rcases hv f hf with h | h
    · simp [h] at hn
    · simp [h]
  unfold trend
  rw [observations_eq]
  simp only [Bool.not_true, Bool.false_eq_true, if_false]
  generalize observations c.nodata (start l) l = pts at h3 hy
  obtain ⟨hk, -, -, hd, -⟩ := fit_eq pts (by omega)
  rw [if_neg (by rw [hk]; omega), if_pos]
  exact hd.2 (.inr (moment_const hy (by rintro h; simp at h; subst h; simp at h3)))

example : 3 ≤ (observations (-9999) 1990 [⟨1990, 100⟩, ⟨1991, 100⟩, ⟨1992, 100⟩]).length := by
  simp [observations]

/-- There is only one line of best fit. -/
theorem fit_unique (pts : List (ℝ × ℝ)) (h2 : 2 ≤ pts.length) (hd : (fit pts).den ≠ 0) (a s : ℝ)
    (hb : BestFit pts a s) : a = (fit pts).off ∧ s = (fit pts).slp := by
  have hne : pts ≠ [] := by rintro rfl; simp at h2
  obtain ⟨hk, -, -, hden, -⟩ := fit_eq pts h2
  have hm : moment 2 (pts.map Prod.fst) ≠ 0 := by
    rw [Ne, hden, not_or] at hd; exact hd.1
  have hc := coefs_eq pts h2 hm
  have e1 : (fit pts).slp = comoment pts / moment 2 (pts.map Prod.fst) := congrArg Prod.fst hc
  have e2 : (fit pts).off = mean (pts.map Prod.snd) -
      comoment pts / moment 2 (pts.map Prod.fst) * mean (pts.map Prod.fst) := congrArg Prod.snd hc
  have hle := hb (fit pts).off (fit pts).slp
  have hpos : 0 < moment 2 (pts.map Prod.fst) := lt_of_le_of_ne (moment_nonneg _) (Ne.symm hm)
  have hn : (0 : ℝ) < pts.length := by exact_mod_cast (by omega : 0 < pts.length)
  rw [sse_eq pts hne, sse_eq pts hne, e1, e2] at hle
  rw [e1, e2]
  generalize moment 2 (pts.map Prod.fst) = vx at *
  generalize moment 2 (pts.map Prod.snd) = vy at *
  generalize mean (pts.map Prod.fst) = mx at *
  generalize mean (pts.map Prod.snd) = my at *
  generalize comoment pts = cv at *
  have e3 : vy - 2 * (cv / vx) * cv + (cv / vx) ^ 2 * vx +
      ↑pts.length * (my - (my - cv / vx * mx) - cv / vx * mx) ^ 2 = vy - cv ^ 2 / vx := by
    field_simp; ring
  have e4 : vy - 2 * s * cv + s ^ 2 * vx = vy - cv ^ 2 / vx + vx * (s - cv / vx) ^ 2 := by
    field_simp; ring
  rw [e3, e4] at hle
  have p1 : 0 ≤ vx * (s - cv / vx) ^ 2 := by positivity
  have p2 : 0 ≤ (pts.length : ℝ) * (my - a - s * mx) ^ 2 := by positivity
  have q1 : vx * (s - cv / vx) ^ 2 = 0 := by linarith
  have q2 : (pts.length : ℝ) * (my - a - s * mx) ^ 2 = 0 := by linarith
  have r1 : s - cv / vx = 0 := by
    rcases mul_eq_zero.1 q1 with h | h
    · linarith
    · exact pow_eq_zero_iff (two_ne_zero) |>.1 h
  have r2 : my - a - s * mx = 0 := by
    rcases mul_eq_zero.1 q2 with h | h
    · linarith
    · exact pow_eq_zero_iff (two_ne_zero) |>.1 h
  have r3 : s = cv / vx := by linarith
  refine ⟨?_, r3⟩
  rw [← r3]; linarith

theorem shortOf_cases (x : ℝ) : shortOf (some x) = .ub ∨ ∃ n, shortOf (some x) = .ok n := by
  rw [shortOf_some]
  split
  · exact .inr ⟨_, rfl⟩
  · exact .inl rfl

theorem bind_ub_of {α β : Type} {o : Out α} {f : α → Out β} (h : o = .ub) : o.bind f = .ub := by subst h; rfl

theorem store_cases (b : Bands ℝ) : store b = .ub ∨ ∃ o, store b = .ok o ∧
    ∀ x ∈ [b.mean, b.offset, b.slope, b.prcGain, b.absGain, b.rsq, b.sig, b.rmse, b.mae, b.maxe, b.num, b.len],
      ∃ n, shortOf (some x) = .ok n := by
  unfold store
  rcases shortOf_cases b.mean with h | ⟨n1, h1⟩; · exact .inl (bind_ub_of h)
  rcases shortOf_cases b.offset with h | ⟨n2, h2⟩; · left; rw [h1]; rw [h]; rfl
  rcases shortOf_cases b.slope with h | ⟨n3, h3⟩; · left; rw [h1, h2]; rw [h]; rfl
  rcases shortOf_cases b.prcGain with h | ⟨n4, h4⟩; · left; rw [h1, h2, h3]; rw [h]; rfl
  rcases shortOf_cases b.absGain with h | ⟨n5, h5⟩; · left; rw [h1, h2, h3, h4]; rw [h]; rfl
  rcases shortOf_cases b.rsq with h | ⟨n6, h6⟩; · left; rw [h1, h2, h3, h4, h5]; rw [h]; rfl
  rcases shortOf_cases b.sig with h | ⟨n7, h7⟩; · left; rw [h1, h2, h3, h4, h5, h6]; rw [h]; rfl
  rcases shortOf_cases b.rmse with h | ⟨n8, h8⟩
  · left; rw [h1, h2, h3, h4, h5, h6, h7]; rw [h]; rfl
  rcases shortOf_cases b.mae with h | ⟨n9, h9⟩
  · left; rw [h1, h2, h3, h4, h5, h6, h7, h8]; rw [h]; rfl
  rcases shortOf_cases b.maxe with h | ⟨n10, h10⟩
  · left; rw [h1, h2, h3, h4, h5, h6, h7, h8, h9]; rw [h]; rfl
  rcases shortOf_cases b.num with h | ⟨n11, h11⟩
  · left; rw [h1, h2, h3, h4, h5, h6, h7, h8, h9, h10]; rw [h]; rfl
  rcases shortOf_cases b.len with h | ⟨n12, h12⟩
  · left; rw [h1, h2, h3, h4, h5, h6, h7, h8, h9, h10, h11]; rw [h]; rfl
  right
  rw [h1, h2, h3, h4, h5, h6, h7, h8, h9, h10, h11, h12]
  refine ⟨_, rfl, ?_⟩
  intro x hx
  simp only [List.mem_cons, List.not_mem_nil, or_false] at hx
  rcases hx with rfl | rfl | rfl | rfl | rfl | rfl | rfl | rfl | rfl | rfl | rfl | rfl
  exacts [⟨_, h1⟩, ⟨_, h2⟩, ⟨_, h3⟩, ⟨_, h4⟩, ⟨_, h5⟩, ⟨_, h6⟩, ⟨_, h7⟩, ⟨_, h8⟩, ⟨_, h9⟩, ⟨_, h10⟩, ⟨_, h11⟩, ⟨_, h12⟩]

theorem store_ub {b : Bands ℝ} {x : ℝ}
    (hx : x ∈ [b.mean, b.offset, b.slope, b.prcGain, b.absGain, b.rsq, b.sig, b.rmse, b.mae, b.maxe, b.num, b.len])
    (h : shortOf (some x) = .ub) : store b = .ub := by
  rcases store_cases b with hb | ⟨o, -, ho⟩
  · exact hb
  · obtain ⟨n, hn⟩ := ho x hx
    rw [hn] at h; cases h

theorem store_of {b : Bands ℝ}
    (h : ∀ x ∈ [b.mean, b.offset, b.slope, b.prcGain, b.absGain, b.rsq, b.sig, b.rmse, b.mae, b.maxe, b.num, b.len],
      |x| < 32768) : ∃ o, store b = .ok o := by
  obtain ⟨n1, h1⟩ := shortOf_of (h b.mean (by simp))
  obtain ⟨n2, h2⟩ := shortOf_of (h b.offset (by simp))
  obtain ⟨n3, h3⟩ := shortOf_of (h b.slope (by simp))
  obtain ⟨n4, h4⟩ := shortOf_of (h b.prcGain (by simp))
  obtain ⟨n5, h5⟩ := shortOf_of (h b.absGain (by simp))
  obtain ⟨n6, h6⟩ := shortOf_of (h b.rsq (by simp))
  obtain ⟨n7, h7⟩ := shortOf_of (h b.sig (by simp))
  obtain ⟨n8, h8⟩ := shortOf_of (h b.rmse (by simp))
  obtain ⟨n9, h9⟩ := shortOf_of (h b.mae (by simp))
  obtain ⟨n10, h10⟩ := shortOf_of (h b.maxe (by simp))
  obtain ⟨n11, h11⟩ := shortOf_of (h b.num (by simp))
  obtain ⟨n12, h12⟩ := shortOf_of (h b.len (by simp))
  unfold store
  rw [h1, h2, h3, h4, h5, h6, h7, h8, h9, h10, h11, h12]
  exact ⟨_, rfl⟩

theorem bestFit_of_exact (pts : List (ℝ × ℝ)) (a s : ℝ) (h : ∀ p ∈ pts, p.2 = a + s * p.1) : BestFit pts a s := by
  have e : sse pts a s = 0 := by
    unfold sse
    apply List.sum_eq_zero
    intro x hx
    obtain ⟨p, hp, rfl⟩ := List.mem_map.1 hx
    rw [h p hp]; ring
  intro a' s'
  rw [e]
  unfold sse
  apply List.sum_nonneg
  intro x hx
  obtain ⟨p, _, rfl⟩ := List.mem_map.1 hx
  positivity

theorem den_ne (pts : List (ℝ × ℝ)) (h2 : 2 ≤ pts.length) (hx : ∃ p ∈ pts, ∃ q ∈ pts, p.1 ≠ q.1)
    (hy : ∃ p ∈ pts, ∃ q ∈ pts, p.2 ≠ q.2) : (fit pts).den ≠ 0 := by
  obtain ⟨-, -, -, hd, -⟩ := fit_eq pts h2
  rw [Ne, hd, not_or]
  obtain ⟨p, hp, q, hq, hpq⟩ := hx
  obtain ⟨u, hu, v, hv, huv⟩ := hy
  constructor
  · intro h
    exact hpq ((mem_moment h _ (List.mem_map.2 ⟨p, hp, rfl⟩)).trans
      (mem_moment h _ (List.mem_map.2 ⟨q, hq, rfl⟩)).symm)
  · intro h
    exact huv ((mem_moment h _ (List.mem_map.2 ⟨u, hu, rfl⟩)).trans
      (mem_moment h _ (List.mem_map.2 ⟨v, hv, rfl⟩)).symm)

/-- The trend of a pixel with at least three values that are not all equal. -/
theorem trend_store (c : Conf) (l : List Layer) (h3 : 3 ≤ (observations c.nodata (start l) l).length)
    (hd : (fit (observations c.nodata (start l) l)).den ≠ 0) :
    trend c true l = store (trendRaw c l.length (observations c.nodata (start l) l)
      (fit (observations c.nodata (start l) l))) := by
  unfold trend
  rw [observations_eq]
  simp only [Bool.not_true, Bool.false_eq_true, if_false]
  rw [if_neg (by rw [fit_k]; omega), if_neg hd]

/-- C60, violated: values that rise by more than 327.68 times their value at the start leave the range of the gain in
percent, which is then undefined. -/
theorem c60_percent_violated (c : Conf) (hc : c.inCe = false) (l : List Layer) (a s : ℝ) (ha : 0 < a) (hs : 0 < s)
    (h3 : 3 ≤ (observations c.nodata (start l) l).length)
    (hx : ∃ p ∈ observations c.nodata (start l) l, ∃ q ∈ observations c.nodata (start l) l, p.1 ≠ q.1)
    (hl : ∀ p ∈ observations c.nodata (start l) l, p.2 = a + s * p.1) (hg : 327.68 * a ≤ s * l.length) :
    trend c true l = .ub := by
  have hy : ∃ p ∈ observations c.nodata (start l) l, ∃ q ∈ observations c.nodata (start l) l, p.2 ≠ q.2 := by
    obtain ⟨p, hp, q, hq, hpq⟩ := hx
    refine ⟨p, hp, q, hq, ?_⟩
    rw [hl p hp, hl q hq]
    intro h
    apply hpq
    have : s * (p.1 - q.1) = 0 := by linarith
    rcases mul_eq_zero.1 this with h | h <;> linarith
  have hd := den_ne _ (by omega) hx hy
  obtain ⟨e1, e2⟩ := fit_unique _ (by omega) hd a s (bestFit_of_exact _ a s hl)
  rw [trend_store c l h3 hd]
  apply store_ub (x := s * l.length / a * 100)
  · simp only [trendRaw, hc, Bool.false_eq_true, if_false, ← e1, ← e2, if_pos (show a > 0 from ha)]
    simp
  · apply shortOf_ub
    left
    rw [div_mul_eq_mul_div, le_div_iff₀ ha]
    linarith

example : ∃ p ∈ observations (-9999) 1990 [⟨1990, 1⟩, ⟨1991, 1001⟩, ⟨1992, 2001⟩],
    ∃ q ∈ observations (-9999) 1990 [⟨1990, 1⟩, ⟨1991, 1001⟩, ⟨1992, 2001⟩], p.1 ≠ q.1 := by
  refine ⟨(0, 1), ?_, (1, 1001), ?_, by norm_num⟩ <;> simp [observations] <;> norm_num

example : ∀ p ∈ observations (-9999) 1990 [⟨1990, 1⟩, ⟨1991, 1001⟩, ⟨1992, 2001⟩], p.2 = 1 + 1000 * p.1 := by
  simp [observations]; norm_num

theorem sum_lt {l : List ℝ} {M : ℝ} (hne : l ≠ []) (h : ∀ x ∈ l, |x| < M) : |l.sum / l.length| < M := by
  have key : ∀ l : List ℝ, (∀ x ∈ l, |x| < M) → l ≠ [] → |l.sum| < l.length * M := by
    intro l
    induction l with
    | nil => intro _ h; exact absurd rfl h
    | cons a l ih =>
      intro h _
      have h1 := h a (List.mem_cons_self ..)
      rw [List.sum_cons, List.length_cons]
      push_cast
      have h3 := abs_add_le a l.sum
      by_cases hl : l = []
      · subst hl; simp; exact h1
      · have h2 := ih (fun x hx => h x (List.mem_cons_of_mem _ hx)) hl
        linarith
  have hn : (0 : ℝ) < l.length := by exact_mod_cast List.length_pos_iff.2 hne
  rw [abs_div, abs_of_pos hn, div_lt_iff₀ hn, mul_comm]
  exact key l h hne

theorem abs_sig (tc : Option ℝ) (tail : Int) (b seb : ℝ) :
    |((slopeSignificant tc tail b seb : Int) : ℝ)| < 32768 := by
  unfold slopeSignificant
  split
  · norm_num
  · split_ifs <;> norm_num

/-- C60: with values that fit into 16 bits and that are not all equal, at different times, the trend is computed
whenever the coefficients, the gains and the residuals fit into 16 bits. (Missing: `c60_constant_violated`,
`c60_percent_violated`, `c60_days_gain_violated`.) -/
theorem c60_defined_partial (c : Conf) (hc : c.inCe = false) (l : List Layer) (hl : l.length ≤ 32767)
    (h3 : 3 ≤ (observations c.nodata (start l) l).length)
    (hx : ∃ p ∈ observations c.nodata (start l) l, ∃ q ∈ observations c.nodata (start l) l, p.1 ≠ q.1)
    (hy : ∃ p ∈ observations c.nodata (start l) l, ∃ q ∈ observations c.nodata (start l) l, p.2 ≠ q.2)
    (hv : ∀ p ∈ observations c.nodata (start l) l, |p.2| ≤ 32767) (a s : ℝ)
    (hb : BestFit (observations c.nodata (start l) l) a s) (ha : |a| < 32768) (hs : |s * l.length| < 32768)
    (hg : 0 < a → |s * l.length / a * 100| < 32768)
    (he : ∀ p ∈ observations c.nodata (start l) l, resid a s p < 32768) :
    ∃ b, trend c true l = .ok b := by
  have hd := den_ne _ (by omega) hx hy
  rw [trend_store c l h3 hd]
  have hlen : (observations c.nodata (start l) l).length ≤ l.length := by
    unfold observations; rw [List.length_map]; exact List.length_filter_le _ _
  generalize observations c.nodata (start l) l = pts at *
  obtain ⟨e1, e2⟩ := fit_unique _ (by omega) hd a s hb
  obtain ⟨hk, hmx, hmy, -, hf⟩ := fit_eq pts (by omega)
  obtain ⟨-, -, hr0, hr1⟩ := hf hd
  obtain ⟨r1, r2, -, r4, -, r6⟩ := residuals_eq (fit pts).mx (fit pts).slp (fit pts).off pts ⟨0, 0, 0, -32768⟩
  have hne : pts ≠ [] := by rintro rfl; simp at h3
  have hn : (3 : ℝ) ≤ l.length := by exact_mod_cast (by omega : 3 ≤ l.length)
  have hpn : (0 : ℝ) < pts.length := by exact_mod_cast (by omega : 0 < pts.length)
  apply store_of
  intro x hx
  simp only [List.mem_cons, List.not_mem_nil, or_false] at hx
  rw [← e1, ← e2] at r1 r2 r4 r6
  simp only [trendRaw, hc, Bool.false_eq_true, if_false, ← e1, ← e2] at hx
  rcases hx with hx | hx | hx | hx | hx | hx | hx | hx | hx | hx | hx | hx <;> rw [hx]
  · rw [hmy]
    unfold mean
    apply sum_lt (by simpa using hne)
    intro x hx
    obtain ⟨p, hp, rfl⟩ := List.mem_map.1 hx
    have := hv p hp
    linarith
  · exact ha
  · rw [abs_mul, abs_of_nonneg (by linarith : (0 : ℝ) ≤ l.length)] at hs
    have := abs_nonneg s
    nlinarith
  · by_cases h : a > 0
    · rw [if_pos h]; exact hg h
    · rw [if_neg h]; norm_num
  · exact hs
  · rw [abs_of_nonneg hr0]; linarith
  · exact abs_sig _ _ _ _
  · rw [show (residuals _ _ _ pts).ssqe = _ from r1, hk, zero_add, abs_of_nonneg (Real.sqrt_nonneg _)]
    rw [Real.sqrt_lt' (by norm_num)]
    have := sum_lt (l := pts.map fun p => (p.2 - (a + s * p.1)) ^ 2) (M := 32768 ^ 2) (by simpa using hne) (by
      intro x hx
      obtain ⟨p, hp, rfl⟩ := List.mem_map.1 hx
      have h1 := he p hp
      rw [abs_of_nonneg (sq_nonneg _), sq_lt_sq]
      rw [abs_of_pos (by norm_num : (0 : ℝ) < 32768)]
      exact h1)
    rw [List.length_map] at this
    exact lt_of_le_of_lt (le_abs_self _) this
  · rw [show (residuals _ _ _ pts).sae = _ from r2, hk, zero_add]
    have := sum_lt (l := pts.map (resid a s)) (M := 32768) (by simpa using hne) (by
      intro x hx
      obtain ⟨p, hp, rfl⟩ := List.mem_map.1 hx
      rw [abs_of_nonneg (show 0 ≤ resid a s p from abs_nonneg _)]
      exact he p hp)
    rwa [List.length_map] at this
  · obtain ⟨p, hp⟩ := List.exists_mem_of_ne_nil _ hne
    have h1 := r4 p hp
    have h2 : 0 ≤ resid a s p := abs_nonneg _
    unfold residuals
    rw [abs_of_nonneg (le_trans h2 h1)]
    rcases r6 with h | ⟨q, hq, h⟩
    · rw [h] at h1 ⊢; norm_num
    · rw [h]; exact he q hq
  · rw [abs_of_nonneg (by positivity), hk]
    exact_mod_cast (by omega : pts.length < 32768)
  · rw [abs_of_nonneg (by positivity)]
    exact_mod_cast (by omega : l.length < 32768)

/-- Two observations on either side of the line of best fit. -/
example : ∃ b, trend ⟨fun _ => none, 0, false, -9999⟩ true
    [⟨1990, 100⟩, ⟨1991, 400⟩, ⟨1992, -9999⟩, ⟨1993, 200⟩, ⟨1994, 500⟩] = .ok b := by
  have e : observations (-9999) (start [⟨1990, 100⟩, ⟨1991, 400⟩, ⟨1992, -9999⟩, ⟨1993, 200⟩, ⟨1994, 500⟩])
      [⟨1990, 100⟩, ⟨1991, 400⟩, ⟨1992, -9999⟩, ⟨1993, 200⟩, ⟨1994, 500⟩] = [(0, 100), (1, 400), (3, 200), (4, 500)] := by
    simp [observations, start]; norm_num
  have hb : BestFit [(0, 100), (1, 400), (3, 200), (4, 500)] 180 60 := by
    intro a s
    simp only [sse, List.map_cons, List.map_nil, List.sum_cons, List.sum_nil]
    nlinarith [sq_nonneg (a - 180 + 2 * (s - 60)), sq_nonneg (s - 60)]
  apply c60_defined_partial _ rfl _ (by simp) (by simp only [e]; simp) _ _ _ 180 60 (by simp only [e]; exact hb)
  all_goals try simp only [e]
  all_goals try simp [resid, abs_lt, abs_le]
  all_goals norm_num

/-! Values given in continuous days -/

/-- Observations in days of the year: the value minus 365 days for each year. -/
def days (pts : List (ℝ × ℝ)) : List (ℝ × ℝ) := pts.map fun p => (p.1, p.2 - 365 * p.1)

theorem bestFit_days (pts : List (ℝ × ℝ)) (a s : ℝ) (h : BestFit pts a s) : BestFit (days pts) a (s - 365) := by
  have e : ∀ a s, sse (days pts) a s = sse pts a (s + 365) := by
    intro a s
    unfold sse days
    rw [List.map_map]
    congr 1
    apply List.map_congr_left
    intro p _
    simp only [Function.comp]
    ring
  intro a' s'
  rw [e, e, sub_add_cancel]
  exact h a' (s' + 365)

theorem mean_days (pts : List (ℝ × ℝ)) (hne : pts ≠ []) :
    mean ((days pts).map Prod.snd) = mean (pts.map Prod.snd) - 365 * mean (pts.map Prod.fst) := by
  have e : ∀ l : List (ℝ × ℝ), ((days l).map Prod.snd).sum = (l.map Prod.snd).sum - 365 * (l.map Prod.fst).sum := by
    intro l
    induction l with
    | nil => simp [days]
    | cons p t ih =>
      simp only [days, List.map_cons, List.sum_cons] at ih ⊢
      rw [ih]; ring
  have hn : (pts.length : ℝ) ≠ 0 := by simpa using hne
  unfold mean
  rw [e]
  simp only [days, List.length_map]
  field_simp

/-- C60: values given in continuous days (365 per year): the slope is 1000 times the slope of the days of the year;
the mean is that of the days of the year if the mean time of the observations is the middle of the time series and
the number of layers is odd. -/
theorem c60_days_partial (c : Conf) (hc : c.inCe = true) (l : List Layer) (b : Bands Int)
    (h3 : 3 ≤ (observations c.nodata (start l) l).length) (h : trend c true l = .ok b) :
    (∃ a s, BestFit (days (observations c.nodata (start l) l)) a s ∧ IntPart (1000 * s) b.slope) ∧
    (l.length % 2 = 1 → mean ((observations c.nodata (start l) l).map Prod.fst) = ((l.length : ℝ) - 1) / 2 →
      IntPart (mean ((days (observations c.nodata (start l) l)).map Prod.snd)) b.mean) := by
  have hd : (fit (observations c.nodata (start l) l)).den ≠ 0 := by
    intro hd
    unfold trend at h
    rw [observations_eq] at h
    simp only [Bool.not_true, Bool.false_eq_true, if_false] at h
    rw [if_neg (by rw [fit_k]; omega), if_pos hd] at h
    cases h
  rw [trend_store c l h3 hd] at h
  generalize observations c.nodata (start l) l = pts at h h3 hd ⊢
  obtain ⟨hk, hmx, hmy, -, hf⟩ := fit_eq pts (by omega)
  obtain ⟨hb, -⟩ := hf hd
  obtain ⟨g1, -, g3, -⟩ := store_ok h
  simp only [trendRaw, hc, if_true] at g1 g3
  refine ⟨⟨_, _, bestFit_days _ _ _ hb, by rw [mul_comm]; exact g3⟩, ?_⟩
  intro hodd hm
  rw [mean_days _ (by rintro rfl; simp at h3), hm]
  convert g1 using 2
  · rw [hmy]
  · obtain ⟨m, hm⟩ : ∃ m, l.length = 2 * m + 1 := ⟨l.length / 2, by omega⟩
    rw [hm]
    have : (365 * (((2 * m + 1 : Nat) : Int) - 1)).tdiv 2 = 365 * m := by
      rw [show (365 * (((2 * m + 1 : Nat) : Int) - 1)) = (365 * m) * 2 by push_cast; ring]
      exact Int.mul_tdiv_cancel _ (by norm_num)
    rw [this]
    push_cast
    ring

/-- C60, violated: if a layer is nodata, the mean of values given in continuous days is wrong: here it is day 100 in
each of three years, the fourth year is nodata, and the mean is -82. -/
theorem c60_days_mean_violated (c : Conf) (hc : c.inCe = true) (hn : c.nodata = -9999) (b : Bands Int)
    (h : trend c true [⟨2000, 100⟩, ⟨2001, 465⟩, ⟨2002, 830⟩, ⟨2003, -9999⟩] = .ok b) :
    b.mean = -82 ∧ ∀ p ∈ days (observations c.nodata 2000 [⟨2000, 100⟩, ⟨2001, 465⟩, ⟨2002, 830⟩, ⟨2003, -9999⟩]),
      p.2 = 100 := by
  have e : observations c.nodata (start [⟨2000, 100⟩, ⟨2001, 465⟩, ⟨2002, 830⟩, ⟨2003, -9999⟩])
      [⟨2000, 100⟩, ⟨2001, 465⟩, ⟨2002, 830⟩, ⟨2003, -9999⟩] = [(0, 100), (1, 465), (2, 830)] := by
    rw [hn]; simp [observations, start]; norm_num
  have e' : observations c.nodata 2000
      [⟨2000, 100⟩, ⟨2001, 465⟩, ⟨2002, 830⟩, ⟨2003, -9999⟩] = [(0, 100), (1, 465), (2, 830)] := e
  constructor
  · have hd : (fit [((0 : ℝ), (100 : ℝ)), (1, 465), (2, 830)]).den ≠ 0 := by
      apply den_ne
      · simp
      · exact ⟨(0, 100), by simp, (1, 465), by simp, by norm_num⟩
      · exact ⟨(0, 100), by simp, (1, 465), by simp, by norm_num⟩
    rw [trend_store c _ (by rw [e]; simp) (by rw [e]; exact hd), e] at h
    obtain ⟨g1, -⟩ := store_ok h
    obtain ⟨hk, hmx, hmy, -, -⟩ := fit_eq [((0 : ℝ), (100 : ℝ)), (1, 465), (2, 830)] (by simp)
    simp only [trendRaw, hc, if_true] at g1
    rw [hmy] at g1
    have : mean ([((0 : ℝ), (100 : ℝ)), (1, 465), (2, 830)].map Prod.snd) -
      ((365 * ((([⟨2000, 100⟩, ⟨2001, 465⟩, ⟨2002, 830⟩, ⟨2003, -9999⟩] : List Layer).length : Int) - 1)).tdiv 2 : Int)
        = ((-82 : Int) : ℝ) := by
      have e2 : (365 * ((([⟨2000, 100⟩, ⟨2001, 465⟩, ⟨2002, 830⟩, ⟨2003, -9999⟩] : List Layer).length : Int) - 1)).tdiv 2
        = 547 := by decide
      rw [e2]
      norm_num [mean]
    rw [this] at g1
    exact intPart_int g1
  · rw [e']
    simp [days]; norm_num

/-- C60, violated: if values given in continuous days rise by 32.768 days or more over the time series (for example one
day per year over 33 years), the gain leaves its range and is undefined: it is 1000 times the number of days. -/
theorem c60_days_gain_violated (c : Conf) (hc : c.inCe = true) (l : List Layer) (a s : ℝ) (hs : 0 < s)
    (h3 : 3 ≤ (observations c.nodata (start l) l).length)
    (hx : ∃ p ∈ observations c.nodata (start l) l, ∃ q ∈ observations c.nodata (start l) l, p.1 ≠ q.1)
    (hl : ∀ p ∈ days (observations c.nodata (start l) l), p.2 = a + s * p.1) (hg : 32.768 ≤ s * l.length) :
    trend c true l = .ub := by
  have hl' : ∀ p ∈ observations c.nodata (start l) l, p.2 = a + (s + 365) * p.1 := by
    intro p hp
    have := hl _ (List.mem_map.2 ⟨p, hp, rfl⟩)
    simp only at this
    linarith
  have hy : ∃ p ∈ observations c.nodata (start l) l, ∃ q ∈ observations c.nodata (start l) l, p.2 ≠ q.2 := by
    obtain ⟨p, hp, q, hq, hpq⟩ := hx
    refine ⟨p, hp, q, hq, ?_⟩
    rw [hl' p hp, hl' q hq]
    intro h
    apply hpq
    have : (s + 365) * (p.1 - q.1) = 0 := by linarith
    rcases mul_eq_zero.1 this with h | h <;> linarith
  have hd := den_ne _ (by omega) hx hy
  obtain ⟨e1, e2⟩ := fit_unique _ (by omega) hd a (s + 365) (bestFit_of_exact _ a _ hl')
  rw [trend_store c l h3 hd]
  apply store_ub (x := (s + 365 - 365) * 1000 * l.length)
  · simp only [trendRaw, hc, if_true, ← e1, ← e2]
    simp
  · apply shortOf_ub
    left
    linarith

example : ∀ p ∈ days (observations (-9999) 2000 [⟨2000, 100⟩, ⟨2001, 476⟩, ⟨2002, 852⟩]), p.2 = 100 + 11 * p.1 := by
  simp [days, observations]; norm_num

end Verif.Trend
