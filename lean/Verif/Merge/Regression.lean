import Mathlib.Algebra.BigOperators.Group.List.Basic
import Mathlib.Algebra.Order.BigOperators.Group.List
import Mathlib.Tactic.Linarith
import Mathlib.Tactic.LinearCombination
import Mathlib.Tactic.FieldSimp
import Mathlib.Tactic.Positivity
import Verif.Merge.Spec

/-!
# C190: resolution merge by regression
-/

namespace Verif.Merge

open Spec

theorem truncR_int (k : ℤ) : truncR k = k := by
  unfold truncR
  split
  · simp
  · simp

theorem truncR_near (x : ℝ) : x - 1 < truncR x ∧ (truncR x : ℝ) < x + 1 := by
  unfold truncR
  split
  · exact ⟨Int.sub_one_lt_floor x, by linarith [Int.floor_le x]⟩
  · exact ⟨by linarith [Int.le_ceil x], Int.ceil_lt_add_one x⟩

theorem mem_square {m : Img} {r i j np : Nat} : np ∈ square m r i j ↔
    ∃ i' j', i' < m.ny ∧ j' < m.nx ∧ Near r i j i' j' ∧ np = pix m i' j' := by
  unfold square
  simp only [List.mem_flatMap, List.mem_range, List.mem_filterMap]
  constructor
  · rintro ⟨ii, hi, jj, hj, h⟩
    split at h
    · cases h
    · rename_i hn
      rw [not_or, not_or, not_or] at hn
      refine ⟨i + ii - r, j + jj - r, by omega, by omega, ?_, (Option.some.inj h).symm⟩
      unfold Near
      omega
  · rintro ⟨i', j', h1, h2, h3, rfl⟩
    unfold Near at h3
    refine ⟨i' + r - i, by omega, j' + r - j, by omega, ?_⟩
    rw [if_neg (by omega)]
    have e1 : i + (i' + r - i) - r = i' := by omega
    have e2 : j + (j' + r - j) - r = j' := by omega
    rw [e1, e2]
    rfl

theorem mem_window {m : Img} {i j np : Nat} : np ∈ window m i j ↔
    ∃ i' j', Valid m i' j' ∧ Near 2 i j i' j' ∧ np = pix m i' j' := by
  unfold window
  rw [List.mem_filter, mem_square]
  constructor
  · rintro ⟨⟨i', j', h1, h2, h3, rfl⟩, h4⟩
    exact ⟨i', j', ⟨h1, h2, by simpa using h4⟩, h3, rfl⟩
  · rintro ⟨i', j', ⟨h1, h2, h4⟩, h3, rfl⟩
    exact ⟨⟨i', j', h1, h2, h3, rfl⟩, by simpa using h4⟩

theorem near_self (r i j : Nat) : Near r i j i j := by unfold Near; omega

/-- Residual. -/
noncomputable def res (c : Coef) (x : Row) : ℝ := x.y - est c x.g x.r x.n

theorem sse_eq (l : List Row) (c : Coef) : sse l c = (l.map fun x => res c x ^ 2).sum := rfl

theorem quad {a b : ℝ} (hb : 0 ≤ b) (h : ∀ t : ℝ, 0 ≤ t ^ 2 * b - 2 * t * a) : a = 0 := by
  have h1 := h (a / (b + 1))
  have hp : 0 < b + 1 := by linarith
  have e : (a / (b + 1)) ^ 2 * b - 2 * (a / (b + 1)) * a = -(a ^ 2 * (b + 2)) / (b + 1) ^ 2 := by
    field_simp
    ring
  rw [e, le_div_iff₀ (by positivity), zero_mul] at h1
  have : a ^ 2 * (b + 2) = 0 := le_antisymm (by linarith) (by positivity)
  rcases mul_eq_zero.1 this with h2 | h2
  · exact pow_eq_zero_iff (two_ne_zero) |>.1 h2
  · linarith

theorem sum_quad (l : List Row) (c v : Coef) (t : ℝ) :
    (l.map fun x => res (c.1 + t * v.1, c.2.1 + t * v.2.1, c.2.2.1 + t * v.2.2.1, c.2.2.2 + t * v.2.2.2) x ^ 2).sum
      = (l.map fun x => res c x ^ 2).sum + (t ^ 2 * (l.map fun x => est v x.g x.r x.n ^ 2).sum
        - 2 * t * (l.map fun x => res c x * est v x.g x.r x.n).sum) := by
  induction l with
  | nil => simp
  | cons a l ih =>
    simp only [List.map_cons, List.sum_cons]
    rw [ih]
    simp only [res, est]
    ring

/-- The normal equations. -/
theorem normal {ls : List Row → Coef} (h : LeastSquares ls) (l : List Row) (v : Coef) :
    (l.map fun x => res (ls l) x * est v x.g x.r x.n).sum = 0 := by
  refine quad (b := (l.map fun x => est v x.g x.r x.n ^ 2).sum) ?_ ?_
  · apply List.sum_nonneg
    intro y hy
    obtain ⟨x, -, rfl⟩ := List.mem_map.1 hy
    positivity
  · intro t
    have h1 := h l ((ls l).1 + t * v.1, (ls l).2.1 + t * v.2.1, (ls l).2.2.1 + t * v.2.2.1,
      (ls l).2.2.2 + t * v.2.2.2)
    rw [sse_eq, sse_eq, sum_quad] at h1
    linarith

/-- C190, partial: where all 25 pixels of the window are valid and the 20 m band is an affine
function of the 10 m bands, the merge does not change it. Missing: windows that are not complete
(below); and the result depends on the order of the pixels (below). -/
theorem c190_exact_partial (ls : List Row → Coef) (hls : LeastSquares ls) (m : Img) (y : Nat → ℤ) (i j : Nat)
    (a0 a1 a2 a3 : ℝ) (hv : ∀ i' j', Near 2 i j i' j' → Valid m i' j') (hi : 2 ≤ i) (hj : 2 ≤ j)
    (h : ∀ i' j', Near 2 i j i' j' → (y (pix m i' j') : ℝ)
      = a0 + a1 * m.green (pix m i' j') + a2 * m.red (pix m i' j') + a3 * m.bnir (pix m i' j')) :
    predict ls m y i j = y (pix m i j) := by
  have hlen : (window m i j).length = 25 := by
    have e : window m i j = square m 2 i j := by
      unfold window
      rw [List.filter_eq_self]
      intro np hnp
      obtain ⟨i', j', -, -, h3, rfl⟩ := mem_square.1 hnp
      simp [(hv i' j' h3).2.2]
    rw [e]
    unfold square
    have e2 : ∀ ii ∈ List.range (2 * 2 + 1), ((List.range (2 * 2 + 1)).filterMap fun jj =>
        if i + ii < 2 ∨ m.ny ≤ i + ii - 2 ∨ j + jj < 2 ∨ m.nx ≤ j + jj - 2 then none
        else some ((i + ii - 2) * m.nx + (j + jj - 2))).length = 5 := by
      intro ii hii
      rw [List.mem_range] at hii
      have : ((List.range (2 * 2 + 1)).filterMap fun jj =>
          if i + ii < 2 ∨ m.ny ≤ i + ii - 2 ∨ j + jj < 2 ∨ m.nx ≤ j + jj - 2 then none
          else some ((i + ii - 2) * m.nx + (j + jj - 2)))
          = (List.range (2 * 2 + 1)).map fun jj => (i + ii - 2) * m.nx + (j + jj - 2) := by
        rw [← List.filterMap_eq_map]
        apply List.filterMap_congr
        intro jj hjj
        rw [List.mem_range] at hjj
        obtain ⟨v1, v2, -⟩ := hv (i + ii - 2) (j + jj - 2) (by unfold Near; omega)
        rw [if_neg (by omega)]
        rfl
      rw [this]
      simp
    rw [List.length_flatMap]
    have e3 : (List.range (2 * 2 + 1)).map (fun ii => ((List.range (2 * 2 + 1)).filterMap fun jj =>
        if i + ii < 2 ∨ m.ny ≤ i + ii - 2 ∨ j + jj < 2 ∨ m.nx ≤ j + jj - 2 then none
        else some ((i + ii - 2) * m.nx + (j + jj - 2))).length) = (List.range (2 * 2 + 1)).map fun _ => 5 :=
      List.map_congr_left e2
    rw [e3]
    decide
  have hrows : rows m y i j = (window m i j).map (row m y) := by
    unfold rows
    rw [hlen]
    simp
  have hz : sse (rows m y i j) (a0 / 10000, a1, a2, a3) = 0 := by
    rw [hrows]
    unfold sse
    rw [List.map_map]
    apply List.sum_eq_zero
    intro z hz
    obtain ⟨np, hnp, rfl⟩ := List.mem_map.1 hz
    obtain ⟨i', j', -, h3, rfl⟩ := mem_window.1 hnp
    simp only [Function.comp_apply, row]
    rw [h i' j' h3]
    ring
  have hle := hls (rows m y i j) (a0 / 10000, a1, a2, a3)
  rw [hz] at hle
  have hp : row m y (pix m i j) ∈ rows m y i j := by
    rw [hrows]
    exact List.mem_map_of_mem (mem_window.2 ⟨i, j, hv i j (near_self _ _ _), near_self _ _ _, rfl⟩)
  have hres : res (ls (rows m y i j)) (row m y (pix m i j)) ^ 2 ≤ 0 := by
    refine le_trans ?_ hle
    rw [sse_eq]
    apply List.single_le_sum
    · intro z hz
      obtain ⟨x, -, rfl⟩ := List.mem_map.1 hz
      positivity
    · exact List.mem_map_of_mem hp
  have h0 : res (ls (rows m y i j)) (row m y (pix m i j)) = 0 :=
    pow_eq_zero_iff two_ne_zero |>.1 (le_antisymm hres (by positivity))
  unfold predict
  simp only
  have e : est (ls (rows m y i j)) (m.green (i * m.nx + j) / 10000) (m.red (i * m.nx + j) / 10000)
      (m.bnir (i * m.nx + j) / 10000) = (y (pix m i j) : ℝ) / 10000 := by
    have := h0
    unfold res row pix at this
    simp only at this
    unfold pix
    linarith
  rw [e, div_mul_cancel₀ _ (by norm_num)]
  exact truncR_int _

/-- A regression over rows with the same predictors, which are not all zero, and rows of zeros
predicts the mean. -/
theorem flat {ls : List Row → Coef} (hls : LeastSquares ls) (m : Img) (y : Nat → ℤ) (i j : Nat) (g r n : ℝ)
    (hne : g ≠ 0 ∨ r ≠ 0 ∨ n ≠ 0) (hf : ∀ np ∈ window m i j, (m.green np : ℝ) / 10000 = g ∧
      (m.red np : ℝ) / 10000 = r ∧ (m.bnir np : ℝ) / 10000 = n) :
    ((window m i j).length : ℝ) * est (ls (rows m y i j)) g r n
      = ((window m i j).map fun np => (y np : ℝ) / 10000).sum := by
  have hq : 0 < g ^ 2 + r ^ 2 + n ^ 2 := by
    rcases hne with h | h | h <;> positivity
  have h1 := normal hls (rows m y i j) (0, g, r, n)
  generalize ls (rows m y i j) = c at *
  unfold rows at h1
  rw [List.map_append, List.sum_append, List.map_replicate] at h1
  have e1 : res c ⟨0, 0, 0, 0⟩ * est (0, g, r, n) 0 0 0 = 0 := by simp [est]
  simp only [e1, List.sum_replicate, smul_zero, add_zero, List.map_map] at h1
  have e2 : (window m i j).map ((fun x => res c x * est (0, g, r, n) x.g x.r x.n) ∘ row m y)
      = (window m i j).map fun np => ((y np : ℝ) / 10000 - est c g r n) * (g ^ 2 + r ^ 2 + n ^ 2) := by
    apply List.map_congr_left
    intro np hnp
    obtain ⟨f1, f2, f3⟩ := hf np hnp
    simp only [Function.comp_apply, row, res, f1, f2, f3]
    simp only [est]
    ring
  rw [e2] at h1
  have e3 : ∀ W : List Nat, (W.map fun np => ((y np : ℝ) / 10000 - est c g r n) * (g ^ 2 + r ^ 2 + n ^ 2)).sum
      = ((W.map fun np => (y np : ℝ) / 10000).sum - W.length * est c g r n) * (g ^ 2 + r ^ 2 + n ^ 2) := by
    intro W
    induction W with
    | nil => simp
    | cons a W ih =>
      simp only [List.map_cons, List.sum_cons, List.length_cons]
      rw [ih]
      push_cast
      ring
  rw [e3] at h1
  rcases mul_eq_zero.1 h1 with h | h
  · linarith
  · exact absurd h hq.ne'

/-- C190, violated: the result depends on the order in which the threads treat the pixels. Two
neighbouring pixels with the same values in the 10 m bands, and values of the 20 m band that
differ by at least 16 (0.0016): both orders give different results. -/
theorem c190_schedule_violated (ls : List Row → Coef) (hls : LeastSquares ls) (m : Img) (y : Nat → ℤ) (g : ℤ)
    (hx : m.nx = 2) (hy : m.ny = 1) (hoff : ∀ k, m.off k = false) (hc : ∀ k, m.cloudy k = false)
    (hg : g ≠ 0) (hgreen : ∀ k, m.green k = g) (hred : ∀ k, m.red k = g) (hbnir : ∀ k, m.bnir k = g)
    (hd : 16 ≤ |y 0 - y 1|) :
    regression ls m y [(0, 0), (0, 1)] 0 ≠ regression ls m y [(0, 1), (0, 0)] 0 := by
  have w0 : window m 0 0 = [0, 1] := by
    unfold window square
    rw [hx, hy]
    have : ((List.range (2 * 2 + 1)).flatMap fun ii => (List.range (2 * 2 + 1)).filterMap fun jj =>
      if 0 + ii < 2 ∨ 1 ≤ 0 + ii - 2 ∨ 0 + jj < 2 ∨ 2 ≤ 0 + jj - 2 then none
      else some ((0 + ii - 2) * 2 + (0 + jj - 2))) = [0, 1] := by decide
    rw [this]
    simp [hoff]
  have w1 : window m 0 1 = [0, 1] := by
    unfold window square
    rw [hx, hy]
    have : ((List.range (2 * 2 + 1)).flatMap fun ii => (List.range (2 * 2 + 1)).filterMap fun jj =>
      if 0 + ii < 2 ∨ 1 ≤ 0 + ii - 2 ∨ 1 + jj < 2 ∨ 2 ≤ 1 + jj - 2 then none
      else some ((0 + ii - 2) * 2 + (1 + jj - 2))) = [0, 1] := by decide
    rw [this]
    simp [hoff]
  have hgr : ((g : ℝ) / 10000) ≠ 0 := by
    have : (g : ℝ) ≠ 0 := by exact_mod_cast hg
    positivity
  have hpred : ∀ (y : Nat → ℤ) (j : Nat), j = 0 ∨ j = 1 →
      predict ls m y 0 j = truncR (((y 0 : ℝ) + y 1) / 2) := by
    intro y j hj
    have hw : window m 0 j = [0, 1] := by rcases hj with rfl | rfl <;> assumption
    have := flat hls m y 0 j ((g : ℝ) / 10000) ((g : ℝ) / 10000) ((g : ℝ) / 10000) (Or.inl hgr)
      (fun np _ => by rw [hgreen, hred, hbnir]; exact ⟨rfl, rfl, rfl⟩)
    rw [hw] at this
    simp only [List.length_cons, List.length_nil, List.map_cons, List.map_nil, List.sum_cons, List.sum_nil] at this
    unfold predict
    simp only [hgreen, hred, hbnir]
    congr 1
    push_cast at this
    linarith
  have hskip : ∀ k, skip m k = false := by intro k; simp [skip, hoff, hc]
  have hstep : ∀ (y : Nat → ℤ) (j : Nat), j = 0 ∨ j = 1 → mergePixel ls m y (0, j)
      = fun k => if k = j then truncR (((y 0 : ℝ) + y 1) / 2) else y k := by
    intro y j hj
    unfold mergePixel
    simp only [hskip, hpred y j hj, Nat.zero_mul, Nat.zero_add]
    simp
  simp only [regression, List.foldl_cons, List.foldl_nil]
  rw [hstep y 0 (Or.inl rfl), hstep _ 1 (Or.inr rfl), hstep y 1 (Or.inr rfl), hstep _ 0 (Or.inl rfl)]
  simp only [if_true, if_false, zero_ne_one, one_ne_zero]
  intro e
  have t1 := truncR_near (((y 0 : ℝ) + y 1) / 2)
  have t2 := truncR_near (((y 0 : ℝ) + truncR (((y 0 : ℝ) + y 1) / 2)) / 2)
  have e' : (truncR (((y 0 : ℝ) + y 1) / 2) : ℝ) = truncR (((y 0 : ℝ) + truncR (((y 0 : ℝ) + y 1) / 2)) / 2) := by
    exact_mod_cast e
  rw [← e'] at t2
  generalize (truncR (((y 0 : ℝ) + y 1) / 2) : ℝ) = t at *
  have hd' : (16 : ℝ) ≤ |(y 0 : ℝ) - y 1| := by exact_mod_cast hd
  rcases le_or_gt 0 ((y 0 : ℝ) - y 1) with h | h
  · rw [abs_of_nonneg h] at hd'
    linarith
  · rw [abs_of_neg h] at hd'
    linarith

/-- C190, violated: at the border of the image and next to pixels without data, where the window
is not complete, a homogeneous 20 m band does not stay homogeneous. For every incomplete window
with pixels of two brightnesses in the 10 m bands, the regression does not return the value all
pixels have in the 20 m band. -/
theorem c190_border_violated (ls : List Row → Coef) (hls : LeastSquares ls) (m : Img) (y : Nat → ℤ) (i j : Nat)
    (y0 : ℤ) (hy0 : y0 ≠ 0) (g r n s t : ℝ) (hst : s ≠ t) (hs : s ≠ 0) (ht : t ≠ 0)
    (hne : g ≠ 0 ∨ r ≠ 0 ∨ n ≠ 0) (hlen : (window m i j).length < 25)
    (hy : ∀ np ∈ window m i j, y np = y0)
    (hf : ∀ np ∈ window m i j, ∃ u, (u = s ∨ u = t) ∧ (m.green np : ℝ) / 10000 = u * g ∧
      (m.red np : ℝ) / 10000 = u * r ∧ (m.bnir np : ℝ) / 10000 = u * n)
    (hp : (m.green (pix m i j) : ℝ) / 10000 = s * g ∧ (m.red (pix m i j) : ℝ) / 10000 = s * r ∧
      (m.bnir (pix m i j) : ℝ) / 10000 = s * n)
    (hother : ∃ np ∈ window m i j, (m.green np : ℝ) / 10000 = t * g ∧ (m.red np : ℝ) / 10000 = t * r ∧
      (m.bnir np : ℝ) / 10000 = t * n) :
    est (ls (rows m y i j)) (m.green (pix m i j) / 10000) (m.red (pix m i j) / 10000) (m.bnir (pix m i j) / 10000)
      ≠ (y0 : ℝ) / 10000 := by
  rw [hp.1, hp.2.1, hp.2.2]
  have n1 := normal hls (rows m y i j) (1, 0, 0, 0)
  have n2 := normal hls (rows m y i j) (0, g, r, n)
  generalize ls (rows m y i j) = c at *
  intro he
  have hq : 0 < g ^ 2 + r ^ 2 + n ^ 2 := by
    rcases hne with h | h | h <;> positivity
  set K : ℝ := ((25 - (window m i j).length : ℕ) : ℝ) with hK
  have hKpos : 0 < K := by
    rw [hK]
    have : 0 < 25 - (window m i j).length := by omega
    exact_mod_cast this
  -- residual of a pixel with brightness `t`
  set ρ : ℝ := (y0 : ℝ) / 10000 - est c (t * g) (t * r) (t * n) with hρ
  have hres : ∀ np ∈ window m i j, ∃ k : ℝ, (k = 0 ∨ k = 1) ∧ res c (row m y np) = k * ρ ∧
      res c (row m y np) * est (0, g, r, n) (row m y np).g (row m y np).r (row m y np).n
        = k * (ρ * (t * (g ^ 2 + r ^ 2 + n ^ 2))) ∧
      ((m.green np : ℝ) / 10000 = t * g ∧ (m.red np : ℝ) / 10000 = t * r ∧ (m.bnir np : ℝ) / 10000 = t * n → k = 1) := by
    intro np hnp
    obtain ⟨u, hu, f1, f2, f3⟩ := hf np hnp
    have hy' := hy np hnp
    rcases hu with rfl | rfl
    · refine ⟨0, Or.inl rfl, ?_, ?_, ?_⟩
      · simp only [row, res, f1, f2, f3, hy']
        rw [he]; ring
      · simp only [row, res, f1, f2, f3, hy']
        rw [he]; ring
      · rintro ⟨e1, e2, e3⟩
        exfalso
        rw [f1] at e1; rw [f2] at e2; rw [f3] at e3
        rcases hne with h | h | h
        · exact hst (mul_right_cancel₀ h e1)
        · exact hst (mul_right_cancel₀ h e2)
        · exact hst (mul_right_cancel₀ h e3)
    · refine ⟨1, Or.inr rfl, ?_, ?_, fun _ => rfl⟩
      · simp only [row, res, f1, f2, f3, hy', hρ]; ring
      · simp only [row, res, f1, f2, f3, hy', hρ]
        simp only [est]; ring
  have key : ∀ W : List Nat, (∀ np ∈ W, np ∈ window m i j) → ∃ N : ℝ, 0 ≤ N ∧
      (W.map fun np => res c (row m y np)).sum = N * ρ ∧
      (W.map fun np => res c (row m y np) * est (0, g, r, n) (row m y np).g (row m y np).r (row m y np).n).sum
        = N * (ρ * (t * (g ^ 2 + r ^ 2 + n ^ 2))) ∧
      ((∃ np ∈ W, (m.green np : ℝ) / 10000 = t * g ∧ (m.red np : ℝ) / 10000 = t * r ∧
        (m.bnir np : ℝ) / 10000 = t * n) → 0 < N) := by
    intro W
    induction W with
    | nil => intro _; exact ⟨0, le_rfl, by simp, by simp, by simp⟩
    | cons a W ih =>
      intro hW
      obtain ⟨N, hN, s1, s2, s3⟩ := ih (fun np hnp => hW np (by simp [hnp]))
      obtain ⟨k, hk, r1, r2, r3⟩ := hres a (hW a (by simp))
      have hk0 : 0 ≤ k := by rcases hk with rfl | rfl <;> norm_num
      refine ⟨k + N, by linarith, ?_, ?_, ?_⟩
      · rw [List.map_cons, List.sum_cons, s1, r1]; ring
      · rw [List.map_cons, List.sum_cons, s2, r2]; ring
      · rintro ⟨np, hnp, hh⟩
        rcases List.mem_cons.1 hnp with rfl | hnp
        · have := r3 hh; linarith
        · have := s3 ⟨np, hnp, hh⟩; linarith
  obtain ⟨N, hN, s1, s2, s3⟩ := key (window m i j) (fun _ h => h)
  have hNpos := s3 hother
  unfold rows at n1 n2
  rw [List.map_append, List.sum_append, List.map_replicate, List.sum_replicate, List.map_map] at n1 n2
  have z2 : res c ⟨0, 0, 0, 0⟩ * est (0, g, r, n) 0 0 0 = 0 := by simp [est]
  have z1 : res c ⟨0, 0, 0, 0⟩ * est (1, 0, 0, 0) 0 0 0 = -c.1 := by simp [est, res]
  simp only [z2, smul_zero, add_zero] at n2
  simp only [z1, nsmul_eq_mul] at n1
  have m2 : N * (ρ * (t * (g ^ 2 + r ^ 2 + n ^ 2))) = 0 := s2.symm.trans n2
  have hρ0 : ρ = 0 := by
    rcases mul_eq_zero.1 m2 with h | h
    · exact absurd h hNpos.ne'
    · rcases mul_eq_zero.1 h with h | h
      · exact h
      · rcases mul_eq_zero.1 h with h | h
        · exact absurd h ht
        · exact absurd h hq.ne'
  have m1 : (window m i j).map ((fun x => res c x * est (1, 0, 0, 0) x.g x.r x.n) ∘ row m y)
      = (window m i j).map fun np => res c (row m y np) := by
    apply List.map_congr_left
    intro np _
    simp [est]
  rw [m1, s1, hρ0] at n1
  have hc0 : c.1 = 0 := by
    have : K * -c.1 = 0 := by rw [hK]; linarith
    rcases mul_eq_zero.1 this with h | h
    · exact absurd h hKpos.ne'
    · linarith
  -- the line through the origin takes the same value at `s` and `t`
  rw [hρ] at hρ0
  have e1 : s * (c.2.1 * g + c.2.2.1 * r + c.2.2.2 * n) = (y0 : ℝ) / 10000 := by
    rw [← he]; simp only [est, hc0]; ring
  have e2 : t * (c.2.1 * g + c.2.2.1 * r + c.2.2.2 * n) = (y0 : ℝ) / 10000 := by
    have : est c (t * g) (t * r) (t * n) = (y0 : ℝ) / 10000 := by linarith
    rw [← this]; simp only [est, hc0]; ring
  have e3 : (s - t) * (c.2.1 * g + c.2.2.1 * r + c.2.2.2 * n) = 0 := by linarith
  rcases mul_eq_zero.1 e3 with h | h
  · exact hst (by linarith)
  · rw [h, mul_zero] at e1
    have : (y0 : ℝ) = 0 := by linarith
    exact hy0 (by exact_mod_cast this)

end Verif.Merge
