import Verif.Ard.Model
import Mathlib.Analysis.SpecialFunctions.Log.Basic
import Mathlib.Analysis.Real.Sqrt
import Mathlib.Algebra.Order.BigOperators.Group.List
import Mathlib.Tactic.Linarith
import Mathlib.Tactic.FieldSimp

/-!
# Aggregation with a point spread function: theorems
-/

namespace Verif.Ard

open Verif.Str (Out)

/-! ## Width of the kernel -/

/-- The standard deviation for which the weight at half a pixel is half of the maximum. -/
noncomputable def halfWidth (r : ℝ) : ℝ := r / (2 * Real.sqrt (2 * Real.log 2))

theorem log_two_pos : 0 < Real.log 2 := Real.log_pos (by norm_num)

theorem halfExcess_pos {r s : ℝ} (hr : 0 < r) (hs : 0 < s) : halfExcess r s > 0 ↔ s < halfWidth r := by
  have hl := log_two_pos
  have hq : 0 < Real.sqrt (2 * Real.log 2) := Real.sqrt_pos.2 (by positivity)
  have hq2 : Real.sqrt (2 * Real.log 2) * Real.sqrt (2 * Real.log 2) = 2 * Real.log 2 := Real.mul_self_sqrt (by positivity)
  have hsig : 0 < s * s * 2 := by positivity
  have hamp : 0 < 1 / (Real.pi * (s * s * 2)) := by have := Real.pi_pos; positivity
  have e1 : halfExcess r s = 1 / (Real.pi * (s * s * 2)) * (1 / 2 - Real.exp (-((r / 2) * (r / 2)) / (s * s * 2))) := by
    unfold halfExcess
    ring
  rw [e1, gt_iff_lt, mul_pos_iff_of_pos_left hamp, sub_pos]
  have e2 : (1 / 2 : ℝ) = Real.exp (-Real.log 2) := by rw [Real.exp_neg, Real.exp_log (by norm_num)]; norm_num
  rw [e2, Real.exp_lt_exp, div_lt_iff₀ hsig, halfWidth, lt_div_iff₀ (by positivity)]
  constructor
  · intro h
    refine lt_of_pow_lt_pow_left₀ 2 hr.le ?_
    calc (s * (2 * Real.sqrt (2 * Real.log 2))) ^ 2 = 4 * s * s * (Real.sqrt (2 * Real.log 2) * Real.sqrt (2 * Real.log 2)) := by ring
      _ = 8 * s * s * Real.log 2 := by rw [hq2]; ring
      _ < r ^ 2 := by nlinarith
  · intro h
    have h2 : (s * (2 * Real.sqrt (2 * Real.log 2))) ^ 2 < r ^ 2 := pow_lt_pow_left₀ h (by positivity) (by norm_num)
    have e3 : (s * (2 * Real.sqrt (2 * Real.log 2))) ^ 2 = 8 * s * s * Real.log 2 := by
      calc (s * (2 * Real.sqrt (2 * Real.log 2))) ^ 2 = 4 * s * s * (Real.sqrt (2 * Real.log 2) * Real.sqrt (2 * Real.log 2)) := by ring
        _ = 8 * s * s * Real.log 2 := by rw [hq2]; ring
    rw [e3] at h2
    nlinarith

theorem sigmaLoop_spec {r : ℝ} (hr : 0 < r) (n : Nat) (s0 : ℝ) (h0 : 0 ≤ s0) (h1 : s0 < halfWidth r) (h2 : halfWidth r ≤ s0 + ((n : ℝ) + 1) / 100) :
    ∃ s, (∀ fuel, n + 1 ≤ fuel → sigmaLoop r fuel s0 = some s) ∧ s0 ≤ s - 1 / 100 ∧ s - 1 / 100 < halfWidth r ∧ halfWidth r ≤ s := by
  induction n generalizing s0 with
  | zero =>
    refine ⟨s0 + 1 / 100, ?_, by linarith, by linarith, by norm_num at h2; linarith⟩
    intro fuel hf
    obtain ⟨k, rfl⟩ : ∃ k, fuel = k + 1 := ⟨fuel - 1, by omega⟩
    rw [sigmaLoop, if_neg]
    rw [halfExcess_pos hr (by linarith)]
    norm_num at h2 ⊢
    linarith
  | succ n ih =>
    by_cases hc : s0 + 1 / 100 < halfWidth r
    · obtain ⟨s, hs, ha, hb⟩ := ih (s0 + 1 / 100) (by linarith) hc (by push_cast at h2; linarith)
      refine ⟨s, ?_, by linarith, hb⟩
      intro fuel hf
      obtain ⟨k, rfl⟩ : ∃ k, fuel = k + 1 := ⟨fuel - 1, by omega⟩
      rw [sigmaLoop, if_pos ((halfExcess_pos hr (by linarith)).2 hc)]
      exact hs k (by omega)
    · refine ⟨s0 + 1 / 100, ?_, by linarith, by linarith, by linarith⟩
      intro fuel hf
      obtain ⟨k, rfl⟩ : ∃ k, fuel = k + 1 := ⟨fuel - 1, by omega⟩
      rw [sigmaLoop, if_neg]
      rw [halfExcess_pos hr (by linarith)]
      exact hc

/-- C135: the search for the width of the kernel ends, with the width at which the weight half a pixel from the centre is half of the maximum, from below and within
a hundredth. -/
theorem c135_sigma (r : ℝ) (hr : 0 < r) :
    ∃ σ N, (∀ fuel, N ≤ fuel → findSigma r fuel = some σ) ∧ 0 ≤ σ ∧ σ < r / (2 * Real.sqrt (2 * Real.log 2)) ∧ r / (2 * Real.sqrt (2 * Real.log 2)) ≤ σ + 1 / 100 := by
  have hl := log_two_pos
  have hq : 0 < Real.sqrt (2 * Real.log 2) := Real.sqrt_pos.2 (by positivity)
  have hw : 0 < halfWidth r := by unfold halfWidth; positivity
  obtain ⟨n, hn⟩ := exists_nat_gt (halfWidth r * 100)
  obtain ⟨s, h1, h2, h3, h4⟩ := sigmaLoop_spec hr n 0 le_rfl hw (by linarith)
  refine ⟨s - 1 / 100, n + 1, ?_, h2, h3, by unfold halfWidth at h4; linarith⟩
  intro fuel hf
  rw [findSigma, h1 fuel hf]
  rfl

/-- The half maximum, in words: at the distance of half a pixel the weight is more than half of the maximum for all widths above `r / (2 √(2 ln 2))`, and less below. -/
theorem c135_half (r s : ℝ) (hr : 0 < r) (hs : 0 < s) :
    Real.exp (-((r / 2) ^ 2) / (2 * s ^ 2)) < 1 / 2 ↔ s < r / (2 * Real.sqrt (2 * Real.log 2)) := by
  have h := halfExcess_pos hr hs
  have hamp : 0 < 1 / (Real.pi * (s * s * 2)) := by have := Real.pi_pos; positivity
  have e1 : halfExcess r s = 1 / (Real.pi * (s * s * 2)) * (1 / 2 - Real.exp (-((r / 2) ^ 2) / (2 * s ^ 2))) := by
    unfold halfExcess
    have : s * s * 2 = 2 * s ^ 2 := by ring
    rw [this, show r / 2 * (r / 2) = (r / 2) ^ 2 by ring]
    ring
  rw [e1, gt_iff_lt, mul_pos_iff_of_pos_left hamp, sub_pos] at h
  exact h

theorem gauss_pos (nk : Nat) {σ : ℝ} (h : σ ≠ 0) (i j : Nat) : 0 < gauss nk σ i j := by
  unfold gauss
  have := Real.pi_pos
  have : 0 < σ * σ := mul_self_pos.2 h
  positivity

/-- C135: the weights are positive, the same in both directions and on both sides of the centre, and largest at the centre. -/
theorem c135_kernel (m : Nat) (σ : ℝ) (h : σ ≠ 0) (i j : Nat) (hi : i < 2 * m + 1) (hj : j < 2 * m + 1) :
    0 < gauss (2 * m + 1) σ i j ∧ gauss (2 * m + 1) σ i j = gauss (2 * m + 1) σ j i ∧
    gauss (2 * m + 1) σ i j = gauss (2 * m + 1) σ (2 * m - i) j ∧ gauss (2 * m + 1) σ i j = gauss (2 * m + 1) σ i (2 * m - j) ∧
    gauss (2 * m + 1) σ i j ≤ gauss (2 * m + 1) σ m m ∧ ((i, j) ≠ (m, m) → gauss (2 * m + 1) σ i j < gauss (2 * m + 1) σ m m) := by
  have hσ : 0 < σ * σ * 2 := mul_pos (mul_self_pos.2 h) two_pos
  have hamp : 0 < 1 / (Real.pi * (σ * σ * 2)) := by have := Real.pi_pos; positivity
  have hm : (((2 * m + 1 : Nat) : Int) - 1) / 2 = m := by omega
  have e : ∀ i j : Nat, gauss (2 * m + 1) σ i j = 1 / (Real.pi * (σ * σ * 2)) *
      Real.exp (-((((-(m : Int) + j : Int)) : ℝ) * (((-(m : Int) + j : Int)) : ℝ) + (((-(m : Int) + i : Int)) : ℝ) * (((-(m : Int) + i : Int)) : ℝ)) / (σ * σ * 2)) := by
    intro i j
    unfold gauss
    rw [hm]
  refine ⟨gauss_pos _ h i j, ?_, ?_, ?_, ?_, ?_⟩
  · rw [e, e]
    congr 2
    ring
  · rw [e, e]
    congr 3
    have : ((-(m : Int) + ((2 * m - i : Nat) : Int) : Int) : ℝ) = -((-(m : Int) + i : Int) : ℝ) := by
      rw [← Int.cast_neg]
      congr 1
      omega
    rw [this]
    ring
  · rw [e, e]
    congr 3
    have : ((-(m : Int) + ((2 * m - j : Nat) : Int) : Int) : ℝ) = -((-(m : Int) + j : Int) : ℝ) := by
      rw [← Int.cast_neg]
      congr 1
      omega
    rw [this]
    ring
  · rw [e, e]
    refine mul_le_mul_of_nonneg_left ?_ hamp.le
    rw [Real.exp_le_exp]
    refine div_le_div_of_nonneg_right ?_ hσ.le
    push_cast
    nlinarith [mul_self_nonneg (-(m : ℝ) + j), mul_self_nonneg (-(m : ℝ) + i)]
  · intro hne
    rw [e, e]
    refine mul_lt_mul_of_pos_left ?_ hamp
    rw [Real.exp_lt_exp]
    refine div_lt_div_of_pos_right ?_ hσ
    have key : (0 : Int) < (-(m : Int) + j) * (-(m : Int) + j) + (-(m : Int) + i) * (-(m : Int) + i) := by
      by_cases h1 : i = m
      · have h2 : j ≠ m := fun h2 => hne (by rw [h1, h2])
        have : (-(m : Int) + j) ≠ 0 := by omega
        have := mul_self_pos.2 this
        nlinarith [mul_self_nonneg (-(m : Int) + i)]
      · have : (-(m : Int) + i) ≠ 0 := by omega
        have := mul_self_pos.2 this
        nlinarith [mul_self_nonneg (-(m : Int) + j)]
    have key' : (0 : ℝ) < ((-(m : Int) + j : Int) : ℝ) * ((-(m : Int) + j : Int) : ℝ) + ((-(m : Int) + i : Int) : ℝ) * ((-(m : Int) + i : Int) : ℝ) := by
      exact_mod_cast key
    push_cast at key' ⊢
    nlinarith

/-! ## Weighted averages -/

theorem average_bounds {A : Type} (l : List A) (w v : A → ℝ) (lo hi : ℝ) (hw : ∀ a ∈ l, 0 < w a) (hv : ∀ a ∈ l, lo ≤ v a ∧ v a ≤ hi) (hne : l ≠ []) :
    0 < (l.map w).sum ∧ lo ≤ (l.map fun a => v a * w a).sum / (l.map w).sum ∧ (l.map fun a => v a * w a).sum / (l.map w).sum ≤ hi := by
  have key : ∀ l : List A, (∀ a ∈ l, 0 < w a) → (∀ a ∈ l, lo ≤ v a ∧ v a ≤ hi) →
      0 ≤ (l.map w).sum ∧ lo * (l.map w).sum ≤ (l.map fun a => v a * w a).sum ∧ (l.map fun a => v a * w a).sum ≤ hi * (l.map w).sum := by
    intro l hw hv
    induction l with
    | nil => simp
    | cons a l ih =>
      obtain ⟨i1, i2, i3⟩ := ih (fun x hx => hw x (List.mem_cons_of_mem _ hx)) (fun x hx => hv x (List.mem_cons_of_mem _ hx))
      have h1 := hw a List.mem_cons_self
      obtain ⟨h2, h3⟩ := hv a List.mem_cons_self
      simp only [List.map_cons, List.sum_cons]
      refine ⟨by linarith, by nlinarith, by nlinarith⟩
  cases l with
  | nil => exact absurd rfl hne
  | cons a l =>
    obtain ⟨k1, k2, k3⟩ := key (a :: l) hw hv
    have hp : 0 < ((a :: l).map w).sum := by
      obtain ⟨i1, -, -⟩ := key l (fun x hx => hw x (List.mem_cons_of_mem _ hx)) (fun x hx => hv x (List.mem_cons_of_mem _ hx))
      have h1 := hw a List.mem_cons_self
      simp only [List.map_cons, List.sum_cons]
      linarith
    refine ⟨hp, ?_, ?_⟩
    · rw [le_div_iff₀ hp]; exact k2
    · rw [div_le_iff₀ hp]; exact k3

/-! ## The convolved image -/

theorem mem_window (nk nx ny : Nat) (i j : Int) (w : (Nat × Nat) × (Int × Int)) (h : w ∈ window nk nx ny i j) :
    0 ≤ w.2.1 ∧ w.2.1 < ny ∧ 0 ≤ w.2.2 ∧ w.2.2 < nx := by
  unfold window at h
  rw [List.mem_filter, decide_eq_true_eq] at h
  exact h.2

theorem centre_window (m nx ny : Nat) (i j : Int) (hi : 0 ≤ i ∧ i < ny) (hj : 0 ≤ j ∧ j < nx) :
    ((m, m), (i, j)) ∈ window (2 * m + 1) nx ny i j := by
  unfold window
  rw [List.mem_filter, decide_eq_true_eq]
  refine ⟨?_, hi.1, hi.2, hj.1, hj.2⟩
  simp only [List.mem_flatMap, List.mem_map, List.mem_range]
  refine ⟨m, by omega, m, by omega, ?_⟩
  simp only [Prod.mk.injEq, true_and]
  constructor <;> omega

theorem kernelWidth_odd (r : ℝ) : ∃ m, kernelWidth r = 2 * m + 1 := by
  unfold kernelWidth
  split
  · exact ⟨⌊r * 2⌋₊ / 2, by omega⟩
  · exact ⟨⌊r * 2⌋₊ / 2, by omega⟩

/-- A missing pixel stays missing; the others get an average of valid pixels. -/
theorem smooth_spec (m : Nat) {σ : ℝ} (hσ : σ ≠ 0) (nx ny : Nat) (hr : Img) (nodata lo hi : Int) (i j : Int) (hi' : 0 ≤ i ∧ i < ny) (hj : 0 ≤ j ∧ j < nx)
    (hv : ∀ y x : Int, 0 ≤ y → y < ny → 0 ≤ x → x < nx → hr y x ≠ nodata → lo ≤ hr y x ∧ hr y x ≤ hi) :
    (hr i j = nodata → smooth (gauss (2 * m + 1) σ) (2 * m + 1) nx ny hr nodata i j = nodata) ∧
    (hr i j ≠ nodata → (lo : ℝ) / 10000 ≤ smooth (gauss (2 * m + 1) σ) (2 * m + 1) nx ny hr nodata i j ∧
      smooth (gauss (2 * m + 1) σ) (2 * m + 1) nx ny hr nodata i j ≤ (hi : ℝ) / 10000) := by
  constructor
  · intro h
    unfold smooth
    rw [if_pos h]
  · intro h
    unfold smooth
    rw [if_neg h]
    simp only
    obtain ⟨a, b, c⟩ := average_bounds ((window (2 * m + 1) nx ny i j).filter fun w => decide (hr w.2.1 w.2.2 ≠ nodata))
      (fun w => gauss (2 * m + 1) σ w.1.1 w.1.2) (fun w => ((hr w.2.1 w.2.2 : Int) : ℝ) / 10000) ((lo : ℝ) / 10000) ((hi : ℝ) / 10000)
      (fun w _ => gauss_pos _ hσ _ _)
      (by
        intro w hw
        rw [List.mem_filter, decide_eq_true_eq] at hw
        obtain ⟨b1, b2, b3, b4⟩ := mem_window _ _ _ _ _ _ hw.1
        obtain ⟨c1, c2⟩ := hv _ _ b1 b2 b3 b4 hw.2
        have d1 : (lo : ℝ) ≤ (hr w.2.1 w.2.2 : ℝ) := by exact_mod_cast c1
        have d2 : (hr w.2.1 w.2.2 : ℝ) ≤ (hi : ℝ) := by exact_mod_cast c2
        constructor <;> linarith)
      (by
        intro h0
        have : ((m, m), (i, j)) ∈ (window (2 * m + 1) nx ny i j).filter fun w => decide (hr w.2.1 w.2.2 ≠ nodata) := by
          rw [List.mem_filter, decide_eq_true_eq]
          exact ⟨centre_window m nx ny i j hi' hj, h⟩
        rw [h0] at this
        exact absurd this List.not_mem_nil)
    rw [if_pos a]
    exact ⟨b, c⟩

/-! ## The footprint -/

/-- The fine pixel `n` and the coarse pixel `i` have a common part (in one direction); `r` fine pixels per coarse pixel. -/
def Overlaps (r : ℝ) (i n : Int) : Prop := (n : ℝ) < (i + 1) * r ∧ (i : ℝ) * r < n + 1

theorem covered_overlaps {r : ℝ} (hr : 0 < r) {i n : Int} (k : Nat) (hk : k < ⌈r⌉₊) (hn : n = ⌊(i : ℝ) * r⌋ + (k : Int)) : Overlaps r i n := by
  have h1 : ((k : ℝ)) < r := by
    rcases lt_or_ge (k : ℝ) r with h | h
    · exact h
    · exact absurd (Nat.ceil_le.2 h) (by omega)
  have h2 := Int.floor_le ((i : ℝ) * r)
  have h3 := Int.lt_floor_add_one ((i : ℝ) * r)
  have e : (n : ℝ) = (⌊(i : ℝ) * r⌋ : ℝ) + k := by rw [hn]; push_cast; ring
  unfold Overlaps
  rw [e]
  constructor
  · nlinarith
  · have : (0 : ℝ) ≤ k := Nat.cast_nonneg k
    linarith

theorem mem_covered {r : ℝ} {nx ny : Nat} {i j y x : Int} :
    (y, x) ∈ covered r nx ny i j ↔ (∃ k : Nat, k < ⌈r⌉₊ ∧ y = ⌊(i : ℝ) * r⌋ + (k : Int)) ∧ (∃ k : Nat, k < ⌈r⌉₊ ∧ x = ⌊(j : ℝ) * r⌋ + (k : Int)) ∧ y < ny ∧ x < nx := by
  unfold covered
  simp only [List.mem_filter, List.mem_flatMap, List.mem_map, List.mem_range, Bool.not_eq_true', Bool.or_eq_false_iff, decide_eq_false_iff_not, not_le, ge_iff_le, Prod.mk.injEq]
  constructor
  · rintro ⟨⟨a, ha, b, hb, e1, e2⟩, h1, h2⟩
    exact ⟨⟨a, ha, e1.symm⟩, ⟨b, hb, e2.symm⟩, h1, h2⟩
  · rintro ⟨⟨a, ha, e1⟩, ⟨b, hb, e2⟩, h1, h2⟩
    exact ⟨⟨a, ha, b, hb, e1.symm, e2.symm⟩, h1, h2⟩

theorem share_pos {r : ℝ} (hr : 0 < r) {i n : Int} (h : Overlaps r i n) : 0 < share r i n := by
  unfold share Overlaps at *
  have a1 : (n : ℝ) / r < i + 1 := by rw [div_lt_iff₀ hr]; exact h.1
  have a2 : (i : ℝ) < ((n : ℝ) + 1) / r := by rw [lt_div_iff₀ hr]; exact h.2
  have a3 : (n : ℝ) / r < ((n : ℝ) + 1) / r := by apply div_lt_div_of_pos_right _ hr; linarith
  rw [sub_pos, lt_min_iff]
  constructor
  · rw [max_lt_iff]; constructor <;> linarith
  · rw [max_lt_iff]; constructor <;> linarith

theorem mem_present {g : Int → Int → ℝ} {nodata : Int} {ps : List (Int × Int)} {p : Int × Int} : p ∈ present g nodata ps ↔ p ∈ ps ∧ g p.1 p.2 ≠ (nodata : ℝ) := by
  unfold present
  rw [List.mem_filter, decide_eq_true_eq]

/-- The value of a coarse pixel lies between bounds of the convolved values; it is missing exactly if nothing is there. -/
theorem coarse_spec {r : ℝ} (hr : 0 < r) (nx ny : Nat) (g : Int → Int → ℝ) (nodata lo hi : Int) (i j : Int) (hlo : -32768 ≤ lo) (hhi : hi ≤ 32767)
    (hg : ∀ p ∈ covered r nx ny i j, g p.1 p.2 ≠ (nodata : ℝ) → (lo : ℝ) / 10000 ≤ g p.1 p.2 ∧ g p.1 p.2 ≤ (hi : ℝ) / 10000) :
    ((∀ p ∈ covered r nx ny i j, g p.1 p.2 = (nodata : ℝ)) → coarse r nx ny g nodata i j = .ok nodata) ∧
    ((∃ p ∈ covered r nx ny i j, g p.1 p.2 ≠ (nodata : ℝ)) → ∃ v, coarse r nx ny g nodata i j = .ok v ∧ lo ≤ v ∧ v ≤ hi) := by
  classical
  constructor
  · intro h
    unfold coarse
    simp only
    have e : (present g nodata (covered r nx ny i j)) = [] := by
      rw [List.eq_nil_iff_forall_not_mem]
      intro p hp
      rw [mem_present] at hp
      exact hp.2 (h p hp.1)
    rw [e]
    simp
  · rintro ⟨p, hp, hne⟩
    unfold coarse
    simp only
    obtain ⟨a, b, c⟩ := average_bounds (present g nodata (covered r nx ny i j))
      (fun p => share r i p.1 * share r j p.2) (fun p => g p.1 p.2) ((lo : ℝ) / 10000) ((hi : ℝ) / 10000)
      (by
        intro q hq
        rw [mem_present] at hq
        obtain ⟨⟨k, hk, e⟩, ⟨k', hk', e'⟩, -⟩ := mem_covered.1 hq.1
        exact mul_pos (share_pos hr (covered_overlaps hr k hk e)) (share_pos hr (covered_overlaps hr k' hk' e')))
      (by
        intro q hq
        rw [mem_present] at hq
        exact hg q hq.1 hq.2)
      (by
        intro h0
        have : p ∈ present g nodata (covered r nx ny i j) := by
          rw [mem_present]
          exact ⟨hp, hne⟩
        rw [h0] at this
        exact absurd this List.not_mem_nil)
    rw [if_pos a]
    generalize (List.map (fun p => g p.1 p.2 * (share r i p.1 * share r j p.2))
      (present g nodata (covered r nx ny i j))).sum /
      (List.map (fun p => share r i p.1 * share r j p.2)
      (present g nodata (covered r nx ny i j))).sum = q at b c ⊢
    have b' : (lo : ℝ) ≤ q * 10000 := by linarith
    have c' : q * 10000 ≤ (hi : ℝ) := by linarith
    have key : lo ≤ (if 0 ≤ q * 10000 then ⌊q * 10000⌋ else ⌈q * 10000⌉) ∧ (if 0 ≤ q * 10000 then ⌊q * 10000⌋ else ⌈q * 10000⌉) ≤ hi := by
      split
      · exact ⟨Int.le_floor.2 b', by exact_mod_cast (Int.floor_le (q * 10000)).trans c'⟩
      · exact ⟨by exact_mod_cast b'.trans (Int.le_ceil (q * 10000)), Int.ceil_le.2 c'⟩
    unfold shortOf
    simp only
    rw [if_pos ⟨by omega, by omega⟩]
    exact ⟨_, rfl, key⟩

/-- Everything of an aggregated pixel, for any covered set. -/
theorem reduce_spec (nx ny NX : Nat) (hN : 0 < NX) (hNn : NX ≤ nx) (hr : Img) (lo hi : Int) (hlo : -32768 ≤ lo) (hhi : hi ≤ 32767)
    (hv : ∀ y x : Int, 0 ≤ y → y < ny → 0 ≤ x → x < nx → hr y x ≠ -9999 → lo ≤ hr y x ∧ hr y x ≤ hi) (i j : Int) (hi0 : 0 ≤ i) (hj0 : 0 ≤ j) :
    ∃ N, ∀ fuel, N ≤ fuel → ∃ v, reducePsf nx ny NX hr (-9999) fuel i j = some (.ok v) ∧
      ((∀ p ∈ covered ((nx : ℝ) / NX) nx ny i j, hr p.1 p.2 = -9999) → v = -9999) ∧
      ((∃ p ∈ covered ((nx : ℝ) / NX) nx ny i j, hr p.1 p.2 ≠ -9999) → lo ≤ v ∧ v ≤ hi) := by
  have hNr : (0 : ℝ) < NX := by exact_mod_cast hN
  have hr1 : (1 : ℝ) ≤ (nx : ℝ) / NX := by
    rw [le_div_iff₀ hNr, one_mul]
    exact_mod_cast hNn
  have hr0 : (0 : ℝ) < (nx : ℝ) / NX := by linarith
  obtain ⟨σ, N, hf, h0, h1, h2⟩ := c135_sigma _ hr0
  have hσ : σ ≠ 0 := by
    intro h
    rw [h] at h2
    have hl := log_two_pos
    have hl1 : Real.log 2 ≤ 1 := by
      have := Real.log_le_sub_one_of_pos (show (0 : ℝ) < 2 by norm_num)
      linarith
    have hq : Real.sqrt (2 * Real.log 2) ≤ 2 := by
      rw [show (2 : ℝ) = Real.sqrt (2 ^ 2) by rw [Real.sqrt_sq (by norm_num)]]
      apply Real.sqrt_le_sqrt
      rw [Real.sqrt_sq (by norm_num)]
      nlinarith
    have hq0 : 0 < Real.sqrt (2 * Real.log 2) := Real.sqrt_pos.2 (by positivity)
    rw [div_le_iff₀ (by positivity)] at h2
    nlinarith
  obtain ⟨m, hm⟩ := kernelWidth_odd ((nx : ℝ) / NX)
  refine ⟨N, ?_⟩
  intro fuel hfu
  have bnd : ∀ p ∈ covered ((nx : ℝ) / NX) nx ny i j, (0 ≤ p.1 ∧ p.1 < ny) ∧ (0 ≤ p.2 ∧ p.2 < nx) := by
    intro p hp
    obtain ⟨⟨k, -, e⟩, ⟨k', -, e'⟩, h1, h2⟩ := mem_covered.1 hp
    have f1 : 0 ≤ ⌊(i : ℝ) * ((nx : ℝ) / NX)⌋ := Int.floor_nonneg.2 (mul_nonneg (by exact_mod_cast hi0) hr0.le)
    have f2 : 0 ≤ ⌊(j : ℝ) * ((nx : ℝ) / NX)⌋ := Int.floor_nonneg.2 (mul_nonneg (by exact_mod_cast hj0) hr0.le)
    exact ⟨⟨by omega, h1⟩, ⟨by omega, h2⟩⟩
  have sm : ∀ p ∈ covered ((nx : ℝ) / NX) nx ny i j, _ := fun p hp => smooth_spec m hσ nx ny hr (-9999) lo hi p.1 p.2 (bnd p hp).1 (bnd p hp).2 hv
  have nd : ∀ p ∈ covered ((nx : ℝ) / NX) nx ny i j, hr p.1 p.2 ≠ -9999 →
      smooth (gauss (2 * m + 1) σ) (2 * m + 1) nx ny hr (-9999) p.1 p.2 ≠ ((-9999 : Int) : ℝ) := by
    intro p hp h
    have b := ((sm p hp).2 h).1
    have l : (-32768 : ℝ) ≤ (lo : ℝ) := by exact_mod_cast hlo
    intro e
    rw [e] at b
    push_cast at b
    linarith
  have cs := coarse_spec hr0 nx ny (smooth (gauss (2 * m + 1) σ) (2 * m + 1) nx ny hr (-9999)) (-9999) lo hi i j hlo hhi (by
    intro p hp h
    by_cases hh : hr p.1 p.2 = -9999
    · exact absurd ((sm p hp).1 hh) h
    · exact (sm p hp).2 hh)
  have e : reducePsf nx ny NX hr (-9999) fuel i j =
      some (coarse ((nx : ℝ) / NX) nx ny (smooth (gauss (2 * m + 1) σ) (2 * m + 1) nx ny hr (-9999)) (-9999) i j) := by
    unfold reducePsf
    simp only
    rw [hf fuel hfu, hm]
    rfl
  rw [e]
  by_cases hall : ∀ p ∈ covered ((nx : ℝ) / NX) nx ny i j, hr p.1 p.2 = -9999
  · refine ⟨-9999, ?_, fun _ => rfl, ?_⟩
    · rw [cs.1 (fun p hp => (sm p hp).1 (hall p hp))]
    · rintro ⟨p, hp, h⟩
      exact absurd (hall p hp) h
  · have hex : ∃ p ∈ covered ((nx : ℝ) / NX) nx ny i j, hr p.1 p.2 ≠ -9999 := by
      by_contra hc
      exact hall (fun p hp => by_contra fun h => hc ⟨p, hp, h⟩)
    obtain ⟨p, hp, h⟩ := hex
    obtain ⟨v, hv1, hv2⟩ := cs.2 ⟨p, hp, nd p hp h⟩
    exact ⟨v, by rw [hv1], fun h => absurd h hall, fun _ => hv2⟩

/-- C134: an aggregated pixel lies between the smallest and the largest valid value of the image, or is missing; it is missing if none of the pixels of its
footprint is valid. (Nodata is −9999; the range is that of 16-bit integers.) -/
theorem c134_range (nx ny NX : Nat) (hN : 0 < NX) (hNn : NX ≤ nx) (hr : Img) (lo hi : Int) (hlo : -32768 ≤ lo) (hhi : hi ≤ 32767)
    (hv : ∀ y x : Int, 0 ≤ y → y < ny → 0 ≤ x → x < nx → hr y x ≠ -9999 → lo ≤ hr y x ∧ hr y x ≤ hi) (i j : Int) (hi0 : 0 ≤ i) (hj0 : 0 ≤ j) :
    ∃ N, ∀ fuel, N ≤ fuel → ∃ v, reducePsf nx ny NX hr (-9999) fuel i j = some (.ok v) ∧ (v = -9999 ∨ lo ≤ v ∧ v ≤ hi) ∧
      ((∀ y x : Int, 0 ≤ y → y < ny → 0 ≤ x → x < nx → Overlaps ((nx : ℝ) / NX) i y → Overlaps ((nx : ℝ) / NX) j x → hr y x = -9999) → v = -9999) := by
  have hNr : (0 : ℝ) < NX := by exact_mod_cast hN
  have hr0 : (0 : ℝ) < (nx : ℝ) / NX := by
    apply div_pos _ hNr
    exact_mod_cast lt_of_lt_of_le hN hNn
  obtain ⟨N, h⟩ := reduce_spec nx ny NX hN hNn hr lo hi hlo hhi hv i j hi0 hj0
  refine ⟨N, fun fuel hf => ?_⟩
  obtain ⟨v, h1, h2, h3⟩ := h fuel hf
  refine ⟨v, h1, ?_, ?_⟩
  · by_cases hall : ∀ p ∈ covered ((nx : ℝ) / NX) nx ny i j, hr p.1 p.2 = -9999
    · exact Or.inl (h2 hall)
    · right
      apply h3
      by_contra hc
      exact hall (fun p hp => by_contra fun h => hc ⟨p, hp, h⟩)
  · intro hno
    apply h2
    intro p hp
    obtain ⟨⟨k, hk, e⟩, ⟨k', hk', e'⟩, l1, l2⟩ := mem_covered.1 hp
    have f1 : 0 ≤ ⌊(i : ℝ) * ((nx : ℝ) / NX)⌋ := Int.floor_nonneg.2 (mul_nonneg (by exact_mod_cast hi0) hr0.le)
    have f2 : 0 ≤ ⌊(j : ℝ) * ((nx : ℝ) / NX)⌋ := Int.floor_nonneg.2 (mul_nonneg (by exact_mod_cast hj0) hr0.le)
    exact hno p.1 p.2 (by omega) l1 (by omega) l2 (covered_overlaps hr0 k hk e) (covered_overlaps hr0 k' hk' e')

theorem overlaps_covered {r : ℝ} (hr : 0 < r) {i n : Int} (hc : ((i : ℝ) + 1) * r ≤ (⌊(i : ℝ) * r⌋ : ℝ) + ⌈r⌉₊) (h : Overlaps r i n) :
    ∃ k : Nat, k < ⌈r⌉₊ ∧ n = ⌊(i : ℝ) * r⌋ + (k : Int) := by
  obtain ⟨h1, h2⟩ := h
  have l : ⌊(i : ℝ) * r⌋ < n + 1 := by
    rw [Int.floor_lt]; push_cast; exact h2
  have u : n < ⌊(i : ℝ) * r⌋ + (⌈r⌉₊ : Int) := by
    have : (n : ℝ) < (⌊(i : ℝ) * r⌋ : ℝ) + ⌈r⌉₊ := lt_of_lt_of_le h1 hc
    exact_mod_cast this
  exact ⟨(n - ⌊(i : ℝ) * r⌋).toNat, by omega, by omega⟩

/-- C134: an image that is the same everywhere stays as it is. -/
theorem c134_constant (nx ny NX : Nat) (hN : 0 < NX) (hNn : NX ≤ nx) (c : Int) (hc : c ≠ -9999) (hlo : -32768 ≤ c) (hhi : c ≤ 32767)
    (i j : Int) (hi0 : 0 ≤ i) (hj0 : 0 ≤ j) (hi : i * nx < ny * NX) (hj : j < NX) :
    ∃ N, ∀ fuel, N ≤ fuel → reducePsf nx ny NX (fun _ _ => c) (-9999) fuel i j = some (.ok c) := by
  have hNr : (0 : ℝ) < NX := by exact_mod_cast hN
  have hr1 : (1 : ℝ) ≤ (nx : ℝ) / NX := by
    rw [le_div_iff₀ hNr, one_mul]
    exact_mod_cast hNn
  obtain ⟨N, h⟩ := reduce_spec nx ny NX hN hNn (fun _ _ => c) c c hlo hhi (fun _ _ _ _ _ _ _ => ⟨le_rfl, le_rfl⟩) i j hi0 hj0
  refine ⟨N, fun fuel hf => ?_⟩
  obtain ⟨v, h1, -, h3⟩ := h fuel hf
  have hpos : 0 < ⌈(nx : ℝ) / NX⌉₊ := Nat.ceil_pos.2 (by linarith)
  have e1 : ⌊(i : ℝ) * ((nx : ℝ) / NX)⌋ < ny := by
    rw [Int.floor_lt, ← mul_div_assoc, div_lt_iff₀ hNr]
    exact_mod_cast hi
  have e2 : ⌊(j : ℝ) * ((nx : ℝ) / NX)⌋ < nx := by
    rw [Int.floor_lt, ← mul_div_assoc, div_lt_iff₀ hNr]
    have : (j : ℝ) < NX := by exact_mod_cast hj
    have hx : (0 : ℝ) < nx := by exact_mod_cast lt_of_lt_of_le hN hNn
    push_cast
    nlinarith
  have := h3 ⟨(⌊(i : ℝ) * ((nx : ℝ) / NX)⌋, ⌊(j : ℝ) * ((nx : ℝ) / NX)⌋), mem_covered.2 ⟨⟨0, hpos, by simp⟩, ⟨0, hpos, by simp⟩, e1, e2⟩, hc⟩
  rw [h1, show v = c by omega]

/-! ## The weights -/

theorem sum_filter {A : Type} (l : List A) (p : A → Bool) (f : A → ℝ) : ((l.filter p).map f).sum = (l.map fun x => if p x then f x else 0).sum := by
  induction l with
  | nil => rfl
  | cons a l ih =>
    rw [List.filter_cons]
    cases h : p a <;> simp [h, ih]

theorem sum_flatMap {A B : Type} (l : List A) (g : A → List B) (f : B → ℝ) : ((l.flatMap g).map f).sum = (l.map fun a => ((g a).map f).sum).sum := by
  induction l with
  | nil => rfl
  | cons a l ih => simp [ih]

/-- Sum over the square of pixels at most `m` away, with the offsets of the pixels. -/
noncomputable def around (m : Nat) (f : Int → Int → ℝ) : ℝ :=
  ((List.range (2 * m + 1)).map fun (a : Nat) => ((List.range (2 * m + 1)).map fun (b : Nat) => f ((a : Int) - m) ((b : Int) - m)).sum).sum

theorem around_mul (m : Nat) (c : ℝ) (f : Int → Int → ℝ) : around m (fun a b => c * f a b) = c * around m f := by
  unfold around
  have key : ∀ (l : List Nat) (f : Nat → ℝ), (l.map fun a => c * f a).sum = c * (l.map f).sum := by
    intro l f
    induction l with
    | nil => simp
    | cons a l ih => simp only [List.map_cons, List.sum_cons, ih]; ring
  rw [← key]
  congr 2
  funext a
  rw [key]

/-- The pixel is in the image and valid. -/
def ValidAt (nx ny : Nat) (hr : Img) (nodata : Int) (y x : Int) : Prop := (0 ≤ y ∧ y < ny ∧ 0 ≤ x ∧ x < nx) ∧ hr y x ≠ nodata

instance (nx ny : Nat) (hr : Img) (nodata y x : Int) : Decidable (ValidAt nx ny hr nodata y x) := by unfold ValidAt; infer_instance

theorem window_sum (m nx ny : Nat) (hr : Img) (nodata : Int) (i j : Int) (F : Nat → Nat → Int → Int → ℝ) (G : Int → Int → Int → Int → ℝ)
    (hF : ∀ (a b : Nat) (y x : Int), F a b y x = G ((a : Int) - m) ((b : Int) - m) y x) :
    (((window (2 * m + 1) nx ny i j).filter fun w => decide (hr w.2.1 w.2.2 ≠ nodata)).map fun w => F w.1.1 w.1.2 w.2.1 w.2.2).sum =
      around m fun a b => if ValidAt nx ny hr nodata (i + a) (j + b) then G a b (i + a) (j + b) else 0 := by
  unfold window around
  have hm : (((2 * m + 1 : Nat) : Int) - 1) / 2 = m := by omega
  rw [hm, List.filter_filter, sum_filter, sum_flatMap]
  congr 2
  funext a
  rw [List.map_map]
  congr 2
  funext b
  simp only [Function.comp_apply, hF]
  have e1 : -(m : Int) + (a : Int) + i = i + ((a : Int) - m) := by omega
  have e2 : -(m : Int) + (b : Int) + j = j + ((b : Int) - m) := by omega
  rw [e1, e2]
  by_cases h : ValidAt nx ny hr nodata (i + ((a : Int) - m)) (j + ((b : Int) - m))
  · rw [if_pos h, if_pos]
    rw [Bool.and_eq_true, decide_eq_true_eq, decide_eq_true_eq]
    exact ⟨h.2, h.1⟩
  · rw [if_neg h, if_neg]
    rw [Bool.and_eq_true, decide_eq_true_eq, decide_eq_true_eq]
    exact fun hc => h ⟨hc.2, hc.1⟩

/-- C134: before the aggregation, the reflectance of a valid pixel is replaced by the mean of the valid pixels around it, weighted with a Gaussian function of their
distance. -/
theorem c134_smooth (m nx ny : Nat) (σ : ℝ) (hσ : σ ≠ 0) (hr : Img) (nodata : Int) (i j : Int) (hi : 0 ≤ i ∧ i < ny) (hj : 0 ≤ j ∧ j < nx) (hv : hr i j ≠ nodata) :
    smooth (gauss (2 * m + 1) σ) (2 * m + 1) nx ny hr nodata i j =
      (around m fun a b => if ValidAt nx ny hr nodata (i + a) (j + b) then (hr (i + a) (j + b) : ℝ) / 10000 * Real.exp (-((a : ℝ) ^ 2 + (b : ℝ) ^ 2) / (2 * σ ^ 2)) else 0) /
      (around m fun a b => if ValidAt nx ny hr nodata (i + a) (j + b) then Real.exp (-((a : ℝ) ^ 2 + (b : ℝ) ^ 2) / (2 * σ ^ 2)) else 0) := by
  have hσ2 : 0 < σ * σ * 2 := mul_pos (mul_self_pos.2 hσ) two_pos
  have hamp : 0 < 1 / (Real.pi * (σ * σ * 2)) := by have := Real.pi_pos; positivity
  have hm : (((2 * m + 1 : Nat) : Int) - 1) / 2 = m := by omega
  have hg : ∀ a b : Nat, gauss (2 * m + 1) σ a b =
      1 / (Real.pi * (σ * σ * 2)) * Real.exp (-((((a : Int) - m : Int) : ℝ) ^ 2 + (((b : Int) - m : Int) : ℝ) ^ 2) / (2 * σ ^ 2)) := by
    intro a b
    unfold gauss
    rw [hm]
    have : σ * σ * 2 = 2 * σ ^ 2 := by ring
    rw [this]
    simp only
    congr 3
    push_cast
    ring
  have num := window_sum m nx ny hr nodata i j (fun a b _ _ => gauss (2 * m + 1) σ a b)
    (fun a b _ _ => 1 / (Real.pi * (σ * σ * 2)) * Real.exp (-((a : ℝ) ^ 2 + (b : ℝ) ^ 2) / (2 * σ ^ 2))) (fun a b _ _ => hg a b)
  have sum := window_sum m nx ny hr nodata i j (fun a b y x => (hr y x : ℝ) / 10000 * gauss (2 * m + 1) σ a b)
    (fun a b y x => 1 / (Real.pi * (σ * σ * 2)) * ((hr y x : ℝ) / 10000 * Real.exp (-((a : ℝ) ^ 2 + (b : ℝ) ^ 2) / (2 * σ ^ 2)))) (fun a b y x => by rw [hg]; ring)
  have pull : ∀ f : Int → Int → ℝ, (around m fun a b => if ValidAt nx ny hr nodata (i + a) (j + b) then 1 / (Real.pi * (σ * σ * 2)) * f a b else 0) =
      1 / (Real.pi * (σ * σ * 2)) * around m fun a b => if ValidAt nx ny hr nodata (i + a) (j + b) then f a b else 0 := by
    intro f
    rw [← around_mul]
    congr 1
    funext a b
    split <;> simp
  have pos : 0 < (((window (2 * m + 1) nx ny i j).filter fun w => decide (hr w.2.1 w.2.2 ≠ nodata)).map fun w => gauss (2 * m + 1) σ w.1.1 w.1.2).sum := by
    refine (average_bounds ((window (2 * m + 1) nx ny i j).filter fun w => decide (hr w.2.1 w.2.2 ≠ nodata))
      (fun w : (Nat × Nat) × (Int × Int) => gauss (2 * m + 1) σ w.1.1 w.1.2) (fun _ => (0 : ℝ)) 0 0 ?_ ?_ ?_).1
    · intro w _
      exact gauss_pos _ hσ _ _
    · intro _ _
      exact ⟨le_refl (0 : ℝ), le_refl (0 : ℝ)⟩
    intro h0
    have : ((m, m), (i, j)) ∈ (window (2 * m + 1) nx ny i j).filter fun w => decide (hr w.2.1 w.2.2 ≠ nodata) := by
      rw [List.mem_filter, decide_eq_true_eq]
      exact ⟨centre_window m nx ny i j hi hj, hv⟩
    rw [h0] at this
    exact absurd this List.not_mem_nil
  unfold smooth
  rw [if_neg hv]
  simp only
  rw [if_pos pos, num, sum, pull, pull, mul_div_mul_left _ _ hamp.ne']

/-- C134: the weight of a fine pixel in a coarse pixel is (in each direction) the length of their common part, in units of the coarse pixel. -/
theorem c134_weights (r : ℝ) (hr : 0 < r) (i n : Int) :
    share r i n * r = min ((n : ℝ) + 1) (((i : ℝ) + 1) * r) - max (n : ℝ) ((i : ℝ) * r) := by
  unfold share
  have e1 : min (((n : ℝ) + 1) / r - i) 1 * r = min ((n : ℝ) + 1) (((i : ℝ) + 1) * r) - i * r := by
    rw [min_mul_of_nonneg _ _ hr.le, sub_mul, div_mul_cancel₀ _ hr.ne', one_mul, ← min_sub_sub_right]
    congr 1
    ring
  have e2 : max ((n : ℝ) / r - i) 0 * r = max (n : ℝ) ((i : ℝ) * r) - i * r := by
    rw [max_mul_of_nonneg _ _ hr.le, sub_mul, div_mul_cancel₀ _ hr.ne', zero_mul, ← max_sub_sub_right]
    congr 1
    ring
  rw [sub_mul, e1, e2]
  ring

/-- C134: the value of a coarse pixel is the integer part of the mean of the convolved values (times 10000) of the pixels that are looked at, weighted with these
lengths. -/
theorem c134_mean (r : ℝ) (hr : 0 < r) (nx ny : Nat) (g : Int → Int → ℝ) (nodata : Int) (i j v : Int) (hv : coarse r nx ny g nodata i j = .ok v)
    (A : Int × Int → ℝ) (hA : ∀ p, A p = (min ((p.1 : ℝ) + 1) (((i : ℝ) + 1) * r) - max (p.1 : ℝ) ((i : ℝ) * r)) * (min ((p.2 : ℝ) + 1) (((j : ℝ) + 1) * r) - max (p.2 : ℝ) ((j : ℝ) * r)))
    (hne : ∃ p ∈ covered r nx ny i j, g p.1 p.2 ≠ (nodata : ℝ)) (mean : ℝ)
    (hmean : mean = ((present g nodata (covered r nx ny i j)).map fun p => g p.1 p.2 * A p).sum / ((present g nodata (covered r nx ny i j)).map A).sum * 10000) :
    (0 ≤ mean → (v : ℝ) ≤ mean ∧ mean < v + 1) ∧ (mean < 0 → (v : ℝ) - 1 < mean ∧ mean ≤ v) := by
  have hA' : ∀ p : Int × Int, A p = r * r * (share r i p.1 * share r j p.2) := by
    intro p
    rw [hA, ← c134_weights r hr, ← c134_weights r hr]
    ring
  have pull : ∀ (l : List (Int × Int)) (f : Int × Int → ℝ), (l.map fun p => r * r * f p).sum = r * r * (l.map f).sum := by
    intro l f
    induction l with
    | nil => simp
    | cons a l ih => simp only [List.map_cons, List.sum_cons, ih]; ring
  have em : mean = ((present g nodata (covered r nx ny i j)).map fun p => g p.1 p.2 * (share r i p.1 * share r j p.2)).sum /
      ((present g nodata (covered r nx ny i j)).map fun p => share r i p.1 * share r j p.2).sum * 10000 := by
    rw [hmean]
    have f1 : (fun p : Int × Int => g p.1 p.2 * A p) = fun p => r * r * (g p.1 p.2 * (share r i p.1 * share r j p.2)) := by
      funext p; rw [hA']; ring
    have f2 : A = fun p => r * r * (share r i p.1 * share r j p.2) := funext hA'
    rw [f1, f2, pull, pull, mul_div_mul_left _ _ (mul_pos hr hr).ne']
  have pos : 0 < ((present g nodata (covered r nx ny i j)).map fun p => share r i p.1 * share r j p.2).sum := by
    refine (average_bounds _ (fun p : Int × Int => share r i p.1 * share r j p.2) (fun _ => 0) 0 0 ?_ (fun _ _ => ⟨le_rfl, le_rfl⟩) ?_).1
    · intro q hq
      rw [mem_present] at hq
      obtain ⟨⟨k, hk, e⟩, ⟨k', hk', e'⟩, -⟩ := mem_covered.1 hq.1
      exact mul_pos (share_pos hr (covered_overlaps hr k hk e)) (share_pos hr (covered_overlaps hr k' hk' e'))
    · obtain ⟨p, hp, hn⟩ := hne
      intro h0
      have : p ∈ present g nodata (covered r nx ny i j) := mem_present.2 ⟨hp, hn⟩
      rw [h0] at this
      exact absurd this List.not_mem_nil
  unfold coarse at hv
  simp only at hv
  rw [if_pos pos, ← em] at hv
  unfold shortOf at hv
  simp only at hv
  have hvv : (if 0 ≤ mean then ⌊mean⌋ else ⌈mean⌉) = v := by
    by_cases hc : -32768 ≤ (if 0 ≤ mean then ⌊mean⌋ else ⌈mean⌉) ∧ (if 0 ≤ mean then ⌊mean⌋ else ⌈mean⌉) ≤ 32767
    · rw [if_pos hc] at hv
      exact Out.ok.inj hv
    · rw [if_neg hc] at hv
      cases hv
  constructor
  · intro h0
    rw [if_pos h0] at hvv
    rw [← hvv]
    exact ⟨Int.floor_le _, Int.lt_floor_add_one _⟩
  · intro h0
    rw [if_neg (not_le.2 h0)] at hvv
    rw [← hvv]
    exact ⟨by have := Int.ceil_lt_add_one mean; linarith, Int.le_ceil _⟩

/-- C134: if a coarse pixel begins on a boundary of the fine pixels closely enough (always if the ratio of the resolutions is a whole number), it is missing
exactly if none of the pixels of its footprint is valid. -/
theorem c134_missing_partial (nx ny NX : Nat) (hN : 0 < NX) (hNn : NX ≤ nx) (hr : Img) (lo hi : Int) (hlo : -9999 < lo) (hhi : hi ≤ 32767)
    (hv : ∀ y x : Int, 0 ≤ y → y < ny → 0 ≤ x → x < nx → hr y x ≠ -9999 → lo ≤ hr y x ∧ hr y x ≤ hi) (i j : Int) (hi0 : 0 ≤ i) (hj0 : 0 ≤ j)
    (hci : ((i : ℝ) + 1) * ((nx : ℝ) / NX) ≤ (⌊(i : ℝ) * ((nx : ℝ) / NX)⌋ : ℝ) + ⌈(nx : ℝ) / NX⌉₊)
    (hcj : ((j : ℝ) + 1) * ((nx : ℝ) / NX) ≤ (⌊(j : ℝ) * ((nx : ℝ) / NX)⌋ : ℝ) + ⌈(nx : ℝ) / NX⌉₊) :
    ∃ N, ∀ fuel, N ≤ fuel → ∃ v, reducePsf nx ny NX hr (-9999) fuel i j = some (.ok v) ∧
      (v = -9999 ↔ ∀ y x : Int, 0 ≤ y → y < ny → 0 ≤ x → x < nx → Overlaps ((nx : ℝ) / NX) i y → Overlaps ((nx : ℝ) / NX) j x → hr y x = -9999) := by
  have hNr : (0 : ℝ) < NX := by exact_mod_cast hN
  have hr0 : (0 : ℝ) < (nx : ℝ) / NX := by
    apply div_pos _ hNr
    exact_mod_cast lt_of_lt_of_le hN hNn
  obtain ⟨N, h⟩ := reduce_spec nx ny NX hN hNn hr lo hi (by omega) hhi hv i j hi0 hj0
  refine ⟨N, fun fuel hf => ?_⟩
  obtain ⟨v, h1, h2, h3⟩ := h fuel hf
  refine ⟨v, h1, ?_, ?_⟩
  · intro hm y x y0 y1 x0 x1 oy ox
    by_contra hne
    have := h3 ⟨(y, x), mem_covered.2 ⟨overlaps_covered hr0 hci oy, overlaps_covered hr0 hcj ox, y1, x1⟩, hne⟩
    omega
  · intro hno
    apply h2
    intro p hp
    obtain ⟨⟨k, hk, e⟩, ⟨k', hk', e'⟩, l1, l2⟩ := mem_covered.1 hp
    have f1 : 0 ≤ ⌊(i : ℝ) * ((nx : ℝ) / NX)⌋ := Int.floor_nonneg.2 (mul_nonneg (by exact_mod_cast hi0) hr0.le)
    have f2 : 0 ≤ ⌊(j : ℝ) * ((nx : ℝ) / NX)⌋ := Int.floor_nonneg.2 (mul_nonneg (by exact_mod_cast hj0) hr0.le)
    exact hno p.1 p.2 (by omega) l1 (by omega) l2 (covered_overlaps hr0 k hk e) (covered_overlaps hr0 k' hk' e')

/-- C134: a whole-number ratio meets the condition of `c134_missing_partial`, for every pixel. -/
theorem c134_whole (k NX : Nat) (hN : 0 < NX) (i : Int) :
    ((i : ℝ) + 1) * (((k * NX : Nat) : ℝ) / NX) ≤ (⌊(i : ℝ) * (((k * NX : Nat) : ℝ) / NX)⌋ : ℝ) + ⌈((k * NX : Nat) : ℝ) / NX⌉₊ := by
  have hNr : (NX : ℝ) ≠ 0 := by exact_mod_cast hN.ne'
  have e : (((k * NX : Nat) : ℝ) / NX) = k := by push_cast; field_simp
  rw [e]
  have e2 : (i : ℝ) * (k : ℝ) = ((i * k : Int) : ℝ) := by push_cast; ring
  rw [e2, Int.floor_intCast, Nat.ceil_natCast]
  push_cast
  linarith

/-- C134, violated: if the ratio of the resolutions is no whole number, parts of the footprint can be left out. With five fine pixels per three coarse pixels, the
coarse rows 1, 4, 7, … do not look at the fine rows 3, 8, 13, …, a fifth of their area: with the rest missing they are missing, whatever is there. -/
theorem c134_coverage_violated (q ny NX : Nat) (hN : 0 < NX) (hr : Img) (lo hi : Int) (hlo : -9999 < lo) (hhi : hi ≤ 32767)
    (hv : ∀ y x : Int, 0 ≤ y → y < ny → 0 ≤ x → x < 5 * NX → hr y x ≠ -9999 → lo ≤ hr y x ∧ hr y x ≤ hi)
    (h1 : ∀ x : Int, hr (5 * q + 1) x = -9999) (h2 : ∀ x : Int, hr (5 * q + 2) x = -9999) (j : Int) (hj : 0 ≤ j) :
    Overlaps ((5 * NX : Nat) / (3 * NX : Nat)) (3 * q + 1) (5 * q + 3) ∧
    ∃ N, ∀ fuel, N ≤ fuel → reducePsf (5 * NX) ny (3 * NX) hr (-9999) fuel (3 * q + 1) j = some (.ok (-9999)) := by
  have hNr : (0 : ℝ) < NX := by exact_mod_cast hN
  have e : (((5 * NX : Nat) : ℝ) / (3 * NX : Nat)) = 5 / 3 := by push_cast; field_simp
  constructor
  · rw [e]
    unfold Overlaps
    push_cast
    constructor <;> linarith
  · obtain ⟨N, h⟩ := reduce_spec (5 * NX) ny (3 * NX) (by omega) (by omega) hr lo hi (by omega) hhi (by exact_mod_cast hv) (3 * q + 1) j (by omega) hj
    refine ⟨N, fun fuel hf => ?_⟩
    obtain ⟨v, g1, g2, -⟩ := h fuel hf
    rw [g1, g2]
    intro p hp
    obtain ⟨⟨k, hk, ek⟩, -⟩ := mem_covered.1 hp
    rw [e] at hk ek
    have c : ⌈(5 / 3 : ℝ)⌉₊ = 2 := by
      rw [Nat.ceil_eq_iff (by norm_num)]
      norm_num
    have f : ⌊((3 * q + 1 : Int) : ℝ) * (5 / 3)⌋ = 5 * q + 1 := by
      rw [Int.floor_eq_iff]
      push_cast
      constructor <;> linarith
    rw [c] at hk
    rw [f] at ek
    have : p.1 = 5 * q + 1 ∨ p.1 = 5 * q + 2 := by omega
    rcases this with h | h <;> rw [h]
    · exact h1 p.2
    · exact h2 p.2

/-- C134, violated: nodata is recognised after the conversion to reflectance. If the nodata value is k and all pixels have the value 10000·k, the aggregated image is
missing everywhere. -/
theorem c134_nodata_violated (m nx ny : Nat) (σ : ℝ) (hσ : σ ≠ 0) (r : ℝ) (hr : 0 < r) (k : Int) (hk : k ≠ 0) (h3 : -3 ≤ k ∧ k ≤ 3) (i j : Int) (hi : 0 ≤ i) (hj : 0 ≤ j) :
    coarse r nx ny (smooth (gauss (2 * m + 1) σ) (2 * m + 1) nx ny (fun _ _ => 10000 * k) k) k i j = .ok k := by
  refine (coarse_spec hr nx ny _ k (10000 * k) (10000 * k) i j (by omega) (by omega) ?_).1 ?_
  all_goals
    intro p hp
    obtain ⟨⟨a, -, e⟩, ⟨b, -, e'⟩, l1, l2⟩ := mem_covered.1 hp
    have f1 : 0 ≤ ⌊(i : ℝ) * r⌋ := Int.floor_nonneg.2 (mul_nonneg (by exact_mod_cast hi) hr.le)
    have f2 : 0 ≤ ⌊(j : ℝ) * r⌋ := Int.floor_nonneg.2 (mul_nonneg (by exact_mod_cast hj) hr.le)
    obtain ⟨s1, s2⟩ := (smooth_spec m hσ nx ny (fun _ _ => 10000 * k) k (10000 * k) (10000 * k) p.1 p.2 ⟨by omega, l1⟩ ⟨by omega, l2⟩ (fun _ _ _ _ _ _ _ => ⟨le_rfl, le_rfl⟩)).2 (by omega)
    push_cast at s1 s2
  · intro _
    push_cast
    exact ⟨s1, s2⟩
  · linarith

end Verif.Ard
