import Mathlib.Algebra.Order.Ring.Int
import Mathlib.Tactic.Linarith
import Mathlib.Tactic.Ring
import Verif.Date.Props
import Verif.Tsa.Spec

/-!
# Theorems about the dates of the interpolated and near-real-time layers: C202, C205
-/

namespace Verif.Tsa

open Spec

/-- The day numbers of the interpolated layers. -/
def days (images : List Image) (m : Method) (dmin dmax step : Int) : List Int :=
  (interDates m images dmin dmax step).map fun d => (d.getD Date.initDate).ce

theorem setCe_ce (d : Date.DateT) (ce : Int) : (Date.setCe d ce).ce = ce := by
  obtain ⟨y, m, dd, h1, hv, h2, -, -, -⟩ := Date.c02_ce_date_ce ce
  simp only [Date.setCe, Date.setDate, Date.setMonthDay, Date.setYear, h1]
  exact h2

theorem days_eq (images : List Image) (m : Method) (dmin dmax step : Int) (hm : m ≠ .none) :
    days images m dmin dmax step =
      (List.range ((dmax - dmin + 1).tdiv step).toNat).map fun t : Nat => dmin + t * step := by
  simp only [days, interDates, interSteps, if_neg hm, List.map_map]
  refine List.map_congr_left fun t _ => ?_
  simp [interDate, hm, setCe_ce]

theorem toNat_tdiv (n s : Int) (hn : 0 ≤ n) : ((n.tdiv s).toNat : Int) = max (n / s) 0 ∧ n.tdiv s = n / s := by
  rw [Int.tdiv_eq_ediv_of_nonneg hn]
  exact ⟨by rw [Int.toNat_eq_max], rfl⟩

/-- C202 (partial: the days of the layers are requested ones, in order; not all requested days have a
layer): for every period and step, interpolated layers are computed for days of the period, beginning
with its first day, in steps of INT_DAY; if the length of the period is a multiple of the step, there
is a layer for each requested day. -/
theorem c202_days_partial (images : List Image) (m : Method) (dmin dmax step : Int) (hm : m ≠ .none)
    (hd : dmin ≤ dmax) (hs : 1 ≤ step) :
    (∀ d ∈ days images m dmin dmax step, Day dmin dmax step d) ∧
    (days images m dmin dmax step).Pairwise (· < ·) ∧
    (∀ t, t + 1 < (days images m dmin dmax step).length →
      ∃ a, (days images m dmin dmax step)[t]? = some a ∧ (days images m dmin dmax step)[t + 1]? = some (a + step)) ∧
    (step ≤ dmax - dmin + 1 → (days images m dmin dmax step)[0]? = some dmin) ∧
    (step ∣ dmax - dmin + 1 → ∀ d, Day dmin dmax step d → d ∈ days images m dmin dmax step) := by
  rw [days_eq images m dmin dmax step hm]
  obtain ⟨h1, h2⟩ := toNat_tdiv (dmax - dmin + 1) step (by omega)
  have hq : 0 ≤ (dmax - dmin + 1) / step := Int.ediv_nonneg (by omega) (by omega)
  rw [max_eq_left hq] at h1
  have hqm : (dmax - dmin + 1) / step * step ≤ dmax - dmin + 1 := Int.ediv_mul_le _ (by omega)
  generalize hN : ((dmax - dmin + 1).tdiv step).toNat = N at *
  refine ⟨?_, ?_, ?_, ?_, ?_⟩
  · intro d h
    obtain ⟨t, ht, rfl⟩ := List.mem_map.1 h
    have ht' : (t : Int) + 1 ≤ N := by exact_mod_cast List.mem_range.1 ht
    refine ⟨?_, ?_, ⟨t, by ring⟩⟩
    · nlinarith
    · have : ((t : Int) + 1) * step ≤ (N : Int) * step := Int.mul_le_mul_of_nonneg_right ht' (by omega)
      rw [h1] at this
      nlinarith
  · rw [List.pairwise_map]
    exact List.pairwise_lt_range.imp fun {a b} (h : a < b) => by
      have : (a : Int) < b := by exact_mod_cast h
      nlinarith
  · intro t ht
    simp only [List.length_map, List.length_range] at ht
    refine ⟨dmin + t * step, ?_, ?_⟩
    · simp [show t < N by omega]
    · simp only [List.getElem?_map, List.getElem?_range ht, Option.map_some, Option.some.injEq]
      push_cast; ring
  · intro hle
    have : 1 ≤ (dmax - dmin + 1) / step := (Int.le_ediv_iff_mul_le (by omega)).2 (by omega)
    simp [show 0 < N by omega]
  · rintro ⟨k, hk⟩ d ⟨ha, hb, ⟨j, hj⟩⟩
    have hkN : (N : Int) = k := by rw [h1, hk]; exact Int.mul_ediv_cancel_left _ (by omega)
    have hj0 : 0 ≤ j := by
      by_contra hc
      have : step * j ≤ step * (-1) := Int.mul_le_mul_of_nonneg_left (by omega) (by omega)
      omega
    have hjk : j < k := by
      by_contra hc
      have : step * k ≤ step * j := Int.mul_le_mul_of_nonneg_left (by omega) (by omega)
      omega
    refine List.mem_map.2 ⟨j.toNat, List.mem_range.2 (by omega), ?_⟩
    rw [Int.toNat_of_nonneg hj0]
    linarith [mul_comm step j]

/-- Hypotheses met: ten days in steps of five. -/
example : (3 : Int) ≤ 12 ∧ (1 : Int) ≤ 5 ∧ (5 : Int) ∣ 12 - 3 + 1 := by decide

/-- C202, violated: whenever the length of the period is not a multiple of the step, the last requested
day has no layer: the number of layers is rounded down, because `ceil` is applied to the quotient of
two integers. -/
theorem c202_last_violated (images : List Image) (m : Method) (dmin dmax step : Int) (hm : m ≠ .none)
    (hd : dmin ≤ dmax) (hs : 1 ≤ step) (hn : ¬ step ∣ dmax - dmin + 1) :
    ∃ d, Day dmin dmax step d ∧ dmax - step < d ∧ d ∉ days images m dmin dmax step := by
  rw [days_eq images m dmin dmax step hm]
  obtain ⟨h1, h2⟩ := toNat_tdiv (dmax - dmin + 1) step (by omega)
  have hq : 0 ≤ (dmax - dmin + 1) / step := Int.ediv_nonneg (by omega) (by omega)
  rw [max_eq_left hq] at h1
  have e := Int.mul_ediv_add_emod (dmax - dmin + 1) step
  have r1 := Int.emod_nonneg (dmax - dmin + 1) (show step ≠ 0 by omega)
  have r2 := Int.emod_lt_of_pos (dmax - dmin + 1) (show 0 < step by omega)
  have r3 : (dmax - dmin + 1) % step ≠ 0 := fun h => hn (Int.dvd_of_emod_eq_zero h)
  refine ⟨dmin + step * ((dmax - dmin + 1) / step), ⟨?_, by omega, ⟨(dmax - dmin + 1) / step, by ring⟩⟩, by omega, ?_⟩
  · have : 0 ≤ step * ((dmax - dmin + 1) / step) := Int.mul_nonneg (by omega) hq
    omega
  · intro h
    obtain ⟨t, ht, he⟩ := List.mem_map.1 h
    have ht' : (t : Int) < (dmax - dmin + 1) / step := by rw [← h1]; exact_mod_cast List.mem_range.1 ht
    have : (t : Int) * step < (dmax - dmin + 1) / step * step := Int.mul_lt_mul_of_pos_right ht' (by omega)
    rw [mul_comm step] at he
    omega

/-- Hypotheses met: a year in steps of sixteen days. -/
example : ¬ (16 : Int) ∣ 365 - 1 + 1 := by decide

/-- C202: without interpolation there is one layer per image, at the date of the image. -/
theorem c202_none (images : List Image) (dmin dmax step : Int) :
    interDates .none images dmin dmax step = images.map fun im => some im.date := by
  apply List.ext_getElem?
  intro i
  simp only [interDates, interSteps, if_true, List.getElem?_map]
  by_cases h : i < images.length
  · simp [interDate, h]
  · simp [List.getElem?_eq_none (show (List.range images.length).length ≤ i by simpa using h),
      List.getElem?_eq_none (show images.length ≤ i by omega)]

/-- C202: more layers than days are never computed, and each layer has a date. -/
theorem c202_defined (images : List Image) (m : Method) (dmin dmax step : Int) :
    ∀ d ∈ interDates m images dmin dmax step, d.isSome = true := by
  intro d h
  obtain ⟨t, ht, rfl⟩ := List.mem_map.1 h
  by_cases hm : m = .none
  · subst hm
    have : t < images.length := by simpa [interSteps] using ht
    simp [interDate, this]
  · simp [interDate, hm]

/-! ## C205 -/

/-- The images of the forecast period are the last ones, if the images are in chronological order. -/
theorem filter_drop (P : Image → Bool) (l : List Image)
    (hs : l.Pairwise fun a b => P a = true → P b = true) : l.filter P = l.drop (l.length - l.countP P) := by
  induction l with
  | nil => rfl
  | cons a l ih =>
    rw [List.pairwise_cons] at hs
    cases hp : P a with
    | false =>
      have hle : l.countP P ≤ l.length := List.countP_le_length
      rw [List.filter_cons_of_neg (by simp [hp]), List.countP_cons_of_neg (by simp [hp]), List.length_cons,
        show l.length + 1 - l.countP P = (l.length - l.countP P) + 1 by omega, List.drop_succ_cons]
      exact ih hs.2
    | true =>
      have hall : ∀ b ∈ l, P b = true := fun b hb => hs.1 b hb hp
      have : l.countP P = l.length := List.countP_eq_length.2 hall
      rw [List.filter_cons_of_pos hp, List.countP_cons_of_pos hp, List.length_cons, this, Nat.sub_self,
        List.drop_zero, List.filter_eq_self.2 hall]

theorem nrtLabelled_eq (nr : Nat) (images : List Image) (h : nr ≤ images.length) :
    nrtLabelled nr images = (images.drop (images.length - nr)).map some := by
  apply List.ext_getElem?
  intro i
  simp only [nrtLabelled, List.getElem?_map, List.getElem?_drop]
  by_cases hi : i < nr
  · rw [List.getElem?_range hi]
    simp [show images.length - nr + i < images.length by omega]
  · rw [List.getElem?_eq_none (by simpa using hi), List.getElem?_eq_none (by omega)]; rfl

/-- C205: the near-real-time layers are labelled with date and sensor of the images they were computed
from, for images in chronological order. -/
theorem c205_nrt (fitMax : Int) (images : List Image) (hs : images.Pairwise fun a b => a.date.ce ≤ b.date.ce) :
    nrtLabelled (forecastCount true fitMax images) images = (nrtData fitMax images).map some := by
  have hP : (fun im : Image => !decide (im.date.ce ≤ fitMax)) = fun im => decide (im.date.ce > fitMax) := by
    funext im
    by_cases h : im.date.ce ≤ fitMax
    · simp [h]
    · simp [h, show fitMax < im.date.ce by omega]
  have hp : images.Pairwise fun a b => decide (a.date.ce > fitMax) = true → decide (b.date.ce > fitMax) = true :=
    hs.imp fun {a b} hab => by simp only [decide_eq_true_eq]; omega
  rw [nrtLabelled_eq _ _ (by simp only [forecastCount, if_true]; exact List.countP_le_length)]
  unfold nrtData forecastCount
  rw [hP, filter_drop _ _ hp]
  simp

/-- C205: the layers of the interpolated series are labelled with the day for which they were computed,
whether the images or a regular grid define the days. -/
theorem c205_inter (c : Ctx) (t : Nat) (d : Date.DateT)
    (hd : (interDates c.method c.images c.dmin.ce c.dmax.ce c.step)[t]? = some (some d)) :
    (labels c .inter)[t]? = some (some (compact d.year d.month d.day)) := by
  unfold interDates at hd
  simp only [labels]
  rw [List.getElem?_map] at hd ⊢
  cases hr : (List.range (interSteps c.method c.images.length c.dmin.ce c.dmax.ce c.step))[t]? with
  | none => simp [hr] at hd
  | some i =>
    rw [hr] at hd
    simp only [Option.map_some, Option.some.injEq] at hd ⊢
    have : interLabelDate c.method c.images c.dmin.ce c.step i = some d := hd
    rw [this]; rfl

/-- C205: and so are the layers of the time series itself. -/
theorem c205_images (c : Ctx) (t : Nat) (im : Image) (h : c.images[t]? = some im) :
    (labels c .full)[t]? = some (some (compact im.date.year im.date.month im.date.day ++ '_' :: im.sensor)) := by
  simp only [labels]
  rw [List.getElem?_map]
  have hl : t < c.images.length := by
    by_contra hc
    rw [List.getElem?_eq_none (by omega)] at h
    cases h
  rw [List.getElem?_range hl]
  simp [h, imageLabel]

end Verif.Tsa
