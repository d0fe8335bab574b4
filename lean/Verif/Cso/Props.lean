import Mathlib.Tactic.Linarith
import Mathlib.Tactic.Ring
import Mathlib.Tactic.NormNum
import Mathlib.Order.SuccPred.LinearLocallyFinite
import Verif.Cso.Model
import Verif.Cso.Spec
import Verif.Date.Props
import Verif.Stats.Props

/-!
# Theorems on clear-sky observations (C43)
-/

namespace Verif.Cso

open Verif.Str (Out)
open Verif.Fold (truncR shortOf)
open Spec

/-! ## Windows -/

/-- The months of `c` are counted from 1 to 12. -/
def ValidYM (c : Int × Int) : Prop := 1 ≤ c.2 ∧ c.2 ≤ 12

theorem next_spec {step : Int} {c : Int × Int} (h1 : 1 ≤ step) (h2 : step ≤ 12) (hc : ValidYM c) :
    ValidYM (next step c) ∧ monthNo (next step c).1 (next step c).2 = monthNo c.1 c.2 + step := by
  unfold ValidYM next monthNo at *
  split <;> simp only <;> omega

theorem more_iff {last c : Int × Int} (hl : ValidYM last) (hc : ValidYM c) :
    more last c = true ↔ monthNo c.1 c.2 < monthNo last.1 last.2 := by
  unfold ValidYM more monthNo at *
  simp only [decide_eq_true_eq]
  omega

/-- C43: the enumeration of the windows ends; the number of windows is the smallest one such that the right
boundary is not before the last month of the period. -/
theorem c43_count (step : Int) (last : Int × Int) (h1 : 1 ≤ step) (h2 : step ≤ 12) (hl : ValidYM last) :
    ∀ (fuel : Nat) (c : Int × Int), ValidYM c → monthNo last.1 last.2 - monthNo c.1 c.2 < fuel →
    ∃ n : Nat, countWindows step last (fuel + 1) c = some n ∧
      monthNo last.1 last.2 ≤ monthNo c.1 c.2 + n * step ∧
      ∀ j : Nat, j < n → monthNo c.1 c.2 + j * step < monthNo last.1 last.2 := by
  intro fuel
  induction fuel with
  | zero =>
    intro c hc hf
    have hm : ¬ (more last c = true) := by
      rw [more_iff hl hc]; simp at hf; omega
    refine ⟨0, by simp [countWindows, hm], by simp at hf ⊢; omega, fun j hj => absurd hj (by omega)⟩
  | succ fuel ih =>
    intro c hc hf
    by_cases hm : more last c = true
    · have hlt := (more_iff hl hc).1 hm
      obtain ⟨hv, hn⟩ := next_spec h1 h2 hc
      obtain ⟨n, e1, e2, e3⟩ := ih (next step c) hv (by push_cast at hf; omega)
      refine ⟨n + 1, ?_, ?_, ?_⟩
      · rw [countWindows, if_pos hm, e1]; rfl
      · rw [hn] at e2; push_cast; linarith
      · intro j hj
        cases j with
        | zero => simpa using hlt
        | succ j =>
          have := e3 j (by omega)
          rw [hn] at this; push_cast; linarith
    · have hge : ¬ monthNo c.1 c.2 < monthNo last.1 last.2 := fun h => hm ((more_iff hl hc).2 h)
      refine ⟨0, by rw [countWindows, if_neg hm], by simp; omega, fun j hj => absurd hj (by omega)⟩

example : countWindows 3 (2021, 12) 100 (2020, 1) = some 8 ∧ countWindows 12 (2021, 12) 100 (2020, 1) = some 2 := by
  decide

theorem monthStart_eq (y m : Int) (h1 : 1 ≤ m) (h2 : m ≤ 12) : monthStart (monthNo y m) = Date.date2ce y m 1 := by
  have e1 : (monthNo y m - 1) / 12 = y := by unfold monthNo; omega
  have e2 : (monthNo y m - 1) % 12 + 1 = m := by unfold monthNo; omega
  unfold monthStart Date.date2ce
  rw [e1, e2, Date.md2doy_eq h1 h2]; ring

theorem valid_first {m : Int} (h1 : 1 ≤ m) (h2 : m ≤ 12) : Date.Spec.ValidMD m 1 := by
  refine ⟨h1, h2, le_refl _, ?_⟩
  obtain rfl | rfl | rfl | rfl | rfl | rfl | rfl | rfl | rfl | rfl | rfl | rfl : m = 1 ∨ m = 2 ∨ m = 3 ∨ m = 4 ∨
    m = 5 ∨ m = 6 ∨ m = 7 ∨ m = 8 ∨ m = 9 ∨ m = 10 ∨ m = 11 ∨ m = 12 := by omega
  all_goals decide

theorem monthStart_lt_succ (k : Int) : monthStart k < monthStart (k + 1) := by
  have hk : k = monthNo ((k - 1) / 12) ((k - 1) % 12 + 1) := by unfold monthNo; omega
  have hk' : k + 1 = monthNo (k / 12) (k % 12 + 1) := by unfold monthNo; omega
  have e1 := monthStart_eq ((k - 1) / 12) ((k - 1) % 12 + 1) (by omega) (by omega)
  have e2 := monthStart_eq (k / 12) (k % 12 + 1) (by omega) (by omega)
  rw [← hk] at e1
  rw [← hk'] at e2
  rw [e1, e2, Date.c03_ce_chronological _ _ _ _ _ _ (valid_first (by omega) (by omega)) (valid_first (by omega) (by omega))]
  unfold Date.Spec.Before
  omega

theorem monthStart_mono : StrictMono monthStart := strictMono_int_of_lt_succ monthStart_lt_succ

/-- A day belongs to its month. -/
theorem date_in_month (y m d : Int) (h : Date.Spec.ValidMD m d) :
    monthStart (monthNo y m) ≤ Date.date2ce y m d ∧ Date.date2ce y m d < monthStart (monthNo y m + 1) := by
  have h1 := h.1
  have h2 := h.2.1
  have h3 := h.2.2.1
  refine ⟨?_, ?_⟩
  · rw [monthStart_eq _ _ h1 h2]
    by_contra hc
    have := (Date.c03_ce_chronological _ _ _ _ _ _ h (valid_first h1 h2)).1 (not_le.1 hc)
    unfold Date.Spec.Before at this
    omega
  · have hk' : monthNo y m + 1 = monthNo (monthNo y m / 12) (monthNo y m % 12 + 1) := by unfold monthNo; omega
    rw [hk', monthStart_eq _ _ (by omega) (by omega),
      Date.c03_ce_chronological _ _ _ _ _ _ h (valid_first (by omega) (by omega))]
    unfold Date.Spec.Before monthNo
    omega

theorem starts_getElem (step : Int) (h1 : 1 ≤ step) (h2 : step ≤ 12) : ∀ (n : Nat) (y m : Int), 1 ≤ m → m ≤ 24 →
    ∀ w < n, (starts step n (y, m))[w]? = some (monthStart (monthNo y m + w * step))
  | 0, _, _, _, _, w, hw => absurd hw (by omega)
  | n + 1, y, m, hm1, hm2, w, hw => by
    simp only [starts]
    by_cases h : m > 12
    · rw [if_pos h]
      cases w with
      | zero =>
        simp only [List.getElem?_cons_zero]
        rw [← monthStart_eq _ _ (by omega) (by omega)]
        congr 2; unfold monthNo; push_cast; ring
      | succ w =>
        rw [List.getElem?_cons_succ, starts_getElem step h1 h2 n _ _ (by simp only; omega) (by simp only; omega) w (by omega)]
        congr 2; unfold monthNo; push_cast; ring
    · rw [if_neg h]
      cases w with
      | zero =>
        simp only [List.getElem?_cons_zero]
        rw [← monthStart_eq _ _ (by omega) (by omega)]
        congr 2; unfold monthNo; push_cast; ring
      | succ w =>
        rw [List.getElem?_cons_succ, starts_getElem step h1 h2 n _ _ (by simp only; omega) (by simp only; omega) w (by omega)]
        congr 2; unfold monthNo; push_cast; ring

theorem starts_length (step : Int) : ∀ (n : Nat) (c : Int × Int), (starts step n c).length = n
  | 0, _ => rfl
  | n + 1, (y, m) => by simp [starts, starts_length]

/-- C43: the boundaries of the windows are the first days of the months at the distance of the step. -/
theorem c43_boundaries (step : Int) (nw : Nat) (first : Int × Int) (h1 : 1 ≤ step) (h2 : step ≤ 12)
    (hf : ValidYM first) : (boundaries step nw first).length = nw + 1 ∧
    ∀ w ≤ nw, (boundaries step nw first)[w]? = some (monthStart (monthNo first.1 first.2 + w * step)) := by
  refine ⟨starts_length _ _ _, ?_⟩
  intro w hw
  have := hf.1
  have := hf.2
  exact starts_getElem step h1 h2 (nw + 1) first.1 first.2 (by omega) (by omega) w (by omega)

/-- Day `ce` is in window number `w`. -/
def InWindow (bounds : List Int) (w : Nat) (ce : Int) : Prop :=
  ∃ a b, bounds[w]? = some a ∧ bounds[w + 1]? = some b ∧ a ≤ ce ∧ ce < b

/-- C43: each day from the first month of the period to the month before the right boundary is in exactly one
window. Missing: the last month of the period. -/
theorem c43_partition_partial (step : Int) (nw : Nat) (first : Int × Int) (h1 : 1 ≤ step) (h2 : step ≤ 12)
    (hf : ValidYM first) (y m d : Int) (hd : Date.Spec.ValidMD m d)
    (h3 : monthNo first.1 first.2 ≤ monthNo y m) (h4 : monthNo y m < monthNo first.1 first.2 + nw * step) :
    ∃ w < nw, InWindow (boundaries step nw first) w (Date.date2ce y m d) ∧
      ∀ v, InWindow (boundaries step nw first) v (Date.date2ce y m d) → v = w := by
  obtain ⟨hlen, hb⟩ := c43_boundaries step nw first h1 h2 hf
  obtain ⟨hm1, hm2⟩ := date_in_month y m d hd
  generalize monthNo first.1 first.2 = F at *
  generalize monthNo y m = k at *
  generalize Date.date2ce y m d = ce at *
  obtain ⟨w, hw⟩ : ∃ w : Nat, (w : Int) = (k - F) / step :=
    ⟨((k - F) / step).toNat, Int.toNat_of_nonneg (Int.ediv_nonneg (by omega) (by omega))⟩
  have hlo : F + w * step ≤ k := by
    have := Int.ediv_mul_le (k - F) (show step ≠ 0 by omega)
    rw [hw]; linarith
  have hhi : k < F + (w + 1) * step := by
    have := Int.lt_ediv_add_one_mul_self (k - F) (show 0 < step by omega)
    rw [hw]; linarith
  have hwn : w < nw := by
    by_contra hc
    have : (nw : Int) * step ≤ w * step := by
      apply mul_le_mul_of_nonneg_right _ (by omega)
      exact_mod_cast not_lt.1 hc
    linarith
  refine ⟨w, hwn, ⟨_, _, hb w (by omega), hb (w + 1) (by omega), ?_, ?_⟩, ?_⟩
  · exact (monthStart_mono.monotone hlo).trans hm1
  · refine lt_of_lt_of_le hm2 (monthStart_mono.monotone ?_)
    push_cast; omega
  · rintro v ⟨a, b, ha, hb', h5, h6⟩
    have hv : v + 1 < nw + 1 := by
      have := (List.getElem?_eq_some_iff.1 hb').1
      omega
    rw [hb v (by omega)] at ha
    rw [hb (v + 1) (by omega)] at hb'
    cases ha; cases hb'
    have e1 : F + v * step < k + 1 := monthStart_mono.lt_iff_lt.1 (lt_of_le_of_lt h5 hm2)
    have e2 : k < F + ((v + 1 : Nat) : Int) * step := monthStart_mono.lt_iff_lt.1 (lt_of_le_of_lt hm1 h6)
    push_cast at e2
    have e3 : ((v : Int) - w) * step < step := by nlinarith
    have e4 : ((w : Int) - v) * step < step := by nlinarith
    have e5 : (v : Int) - w < 1 := by by_contra hc; nlinarith
    have e6 : (w : Int) - v < 1 := by by_contra hc; nlinarith
    omega

/-- C43, violated: if the step divides the number of months between the first and the last month, the
observations of the last month of the period are in no window. -/
theorem c43_last_month_violated (step : Int) (first last : Int × Int) (h1 : 1 ≤ step) (h2 : step ≤ 12)
    (hf : ValidYM first) (hl : ValidYM last) (k : Nat)
    (hk : monthNo last.1 last.2 = monthNo first.1 first.2 + k * step) (d : Int) (hd : Date.Spec.ValidMD last.2 d) :
    ∃ fuel nw, countWindows step last fuel first = some nw ∧
      ∀ w, ¬ InWindow (boundaries step nw first) w (Date.date2ce last.1 last.2 d) := by
  obtain ⟨n, e1, e2, e3⟩ := c43_count step last h1 h2 hl ((monthNo last.1 last.2 - monthNo first.1 first.2 + 1).toNat)
    first hf (by omega)
  have hn : n = k := by
    rw [hk] at e2 e3
    apply le_antisymm
    · by_contra hc
      have := e3 k (by omega)
      omega
    · have : (k : Int) * step ≤ n * step := by linarith
      have := le_of_mul_le_mul_right this (by omega)
      exact_mod_cast this
  refine ⟨_, n, e1, ?_⟩
  rintro w ⟨a, b, ha, hb', h5, h6⟩
  obtain ⟨hlen, hb⟩ := c43_boundaries step n first h1 h2 hf
  have hv : w + 1 < n + 1 := by
    have := (List.getElem?_eq_some_iff.1 hb').1
    omega
  rw [hb (w + 1) (by omega)] at hb'
  cases hb'
  obtain ⟨hm1, _⟩ := date_in_month last.1 last.2 d hd
  have e5 := monthStart_mono.lt_iff_lt.1 (lt_of_le_of_lt hm1 h6)
  rw [hk] at e5
  have : ((w + 1 : Nat) : Int) * step ≤ k * step := mul_le_mul_of_nonneg_right (by omega) (by omega)
  linarith

/-- Two years, quarterly: an observation in December 2021 is in a window; monthly: it is in none. -/
example : InWindow (boundaries 3 8 (2020, 1)) 7 (Date.date2ce 2021 12 5) ∧
    countWindows 1 (2021, 12) 100 (2020, 1) = some 23 ∧
    (boundaries 1 23 (2020, 1)).getLast? = some (Date.date2ce 2021 12 1) := by
  refine ⟨⟨_, _, rfl, rfl, by decide, by decide⟩, by decide +kernel, by decide +kernel⟩

/-! ## Observations of a window -/

theorem scan_spec (a b : Int) (hab : a ≤ b) : ∀ (l : List Int) (t : Nat) (t0 t1 : Int), l.Pairwise (· ≤ ·) →
    scan a b l t (t0, t1) = if l.countP (· < a) < l.countP (· < b) then
      (if t0 < 0 then (t : Int) + l.countP (· < a) else t0, (t : Int) + l.countP (· < b) - 1) else (t0, t1)
  | [], t, t0, t1, _ => by simp [scan]
  | c :: l, t, t0, t1, hs => by
    obtain ⟨h1, h2⟩ := List.pairwise_cons.1 hs
    by_cases hc : c ≥ a ∧ c < b
    · have ha : l.countP (· < a) = 0 := by
        rw [List.countP_eq_zero]; intro x hx; have := h1 x hx; simp; omega
      have ha' : (c :: l).countP (· < a) = 0 := by
        rw [List.countP_cons_of_neg (by simp; omega), ha]
      have hb' : (c :: l).countP (· < b) = l.countP (· < b) + 1 := by
        rw [List.countP_cons_of_pos (by simpa using hc.2)]
      rw [scan, if_pos hc, scan_spec a b hab l (t + 1) _ _ h2, ha, ha', hb']
      generalize l.countP (· < b) = q
      split_ifs <;> first | omega | (simp only [Prod.mk.injEq]; omega) | (simp; done) | (simp; omega)
    · by_cases hb : c ≥ b
      · have hb' : (c :: l).countP (· < b) = 0 := by
          rw [List.countP_eq_zero]; intro x hx
          rcases List.mem_cons.1 hx with rfl | hx
          · simp; omega
          · have := h1 x hx; simp; omega
        rw [scan, if_neg hc, if_pos hb, hb', if_neg (by omega)]
      · have ha' : (c :: l).countP (· < a) = l.countP (· < a) + 1 := by
          rw [List.countP_cons_of_pos (by simp; omega)]
        have hb' : (c :: l).countP (· < b) = l.countP (· < b) + 1 := by
          rw [List.countP_cons_of_pos (by simp; omega)]
        rw [scan, if_neg hc, if_neg hb, scan_spec a b hab l (t + 1) _ _ h2, ha', hb']
        generalize l.countP (· < b) = q
        generalize l.countP (· < a) = r
        split_ifs <;> first | omega | (simp only [Prod.mk.injEq]; omega) | (simp; done) | (simp; omega)

/-- Sorted list: the elements below `x` come first. -/
theorem take_countP {α : Type} (f : α → Int) (x : Int) : ∀ l : List α, (l.map f).Pairwise (· ≤ ·) →
    l.take (l.countP fun o => f o < x) = l.filter (fun o => f o < x) ∧
    l.drop (l.countP fun o => f o < x) = l.filter (fun o => x ≤ f o)
  | [], _ => by simp
  | o :: l, h => by
    rw [List.map_cons, List.pairwise_cons] at h
    obtain ⟨i1, i2⟩ := take_countP f x l h.2
    by_cases ho : f o < x
    · rw [List.countP_cons_of_pos (by simpa using ho), List.filter_cons_of_pos (by simpa using ho),
        List.filter_cons_of_neg (by simpa using ho)]
      simp [i1, i2]
    · have hall : ∀ p ∈ l, x ≤ f p := by
        intro p hp
        have := h.1 (f p) (List.mem_map_of_mem hp)
        omega
      have hz : (o :: l).countP (fun o => f o < x) = 0 := by
        rw [List.countP_eq_zero]
        intro p hp
        rcases List.mem_cons.1 hp with rfl | hp
        · simpa using ho
        · have := hall p hp; simpa using this
      rw [hz]
      constructor
      · rw [List.take_zero, eq_comm, List.filter_eq_nil_iff]
        intro p hp
        rcases List.mem_cons.1 hp with rfl | hp
        · simpa using ho
        · have := hall p hp; simpa using this
      · rw [List.drop_zero, eq_comm, List.filter_eq_self]
        intro p hp
        rcases List.mem_cons.1 hp with rfl | hp
        · simpa using ho
        · have := hall p hp; simpa using this

theorem countP_drop (l : List Int) (hs : l.Pairwise (· ≤ ·)) (a b : Int) (hab : a ≤ b) (left : Nat)
    (hl : left ≤ l.countP (· < a)) : (l.drop left).countP (· < b) + left = l.countP (· < b) := by
  have h1 : (l.take left).countP (· < b) + (l.drop left).countP (· < b) = l.countP (· < b) := by
    rw [← List.countP_append, List.take_append_drop]
  have h2 : (l.take left).countP (· < b) = left := by
    have hlen : (l.take left).length = left := by
      rw [List.length_take]; have := List.countP_le_length (p := (· < a)) (l := l); omega
    rw [List.countP_eq_length.2, hlen]
    · intro x hx
      have hx' : x ∈ l.take (l.countP (· < a)) :=
        (List.take_sublist_take_left hl).subset hx
      have := (take_countP id a l (by simpa using hs)).1
      simp only [id] at this
      rw [this] at hx'
      have := (List.mem_filter.1 hx').2
      simp at this ⊢; omega
  omega

theorem assign_spec (ces : List Int) (hs : ces.Pairwise (· ≤ ·)) : ∀ (bounds : List Int) (left : Nat) (a : Int),
    (a :: bounds).Pairwise (· ≤ ·) → left ≤ ces.countP (· < a) →
    assign ces (a :: bounds) left = ((a :: bounds).zip bounds).map fun ab =>
      if ces.countP (· < ab.1) < ces.countP (· < ab.2) then
        ((ces.countP (· < ab.1) : Int), (ces.countP (· < ab.2) : Int) - 1) else (-1, -1)
  | [], left, a, _, _ => by simp [assign]
  | b :: l, left, a, hp, hl => by
    obtain ⟨h1, h2⟩ := List.pairwise_cons.1 hp
    have hab := h1 b List.mem_cons_self
    have e1 := countP_drop ces hs a a (le_refl _) left hl
    have e2 := countP_drop ces hs a b hab left hl
    have hmono : ces.countP (· < a) ≤ ces.countP (· < b) :=
      List.countP_mono_left (by intro x _ hx; simp at hx ⊢; omega)
    have hscan := scan_spec a b hab (ces.drop left) left (-1) (-1) (hs.sublist (List.drop_sublist _ _))
    rw [assign]
    simp only [List.zip_cons_cons, List.map_cons]
    have hr : scan a b (ces.drop left) left (-1, -1) = if ces.countP (· < a) < ces.countP (· < b) then
        ((ces.countP (· < a) : Int), (ces.countP (· < b) : Int) - 1) else (-1, -1) := by
      rw [hscan]
      split_ifs <;> first | omega | (simp only [Prod.mk.injEq]; omega) | (simp; done) | (simp; omega)
    rw [hr]
    congr 1
    apply assign_spec ces hs l _ b h2
    by_cases hz : ces.countP (· < a) < ces.countP (· < b)
    · simp only [if_pos hz]
      split <;> omega
    · simp only [if_neg hz]
      rw [if_neg (by omega)]
      omega

/-- C43: for images in the order of their dates, the images assigned to a window are exactly those with a date in
the window. -/
theorem c43_assign (ces : List Int) (hs : ces.Pairwise (· ≤ ·)) (bounds : List Int) (hb : bounds.Pairwise (· ≤ ·))
    (w : Nat) (a b : Int) (ha : bounds[w]? = some a) (hb' : bounds[w + 1]? = some b) :
    ∃ t0 t1, (assign ces bounds 0)[w]? = some (t0, t1) ∧
      ∀ (t : Nat) (ce : Int), ces[t]? = some ce → ((t0 > -1 ∧ t0 ≤ t ∧ t ≤ t1) ↔ a ≤ ce ∧ ce < b) := by
  cases bounds with
  | nil => simp at ha
  | cons a0 bs =>
    have hzip : ((a0 :: bs).zip bs)[w]? = some (a, b) := by
      rw [List.getElem?_zip_eq_some]
      exact ⟨ha, by simpa using hb'⟩
    have hab : a ≤ b := by
      obtain ⟨q1, q2⟩ := List.getElem?_eq_some_iff.1 ha
      obtain ⟨q3, q4⟩ := List.getElem?_eq_some_iff.1 hb'
      have := (List.pairwise_iff_getElem.1 hb) w (w + 1) q1 q3 (by omega)
      rw [q2, q4] at this; exact this
    have hkey : ∀ (x : Int) (t : Nat) (ce : Int), ces[t]? = some ce → (t < ces.countP (· < x) ↔ ce < x) := by
      intro x t ce ht
      obtain ⟨q1, q2⟩ := take_countP id x ces (by simpa using hs)
      simp only [id] at q1 q2
      constructor
      · intro hlt
        have : (ces.take (ces.countP (· < x)))[t]? = some ce := by rw [List.getElem?_take_of_lt hlt]; exact ht
        rw [q1] at this
        simpa using (List.mem_filter.1 (List.mem_of_getElem? this)).2
      · intro hlt
        by_contra hc
        have : (ces.drop (ces.countP (· < x)))[t - ces.countP (· < x)]? = some ce := by
          rw [List.getElem?_drop]; rw [show ces.countP (· < x) + (t - ces.countP (· < x)) = t by omega]; exact ht
        rw [q2] at this
        have := (List.mem_filter.1 (List.mem_of_getElem? this)).2
        simp at this; omega
    rw [assign_spec ces hs bs 0 a0 hb (by omega), List.getElem?_map, hzip]
    simp only [Option.map_some]
    by_cases hz : ces.countP (· < a) < ces.countP (· < b)
    · rw [if_pos hz]
      refine ⟨_, _, rfl, ?_⟩
      intro t ce ht
      have k1 := hkey a t ce ht
      have k2 := hkey b t ce ht
      omega
    · rw [if_neg hz]
      refine ⟨_, _, rfl, ?_⟩
      intro t ce ht
      have k1 := hkey a t ce ht
      have k2 := hkey b t ce ht
      omega

example : assign [5, 10, 10, 30] [0, 10, 20, 30, 40] 0 = [(0, 0), (1, 2), (-1, -1), (3, 3)] := by decide

/-! ## Gaps -/

/-- The state agrees with its gaps. -/
structure Good (s : St) : Prop where
  mom : s.q ≠ [] → s.mom = (s.q.length, Stats.Spec.mean (s.q.map fun x : Int => (x : ℝ)),
    Stats.Spec.moment 2 (s.q.map fun x : Int => (x : ℝ)), Stats.Spec.moment 3 (s.q.map fun x : Int => (x : ℝ)),
    Stats.Spec.moment 4 (s.q.map fun x : Int => (x : ℝ)))
  zero : s.q = [] → s.mom = (0, 0, 0, 0, 0)
  mn : s.mn = s.q.foldl min 32767
  mx : s.mx = s.q.foldl max (-32768)

theorem init_good (a : Int) : Good (initSt a) :=
  ⟨fun h => absurd rfl h, fun _ => rfl, rfl, rfl⟩

theorem recur_eq (l : List ℝ) (d : ℝ) (m : Nat × ℝ × ℝ × ℝ × ℝ) (hm : m = Stats.kurtLoop l (0, 0, 0, 0, 0))
    (hl : l = [] → m = (0, 0, 0, 0, 0)) : recur d m = Stats.kurtLoop (l ++ [d]) (0, 0, 0, 0, 0) := by
  rw [Stats.kurtLoop_snoc, ← hm]
  obtain ⟨k, a, b, c, e⟩ := m
  by_cases h : l = []
  · have := hl h
    simp only [Prod.mk.injEq] at this
    obtain ⟨rfl, rfl, rfl, rfl, rfl⟩ := this
    simp [recur, Stats.kurtLoop, Stats.kurtRec]
  · rw [Stats.c36_kurtosis_sums l h] at hm
    simp only [Prod.mk.injEq] at hm
    have : k ≠ 0 := by rw [hm.1]; exact fun h' => h (List.length_eq_zero_iff.1 h')
    simp [recur, Stats.kurtLoop, this]

theorem addGap_good (s : St) (h : Good s) (d : Int) : Good (addGap s d) := by
  have hm : s.mom = Stats.kurtLoop (s.q.map fun x : Int => (x : ℝ)) (0, 0, 0, 0, 0) := by
    by_cases hq : s.q = []
    · rw [h.zero hq, hq]; rfl
    · rw [Stats.c36_kurtosis_sums _ (by simpa using hq), h.mom hq, List.length_map]
  have hr := recur_eq _ (d : ℝ) _ hm (fun h' => h.zero (by simpa using h'))
  refine ⟨?_, ?_, ?_, ?_⟩
  · intro _
    show recur d s.mom = _
    have he : (s.q ++ [d]).map (fun x : Int => (x : ℝ)) = s.q.map (fun x : Int => (x : ℝ)) ++ [(d : ℝ)] := by simp
    rw [hr, Stats.c36_kurtosis_sums _ (by simp)]
    simp only [addGap, he]
    simp
  · intro h'; exact absurd h' (by simp [addGap])
  · show (if d < s.mn then d else s.mn) = _
    simp only [addGap, List.foldl_append, List.foldl_cons, List.foldl_nil, ← h.mn]
    split <;> omega
  · show (if d > s.mx then d else s.mx) = _
    simp only [addGap, List.foldl_append, List.foldl_cons, List.foldl_nil, ← h.mx]
    split <;> omega

theorem good_left (s : St) (h : Good s) (n : Nat) (l : Int) : Good { s with n := n, left := l } :=
  ⟨h.mom, h.zero, h.mn, h.mx⟩

/-- Last element. -/
def lastOr : List Int → Int → Int
  | [], a => a
  | x :: l, _ => lastOr l x

theorem lastOr_mem : ∀ (l : List Int) (x : Int), lastOr l x ∈ x :: l
  | [], x => by simp [lastOr]
  | y :: l, x => List.mem_cons_of_mem _ (lastOr_mem l y)

theorem lastOr_snoc (b : Int) : ∀ (l : List Int) (x : Int), lastOr (l ++ [b]) x = b
  | [], x => by simp [lastOr]
  | y :: l, x => lastOr_snoc b l y

/-- Valid dates of a list of observations. -/
def dates (os : List (Bool × Int)) : List Int := (os.filter (·.1)).map (·.2)

theorem fold_spec : ∀ (os : List (Bool × Int)) (s : St), Good s → (s.left :: dates os).Pairwise (· ≤ ·) →
    Good (os.foldl obsStep s) ∧ (os.foldl obsStep s).n = s.n + (dates os).length ∧
    (os.foldl obsStep s).q = s.q ++ (diffs (s.left :: dates os)).filter (0 < ·) ∧
    (os.foldl obsStep s).left = lastOr (dates os) s.left
  | [], s, hg, _ => by simp [dates, diffs, hg, lastOr]
  | (false, c) :: os, s, hg, hp => by
    have e : dates ((false, c) :: os) = dates os := by simp [dates]
    rw [e] at hp ⊢
    have hst : obsStep s (false, c) = s := by simp [obsStep]
    rw [List.foldl_cons, hst]
    exact fold_spec os s hg hp
  | (true, c) :: os, s, hg, hp => by
    have e : dates ((true, c) :: os) = c :: dates os := by simp [dates]
    rw [e] at hp ⊢
    obtain ⟨h1, h2⟩ := List.pairwise_cons.1 hp
    have hlc := h1 c List.mem_cons_self
    rw [List.foldl_cons]
    by_cases hc : c > s.left
    · have hst : obsStep s (true, c) = { addGap s (c - s.left) with left := c, n := s.n + 1 } := by
        simp only [obsStep, Bool.not_true, Bool.false_eq_true, if_false, if_pos hc]
        rfl
      rw [hst]
      obtain ⟨i1, i2, i3, i4⟩ := fold_spec os { addGap s (c - s.left) with left := c, n := s.n + 1 }
        (good_left _ (addGap_good s hg _) _ _) h2
      refine ⟨i1, ?_, ?_, ?_⟩
      · rw [i2]; simp only [List.length_cons]; omega
      · rw [i3]
        simp only [addGap, diffs]
        rw [List.filter_cons_of_pos (by simpa using hc)]
        simp
      · rw [i4]; simp [lastOr]
    · have hst : obsStep s (true, c) = { s with n := s.n + 1 } := by
        simp only [obsStep, Bool.not_true, Bool.false_eq_true, if_false, if_neg hc]
      have hceq : c = s.left := by omega
      rw [hst]
      obtain ⟨i1, i2, i3, i4⟩ := fold_spec os { s with n := s.n + 1 } (good_left _ hg _ _) (by rw [hceq] at h2; exact h2)
      refine ⟨i1, ?_, ?_, ?_⟩
      · rw [i2]; simp only [List.length_cons]; omega
      · rw [i3]
        simp only [diffs]
        rw [List.filter_cons_of_neg (by simpa using hceq.le), hceq]
      · rw [i4, hceq]; simp [lastOr]

theorem diffs_snoc (b : Int) : ∀ (l : List Int) (a : Int), diffs (a :: l ++ [b]) = diffs (a :: l) ++ [b - lastOr l a]
  | [], a => by simp [diffs, lastOr]
  | x :: l, a => by
    have := diffs_snoc b l x
    simp only [List.cons_append, diffs] at this ⊢
    rw [this]
    simp [lastOr]

/-- C43: the gaps of a window add up to its length, and are positive. -/
theorem c43_gaps_sum (a b : Int) (ds : List Int) (hs : ds.Pairwise (· ≤ ·)) (hr : ∀ d ∈ ds, a ≤ d ∧ d ≤ b)
    (hab : a ≤ b) : (gaps a b ds).sum = b - a ∧ ∀ g ∈ gaps a b ds, 0 < g ∧ g ≤ b - a := by
  have hnn : ∀ (l : List Int) (a : Int), (a :: l).Pairwise (· ≤ ·) → ((diffs (a :: l)).filter (0 < ·)).sum = lastOr l a - a ∧
      ∀ g ∈ diffs (a :: l), g ≤ lastOr l a - a := by
    intro l
    induction l with
    | nil => intro a _; simp [diffs, lastOr]
    | cons x l ih =>
      intro a hp
      obtain ⟨h1, h2⟩ := List.pairwise_cons.1 hp
      obtain ⟨i1, i2⟩ := ih x h2
      have hax := h1 x List.mem_cons_self
      have hlast : x ≤ lastOr l x := by
        cases l with
        | nil => simp [lastOr]
        | cons y l =>
          have hm : lastOr (y :: l) x ∈ (y :: l) := by
            exact lastOr_mem l y
          exact (List.pairwise_cons.1 h2).1 _ hm
      have hl : lastOr (x :: l) a = lastOr l x := by simp [lastOr]
      rw [hl]
      simp only [diffs]
      constructor
      · by_cases hx : 0 < x - a
        · rw [List.filter_cons_of_pos (by simpa using hx), List.sum_cons, i1]; ring
        · rw [List.filter_cons_of_neg (by simpa using hx), i1]
          have : x = a := by omega
          rw [this]
      · intro g hg
        rcases List.mem_cons.1 hg with rfl | hg
        · omega
        · have := i2 g hg; omega
  have hp : (a :: (ds ++ [b])).Pairwise (· ≤ ·) := by
    rw [List.pairwise_cons, List.pairwise_append]
    refine ⟨?_, hs, by simp, ?_⟩
    · intro d hd
      rcases List.mem_append.1 hd with hd | hd
      · exact (hr d hd).1
      · simp at hd; omega
    · intro x hx y hy
      simp at hy; rw [hy]; exact (hr x hx).2
  obtain ⟨h1, h2⟩ := hnn (ds ++ [b]) a hp
  have hl : lastOr (ds ++ [b]) a = b := lastOr_snoc b ds a
  rw [hl] at h1 h2
  refine ⟨h1, ?_⟩
  intro g hg
  obtain ⟨q1, q2⟩ := List.mem_filter.1 hg
  exact ⟨by simpa using q2, h2 g q1⟩

theorem foldl_min (l : List Int) : ∀ m : Int, l.foldl min m ≤ m ∧ (∀ x ∈ l, l.foldl min m ≤ x) ∧
    (l.foldl min m = m ∨ l.foldl min m ∈ l) := by
  induction l with
  | nil => intro m; simp
  | cons x l ih =>
    intro m
    obtain ⟨h1, h2, h3⟩ := ih (min m x)
    simp only [List.foldl_cons]
    refine ⟨h1.trans (min_le_left _ _), ?_, ?_⟩
    · intro y hy
      rcases List.mem_cons.1 hy with rfl | hy
      · exact h1.trans (min_le_right _ _)
      · exact h2 y hy
    · rcases h3 with h3 | h3
      · rcases min_choice m x with h | h
        · left; rw [h3, h]
        · right; rw [h3, h]; exact List.mem_cons_self
      · right; exact List.mem_cons_of_mem _ h3

theorem foldl_max (l : List Int) : ∀ m : Int, m ≤ l.foldl max m ∧ (∀ x ∈ l, x ≤ l.foldl max m) ∧
    (l.foldl max m = m ∨ l.foldl max m ∈ l) := by
  induction l with
  | nil => intro m; simp
  | cons x l ih =>
    intro m
    obtain ⟨h1, h2, h3⟩ := ih (max m x)
    simp only [List.foldl_cons]
    refine ⟨(le_max_left _ _).trans h1, ?_, ?_⟩
    · intro y hy
      rcases List.mem_cons.1 hy with rfl | hy
      · exact (le_max_right _ _).trans h1
      · exact h2 y hy
    · rcases h3 with h3 | h3
      · rcases max_choice m x with h | h
        · left; rw [h3, h]
        · right; rw [h3, h]; exact List.mem_cons_self
      · right; exact List.mem_cons_of_mem _ h3

theorem gaps_ne_nil (a b : Int) (ds : List Int) (hs : ds.Pairwise (· ≤ ·)) (hr : ∀ d ∈ ds, a ≤ d ∧ d ≤ b)
    (hab : a < b) : gaps a b ds ≠ [] := by
  intro h
  have := (c43_gaps_sum a b ds hs hr hab.le).1
  rw [h] at this
  simp at this; omega

theorem cast_sum : ∀ l : List Int, (l.map fun x : Int => (x : ℝ)).sum = ((l.sum : Int) : ℝ)
  | [] => by simp
  | x :: l => by rw [List.map_cons, List.sum_cons, List.sum_cons, cast_sum l]; push_cast; ring

/-- The state after a window. -/
theorem window_spec (a b : Int) (os : Option (List (Bool × Int)))
    (hs : (dates (os.getD [])).Pairwise (· ≤ ·)) (hr : ∀ d ∈ dates (os.getD []), a ≤ d ∧ d ≤ b) (hab : a < b)
    (hlen : b - a ≤ 32767) :
    (window a b os).n = (dates (os.getD [])).length ∧
    (os ≠ none → (window a b os).q = gaps a b (dates (os.getD []))) ∧ (os ≠ none → Good (window a b os)) ∧
    ((window a b os).mn ∈ gaps a b (dates (os.getD [])) ∧ ∀ g ∈ gaps a b (dates (os.getD [])), (window a b os).mn ≤ g) ∧
    ((window a b os).mx ∈ gaps a b (dates (os.getD [])) ∧ ∀ g ∈ gaps a b (dates (os.getD [])), g ≤ (window a b os).mx) ∧
    (window a b os).mom.2.1 = ((b - a : Int) : ℝ) / (gaps a b (dates (os.getD []))).length := by
  cases os with
  | none =>
    have hg : gaps a b [] = [b - a] := by
      simp only [gaps, diffs, List.cons_append, List.nil_append]
      rw [List.filter_cons_of_pos (by simp; omega)]; simp
    simp only [Option.getD_none]
    have e : dates [] = [] := rfl
    rw [e, hg]
    simp [window]
  | some os =>
    simp only [Option.getD_some] at hs hr ⊢
    obtain ⟨hsum, hpos⟩ := c43_gaps_sum a b _ hs hr hab.le
    have hne := gaps_ne_nil a b _ hs hr hab
    obtain ⟨h1, h2, h3, h4⟩ := fold_spec os (initSt a) (init_good a) (by
      rw [List.pairwise_cons]; exact ⟨fun d hd => (hr d hd).1, hs⟩)
    have hq : (window a b (some os)).q = gaps a b (dates os) ∧ Good (window a b (some os)) ∧
        (window a b (some os)).n = (dates os).length := by
      have hgap : gaps a b (dates os) = (diffs (a :: dates os)).filter (0 < ·) ++
          [b - lastOr (dates os) a].filter (0 < ·) := by
        unfold gaps; rw [diffs_snoc, List.filter_append]
      simp only [window]
      have h4' : (os.foldl obsStep (initSt a)).left = lastOr (dates os) a := h4
      have h3' : (os.foldl obsStep (initSt a)).q = (diffs (a :: dates os)).filter (0 < ·) := by simpa [initSt] using h3
      have h2' : (os.foldl obsStep (initSt a)).n = (dates os).length := by simpa [initSt] using h2
      by_cases hb : b - lastOr (dates os) a > 0
      · rw [h4', if_pos hb]
        refine ⟨?_, addGap_good _ h1 _, ?_⟩
        · rw [hgap, List.filter_cons_of_pos (by simpa using hb)]
          simp only [addGap, h3', List.filter_nil]
        · exact h2'
      · rw [h4', if_neg hb]
        refine ⟨?_, h1, h2'⟩
        rw [hgap, List.filter_cons_of_neg (by simpa using hb), h3']; simp
    obtain ⟨q1, q2, q3⟩ := hq
    refine ⟨q3, fun _ => q1, fun _ => q2, ?_, ?_, ?_⟩
    · obtain ⟨m1, m2, m3⟩ := foldl_min (gaps a b (dates os)) 32767
      rw [q2.mn, q1]
      refine ⟨?_, m2⟩
      rcases m3 with m3 | m3
      · obtain ⟨g, hg⟩ := List.exists_mem_of_ne_nil _ hne
        have := m2 g hg
        have := hpos g hg
        have hge : g = 32767 := by omega
        rw [m3, ← hge]; exact hg
      · exact m3
    · obtain ⟨m1, m2, m3⟩ := foldl_max (gaps a b (dates os)) (-32768)
      rw [q2.mx, q1]
      refine ⟨?_, m2⟩
      rcases m3 with m3 | m3
      · obtain ⟨g, hg⟩ := List.exists_mem_of_ne_nil _ hne
        have := m2 g hg
        have := hpos g hg
        omega
      · exact m3
    · rw [q2.mom (by rw [q1]; exact hne), q1]
      simp only [Stats.Spec.mean, List.length_map]
      congr 1
      rw [← hsum]
      exact cast_sum _

theorem filter_window (a b : Int) (hab : a ≤ b) (l : List (Bool × Int)) (hs : (l.map (·.2)).Pairwise (· ≤ ·)) :
    (l.drop (l.countP fun o => o.2 < a)).take (l.countP (fun o => o.2 < b) - l.countP fun o => o.2 < a) =
      l.filter fun o => decide (a ≤ o.2) && decide (o.2 < b) := by
  rw [← List.drop_take]
  obtain ⟨h1, -⟩ := take_countP (fun o : Bool × Int => o.2) b l hs
  rw [h1]
  have hc : (l.filter fun o => decide (o.2 < b)).countP (fun o => decide (o.2 < a)) = l.countP fun o => decide (o.2 < a) := by
    rw [List.countP_filter]
    apply List.countP_congr
    intro x _
    simp; omega
  have hs' : ((l.filter fun o => decide (o.2 < b)).map (·.2)).Pairwise (· ≤ ·) :=
    hs.sublist (List.Sublist.map _ List.filter_sublist)
  obtain ⟨-, h2⟩ := take_countP (fun o : Bool × Int => o.2) a _ hs'
  rw [← hc, h2, List.filter_filter]

theorem clear_eq (a b : Int) (l : List (Bool × Int)) :
    dates (l.filter fun o => decide (a ≤ o.2) && decide (o.2 < b)) = clear a b l := by
  unfold dates clear
  rw [List.filter_filter]
  simp only [Bool.and_assoc]

/-- C43: for each window: the number of clear-sky observations; minimum, maximum, range and mean (truncated) of the
gaps between them, including the edges of the window. Exact arithmetic. The images are sorted by date, a window
has at most 32767 days. -/
theorem c43_pixel (ces : List Int) (msk : List Bool) (hlen : msk.length = ces.length) (hs : ces.Pairwise (· ≤ ·))
    (bounds : List Int) (hb : bounds.Pairwise (· < ·)) (w : Nat) (a b : Int) (ha : bounds[w]? = some a)
    (hb' : bounds[w + 1]? = some b) (hw : b - a ≤ 32767) :
    ∃ s, (pixel ces msk bounds)[w]? = some s ∧ outNum s = (clear a b (msk.zip ces)).length ∧
      (outMin s ∈ gaps a b (clear a b (msk.zip ces)) ∧ ∀ g ∈ gaps a b (clear a b (msk.zip ces)), outMin s ≤ g) ∧
      (outMax s ∈ gaps a b (clear a b (msk.zip ces)) ∧ ∀ g ∈ gaps a b (clear a b (msk.zip ces)), g ≤ outMax s) ∧
      outRng s = outMax s - outMin s ∧
      outAvg s = .ok ((b - a) / (gaps a b (clear a b (msk.zip ces))).length) := by
  have hab : a < b := by
    obtain ⟨q1, q2⟩ := List.getElem?_eq_some_iff.1 ha
    obtain ⟨q3, q4⟩ := List.getElem?_eq_some_iff.1 hb'
    have := (List.pairwise_iff_getElem.1 hb) w (w + 1) q1 q3 (by omega)
    rw [q2, q4] at this; exact this
  have hle : bounds.Pairwise (· ≤ ·) := hb.imp (fun h => le_of_lt h)
  cases bounds with
  | nil => simp at ha
  | cons a0 bs =>
    have hzip : ((a0 :: bs).zip bs)[w]? = some (a, b) := by
      rw [List.getElem?_zip_eq_some]
      exact ⟨ha, by simpa using hb'⟩
    have hmap : (msk.zip ces).map (·.2) = ces := by
      rw [List.map_snd_zip (by omega)]
    have hcount : ∀ x : Int, (msk.zip ces).countP (fun o => decide (o.2 < x)) = ces.countP (fun c => decide (c < x)) := by
      intro x
      conv_rhs => rw [← hmap]
      rw [List.countP_map]; rfl
    have hfw := filter_window a b hab.le (msk.zip ces) (by rw [hmap]; exact hs)
    rw [hcount, hcount] at hfw
    set F := (msk.zip ces).filter fun o => decide (a ≤ o.2) && decide (o.2 < b) with hF
    have hFd : dates F = clear a b (msk.zip ces) := clear_eq a b _
    have hsort : (dates F).Pairwise (· ≤ ·) := by
      unfold dates
      refine List.Pairwise.sublist ?_ hs
      conv_rhs => rw [← hmap]
      exact List.Sublist.map _ (List.filter_sublist.trans List.filter_sublist)
    have hrange : ∀ d ∈ dates F, a ≤ d ∧ d ≤ b := by
      intro d hd
      obtain ⟨o, ho, rfl⟩ := List.mem_map.1 hd
      have := (List.mem_filter.1 (List.mem_filter.1 ho).1).2
      simp at this; omega
    have hwin : ∃ os, (os.getD [] = F) ∧ (pixel ces msk (a0 :: bs))[w]? = some (window a b os) := by
      have hpx : (pixel ces msk (a0 :: bs))[w]? = some (window a b (if
          (if ces.countP (· < a) < ces.countP (· < b) then
            ((ces.countP (· < a) : Int), (ces.countP (· < b) : Int) - 1) else (-1, -1)).1 > -1 then
          some (((msk.zip ces).drop (if ces.countP (· < a) < ces.countP (· < b) then
            ((ces.countP (· < a) : Int), (ces.countP (· < b) : Int) - 1) else (-1, -1)).1.toNat).take
            ((if ces.countP (· < a) < ces.countP (· < b) then
            ((ces.countP (· < a) : Int), (ces.countP (· < b) : Int) - 1) else (-1, -1)).2 -
            (if ces.countP (· < a) < ces.countP (· < b) then
            ((ces.countP (· < a) : Int), (ces.countP (· < b) : Int) - 1) else (-1, -1)).1 + 1).toNat) else none)) := by
        unfold pixel
        rw [assign_spec ces hs bs 0 a0 hle (by omega), List.getElem?_zipWith, List.getElem?_map]
        simp only [List.drop_succ_cons, List.drop_zero, hzip, Option.map_some]
      by_cases hz : ces.countP (· < a) < ces.countP (· < b)
      · simp only [if_pos hz] at hpx
        rw [if_pos (by omega)] at hpx
        refine ⟨_, ?_, hpx⟩
        rw [Option.getD_some, ← hfw]
        congr 1
        omega
      · simp only [if_neg hz] at hpx
        rw [if_neg (by omega)] at hpx
        refine ⟨none, ?_, hpx⟩
        rw [Option.getD_none, ← hfw, show ces.countP (fun c => decide (c < b)) - ces.countP (fun c => decide (c < a)) = 0 by omega]
        simp
    obtain ⟨os, hos, hpx⟩ := hwin
    obtain ⟨r1, _, _, r2, r3, r4⟩ := window_spec a b os (by rw [hos]; exact hsort) (by rw [hos]; exact hrange) hab hw
    rw [hos, hFd] at r1 r2 r3 r4
    refine ⟨_, hpx, ?_, r2, r3, rfl, ?_⟩
    · unfold outNum; rw [r1]
    · unfold outAvg
      rw [r4]
      have hne : gaps a b (clear a b (msk.zip ces)) ≠ [] := by
        rw [← hFd]; exact gaps_ne_nil a b _ hsort hrange hab
      have hk : 0 < (gaps a b (clear a b (msk.zip ces))).length := List.length_pos_iff.2 hne
      generalize (gaps a b (clear a b (msk.zip ces))).length = k at *
      have ht : truncR (((b - a : Int) : ℝ) / k) = (b - a) / (k : Int) := by
        unfold truncR
        rw [if_pos (by
          apply div_nonneg
          · exact_mod_cast (by omega : (0 : Int) ≤ b - a)
          · exact_mod_cast (by omega : 0 ≤ k))]
        rw [Int.floor_eq_iff]
        have hkr : (0 : ℝ) < k := by exact_mod_cast hk
        constructor
        · rw [le_div_iff₀ hkr]
          exact_mod_cast Int.ediv_mul_le (b - a) (by omega)
        · rw [div_lt_iff₀ hkr]
          exact_mod_cast Int.lt_ediv_add_one_mul_self (b - a) (by omega)
      show (if _ then _ else _) = _
      rw [ht]
      have h0 : 0 ≤ (b - a) / (k : Int) := Int.ediv_nonneg (by omega) (by omega)
      have h1 : (b - a) / (k : Int) ≤ b - a := Int.ediv_le_self _ (by omega)
      rw [if_pos ⟨by omega, by omega⟩]

/-- Two images on the days 5 and 12 of the window [0, 30), the second one cloudy; one image in the next one. -/
example : clear 0 30 [(true, 5), (false, 12), (true, 35)] = [5] ∧ gaps 0 30 [5] = [5, 25] ∧
    clear 30 60 [(true, 5), (false, 12), (true, 35)] = [35] ∧ gaps 60 90 [] = [30] := by decide

/-- C43, violated: the standard deviation is computed with the number of observations instead of the number of
gaps. With one observation in the window, this is a division by zero whose result is converted to an integer. -/
theorem c43_std_one_violated (a b c : Int) : outStd (window a b (some [(true, c)])) = .ub := by
  have h : (window a b (some [(true, c)])).n = 1 := by
    simp only [window, List.foldl_cons, List.foldl_nil, obsStep, initSt, Bool.not_true, Bool.false_eq_true, if_false, addGap]
    split_ifs <;> rfl
  unfold outStd
  rw [if_pos h]

/-- C43, violated: with several observations the reported deviation is too large, unless all gaps are equal. -/
theorem c43_std_violated (a b : Int) (ds : List Int) (hs : (a :: ds ++ [b]).Pairwise (· < ·)) (h2 : 2 ≤ ds.length)
    (hw : b - a ≤ 32767) (hv : 0 < Stats.Spec.moment 2 ((gaps a b ds).map fun x : Int => (x : ℝ))) :
    ∃ v, (window a b (some (ds.map fun d => (true, d)))).mom.2.2.1 = v ∧
      outStd (window a b (some (ds.map fun d => (true, d)))) = shortOf (some (Stats.standdev v ds.length)) ∧
      Stats.standdev v (gaps a b ds).length < Stats.standdev v ds.length := by
  have hd : dates (ds.map fun d => (true, d)) = ds := by
    unfold dates
    rw [List.filter_eq_self.2 (by intro x hx; obtain ⟨y, _, rfl⟩ := List.mem_map.1 hx; rfl), List.map_map]
    simp [Function.comp_def]
  have hgl : (gaps a b ds).length = ds.length + 1 := by
    have : ∀ (l : List Int) (a : Int), (a :: l).Pairwise (· < ·) → ((diffs (a :: l)).filter (0 < ·)).length = l.length := by
      intro l
      induction l with
      | nil => intro a _; simp [diffs]
      | cons x l ih =>
        intro a hp
        obtain ⟨h1, h2⟩ := List.pairwise_cons.1 hp
        have := h1 x List.mem_cons_self
        simp only [diffs]
        rw [List.filter_cons_of_pos (by simpa using this), List.length_cons, ih x h2, List.length_cons]
    have := this (ds ++ [b]) a (by simpa using hs)
    simpa [gaps] using this
  rw [List.cons_append, List.pairwise_cons, List.pairwise_append] at hs
  obtain ⟨p1, p2, -, p3⟩ := hs
  have hab : a < b := p1 b (by simp)
  obtain ⟨r1, r2, r3, _⟩ := window_spec a b (some (ds.map fun d => (true, d)))
    (by rw [Option.getD_some, hd]; exact p2.imp fun h => le_of_lt h)
    (by rw [Option.getD_some, hd]; intro d hd'; exact ⟨(p1 d (by simp [hd'])).le, (p3 d hd' b (by simp)).le⟩) hab hw
  rw [Option.getD_some, hd] at r1 r2
  have hq := r2 (by simp)
  have hg := r3 (by simp)
  have hne : gaps a b ds ≠ [] := by intro h; rw [h] at hgl; simp at hgl
  have hvar : (window a b (some (ds.map fun d => (true, d)))).mom.2.2.1 =
      Stats.Spec.moment 2 ((gaps a b ds).map fun x : Int => (x : ℝ)) := by
    rw [hg.mom (by rw [hq]; exact hne), hq]
  refine ⟨_, rfl, ?_, ?_⟩
  · unfold outStd
    rw [r1, if_neg (by omega)]
  · rw [hvar, hgl]
    unfold Stats.standdev Stats.variance
    apply Real.sqrt_lt_sqrt
    · apply div_nonneg hv.le
      push_cast
      have : (2 : ℝ) ≤ ds.length := by exact_mod_cast h2
      linarith
    · have h3 : (2 : ℝ) ≤ ds.length := by exact_mod_cast h2
      apply div_lt_div_of_pos_left hv
      · linarith
      · push_cast; linarith

/-- C43, violated: skewness and kurtosis of equal gaps (e.g. a single gap: an image on the first day of the window)
are no numbers, their conversion is undefined. -/
theorem c43_skew_violated (a b : Int) (h1 : a < b) :
    outSkw (window a b (some [(true, a)])) = .ub ∧ outKrt (window a b (some [(true, a)])) = .ub := by
  have hn : (window a b (some [(true, a)])).n = 1 ∧ (window a b (some [(true, a)])).mom.2.2.1 = 0 := by
    simp only [window, List.foldl_cons, List.foldl_nil, obsStep, initSt, Bool.not_true, Bool.false_eq_true, if_false, addGap,
      gt_iff_lt, lt_irrefl]
    rw [if_pos (by omega)]
    simp [recur, Stats.kurtRec]
  unfold outSkw outKrt
  rw [hn.1, hn.2]
  simp

/-- C43, violated: the quantiles are computed from as many gaps as there are observations: the last gap is missing.
With one observation within the window each quantile is the first gap, whatever follows. -/
theorem c43_quantile_violated (quant : List ℝ → ℝ) (hq : ∀ x, quant [x] = x) (stale : List Int) (a b c : Int)
    (h1 : a < c) (h2 : c < b) (h3 : b - a ≤ 32767) :
    gaps a b [c] = [c - a, b - c] ∧ outQuant quant stale (window a b (some [(true, c)])) = .ok (c - a) := by
  constructor
  · simp only [gaps, diffs, List.cons_append, List.nil_append]
    rw [List.filter_cons_of_pos (by simp; omega), List.filter_cons_of_pos (by simp; omega)]; simp
  · have hn : (window a b (some [(true, c)])).n = 1 ∧ (window a b (some [(true, c)])).q = [c - a, b - c] := by
      simp only [window, List.foldl_cons, List.foldl_nil, obsStep, initSt, Bool.not_true, Bool.false_eq_true, if_false, addGap]
      rw [if_pos h1, if_pos (by simp only; omega)]
      simp
    unfold outQuant
    rw [hn.1, hn.2]
    simp only [List.cons_append, List.take_succ_cons, List.take_zero, List.map_cons, List.map_nil,
      List.insertionSort_cons, List.insertionSort_nil, List.orderedInsert, hq]
    have ht : truncR ((c - a : Int) : ℝ) = c - a := by
      unfold truncR; split <;> simp
    show (if _ then _ else _) = _
    rw [ht, if_pos ⟨by omega, by omega⟩]

/-- C43, violated: with several observations on one day there are fewer gaps than observations, and the quantiles
use values of other windows or pixels: here three images on the first day of the window, and the smallest value
(0% quantile). -/
theorem c43_quantile_stale_violated (a b : Int) (h1 : a < b) (h2 : b - a ≤ 32767) :
    outQuant (fun l => l.headD 0) [0, 0] (window a b (some [(true, a), (true, a), (true, a)])) = .ok 0 ∧
    outQuant (fun l => l.headD 0) [b - a, b - a] (window a b (some [(true, a), (true, a), (true, a)])) = .ok (b - a) := by
  have hn : (window a b (some [(true, a), (true, a), (true, a)])).n = 3 ∧
      (window a b (some [(true, a), (true, a), (true, a)])).q = [b - a] := by
    simp only [window, List.foldl_cons, List.foldl_nil, obsStep, initSt, Bool.not_true, Bool.false_eq_true, if_false, addGap,
      gt_iff_lt, lt_irrefl]
    rw [if_pos (by omega)]
    simp
  have hr : (a : ℝ) < b := by exact_mod_cast h1
  have ht : truncR ((b : ℝ) - a) = b - a := by
    have := (by unfold truncR; split <;> simp : truncR ((b - a : Int) : ℝ) = b - a)
    push_cast at this; exact this
  constructor
  · unfold outQuant
    rw [hn.1, hn.2]
    simp [List.orderedInsert, shortOf, truncR, show ¬ b ≤ a by omega]
  · unfold outQuant
    rw [hn.1, hn.2]
    simp [List.orderedInsert, shortOf, ht]
    omega

end Verif.Cso
