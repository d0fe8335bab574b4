import Verif.Date.Props
import Verif.Season.Model
import Verif.Season.Spec

/-!
# Theorems about the temporal window: C50
-/

namespace Verif.Season

open Spec

theorem fillRange_iff (lo : Int) (n : Nat) (a : Int → Bool) (d : Int) :
    fillRange lo n a d = true ↔ a d = true ∨ (lo ≤ d ∧ d < lo + n) := by
  induction n generalizing lo a with
  | zero =>
    simp only [fillRange]
    constructor
    · exact Or.inl
    · rintro (h | h)
      exacts [h, by omega]
  | succ n ih =>
    rw [fillRange, ih]
    unfold setTrue
    by_cases h : d = lo
    · subst h; simp
    · rw [if_neg h]
      constructor
      · rintro (h1 | h1)
        exacts [Or.inl h1, Or.inr (by omega)]
      · rintro (h1 | h1)
        exacts [Or.inl h1, Or.inr (by omega)]

/-- C50 (partial): the window contains exactly the days of the season, also if it extends over the
end of the year. Missing: seasons of one day, see `c50_single_day_violated`. -/
theorem c50_days_partial (lo hi : Int) (hlo : 1 ≤ lo ∧ lo ≤ 365) (hhi : 1 ≤ hi ∧ hi ≤ 365)
    (hne : lo ≠ hi) (d : Int) : (window lo hi).days d = true ↔ InSeason lo hi d := by
  unfold window doys InSeason
  simp only
  split
  · rw [fillRange_iff, if_pos (by omega)]
    simp only [Bool.false_eq_true, false_or]
    omega
  · rw [fillRange_iff, fillRange_iff, if_neg (by omega)]
    simp only [Bool.false_eq_true, false_or]
    omega

example : (window 330 60).days 350 = true ∧ (window 330 60).days 100 = false := by decide +kernel

/-- C50 does not hold for a season of one day: all days of the year are selected. -/
theorem c50_single_day_violated (lo : Int) (hlo : 1 ≤ lo ∧ lo ≤ 365) (d : Int) (hd : 1 ≤ d ∧ d ≤ 365) :
    (window lo lo).days d = true := by
  unfold window doys
  simp only
  rw [if_neg (by omega), fillRange_iff, fillRange_iff]
  omega

theorem flagLoop_iff (period : Int → Int) (sel : Int → Bool) (d : Int) (n : Nat) (a : Int → Bool)
    (p : Int) : flagLoop period sel d n a p = true ↔
      a p = true ∨ ∃ e, d ≤ e ∧ e < d + n ∧ sel e = true ∧ period e = p := by
  induction n generalizing d a with
  | zero =>
    simp only [flagLoop]
    constructor
    · exact Or.inl
    · rintro (h | ⟨e, h1, h2, -⟩)
      · exact h
      · omega
  | succ n ih =>
    rw [flagLoop, ih]
    cases hs : sel d with
    | false =>
      simp only [Bool.not_false, if_true]
      constructor
      · rintro (h | ⟨e, h1, h2, h3⟩)
        exacts [Or.inl h, Or.inr ⟨e, by omega, by omega, h3⟩]
      · rintro (h | ⟨e, h1, h2, h3, h4⟩)
        · exact Or.inl h
        · by_cases he : e = d
          · subst he; rw [hs] at h3; simp at h3
          · exact Or.inr ⟨e, by omega, by omega, h3, h4⟩
    | true =>
      simp only [Bool.not_true, Bool.false_eq_true, if_false, setTrue]
      by_cases hp : p = period d
      · subst hp
        simp only [if_true, true_or, true_iff]
        exact Or.inr ⟨d, by omega, by omega, hs, rfl⟩
      · rw [if_neg hp]
        constructor
        · rintro (h | ⟨e, h1, h2, h3⟩)
          exacts [Or.inl h, Or.inr ⟨e, by omega, by omega, h3⟩]
        · rintro (h | ⟨e, h1, h2, h3, h4⟩)
          · exact Or.inl h
          · by_cases he : e = d
            · subst he; exact absurd h4.symm hp
            · exact Or.inr ⟨e, by omega, by omega, h3, h4⟩

/-- C50: a week, month or quarter is selected if and only if it contains a selected day. -/
theorem c50_periods (lo hi : Int) (p : Int) :
    ((window lo hi).weeks p = true ↔
      ∃ d, 1 ≤ d ∧ d ≤ 365 ∧ (window lo hi).days d = true ∧ Date.doy2week d = p) ∧
    ((window lo hi).months p = true ↔
      ∃ d, 1 ≤ d ∧ d ≤ 365 ∧ (window lo hi).days d = true ∧ Date.doy2m d = p) ∧
    ((window lo hi).quarters p = true ↔
      ∃ d, 1 ≤ d ∧ d ≤ 365 ∧ (window lo hi).days d = true ∧ Date.doy2quarter d = p) := by
  have key : ∀ period : Int → Int, flags period (doys lo hi) p = true ↔
      ∃ d, 1 ≤ d ∧ d ≤ 365 ∧ doys lo hi d = true ∧ period d = p := by
    intro period
    unfold flags
    rw [flagLoop_iff]
    simp only [Bool.false_eq_true, false_or]
    constructor
    · rintro ⟨e, h1, h2, h3⟩; exact ⟨e, h1, by omega, h3⟩
    · rintro ⟨e, h1, h2, h3⟩; exact ⟨e, h1, by omega, h3⟩
  have e0 : (window lo hi).days = doys lo hi := by simp only [window]
  have e1 : (window lo hi).weeks = flags Date.doy2week (doys lo hi) := by simp only [window]
  have e2 : (window lo hi).months = flags Date.doy2m (doys lo hi) := by simp only [window]
  have e3 : (window lo hi).quarters = flags Date.doy2quarter (doys lo hi) := by simp only [window]
  rw [e0, e1, e2, e3]
  exact ⟨key Date.doy2week, key Date.doy2m, key Date.doy2quarter⟩

theorem interval_succ (a : Int) (n : Nat) : interval a (n + 1) = a :: interval (a + 1) n := by
  unfold interval
  rw [List.range_succ_eq_map, List.map_cons, List.map_map]
  congr 1
  · simp
  · apply List.map_congr_left
    intro i _
    simp only [Function.comp, Nat.succ_eq_add_one]
    push_cast
    omega

theorem sumLoop_eq (a : Int → Bool) (lo : Int) (n : Nat) (s : Int) :
    sumLoop a lo n s = s + ((interval lo n).countP a : Int) := by
  induction n generalizing lo s with
  | zero => simp [sumLoop, interval]
  | succ n ih =>
    rw [sumLoop, ih, interval_succ, List.countP_cons]
    split <;> push_cast <;> omega

/-- C50: the numbers of periods are the numbers of selected days, weeks, months and quarters. -/
theorem c50_counts (lo hi : Int) :
    (window lo hi).nd = ((interval 1 365).countP (window lo hi).days : Nat) ∧
    (window lo hi).nw = ((interval 1 52).countP (window lo hi).weeks : Nat) ∧
    (window lo hi).nm = ((interval 1 12).countP (window lo hi).months : Nat) ∧
    (window lo hi).nq = ((interval 1 4).countP (window lo hi).quarters : Nat) := by
  refine ⟨?_, ?_, ?_, ?_⟩ <;> (unfold window; simp only [sumLoop_eq, Int.zero_add])

theorem advance_spec (a : Int → Bool) (k : Int) (n : Nat) (h : (interval k n).countP a ≠ 0) :
    ∃ m : Nat, m < n ∧ advance a k n = k + m ∧
      (interval k n).filter a = (k + m) :: (interval (k + m + 1) (n - m - 1)).filter a := by
  induction n generalizing k with
  | zero => simp [interval] at h
  | succ n ih =>
    rw [interval_succ] at h ⊢
    rw [advance]
    cases hk : a k with
    | true =>
      refine ⟨0, by omega, by simp, ?_⟩
      rw [List.filter_cons_of_pos hk]
      simp
    | false =>
      rw [List.countP_cons_of_neg (by simp [hk])] at h
      obtain ⟨m, h1, h2, h3⟩ := ih (k + 1) h
      refine ⟨m + 1, by omega, ?_, ?_⟩
      · simp only [Bool.not_false, if_true, h2]
        push_cast; omega
      · rw [List.filter_cons_of_neg (by simp [hk]), h3]
        have e1 : k + 1 + (m : Int) = k + ((m + 1 : Nat) : Int) := by push_cast; omega
        have e2 : n + 1 - (m + 1) - 1 = n - m - 1 := by omega
        rw [e1, e2]

theorem labelLoop_eq (a : Int → Bool) (N : Int) (k : Int) (hk : k ≤ N + 1) :
    labelLoop a N ((interval k (N + 1 - k).toNat).countP a) k =
      (interval k (N + 1 - k).toNat).filter a := by
  induction hn : (N + 1 - k).toNat using Nat.strong_induction_on generalizing k with
  | _ n ih =>
    by_cases h : (interval k n).countP a = 0
    · rw [h, labelLoop]
      symm
      rw [List.filter_eq_nil_iff]
      intro x hx
      have := List.countP_eq_zero.1 h x hx
      simpa using this
    · obtain ⟨m, h1, h2, h3⟩ := advance_spec a k n h
      have hc : (interval k n).countP a = (interval (k + m + 1) (n - m - 1)).countP a + 1 := by
        rw [List.countP_eq_length_filter, h3, List.length_cons, List.countP_eq_length_filter]
      rw [hc, labelLoop, hn, h2, h3]
      have hlen : (N + 1 - (k + m + 1)).toNat = n - m - 1 := by omega
      have := ih (n - m - 1) (by omega) (k + m + 1) (by omega) hlen
      rw [this]

/-- C50: the folded layers are labelled with the selected periods in increasing order, one layer for
each. -/
theorem c50_labels (lo hi : Int) :
    labels (window lo hi).days 365 (window lo hi).nd = (interval 1 365).filter (window lo hi).days ∧
    labels (window lo hi).weeks 52 (window lo hi).nw = (interval 1 52).filter (window lo hi).weeks ∧
    labels (window lo hi).months 12 (window lo hi).nm = (interval 1 12).filter (window lo hi).months ∧
    labels (window lo hi).quarters 4 (window lo hi).nq =
      (interval 1 4).filter (window lo hi).quarters := by
  obtain ⟨h1, h2, h3, h4⟩ := c50_counts lo hi
  unfold labels
  rw [h1, h2, h3, h4]
  simp only [Int.toNat_natCast]
  refine ⟨?_, ?_, ?_, ?_⟩
  · exact labelLoop_eq (window lo hi).days 365 1 (by omega)
  · exact labelLoop_eq (window lo hi).weeks 52 1 (by omega)
  · exact labelLoop_eq (window lo hi).months 12 1 (by omega)
  · exact labelLoop_eq (window lo hi).quarters 4 1 (by omega)

example : labels (window 330 60).months 12 (window 330 60).nm = [1, 2, 3, 11, 12] := by decide +kernel

/-- C50: an image is used if and only if its date is in the date range and its day in the window, and
it is not a Landsat 7 image after the end of its use. -/
theorem c50_images (dmin dmax ignore : Date.DateT) (days : Int → Bool) (date : Date.DateT) (lnd07 : Bool) :
    keepImage dmin dmax ignore days date lnd07 = true ↔
      dmin.ce ≤ date.ce ∧ date.ce ≤ dmax.ce ∧ days date.doy = true ∧
      ¬ (lnd07 = true ∧ ignore.ce < date.ce) := by
  unfold keepImage
  by_cases h1 : date.ce < dmin.ce
  · rw [if_pos h1]; simp; omega
  · rw [if_neg h1]
    by_cases h2 : date.ce > dmax.ce
    · rw [if_pos h2]; simp; omega
    · rw [if_neg h2]
      cases h3 : days date.doy with
      | false => simp
      | true =>
        simp only [Bool.not_true, Bool.false_eq_true, if_false]
        cases lnd07 with
        | false => simp; omega
        | true =>
          by_cases h4 : date.ce > ignore.ce
          · simp [h4]
          · simp [h4]; omega

end Verif.Season
