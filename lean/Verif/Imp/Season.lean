import Verif.Imp.Model
import Verif.Imp.Spec
import Verif.Index.Lemmas
import Mathlib.Algebra.BigOperators.Group.List.Basic
import Mathlib.Tactic.Linarith
import Mathlib.Tactic.Ring

/-! # Seasonal averages -/

namespace Verif.Imp

open Verif.Str (Out)
open Verif.Index (short truncQ truncQ_eq short_ok)
open Spec

instance (a b doy : Int) : Decidable (InSeason a b doy) := by unfold InSeason; infer_instance

/-- Does the acquisition count for entry `v`? -/
def counts (dwin : Nat → Int) (nwin : Nat) (ywin : Int) (v : Nat) (o : Obs) : Bool :=
  o.msk && ((windowOf dwin nwin ywin o).any fun w => decide (v = w ∨ v = nwin))

theorem acc_spec (dwin : Nat → Int) (nwin : Nat) (ywin : Int) (v b : Nat) (obs : List Obs) (a : Acc) :
    (obs.foldl (Acc.add dwin nwin ywin) a).k v = a.k v + (obs.filter (counts dwin nwin ywin v)).length ∧
    (obs.foldl (Acc.add dwin nwin ywin) a).avg v b =
      a.avg v b + ((obs.filter (counts dwin nwin ywin v)).map fun o => o.dat b).sum := by
  induction obs generalizing a with
  | nil => simp
  | cons o t ih =>
    rw [List.foldl_cons]
    obtain ⟨h1, h2⟩ := ih (Acc.add dwin nwin ywin a o)
    rw [h1, h2]
    have : (Acc.add dwin nwin ywin a o).k v = a.k v + (if counts dwin nwin ywin v o then 1 else 0) ∧
        (Acc.add dwin nwin ywin a o).avg v b = a.avg v b + (if counts dwin nwin ywin v o then o.dat b else 0) := by
      unfold Acc.add counts
      cases o.msk
      · simp
      · cases windowOf dwin nwin ywin o with
        | none => simp
        | some w => by_cases h : v = w ∨ v = nwin <;> simp [h]
    rw [this.1, this.2, List.filter_cons]
    by_cases h : counts dwin nwin ywin v o = true
    · simp only [h, if_true, List.length_cons, List.map_cons, List.sum_cons]
      omega
    · simp [h]

/-- The acquisitions that a window should use: valid, in the season and, if one year is asked for, of this year. -/
def Wanted (a b ywin : Int) (o : Obs) : Prop := o.msk = true ∧ (ywin < 0 ∨ o.year = ywin) ∧ InSeason a b o.doy

instance (a b ywin : Int) (o : Obs) : Decidable (Wanted a b ywin o) := by unfold Wanted; infer_instance

theorem inWindow_iff (a b ywin year doy : Int) (hd : doy ≤ 365) (hy : ywin < 0 ∨ a < b) :
    inWindow a b ywin year doy = true ↔ (ywin < 0 ∨ year = ywin) ∧ InSeason a b doy := by
  unfold inWindow InSeason
  simp only [Bool.or_eq_true, Bool.and_eq_true, decide_eq_true_eq]
  omega

theorem windowOf_some (dwin : Nat → Int) (nwin : Nat) (ywin : Int) (o : Obs) (hd : o.doy ≤ 365)
    (hy : ywin < 0 ∨ ∀ w < nwin, dwin w < dwin (w + 1))
    (hdis : ∀ v < nwin, ∀ w < nwin, v ≠ w → ∀ d, InSeason (dwin v) (dwin (v + 1)) d → ¬ InSeason (dwin w) (dwin (w + 1)) d)
    (w : Nat) : windowOf dwin nwin ywin o = some w ↔
      w < nwin ∧ (ywin < 0 ∨ o.year = ywin) ∧ InSeason (dwin w) (dwin (w + 1)) o.doy := by
  have hy' : ∀ v < nwin, ywin < 0 ∨ dwin v < dwin (v + 1) := fun v hv => hy.imp id fun h => h v hv
  unfold windowOf
  rw [List.find?_range_eq_some]
  constructor
  · rintro ⟨h1, h2, h3⟩
    rw [List.mem_range] at h2
    exact ⟨h2, (inWindow_iff _ _ _ _ _ hd (hy' w h2)).1 h1⟩
  · rintro ⟨h1, h2⟩
    refine ⟨(inWindow_iff _ _ _ _ _ hd (hy' w h1)).2 h2, List.mem_range.2 h1, ?_⟩
    intro v hv
    rw [Bool.not_eq_true']
    by_contra hc
    rw [Bool.not_eq_false] at hc
    have h4 := (inWindow_iff _ _ _ _ _ hd (hy' v (by omega))).1 hc
    exact hdis v (by omega) w h1 (by omega) _ h4.2 h2.2

/-- C97: a pixel counts as valid exactly if it is not masked and some acquisition is wanted by some season. -/
theorem c97_counted (dwin : Nat → Int) (nwin : Nat) (ywin : Int) (masked : Bool) (obs : List Obs)
    (hd : ∀ o ∈ obs, o.doy ≤ 365) (hy : ywin < 0 ∨ ∀ w < nwin, dwin w < dwin (w + 1))
    (hdis : ∀ v < nwin, ∀ w < nwin, v ≠ w → ∀ d, InSeason (dwin v) (dwin (v + 1)) d →
      ¬ InSeason (dwin w) (dwin (w + 1)) d) :
    counted dwin nwin ywin masked obs = true ↔
      masked = false ∧ ∃ o ∈ obs, ∃ w < nwin, Wanted (dwin w) (dwin (w + 1)) ywin o := by
  have hk : (obs.foldl (Acc.add dwin nwin ywin) Acc.init).k nwin ≠ 0 ↔
      ∃ o ∈ obs, ∃ w < nwin, Wanted (dwin w) (dwin (w + 1)) ywin o := by
    rw [(acc_spec dwin nwin ywin nwin 0 obs Acc.init).1]
    show 0 + _ ≠ 0 ↔ _
    rw [Nat.zero_add, Ne, List.length_eq_zero_iff, List.eq_nil_iff_forall_not_mem, not_forall_not]
    constructor
    · rintro ⟨o, ho⟩
      obtain ⟨h1, h2⟩ := List.mem_filter.1 ho
      unfold counts at h2
      rw [Bool.and_eq_true, Option.any_eq_true] at h2
      obtain ⟨h2, v, h3, _⟩ := h2
      rw [windowOf_some _ _ _ _ (hd o h1) hy hdis] at h3
      exact ⟨o, h1, v, h3.1, h2, h3.2⟩
    · rintro ⟨o, h1, v, h2, h3, h4⟩
      refine ⟨o, List.mem_filter.2 ⟨h1, ?_⟩⟩
      unfold counts
      rw [Bool.and_eq_true, Option.any_eq_true]
      exact ⟨h3, v, (windowOf_some _ _ _ _ (hd o h1) hy hdis v).2 ⟨h2, h4⟩, by simp⟩
  unfold counted
  rw [Bool.and_eq_true, Bool.not_eq_true', decide_eq_true_iff, hk]

theorem short_mean (l : List Int) (hl : l ≠ []) (hb : ∀ x ∈ l, -32768 ≤ x ∧ x ≤ 32767) :
    ∃ v, short ((l.sum : ℚ) / l.length) = .ok v ∧ IntegerPart v (mean l) := by
  have hp : (0 : ℚ) < l.length := by exact_mod_cast List.length_pos_iff.2 hl
  have key : ∀ l : List Int, (∀ x ∈ l, -32768 ≤ x ∧ x ≤ 32767) → -32768 * (l.length : Int) ≤ l.sum ∧
      l.sum ≤ 32767 * (l.length : Int) := by
    intro l
    induction l with
    | nil => simp
    | cons x t ih =>
      intro h
      have h1 := ih fun y hy => h y (List.mem_cons_of_mem _ hy)
      have h2 := h x List.mem_cons_self
      simp only [List.length_cons, List.sum_cons]
      push_cast
      constructor <;> linarith [h1.1, h1.2, h2.1, h2.2]
  obtain ⟨k1, k2⟩ := key l hb
  have k1' : (-32768 : ℚ) * l.length ≤ l.sum := by exact_mod_cast k1
  have k2' : (l.sum : ℚ) ≤ 32767 * l.length := by exact_mod_cast k2
  refine ⟨truncQ ((l.sum : ℚ) / l.length), short_ok ?_ ?_, truncQ_eq _⟩
  · rw [lt_div_iff₀ hp]; linarith
  · rw [div_lt_iff₀ hp]; linarith

/-- C97: with breakpoints that define disjoint seasons, acquisitions of a day of the year up to 365 and 16 bit values, the seasonal
average of an unmasked pixel is the integer part of the mean of the wanted acquisitions of the season (all years, or
one year if no season goes over the turn of the year); if the season has none, it is the mean over all
seasons; if there are none at all, it is nodata. -/
theorem c97_average_partial (dwin : Nat → Int) (nwin : Nat) (ywin nodata : Int) (obs : List Obs) (w b : Nat) (hw : w < nwin)
    (hd : ∀ o ∈ obs, o.doy ≤ 365) (hs : ∀ o ∈ obs, -32768 ≤ o.dat b ∧ o.dat b ≤ 32767)
    (hy : ywin < 0 ∨ ∀ w < nwin, dwin w < dwin (w + 1))
    (hdis : ∀ v < nwin, ∀ w < nwin, v ≠ w → ∀ d, InSeason (dwin v) (dwin (v + 1)) d →
      ¬ InSeason (dwin w) (dwin (w + 1)) d) :
    let mine := obs.filter fun o => decide (Wanted (dwin w) (dwin (w + 1)) ywin o)
    let all := obs.filter fun o => decide (∃ w < nwin, Wanted (dwin w) (dwin (w + 1)) ywin o)
    (all = [] → average dwin nwin ywin nodata false obs w b = .ok nodata) ∧
    (mine ≠ [] → ∃ v, average dwin nwin ywin nodata false obs w b = .ok v ∧ IntegerPart v (mean (mine.map fun o => o.dat b))) ∧
    (mine = [] → all ≠ [] →
      ∃ v, average dwin nwin ywin nodata false obs w b = .ok v ∧ IntegerPart v (mean (all.map fun o => o.dat b))) := by
  intro mine all
  have any : ∀ v o, counts dwin nwin ywin v o = true ↔ o.msk = true ∧ ∃ w, windowOf dwin nwin ywin o = some w ∧ (v = w ∨ v = nwin) := by
    intro v o
    unfold counts
    rw [Bool.and_eq_true, Option.any_eq_true]
    simp only [decide_eq_true_eq]
  have e1 : obs.filter (counts dwin nwin ywin w) = mine := by
    apply List.filter_congr
    intro o ho
    rw [Bool.eq_iff_iff, decide_eq_true_iff, any]
    constructor
    · rintro ⟨h1, v, h2, h3⟩
      rw [windowOf_some _ _ _ _ (hd o ho) hy hdis] at h2
      have : w = v := by omega
      exact ⟨h1, this ▸ h2.2⟩
    · rintro ⟨h1, h2⟩
      exact ⟨h1, w, (windowOf_some _ _ _ _ (hd o ho) hy hdis w).2 ⟨hw, h2⟩, Or.inl rfl⟩
  have e2 : obs.filter (counts dwin nwin ywin nwin) = all := by
    apply List.filter_congr
    intro o ho
    rw [Bool.eq_iff_iff, decide_eq_true_iff, any]
    constructor
    · rintro ⟨h1, v, h2, h3⟩
      rw [windowOf_some _ _ _ _ (hd o ho) hy hdis] at h2
      exact ⟨v, h2.1, h1, h2.2⟩
    · rintro ⟨v, h0, h1, h2⟩
      exact ⟨h1, v, (windowOf_some _ _ _ _ (hd o ho) hy hdis v).2 ⟨h0, h2⟩, Or.inr rfl⟩
  have sub : ∀ o ∈ mine, o ∈ all := by
    intro o ho
    rw [List.mem_filter, decide_eq_true_eq] at ho ⊢
    exact ⟨ho.1, w, hw, ho.2⟩
  have k1 : (obs.foldl (Acc.add dwin nwin ywin) Acc.init).k w = mine.length := by
    rw [(acc_spec dwin nwin ywin w b obs Acc.init).1, e1]; exact Nat.zero_add _
  have k2 : (obs.foldl (Acc.add dwin nwin ywin) Acc.init).k nwin = all.length := by
    rw [(acc_spec dwin nwin ywin nwin b obs Acc.init).1, e2]; exact Nat.zero_add _
  have s1 : (obs.foldl (Acc.add dwin nwin ywin) Acc.init).avg w b = (mine.map fun o => o.dat b).sum := by
    rw [(acc_spec dwin nwin ywin w b obs Acc.init).2, e1]; exact Int.zero_add _
  have s2 : (obs.foldl (Acc.add dwin nwin ywin) Acc.init).avg nwin b = (all.map fun o => o.dat b).sum := by
    rw [(acc_spec dwin nwin ywin nwin b obs Acc.init).2, e2]; exact Int.zero_add _
  have avg : average dwin nwin ywin nodata false obs w b = if all.length = 0 then .ok nodata
      else if mine.length > 0 then short ((((mine.map fun o => o.dat b).sum : Int) : ℚ) / mine.length)
      else short ((((all.map fun o => o.dat b).sum : Int) : ℚ) / all.length) := by
    unfold average
    simp only [Bool.false_eq_true, if_false]
    rw [k1, k2, s1, s2]
  have hbound : ∀ l : List Obs, (∀ o ∈ l, o ∈ obs) → ∀ x ∈ l.map (fun o => o.dat b), -32768 ≤ x ∧ x ≤ 32767 := by
    intro l hl x hx
    obtain ⟨o, h1, rfl⟩ := List.mem_map.1 hx
    exact hs o (hl o h1)
  refine ⟨fun h => ?_, fun h => ?_, fun h h' => ?_⟩
  · rw [avg, if_pos (by simp [h])]
  · have hne : all ≠ [] := by
      obtain ⟨o, ho⟩ := List.exists_mem_of_ne_nil _ h
      exact List.ne_nil_of_mem (sub o ho)
    rw [avg, if_neg (by simpa using hne), if_pos (List.length_pos_iff.2 h)]
    have := short_mean (mine.map fun o => o.dat b) (by simpa using h)
      (hbound mine fun o ho => (List.mem_filter.1 ho).1)
    rwa [List.length_map] at this
  · rw [avg, if_neg (by simpa using h'), if_neg (by simp [h])]
    have := short_mean (all.map fun o => o.dat b) (by simpa using h')
      (hbound all fun o ho => (List.mem_filter.1 ho).1)
    rwa [List.length_map] at this

/-- C97: a masked pixel is nodata. -/
theorem c97_masked (dwin : Nat → Int) (nwin : Nat) (ywin nodata : Int) (obs : List Obs) (w b : Nat) :
    average dwin nwin ywin nodata true obs w b = .ok nodata := rfl

/-- C97, violated: if a season goes over the turn of the year and one year is asked for, acquisitions from the
season that starts in the year before and from the season that ends in the year after are averaged: they are
more than one year apart and belong to two different seasons. -/
theorem c97_seasons_violated (a b ywin nodata y : Int) (o₁ o₂ : Obs) (hab : b < a) (hy : 0 ≤ ywin)
    (h1 : o₁.msk = true ∧ o₁.year = ywin - 1 ∧ a ≤ o₁.doy ∧ o₁.doy ≤ 365)
    (h2 : o₂.msk = true ∧ o₂.year = ywin + 1 ∧ o₂.doy < b)
    (hv : o₁.dat 0 = y ∧ o₂.dat 0 = y + 2000) (hs : -30000 ≤ y ∧ y ≤ 30000) :
    average (fun k => if k = 0 then a else b) 1 ywin nodata false [o₁, o₂] 0 0 = .ok (y + 1000) := by
  have w1 : windowOf (fun k => if k = 0 then a else b) 1 ywin o₁ = some 0 := by
    unfold windowOf
    have : inWindow a b ywin o₁.year o₁.doy = true := by
      unfold inWindow
      simp only [Bool.or_eq_true, Bool.and_eq_true, decide_eq_true_eq]
      omega
    simp [List.range_succ, this]
  have w2 : windowOf (fun k => if k = 0 then a else b) 1 ywin o₂ = some 0 := by
    unfold windowOf
    have : inWindow a b ywin o₂.year o₂.doy = true := by
      unfold inWindow
      simp only [Bool.or_eq_true, Bool.and_eq_true, decide_eq_true_eq]
      omega
    simp [List.range_succ, this]
  have k := acc_spec (fun k => if k = 0 then a else b) 1 ywin 0 0 [o₁, o₂] Acc.init
  have k' := acc_spec (fun k => if k = 0 then a else b) 1 ywin 1 0 [o₁, o₂] Acc.init
  have e : ∀ v < 2, [o₁, o₂].filter (counts (fun k => if k = 0 then a else b) 1 ywin v) = [o₁, o₂] := by
    intro v hv
    have hv' : v = 0 ∨ v = 1 := by omega
    apply List.filter_eq_self.2
    intro o ho
    unfold counts
    rcases List.mem_pair.1 ho with rfl | rfl
    · rw [w1]; simp [h1.1, hv']
    · rw [w2]; simp [h2.1, hv']
  rw [e 0 (by omega)] at k
  rw [e 1 (by omega)] at k'
  unfold average
  simp only [Bool.false_eq_true, if_false]
  rw [k.1, k.2, k'.1]
  simp only [Acc.init, List.length_cons, List.length_nil, List.map_cons, List.map_nil, List.sum_cons, List.sum_nil, hv.1,
    hv.2]
  have e2 : ((0 + (y + (y + 2000 + 0)) : Int) : ℚ) / ((0 + (0 + 1 + 1) : Nat) : ℚ) = ((y + 1000 : Int) : ℚ) := by
    push_cast; ring
  simp only [Nat.reduceAdd, Nat.reduceEqDiff, if_false, gt_iff_lt, Nat.zero_lt_succ, if_true] at e2 ⊢
  rw [e2, short_ok, truncQ_eq]
  · split <;> simp
  · have : (-30000 : ℚ) ≤ y := by exact_mod_cast hs.1
    push_cast; linarith
  · have : (y : ℚ) ≤ 30000 := by exact_mod_cast hs.2
    push_cast; linarith

end Verif.Imp
