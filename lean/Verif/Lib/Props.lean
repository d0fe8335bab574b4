import Verif.Lib.Spec
import Verif.Index.Lemmas
import Verif.Stats.Props
import Mathlib.Algebra.BigOperators.Field
import Mathlib.Algebra.Order.BigOperators.Group.Finset
import Mathlib.Algebra.Order.AbsoluteValue.Basic
import Mathlib.Tactic.Ring
import Mathlib.Tactic.FieldSimp
import Mathlib.Tactic.Linarith
import Mathlib.Tactic.Positivity

/-! # Theorems on the library completeness testing -/

namespace Verif.Lib

open Verif.Str (Out)
open Verif.Index (truncQ short)
open Verif.Index.Spec (IntegerPart)
open Spec

theorem colStats_eq (col : List ℚ) (h : col ≠ []) : (Verif.Table.colStats col).mean = Verif.Stats.Spec.mean col ∧
    (Verif.Table.colStats col).sd2 = Verif.Stats.Spec.moment 2 col / (col.length - 1) := by
  unfold Verif.Table.colStats
  rw [Verif.Stats.c36_variance col h]
  exact ⟨rfl, rfl⟩

theorem sd_usable {sq : ℚ → ℚ} {lib : Library} {f : Nat} (h2 : 2 ≤ lib.length) (hs : 0 < sdev sq lib f) :
    sd sq lib f = some (sdev sq lib f) := by
  have hne : lib.map (fun r => r f) ≠ [] := by
    intro h
    have := congrArg List.length h
    simp at this
    rw [this] at h2
    simp at h2
  unfold sd
  rw [if_neg (by omega), (colStats_eq _ hne).2]
  rw [List.length_map]
  show (if sdev sq lib f = 0 then none else some (sdev sq lib f)) = _
  rw [if_neg (ne_of_gt hs)]

theorem rowDist_eq {rescale : Bool} {sq : ℚ → ℚ} {nf : Nat} {lib : Library} {px : Pixel}
    (hu : Usable rescale sq nf lib px) (hv : (valid nf px).Nonempty) (row : Nat → ℚ) :
    rowDist rescale sq nf lib px row = some (meanDiff rescale sq nf lib px row) := by
  have key : ∀ n ≤ nf, (List.range n).foldl (fun s (f : Nat) =>
      if !px.msk f then s
      else addDiff (scaled rescale sq lib f (row f)) (scaled rescale sq lib f (px.dat f)) s) (some 0, 0) =
      (some (∑ f ∈ valid n px, |row f - px.dat f| / unit rescale sq lib f), (valid n px).card) := by
    intro n
    induction n with
    | zero => intro _; simp [valid]
    | succ n ih =>
      intro hn
      rw [List.range_succ, List.foldl_append, ih (by omega)]
      simp only [List.foldl_cons, List.foldl_nil]
      by_cases hm : px.msk n = true
      · have e : valid (n + 1) px = insert n (valid n px) := by
          unfold valid
          rw [Finset.range_add_one, Finset.filter_insert, if_pos hm]
        have hnot : n ∉ valid n px := by simp [valid]
        rw [if_neg (by simp [hm]), e, Finset.sum_insert hnot, Finset.card_insert_of_notMem hnot]
        have hdiff : ∃ a b, scaled rescale sq lib n (row n) = some a ∧ scaled rescale sq lib n (px.dat n) = some b ∧
            |a - b| = |row n - px.dat n| / unit rescale sq lib n := by
          by_cases hr : rescale = true
          · obtain ⟨h2, hpos⟩ := hu.2 hr
            have hp := hpos n (by simp [valid, hm]; omega)
            unfold scaled unit
            rw [if_pos hr, if_pos hr, if_pos hr, sd_usable h2 hp]
            refine ⟨_, _, rfl, rfl, ?_⟩
            rw [← sub_div, abs_div, abs_of_pos hp]
            congr 2
            ring
          · unfold scaled unit
            rw [if_neg hr, if_neg hr, if_neg hr]
            exact ⟨_, _, rfl, rfl, by rw [div_one]⟩
        obtain ⟨a, b, ha, hb, he⟩ := hdiff
        rw [ha, hb]
        simp only [addDiff]
        rw [he, add_comm]
      · have e : valid (n + 1) px = valid n px := by
          unfold valid
          rw [Finset.range_add_one, Finset.filter_insert, if_neg hm]
        rw [if_pos (by simp [hm]), e]
  unfold rowDist
  rw [key nf (le_refl _)]
  dsimp only
  rw [if_neg (by have := Finset.card_pos.2 hv; omega)]
  rfl

theorem foldl_min_spec {α : Type} (g : α → ℚ) (l : List α) : ∀ m0 : ℚ,
    let r := l.foldl (fun m x => if g x < m then g x else m) m0
    r ≤ m0 ∧ (∀ x ∈ l, r ≤ g x) ∧ (r = m0 ∨ ∃ x ∈ l, g x = r) := by
  induction l with
  | nil => intro m0; simp
  | cons a l ih =>
    intro m0
    simp only [List.foldl_cons]
    obtain ⟨i1, i2, i3⟩ := ih (if g a < m0 then g a else m0)
    have hle : (if g a < m0 then g a else m0) ≤ m0 := by
      split
      · rename_i h; exact h.le
      · exact le_refl _
    have hla : (if g a < m0 then g a else m0) ≤ g a := by
      split
      · exact le_refl _
      · rename_i h; exact not_lt.1 h
    refine ⟨le_trans i1 hle, ?_, ?_⟩
    · intro x hx
      rcases List.mem_cons.1 hx with rfl | hx
      · exact le_trans i1 hla
      · exact i2 x hx
    · rcases i3 with i3 | ⟨x, hx, i3⟩
      · by_cases h : g a < m0
        · rw [if_pos h] at i3
          exact Or.inr ⟨a, by simp, by rw [if_pos h, i3]⟩
        · rw [if_neg h] at i3
          exact Or.inl (by rw [if_neg h, i3])
      · exact Or.inr ⟨x, by simp [hx], i3⟩

theorem libMin_eq {rescale : Bool} {sq : ℚ → ℚ} {nf : Nat} {lib : Library} {px : Pixel}
    (hu : Usable rescale sq nf lib px) (hv : (valid nf px).Nonempty) : libMin rescale sq nf lib px =
      lib.foldl (fun m row => if meanDiff rescale sq nf lib px row < m then meanDiff rescale sq nf lib px row else m) 32767 := by
  unfold libMin
  have : (fun (m : ℚ) (row : Nat → ℚ) => less m (rowDist rescale sq nf lib px row)) =
    fun m row => if meanDiff rescale sq nf lib px row < m then meanDiff rescale sq nf lib px row else m := by
    funext m row
    rw [rowDist_eq hu hv row]
    rfl
  rw [this]

theorem dist_nonneg {rescale : Bool} {sq : ℚ → ℚ} {nf : Nat} {lib : Library} {px : Pixel}
    (hu : Usable rescale sq nf lib px) (row : Nat → ℚ) : 0 ≤ meanDiff rescale sq nf lib px row := by
  unfold meanDiff
  apply div_nonneg _ (by positivity)
  apply Finset.sum_nonneg
  intro f hf
  apply div_nonneg (abs_nonneg _)
  unfold unit
  split
  · rename_i hr
    exact ((hu.2 hr).2 f hf).le
  · norm_num

theorem libMin_least {rescale : Bool} {sq : ℚ → ℚ} {nf : Nat} {lib : Library} {px : Pixel}
    (hu : Usable rescale sq nf lib px) (hv : (valid nf px).Nonempty) {D : ℚ}
    (hD : IsLeast {d | ∃ row ∈ lib, d = meanDiff rescale sq nf lib px row} D) : libMin rescale sq nf lib px = min D 32767 := by
  rw [libMin_eq hu hv]
  obtain ⟨h1, h2, h3⟩ := foldl_min_spec (meanDiff rescale sq nf lib px) lib 32767
  obtain ⟨⟨row, hrow, hd⟩, hlow⟩ := hD
  apply le_antisymm
  · exact le_min (by rw [hd]; exact h2 row hrow) h1
  · rcases h3 with h3 | ⟨x, hx, h3⟩
    · rw [h3]; exact min_le_right _ _
    · rw [← h3]
      exact le_trans (min_le_left _ _) (hlow ⟨x, hx, rfl⟩)

theorem write_near {rescale : Bool} {nodata : Int} {m : ℚ} (h0 : 0 ≤ m) (h : m * factor rescale < 32767) :
    ∃ v, write rescale nodata (min m 32767) = .ok v ∧ IntegerPart v ((m * factor rescale : ℚ)) := by
  have hm : m < 32767 := by
    unfold factor at h
    split at h <;> linarith
  rw [min_eq_left hm.le]
  unfold write
  have e : (if m < 32767 ∧ rescale = true then m * 1000 else m) = m * factor rescale := by
    unfold factor
    by_cases hr : rescale = true
    · rw [if_pos ⟨hm, hr⟩, if_pos hr]
    · rw [if_neg (fun hh => hr hh.2), if_neg hr, mul_one]
  rw [e]
  dsimp only
  rw [if_pos h]
  refine ⟨_, Verif.Index.short_ok ?_ (by linarith), Verif.Index.integerPart _⟩
  have : 0 ≤ factor rescale := by unfold factor; split <;> norm_num
  have := mul_nonneg h0 this
  linarith

theorem write_far {rescale : Bool} {nodata : Int} {m : ℚ} (h : 32767 ≤ m * factor rescale) :
    write rescale nodata (min m 32767) = .ok nodata := by
  unfold write
  by_cases hm : m < 32767
  · rw [min_eq_left hm.le]
    have e : (if m < 32767 ∧ rescale = true then m * 1000 else m) = m * factor rescale := by
      unfold factor
      by_cases hr : rescale = true
      · rw [if_pos ⟨hm, hr⟩, if_pos hr]
      · rw [if_neg (fun hh => hr hh.2), if_neg hr, mul_one]
    rw [e]
    dsimp only
    rw [if_neg (not_lt.2 h)]
  · rw [min_eq_right (not_lt.1 hm)]
    simp

theorem pixel_tested {rescale exclude : Bool} {sq : ℚ → ℚ} {nf : Nat} {libs : List Library} {nodata : Int}
    {mask : Option Bool} {px : Pixel} (ht : Tested exclude nf mask px) :
    pixel rescale exclude sq nf libs nodata mask px =
      (libs.map fun l => libMin rescale sq nf l px).map (write rescale nodata) ++ [write rescale nodata
        ((libs.map fun l => libMin rescale sq nf l px).foldl (fun a m => if m < a then m else a) 32767)] := by
  unfold pixel
  rw [if_neg]
  rintro (h | ⟨⟨f, hf, hm⟩, he⟩)
  · exact ht.1 h
  · have := ht.2 he f hf
    rw [this] at hm
    cases hm

/-- C94: a pixel that is masked or excluded is nodata in all bands. -/
theorem c94_skipped (rescale exclude : Bool) (sq : ℚ → ℚ) (nf : Nat) (libs : List Library) (nodata : Int)
    (mask : Option Bool) (px : Pixel) (h : ¬ Tested exclude nf mask px) :
    pixel rescale exclude sq nf libs nodata mask px = List.replicate (libs.length + 1) (.ok nodata) := by
  unfold pixel
  rw [if_pos]
  by_contra hn
  apply h
  refine ⟨fun hm => hn (Or.inl hm), fun he f hf => ?_⟩
  by_contra hm
  exact hn (Or.inr ⟨⟨f, hf, by simpa using hm⟩, he⟩)

/-- C94 (partial): the band of a library is the integer part of the smallest mean absolute difference between the pixel
and a row of the library, over the valid features (in standard deviations and times 1000 if the features are
rescaled); the last band is the integer part of the smallest for all libraries. Missing: differences from 32767 on, see
`c94_far_violated`; features that are constant in the library, see `c94_constant_violated`. -/
theorem c94_distance_partial (rescale exclude : Bool) (sq : ℚ → ℚ) (nf : Nat) (libs : List Library) (nodata : Int)
    (mask : Option Bool) (px : Pixel) (ht : Tested exclude nf mask px) (hv : (valid nf px).Nonempty)
    (hu : ∀ lib ∈ libs, Usable rescale sq nf lib px) :
    (pixel rescale exclude sq nf libs nodata mask px).length = libs.length + 1 ∧
    (∀ (l : Nat) (lib : Library) (D : ℚ), libs[l]? = some lib → IsLeast {d | ∃ row ∈ lib, d = meanDiff rescale sq nf lib px row} D →
      D * factor rescale < 32767 →
      ∃ v, (pixel rescale exclude sq nf libs nodata mask px)[l]? = some (.ok v) ∧
        IntegerPart v ((D * factor rescale : ℚ))) ∧
    (∀ D, IsLeast {d | ∃ lib ∈ libs, ∃ row ∈ lib, d = meanDiff rescale sq nf lib px row} D →
      D * factor rescale < 32767 →
      ∃ v, (pixel rescale exclude sq nf libs nodata mask px)[libs.length]? = some (.ok v) ∧
        IntegerPart v ((D * factor rescale : ℚ))) := by
  rw [pixel_tested ht]
  refine ⟨by simp, ?_, ?_⟩
  · intro l lib D hl hD hlt
    have hmem : lib ∈ libs := List.mem_of_getElem? hl
    have h0 : 0 ≤ D := by
      obtain ⟨⟨row, _, rfl⟩, _⟩ := hD
      exact dist_nonneg (hu lib hmem) row
    obtain ⟨v, hv1, hv2⟩ := write_near (nodata := nodata) h0 hlt
    refine ⟨v, ?_, hv2⟩
    have hll : l < libs.length := by
      by_contra hn
      rw [List.getElem?_eq_none (by omega)] at hl
      cases hl
    rw [List.getElem?_append_left (by simpa using hll), List.getElem?_map, List.getElem?_map, hl]
    simp only [Option.map_some]
    rw [libMin_least (hu lib hmem) hv hD, hv1]
  · intro D hD hlt
    have h0 : 0 ≤ D := by
      obtain ⟨⟨lib, hlib, row, _, rfl⟩, _⟩ := hD
      exact dist_nonneg (hu lib hlib) row
    have hm : (libs.map fun l => libMin rescale sq nf l px).foldl (fun a m => if m < a then m else a) 32767 =
        min D 32767 := by
      obtain ⟨h1, h2, h3⟩ := foldl_min_spec (fun x : ℚ => x) (libs.map fun l => libMin rescale sq nf l px) 32767
      obtain ⟨⟨lib, hlib, row, hrow, hd⟩, hlow⟩ := hD
      have hle : ∀ l ∈ libs, ∀ r ∈ l, libMin rescale sq nf l px ≤ meanDiff rescale sq nf l px r := by
        intro l hl r hr
        rw [libMin_eq (hu l hl) hv]
        exact (foldl_min_spec (meanDiff rescale sq nf l px) l 32767).2.1 r hr
      apply le_antisymm
      · refine le_min ?_ h1
        rw [hd]
        exact le_trans (h2 _ (List.mem_map_of_mem hlib)) (hle lib hlib row hrow)
      · rcases h3 with h3 | ⟨x, hx, h3⟩
        · rw [h3]; exact min_le_right _ _
        · rw [← h3]
          obtain ⟨l, hl, rfl⟩ := List.mem_map.1 hx
          rw [libMin_eq (hu l hl) hv]
          rcases (foldl_min_spec (meanDiff rescale sq nf l px) l 32767).2.2 with h4 | ⟨r, hr, h4⟩
          · rw [h4]; exact min_le_right _ _
          · rw [← h4]
            exact le_trans (min_le_left _ _) (hlow ⟨l, hl, r, hr, rfl⟩)
    obtain ⟨v, hv1, hv2⟩ := write_near (nodata := nodata) h0 hlt
    refine ⟨v, ?_, hv2⟩
    rw [List.getElem?_append_right (by simp), hm, hv1]
    simp

/-- C94, violated: a library whose smallest difference is 32767 or more (rescaled: 32.767 standard deviations) gets
nodata instead of a large number. -/
theorem c94_far_violated (rescale exclude : Bool) (sq : ℚ → ℚ) (nf : Nat) (libs : List Library) (nodata : Int)
    (mask : Option Bool) (px : Pixel) (ht : Tested exclude nf mask px) (hv : (valid nf px).Nonempty) (l : Nat)
    (lib : Library) (hl : libs[l]? = some lib) (hu : Usable rescale sq nf lib px) (D : ℚ)
    (hD : IsLeast {d | ∃ row ∈ lib, d = meanDiff rescale sq nf lib px row} D) (hfar : 32767 ≤ D * factor rescale) :
    (pixel rescale exclude sq nf libs nodata mask px)[l]? = some (.ok nodata) := by
  rw [pixel_tested ht]
  have hll : l < libs.length := by
    by_contra hn
    rw [List.getElem?_eq_none (by omega)] at hl
    cases hl
  rw [List.getElem?_append_left (by simpa using hll), List.getElem?_map, List.getElem?_map, hl]
  simp only [Option.map_some]
  rw [libMin_least hu hv hD, write_far hfar]

theorem rowDist_none {sq : ℚ → ℚ} {nf : Nat} {lib : Library} {px : Pixel} {f : Nat} (hf : f < nf)
    (hm : px.msk f = true) (hs : sd sq lib f = none) (row : Nat → ℚ) : rowDist true sq nf lib px row = none := by
  have stays : ∀ (L : List Nat) (s : Option ℚ × Nat), s.1 = none → (L.foldl (fun s (f : Nat) =>
      if !px.msk f then s
      else addDiff (scaled true sq lib f (row f)) (scaled true sq lib f (px.dat f)) s) s).1 = none := by
    intro L
    induction L with
    | nil => intro s h; exact h
    | cons a L ih =>
      intro s h
      rw [List.foldl_cons]
      apply ih
      split
      · exact h
      · unfold addDiff
        rw [h]
  have hsplit : List.range nf = List.range f ++ f :: (List.range' (f + 1) (nf - f - 1)) := by
    rw [List.range_eq_range', List.range_eq_range']
    have : nf = f + (1 + (nf - f - 1)) := by omega
    conv_lhs => rw [this]
    rw [← List.range'_append_1, Nat.zero_add]
    congr 1
    rw [Nat.add_comm 1, List.range'_succ]
  unfold rowDist
  dsimp only
  split
  · rfl
  · have : ((List.range nf).foldl (fun s (f : Nat) =>
      if !px.msk f then s
      else addDiff (scaled true sq lib f (row f)) (scaled true sq lib f (px.dat f)) s) (some 0, 0)).1 = none := by
      rw [hsplit, List.foldl_append, List.foldl_cons]
      apply stays
      rw [if_neg (by simp [hm])]
      have e : ∀ x, scaled true sq lib f x = none := by
        intro x
        unfold scaled
        rw [if_pos rfl, hs]
        rfl
      unfold addDiff
      rw [e, e]
      split
      · rename_i h; cases h
      · rfl
    rw [this]
    rfl

/-- C94, violated: if the features are rescaled and one valid feature has the same value in all rows of the library (or the
library has one row), the library gets nodata at every pixel, even if the pixel equals a row. -/
theorem c94_constant_violated (exclude : Bool) (sq : ℚ → ℚ) (hsq : sq 0 = 0) (nf : Nat) (libs : List Library) (nodata : Int)
    (mask : Option Bool) (px : Pixel) (ht : Tested exclude nf mask px) (l : Nat) (lib : Library)
    (hl : libs[l]? = some lib) (hne : lib ≠ []) (f : Nat) (hf : f < nf) (hm : px.msk f = true) (c : ℚ)
    (hc : ∀ row ∈ lib, row f = c) :
    (pixel true exclude sq nf libs nodata mask px)[l]? = some (.ok nodata) := by
  have hs : sd sq lib f = none := by
    unfold sd
    split
    · rfl
    · have e : lib.map (fun r => r f) = List.replicate lib.length c := by
        rw [List.eq_replicate_iff]
        refine ⟨by simp, fun b hb => ?_⟩
        obtain ⟨r, hr, rfl⟩ := List.mem_map.1 hb
        exact hc r hr
      have hlen : 0 < lib.length := List.length_pos_of_ne_nil hne
      have hm2 : Verif.Stats.Spec.moment 2 (List.replicate lib.length c) = 0 := by
        unfold Verif.Stats.Spec.moment Verif.Stats.Spec.mean
        rw [List.map_replicate, List.sum_replicate, List.sum_replicate, List.length_replicate]
        have : (lib.length : ℚ) ≠ 0 := by positivity
        simp only [nsmul_eq_mul]
        field_simp
        ring
      rw [e, (colStats_eq _ (by
        intro h
        have := congrArg List.length h
        simp at this
        exact hne this)).2, hm2, zero_div, hsq]
      rfl
  have hmin : libMin true sq nf lib px = 32767 := by
    unfold libMin
    have : (fun (m : ℚ) (row : Nat → ℚ) => less m (rowDist true sq nf lib px row)) = fun m _ => m := by
      funext m row
      rw [rowDist_none hf hm hs row]
      rfl
    rw [this]
    clear * -
    induction lib with
    | nil => rfl
    | cons a l ih => rw [List.foldl_cons]; exact ih
  rw [pixel_tested ht]
  have hll : l < libs.length := by
    by_contra hn
    rw [List.getElem?_eq_none (by omega)] at hl
    cases hl
  rw [List.getElem?_append_left (by simpa using hll), List.getElem?_map, List.getElem?_map, hl]
  simp only [Option.map_some]
  rw [hmin]
  simp [write]

end Verif.Lib
