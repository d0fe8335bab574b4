import Verif.Bap.Spec
import Mathlib.Tactic.Linarith
import Mathlib.Tactic.NormNum
import Mathlib.Tactic.Positivity
import Mathlib.Tactic.FieldSimp

/-!
# Properties of the compositing
-/

namespace Verif.Bap

open Verif.Str (Out)
open Verif.Fold (truncR shortOf)
open Spec

section
open Classical

theorem not_lt_iff (x : Option ℝ) (c : ℝ) : ¬ lt x c ↔ ∀ a, x = some a → c ≤ a := by
  simp [lt]

theorem skipped_iff (p : Par) (hz : Prop) (x : Obs × Score × Int) :
    skipped p hz x.1 x.2.1 = false ↔ Admissible p hz x := by
  simp only [skipped, Admissible, ← not_lt_iff, Bool.or_eq_false_iff, Bool.not_eq_false', decide_eq_false_iff_not,
    Bool.not_eq_true', not_and_or, Bool.not_eq_false]
  constructor
  · rintro ⟨⟨⟨a, b⟩, c⟩, d⟩
    refine ⟨a, b, ?_, ?_⟩
    · rcases c with c | c | c | c
      · exact .inl c
      · exact .inr (.inl (not_lt.1 c))
      · exact .inr (.inr (.inr c))
      · exact .inr (.inr (.inl c))
    · rcases d with d | d | d
      · exact .inl d
      · exact .inr (.inl (not_lt.1 d))
      · exact .inr (.inr d)
  · rintro ⟨a, b, c, d⟩
    refine ⟨⟨⟨a, b⟩, ?_⟩, ?_⟩
    · rcases c with c | c | c | c
      · exact .inl c
      · exact .inr (.inl (not_lt.2 c))
      · exact .inr (.inr (.inr c))
      · exact .inr (.inr (.inl c))
    · rcases d with d | d | d
      · exact .inl d
      · exact .inr (.inl (not_lt.2 d))
      · exact .inr (.inr d)

theorem skipped_true (p : Par) (hz : Prop) (x : Obs × Score × Int) :
    skipped p hz x.1 x.2.1 = true ↔ ¬ Admissible p hz x := by
  rw [← skipped_iff]; simp

theorem count_cons_adm {p : Par} {hz : Prop} {x : Obs × Score × Int} {l} (h : Admissible p hz x) :
    count p hz (x :: l) = count p hz l + 1 := by
  unfold count; rw [List.filter_cons_of_pos (by simpa using h)]; rfl

theorem count_cons_not {p : Par} {hz : Prop} {x : Obs × Score × Int} {l} (h : ¬ Admissible p hz x) :
    count p hz (x :: l) = count p hz l := by
  unfold count; rw [List.filter_cons_of_neg (by simpa using h)]

/-- What the selection loop does. -/
theorem select_spec (p : Par) (hz : Prop) : ∀ (l : List (Obs × Score × Int)) (n : Nat) (best : ℝ)
    (at_ : Option (Obs × Score × Int)),
    (select p hz l (n, best, at_)).1 = n + count p hz l ∧
    (((select p hz l (n, best, at_)).2 = (best, at_) ∧
        ∀ (k : Nat) (y : Obs × Score × Int) (u : ℝ), l[k]? = some y → Admissible p hz y → y.2.1.t = some u → u ≤ best) ∨
     ∃ (j : Nat) (x : Obs × Score × Int) (v : ℝ), (select p hz l (n, best, at_)).2 = (v, some x) ∧ best < v ∧ l[j]? = some x ∧ Admissible p hz x ∧
        x.2.1.t = some v ∧
        ∀ (k : Nat) (y : Obs × Score × Int) (u : ℝ), l[k]? = some y → Admissible p hz y → y.2.1.t = some u → u ≤ v ∧ (k < j → u < v))
  | [], n, best, at_ => by simp [select, count]
  | x :: l, n, best, at_ => by
    by_cases ha : Admissible p hz x
    · have hk := (skipped_iff p hz x).2 ha
      rw [count_cons_adm ha]
      cases ht : x.2.1.t with
      | none =>
        have he : select p hz (x :: l) (n, best, at_) = select p hz l (n + 1, best, at_) := by
          simp [select, hk, ht]
        rw [he]
        obtain ⟨h1, h2⟩ := select_spec p hz l (n + 1) best at_
        refine ⟨by omega, ?_⟩
        rcases h2 with ⟨h2, h3⟩ | ⟨j, z, v, h2, h3, h4, h5, h6, h7⟩
        · left
          refine ⟨h2, ?_⟩
          intro k y u hy hya hyt
          cases k with
          | zero => simp at hy; subst hy; rw [ht] at hyt; cases hyt
          | succ k => exact h3 k y u (by simpa using hy) hya hyt
        · right
          refine ⟨j + 1, z, v, h2, h3, by simpa using h4, h5, h6, ?_⟩
          intro k y u hy hya hyt
          cases k with
          | zero => simp at hy; subst hy; rw [ht] at hyt; cases hyt
          | succ k =>
            have := h7 k y u (by simpa using hy) hya hyt
            exact ⟨this.1, fun h => this.2 (by omega)⟩
      | some a =>
        by_cases hgt : a > best
        · have he : select p hz (x :: l) (n, best, at_) = select p hz l (n + 1, a, some x) := by
            simp [select, hk, ht, hgt]
          rw [he]
          obtain ⟨h1, h2⟩ := select_spec p hz l (n + 1) a (some x)
          refine ⟨by omega, ?_⟩
          right
          rcases h2 with ⟨h2, h3⟩ | ⟨j, z, v, h2, h3, h4, h5, h6, h7⟩
          · refine ⟨0, x, a, h2, hgt, by simp, ha, ht, ?_⟩
            intro k y u hy hya hyt
            refine ⟨?_, by omega⟩
            cases k with
            | zero => simp at hy; subst hy; rw [ht] at hyt; cases hyt; exact le_refl _
            | succ k => exact h3 k y u (by simpa using hy) hya hyt
          · refine ⟨j + 1, z, v, h2, by linarith, by simpa using h4, h5, h6, ?_⟩
            intro k y u hy hya hyt
            cases k with
            | zero => simp at hy; subst hy; rw [ht] at hyt; cases hyt; exact ⟨h3.le, fun _ => h3⟩
            | succ k =>
              have := h7 k y u (by simpa using hy) hya hyt
              exact ⟨this.1, fun h => this.2 (by omega)⟩
        · have he : select p hz (x :: l) (n, best, at_) = select p hz l (n + 1, best, at_) := by
            simp [select, hk, ht, hgt]
          rw [he]
          obtain ⟨h1, h2⟩ := select_spec p hz l (n + 1) best at_
          refine ⟨by omega, ?_⟩
          rcases h2 with ⟨h2, h3⟩ | ⟨j, z, v, h2, h3, h4, h5, h6, h7⟩
          · left
            refine ⟨h2, ?_⟩
            intro k y u hy hya hyt
            cases k with
            | zero => simp at hy; subst hy; rw [ht] at hyt; cases hyt; exact not_lt.1 hgt
            | succ k => exact h3 k y u (by simpa using hy) hya hyt
          · right
            refine ⟨j + 1, z, v, h2, h3, by simpa using h4, h5, h6, ?_⟩
            intro k y u hy hya hyt
            cases k with
            | zero =>
              simp at hy; subst hy; rw [ht] at hyt; cases hyt
              have : a < v := by linarith [not_lt.1 hgt]
              exact ⟨this.le, fun _ => this⟩
            | succ k =>
              have := h7 k y u (by simpa using hy) hya hyt
              exact ⟨this.1, fun h => this.2 (by omega)⟩
    · have hk := (skipped_true p hz x).2 ha
      rw [count_cons_not ha]
      have he : select p hz (x :: l) (n, best, at_) = select p hz l (n, best, at_) := by
        simp [select, hk]
      rw [he]
      obtain ⟨h1, h2⟩ := select_spec p hz l n best at_
      refine ⟨by omega, ?_⟩
      rcases h2 with ⟨h2, h3⟩ | ⟨j, z, v, h2, h3, h4, h5, h6, h7⟩
      · left
        refine ⟨h2, ?_⟩
        intro k y u hy hya hyt
        cases k with
        | zero => simp at hy; subst hy; exact absurd hya ha
        | succ k => exact h3 k y u (by simpa using hy) hya hyt
      · right
        refine ⟨j + 1, z, v, h2, h3, by simpa using h4, h5, h6, ?_⟩
        intro k y u hy hya hyt
        cases k with
        | zero => simp at hy; subst hy; exact absurd hya ha
        | succ k =>
          have := h7 k y u (by simpa using hy) hya hyt
          exact ⟨this.1, fun h => this.2 (by omega)⟩

theorem count_pos {p : Par} {hz : Prop} {l : List (Obs × Score × Int)} :
    0 < count p hz l ↔ ∃ x ∈ l, Admissible p hz x := by
  unfold count; rw [List.length_pos_iff_exists_mem]
  simp

/-- C45: if an admissible observation has a score above -1, the composite is made of the best one: its
reflectance, quality, date, temporal distance, sensor and scores, and the number of admissible observations. -/
theorem c45_best (p : Par) (hz water : Prop) (nb : Nat) (nodata : Int) (l : List (Obs × Score × Int))
    (h : ∃ x ∈ l, Admissible p hz x ∧ ∃ u, x.2.1.t = some u ∧ -1 < u) :
    ∃ j x, Best p hz l j x ∧ composite p hz water nb nodata l =
      (scrOut water x.2.1).bind fun scr =>
        .ok ⟨x.1.dat, [x.1.qai, (count p hz l : Nat), x.1.doy, x.1.year, x.2.2, x.1.sensor + 1], scr⟩ := by
  obtain ⟨y, hm, hya, u, hu, hu1⟩ := h
  obtain ⟨k, hk⟩ := List.mem_iff_getElem?.1 hm
  obtain ⟨h1, h2⟩ := select_spec p hz l 0 (-1) none
  have hc : 0 < count p hz l := count_pos.2 ⟨y, hm, hya⟩
  rcases h2 with ⟨_, h3⟩ | ⟨j, x, v, h2, h3, h4, h5, h6, h7⟩
  · have := h3 k y u hk hya hu; linarith
  · refine ⟨j, x, ⟨h4, h5, v, h6, h7⟩, ?_⟩
    unfold composite
    have he : select p hz l (0, -1, none) = (count p hz l, v, some x) := by
      exact Prod.ext (by rw [h1]; simp) h2
    rw [he]
    simp [hc]

/-- C45: without admissible observation the pixel is nodata. -/
theorem c45_nodata (p : Par) (hz water : Prop) (nb : Nat) (nodata : Int) (l : List (Obs × Score × Int))
    (h : ∀ x ∈ l, ¬ Admissible p hz x) :
    composite p hz water nb nodata l =
      .ok ⟨List.replicate nb nodata, [1, 0, nodata, nodata, nodata, nodata], List.replicate 7 nodata⟩ := by
  obtain ⟨h1, _⟩ := select_spec p hz l 0 (-1) none
  have hc : count p hz l = 0 := by
    by_contra hne
    obtain ⟨x, hx, hxa⟩ := count_pos.1 (Nat.pos_of_ne_zero hne)
    exact h x hx hxa
  rw [hc] at h1
  unfold composite
  revert h1
  generalize select p hz l (0, -1, none) = r
  intro h1
  obtain ⟨n, b, a⟩ := r
  simp at h1; subst h1
  simp [nodataPixel]

/-- C45, violated: if there are admissible observations but none has a score above -1, arrays are accessed
with index -1. -/
theorem c45_index_violated (p : Par) (hz water : Prop) (nb : Nat) (nodata : Int) (l : List (Obs × Score × Int))
    (h : ∃ x ∈ l, Admissible p hz x)
    (hs : ∀ x ∈ l, Admissible p hz x → ∀ u, x.2.1.t = some u → u ≤ -1) :
    composite p hz water nb nodata l = .ub := by
  obtain ⟨h1, h2⟩ := select_spec p hz l 0 (-1) none
  have hc : 0 < count p hz l := count_pos.2 h
  rcases h2 with ⟨h2, _⟩ | ⟨j, x, v, h2, h3, h4, h5, h6, h7⟩
  · unfold composite
    have he : select p hz l (0, -1, none) = (count p hz l, -1, none) := by
      exact Prod.ext (by rw [h1]; simp) h2
    rw [he]; simp [hc]
  · have := hs x (List.mem_iff_getElem?.2 ⟨j, h4⟩) h5 v h6; linarith

/-! ## The scores of land pixels are between 0 and 1 -/

theorem truncR_nonneg {x : ℝ} (h : 0 ≤ x) : truncR x = ⌊x⌋ := by simp [truncR, h]

theorem slice_ok {p : Par} {len : Int} (hg : GoodPar p) (h0 : 0 ≤ len) (h1 : len ≤ 40000) :
    ∃ sl, slice p len = .ok sl ∧ 0 ≤ sl ∧ sl * (p.yr + 1) ≤ 40000 := by
  have hy : (0 : ℝ) ≤ p.yr := by exact_mod_cast hg.yr
  have hpos : 1 ≤ ((p.yr : ℝ) + 1) * p.yf := by nlinarith [hg.yf]
  have hl : (0 : ℝ) ≤ len := by exact_mod_cast h0
  have hl1 : (len : ℝ) ≤ 40000 := by exact_mod_cast h1
  have hq0 : 0 ≤ (len : ℝ) / (((p.yr : ℝ) + 1) * p.yf) := by positivity
  have hq1 : (len : ℝ) / (((p.yr : ℝ) + 1) * p.yf) ≤ 40000 / ((p.yr : ℝ) + 1) := by
    apply div_le_div₀ (by norm_num) hl1 (by linarith)
    nlinarith [hg.yf]
  have hq2 : 40000 / ((p.yr : ℝ) + 1) ≤ 40000 := by
    rw [div_le_iff₀ (by linarith)]; nlinarith
  refine ⟨⌊(len : ℝ) / (((p.yr : ℝ) + 1) * p.yf)⌋, ?_, Int.floor_nonneg.2 hq0, ?_⟩
  · unfold slice
    rw [if_neg (by linarith), intOf, if_pos, truncR_nonneg hq0]
    rw [abs_of_nonneg hq0]; linarith
  · have hf := Int.floor_le ((len : ℝ) / (((p.yr : ℝ) + 1) * p.yf))
    have : ((⌊(len : ℝ) / (((p.yr : ℝ) + 1) * p.yf)⌋ : Int) : ℝ) * ((p.yr : ℝ) + 1) ≤ 40000 := by
      have : ((⌊(len : ℝ) / (((p.yr : ℝ) + 1) * p.yf)⌋ : Int) : ℝ) ≤ 40000 / ((p.yr : ℝ) + 1) := by linarith
      rwa [le_div_iff₀ (by linarith)] at this
    exact_mod_cast this

theorem sqDist_ok {dy sl yr : Int} (h0 : 0 ≤ dy) (h1 : dy ≤ yr) (h2 : 0 ≤ sl) (h3 : sl * (yr + 1) ≤ 40000) :
    sqDist dy sl = .ok (dy * sl * dy * sl) ∧ 0 ≤ dy * sl * dy * sl := by
  have ha : 0 ≤ dy * sl := Int.mul_nonneg h0 h2
  have hb : dy * sl ≤ 40000 := by nlinarith
  have hc : dy * sl * dy * sl = (dy * sl) * (dy * sl) := by ring
  have hd : (dy * sl) * (dy * sl) ≤ 40000 * 40000 := by nlinarith
  have he : 0 ≤ (dy * sl) * (dy * sl) := Int.mul_nonneg ha ha
  rw [← hc] at hd he
  refine ⟨?_, he⟩
  unfold sqDist
  rw [if_pos]
  omega

theorem tail_unit {exp : ℝ → ℝ} (he : ExpLike exp) {base : ℝ} (hb : 0 ≤ base ∧ base ≤ 1) {num : Int}
    (hn : 0 ≤ num) {s : ℝ} (hs : s ≠ 0) : ∃ x, tail exp base num s = some x ∧ 0 ≤ x ∧ x ≤ 1 := by
  refine ⟨_, by rw [tail, if_neg hs], mul_nonneg hb.1 (he.nonneg _), ?_⟩
  have h1 : exp ((num : ℝ) / (-2 * s * s)) ≤ 1 := by
    apply he.le_one
    apply div_nonpos_of_nonneg_of_nonpos (by exact_mod_cast hn)
    nlinarith [mul_self_nonneg s]
  calc base * exp ((num : ℝ) / (-2 * s * s)) ≤ 1 * 1 :=
        mul_le_mul hb.2 h1 (he.nonneg _) (by norm_num)
    _ = 1 := by norm_num

theorem sig_unit {exp : ℝ → ℝ} (he : ExpLike exp) {base : ℝ} (hb : 0 ≤ base ∧ base ≤ 1) (x : ℝ) :
    0 ≤ base / (1 + exp x) ∧ base / (1 + exp x) ≤ 1 := by
  have := he.nonneg x
  refine ⟨div_nonneg hb.1 (by linarith), ?_⟩
  rw [div_le_one (by linarith)]; linarith [hb.2]

theorem temporal_unit {exp : ℝ → ℝ} (he : ExpLike exp) {p : Par} (hg : GoodPar p) {tg : Target}
    (ht : GoodTarget p tg) {o : Obs} (ho : ((o.year - p.yt).natAbs : Int) ≤ p.yr) :
    ∃ d y t, temporal exp p tg o = .ok (some d, some y, t) ∧ (0 ≤ d ∧ d ≤ 1) ∧ (0 ≤ y ∧ y ≤ 1) := by
  have hdy : (0 : Int) ≤ ((o.year - p.yt).natAbs : Int) := by omega
  obtain ⟨s1, hs1, hs1a, hs1b⟩ := slice_ok hg (len := tg.ce1 - tg.ce0) (by linarith [ht.before.1]) ht.before.2
  obtain ⟨s2, hs2, hs2a, hs2b⟩ := slice_ok hg (len := tg.ce2 - tg.ce1) (by linarith [ht.after.1]) ht.after.2
  have hq1 := sqDist_ok hdy ho hs1a hs1b
  have hq2 := sqDist_ok hdy ho hs2a hs2b
  have hd2 : 0 ≤ (o.ce - tg.ce1) * (o.ce - tg.ce1) := by
    have := mul_self_nonneg (o.ce - tg.ce1); exact this
  unfold temporal
  cases hty : p.typ with
  | gauss =>
    have hw := ht.wide hty
    by_cases hc : o.ce < tg.ce1
    · obtain ⟨d, e1, e2⟩ := tail_unit he hg.d1 hd2 hw.1
      obtain ⟨y, e3, e4⟩ := tail_unit he hg.d1 hq1.2 hw.1
      refine ⟨d, y, o.ce - tg.ce1, ?_, e2, e4⟩
      simp only [if_pos hc, hs1, Out.bind, hq1.1, e1, e3]
    · obtain ⟨d, e1, e2⟩ := tail_unit he hg.d1 hd2 hw.2
      obtain ⟨y, e3, e4⟩ := tail_unit he hg.d1 hq2.2 hw.2
      refine ⟨d, y, o.ce - tg.ce1, ?_, e2, e4⟩
      simp only [if_neg hc, hs2, Out.bind, hq2.1, e1, e3]
  | des =>
    by_cases hc : o.ce < tg.ce0
    · exact ⟨0, 0, _, by simp only [if_pos hc]; rfl, by norm_num, by norm_num⟩
    · refine ⟨_, _, _, by simp only [if_neg hc, hs1, Out.bind]; rfl, sig_unit he hg.d0 _, sig_unit he hg.d0 _⟩
  | asc =>
    by_cases hc : o.ce > tg.ce2
    · exact ⟨0, 0, _, by simp only [if_pos hc]; rfl, by norm_num, by norm_num⟩
    · refine ⟨_, _, _, by simp only [if_neg hc, hs2, Out.bind]; rfl, sig_unit he hg.d2 _, sig_unit he hg.d2 _⟩

theorem aux_unit {exp : ℝ → ℝ} (he : ExpLike exp) (p : Par) (o : Obs) :
    (0 ≤ cloudScore exp p o ∧ cloudScore exp p o ≤ 1) ∧ (0 ≤ hazeScore exp p o ∧ hazeScore exp p o ≤ 1) ∧
    (0 ≤ corrScore exp p o ∧ corrScore exp p o ≤ 1) ∧ (0 ≤ viewScore exp p o ∧ viewScore exp p o ≤ 1) := by
  have h1 : (0 : ℝ) ≤ 1 ∧ (1 : ℝ) ≤ 1 := by norm_num
  have h0 : (0 : ℝ) ≤ 0 ∧ (0 : ℝ) ≤ 1 := by norm_num
  refine ⟨?_, ?_, ?_, ?_⟩
  · unfold cloudScore; split
    · exact sig_unit he h1 _
    · exact h0
  · unfold hazeScore; split
    · exact sig_unit he h1 _
    · exact h0
  · unfold corrScore; split
    · exact sig_unit he h1 _
    · exact h0
  · unfold viewScore; split
    · dsimp only; split
      · exact h0
      · exact sig_unit he h1 _
    · exact h0

theorem addTerm_some {a w x : ℝ} (hw : 0 ≤ w) : addTerm (some a) w (some x) = some (a + w * x) := by
  unfold addTerm
  split
  · rfl
  · have : w = 0 := by linarith [not_lt.1 ‹¬ w > 0›]
    simp [this]

theorem mulTerm_some {a w x : ℝ} (hw : 0 ≤ w ∧ w ≤ 1) (hx : 0 ≤ x ∧ x ≤ 1) (ha : 0 ≤ a ∧ a ≤ 1) :
    ∃ z, mulTerm (some a) w (some x) = some z ∧ 0 ≤ z ∧ z ≤ 1 := by
  unfold mulTerm
  split
  · refine ⟨a * (w * x), rfl, ?_, ?_⟩
    · exact mul_nonneg ha.1 (mul_nonneg hw.1 hx.1)
    · have : w * x ≤ 1 := by nlinarith
      have h0 : 0 ≤ w * x := mul_nonneg hw.1 hx.1
      nlinarith
  · exact ⟨a, rfl, ha⟩

theorem total_unit {p : Par} (hg : GoodWeights p) {s : Score} {d y c h r v : ℝ} (ed : s.d = some d) (ey : s.y = some y)
    (ec : s.c = some c) (eh : s.h = some h) (er : s.r = some r) (ev : s.v = some v)
    (hd : 0 ≤ d ∧ d ≤ 1) (hy : 0 ≤ y ∧ y ≤ 1) (hc : 0 ≤ c ∧ c ≤ 1) (hh : 0 ≤ h ∧ h ≤ 1) (hr : 0 ≤ r ∧ r ≤ 1)
    (hv : 0 ≤ v ∧ v ≤ 1) : ∃ x, total p s = some x ∧ 0 ≤ x ∧ x ≤ 1 := by
  unfold total
  rw [ed, ey, ec, eh, er, ev]
  by_cases ha : p.add = true
  · rw [if_pos ha, addTerm_some hg.d.1, addTerm_some hg.y.1, addTerm_some hg.c.1, addTerm_some hg.h.1,
      addTerm_some hg.r.1, addTerm_some hg.v.1, Option.bind_some, hg.t ha]
    have hp := hg.pos
    rw [if_neg (by linarith)]
    refine ⟨_, rfl, ?_, ?_⟩
    · apply div_nonneg _ hp.le
      have := mul_nonneg hg.d.1 hd.1
      have := mul_nonneg hg.y.1 hy.1
      have := mul_nonneg hg.c.1 hc.1
      have := mul_nonneg hg.h.1 hh.1
      have := mul_nonneg hg.r.1 hr.1
      have := mul_nonneg hg.v.1 hv.1
      linarith
    · rw [div_le_one hp]
      have := mul_le_of_le_one_right hg.d.1 hd.2
      have := mul_le_of_le_one_right hg.y.1 hy.2
      have := mul_le_of_le_one_right hg.c.1 hc.2
      have := mul_le_of_le_one_right hg.h.1 hh.2
      have := mul_le_of_le_one_right hg.r.1 hr.2
      have := mul_le_of_le_one_right hg.v.1 hv.2
      linarith
  · rw [if_neg ha]
    obtain ⟨x1, e1, b1⟩ := mulTerm_some (a := 1) hg.d hd (by norm_num)
    obtain ⟨x2, e2, b2⟩ := mulTerm_some hg.y hy b1
    obtain ⟨x3, e3, b3⟩ := mulTerm_some hg.c hc b2
    obtain ⟨x4, e4, b4⟩ := mulTerm_some hg.h hh b3
    obtain ⟨x5, e5, b5⟩ := mulTerm_some hg.r hr b4
    obtain ⟨x6, e6, b6⟩ := mulTerm_some hg.v hv b5
    rw [e1, e2, e3, e4, e5, e6]
    exact ⟨x6, rfl, b6⟩

theorem closest_mem (ce : Int) : ∀ (ts : List Target) (t0 : Target), closest ce t0 ts ∈ t0 :: ts
  | [], t0 => by simp [closest]
  | t :: ts, t0 => by
    have he : closest ce t0 (t :: ts) =
        closest ce (if (ce - t.ce1).natAbs < (ce - t0.ce1).natAbs then t else t0) ts := rfl
    rw [he]
    have := closest_mem ce ts (if (ce - t.ce1).natAbs < (ce - t0.ce1).natAbs then t else t0)
    simp only [List.mem_cons] at this ⊢
    rcases this with h | h
    · rw [h]; split
      · exact .inr (.inl rfl)
      · exact .inl rfl
    · exact .inr (.inr h)

/-- The closest target is at least as close as any other. -/
theorem closest_le (ce : Int) : ∀ (ts : List Target) (t0 : Target), ∀ t ∈ t0 :: ts,
    (ce - (closest ce t0 ts).ce1).natAbs ≤ (ce - t.ce1).natAbs
  | [], t0 => by simp [closest]
  | t :: ts, t0 => by
    intro t' h'
    have he : closest ce t0 (t :: ts) =
        closest ce (if (ce - t.ce1).natAbs < (ce - t0.ce1).natAbs then t else t0) ts := rfl
    rw [he]
    have hl := closest_le ce ts (if (ce - t.ce1).natAbs < (ce - t0.ce1).natAbs then t else t0)
    simp only [List.mem_cons] at h'
    have h0 := hl _ List.mem_cons_self
    rcases h' with h | h | h
    · subst h; refine h0.trans ?_; split <;> omega
    · subst h; refine h0.trans ?_; split <;> omega
    · exact hl _ (List.mem_cons_of_mem _ h)

theorem scoreObs_unit {exp : ℝ → ℝ} (he : ExpLike exp) {p : Par} (hg : GoodPar p) {t0 : Target} {ts : List Target}
    (ht : ∀ t ∈ t0 :: ts, GoodTarget p t) {o : Obs} (ho : ((o.year - p.yt).natAbs : Int) ≤ p.yr)
    (hm : o.msk = true) (old : Score × Int) :
    ∃ s td, scoreObs exp p t0 ts o old = .ok (s, td) ∧ Unit01 s := by
  have hgt := ht _ (closest_mem o.ce ts t0)
  obtain ⟨d, y, td, h1, h2, h3⟩ := temporal_unit he hg hgt ho
  obtain ⟨hc, hh, hr, hv⟩ := aux_unit he p o
  have hcor : ¬ corrupt (closest o.ce t0 ts) := by
    have := hgt.late; have := hgt.before.1; have := hgt.after.1
    unfold corrupt; omega
  set d' := if p.w.d = 0 then (0 : ℝ) else d with hd'
  set y' := if p.w.y = 0 then (0 : ℝ) else y with hy'
  have hd2 : 0 ≤ d' ∧ d' ≤ 1 := by rw [hd']; split <;> [norm_num; exact h2]
  have hy2 : 0 ≤ y' ∧ y' ≤ 1 := by rw [hy']; split <;> [norm_num; exact h3]
  have ed : (if p.w.d = 0 then some 0 else some d) = some d' := by rw [hd']; split <;> rfl
  have ey : (if p.w.y = 0 then some 0 else some y) = some y' := by rw [hy']; split <;> rfl
  obtain ⟨x, hx1, hx2⟩ := total_unit hg.w
    (s := ⟨none, some d', some y', some (cloudScore exp p o), some (hazeScore exp p o), some (corrScore exp p o),
      some (viewScore exp p o)⟩) rfl rfl rfl rfl rfl rfl hd2 hy2 hc hh hr hv
  refine ⟨⟨some x, some d', some y', some (cloudScore exp p o), some (hazeScore exp p o), some (corrScore exp p o),
      some (viewScore exp p o)⟩, td, ?_, ?_⟩
  · unfold scoreObs
    simp only [hm, Bool.not_true, Bool.false_eq_true, if_false, if_neg hcor, h1, Out.bind, ed, ey, hx1]
  · exact ⟨⟨x, rfl, hx2⟩, ⟨d', rfl, hd2⟩, ⟨y', rfl, hy2⟩, ⟨_, rfl, hc⟩, ⟨_, rfl, hh⟩, ⟨_, rfl, hr⟩, ⟨_, rfl, hv⟩⟩

/-! ## One pixel -/

theorem scoreAll_ok {exp : ℝ → ℝ} (he : ExpLike exp) {p : Par} (hg : GoodPar p) {t0 : Target} {ts : List Target}
    (ht : ∀ t ∈ t0 :: ts, GoodTarget p t) : ∀ (l : List (Obs × Score × Int)),
    (∀ x ∈ l, x.1.msk = true → ((x.1.year - p.yt).natAbs : Int) ≤ p.yr) →
    ∃ r, scoreAll exp p t0 ts l = .ok r ∧ r.map (·.1) = l.map (·.1) ∧ ∀ x ∈ r, x.1.msk = true → Unit01 x.2.1
  | [], _ => ⟨[], rfl, rfl, by simp⟩
  | (o, old) :: l, ho => by
    obtain ⟨r, h1, h2, h3⟩ := scoreAll_ok he hg ht l fun x hx => ho x (List.mem_cons_of_mem _ hx)
    by_cases hm : o.msk = true
    · obtain ⟨s, td, h4, h5⟩ := scoreObs_unit he hg ht (ho (o, old) List.mem_cons_self hm) hm old
      refine ⟨(o, s, td) :: r, by simp [scoreAll, h4, h1, Out.bind], by simp [h2], ?_⟩
      intro x hx hxm
      rcases List.mem_cons.1 hx with hx | hx
      · subst hx; exact h5
      · exact h3 x hx hxm
    · refine ⟨(o, { old.1 with t := some 0 }, old.2) :: r, ?_, by simp [h2], ?_⟩
      · simp [scoreAll, scoreObs, hm, h1, Out.bind]
      · intro x hx hxm
        rcases List.mem_cons.1 hx with hx | hx
        · subst hx; exact absurd hxm hm
        · exact h3 x hx hxm

theorem short_ok {x : ℝ} (h0 : 0 ≤ x) (h1 : x ≤ 1) : shortOf ((some x).map (· * 10000)) = .ok ⌊x * 10000⌋ := by
  have hx : 0 ≤ x * 10000 := by linarith
  show (if -32768 ≤ truncR (x * 10000) ∧ truncR (x * 10000) ≤ 32767 then Out.ok (truncR (x * 10000)) else Out.ub) = _
  rw [truncR_nonneg hx, if_pos]
  have h2 : 0 ≤ ⌊x * 10000⌋ := Int.floor_nonneg.2 hx
  have h3 : ⌊x * 10000⌋ ≤ 10000 := by
    have : ((⌊x * 10000⌋ : Int) : ℝ) ≤ 10000 := (Int.floor_le _).trans (by linarith)
    exact_mod_cast this
  omega

theorem scrOut_ok {s : Score} (h : Unit01 s) (water : Prop) :
    ∃ l, scrOut water s = .ok l ∧ l.length = 7 ∧ ∀ v ∈ l, 0 ≤ v ∧ v ≤ 10000 := by
  have key : ∀ x : ℝ, 0 ≤ x → x ≤ 1 → 0 ≤ ⌊x * 10000⌋ ∧ ⌊x * 10000⌋ ≤ 10000 := by
    intro x h0 h1
    refine ⟨Int.floor_nonneg.2 (by linarith), ?_⟩
    have : ((⌊x * 10000⌋ : Int) : ℝ) ≤ 10000 := (Int.floor_le _).trans (by linarith)
    exact_mod_cast this
  obtain ⟨⟨t, et, t0, t1⟩, ⟨d, ed, d0, d1⟩, ⟨y, ey, y0, y1⟩, ⟨c, ec, c0, c1⟩, ⟨h, eh, h0, h1⟩, ⟨r, er, r0, r1⟩,
    ⟨v, ev, v0, v1⟩⟩ := h
  unfold scrOut
  simp only [et, ed, ey, ec, eh, er, ev, short_ok t0 t1, short_ok d0 d1, short_ok y0 y1, short_ok c0 c1,
    short_ok h0 h1, short_ok r0 r1, short_ok v0 v1, Out.bind]
  by_cases hw : water
  · rw [if_pos hw]
    refine ⟨_, rfl, rfl, ?_⟩
    intro z hz
    simp only [List.mem_cons, List.not_mem_nil, or_false] at hz
    rcases hz with hz | hz | hz | hz | hz | hz | hz <;> subst hz
    · exact key t t0 t1
    all_goals norm_num
  · rw [if_neg hw]
    refine ⟨_, rfl, rfl, ?_⟩
    intro z hz
    simp only [List.mem_cons, List.not_mem_nil, or_false] at hz
    rcases hz with hz | hz | hz | hz | hz | hz | hz <;> subst hz
    · exact key t t0 t1
    · exact key d d0 d1
    · exact key y y0 y1
    · exact key c c0 c1
    · exact key h h0 h1
    · exact key r r0 r1
    · exact key v v0 v1

theorem map_fst_zip {os : List Obs} {old : List (Score × Int)} (h : os.length ≤ old.length) :
    (os.zip old).map (·.1) = os := List.map_fst_zip h

/-- C45: a land pixel with sensible parameters and targets. Every score is between 0 and 1; the composite is
the best admissible observation, with the number of admissible observations and scores between 0 and 10000;
or nodata if there is none. Missing (see the violations below): water pixels with a high SWIR2 reflectance;
degenerate scoring functions. -/
theorem c45_pixel_partial {exp : ℝ → ℝ} (he : ExpLike exp) {p : Par} (hg : GoodPar p) {t0 : Target}
    {ts : List Target} (ht : ∀ t ∈ t0 :: ts, GoodTarget p t) (bands : Bool) (scale : ℝ) (nb : Nat) (nodata : Int)
    (os : List Obs) (old : List (Score × Int)) (hl : os.length ≤ old.length)
    (ho : ∀ o ∈ os, o.msk = true → ((o.year - p.yt).natAbs : Int) ≤ p.yr)
    (hw : ¬ (bands = true ∧ isWater os)) :
    ∃ l px, scoreAll exp p t0 ts (os.zip old) = .ok l ∧ l.map (·.1) = os ∧
      (∀ x ∈ l, x.1.msk = true → Unit01 x.2.1) ∧
      pixel exp p t0 ts bands scale nb nodata os old = .ok (px, l.map (·.2)) ∧
      ((∃ j x, Best p (hazeStats p l) l j x ∧ px.bap = x.1.dat ∧
          px.inf = [x.1.qai, (count p (hazeStats p l) l : Nat), x.1.doy, x.1.year, x.2.2, x.1.sensor + 1] ∧
          px.scr.length = 7 ∧ ∀ v ∈ px.scr, 0 ≤ v ∧ v ≤ 10000) ∨
        (∀ x ∈ l, ¬ Admissible p (hazeStats p l) x) ∧ px = nodataPixel nb nodata) := by
  have ho' : ∀ x ∈ os.zip old, x.1.msk = true → ((x.1.year - p.yt).natAbs : Int) ≤ p.yr := by
    intro x hx
    exact ho x.1 (List.of_mem_zip (a := x.1) (b := x.2) hx).1
  obtain ⟨l, h1, h2, h3⟩ := scoreAll_ok he hg ht _ ho'
  rw [map_fst_zip hl] at h2
  by_cases ha : ∃ x ∈ l, Admissible p (hazeStats p l) x
  · have hb : ∃ x ∈ l, Admissible p (hazeStats p l) x ∧ ∃ u, x.2.1.t = some u ∧ -1 < u := by
      obtain ⟨x, hx, hxa⟩ := ha
      obtain ⟨u, hu, hu0, _⟩ := (h3 x hx hxa.1).t
      exact ⟨x, hx, hxa, u, hu, by linarith⟩
    obtain ⟨j, x, hbest, hc⟩ := c45_best p (hazeStats p l) (isWater os) nb nodata l hb
    obtain ⟨sc, hs1, hs2, hs3⟩ :=
      scrOut_ok (h3 x (List.mem_iff_getElem?.2 ⟨j, hbest.1⟩) hbest.2.1.1) (isWater os)
    refine ⟨l, ⟨x.1.dat, [x.1.qai, (count p (hazeStats p l) l : Nat), x.1.doy, x.1.year, x.2.2, x.1.sensor + 1], sc⟩,
      h1, h2, h3, ?_, .inl ⟨j, x, hbest, rfl, rfl, hs2, hs3⟩⟩
    simp only [pixel, h1, Out.bind, if_neg hw, hc, hs1]
  · have ha' : ∀ x ∈ l, ¬ Admissible p (hazeStats p l) x := fun x hx hxa => ha ⟨x, hx, hxa⟩
    refine ⟨l, nodataPixel nb nodata, h1, h2, h3, ?_, .inr ⟨ha', rfl⟩⟩
    simp only [pixel, h1, Out.bind, if_neg hw, c45_nodata p (hazeStats p l) (isWater os) nb nodata l ha']
    rfl

theorem pixel_water {exp : ℝ → ℝ} {p : Par} {t0 : Target} {ts : List Target} {scale : ℝ} {nb : Nat} {nodata : Int}
    {os : List Obs} {old : List (Score × Int)} {l0 : List (Obs × Score × Int)}
    (h1 : scoreAll exp p t0 ts (os.zip old) = .ok l0) (hw : isWater os) :
    pixel exp p t0 ts true scale nb nodata os old =
      (composite p (hazeStats p (l0.map fun x => (x.1, waterObs scale x.1 x.2.1, x.2.2))) (isWater os) nb nodata
        (l0.map fun x => (x.1, waterObs scale x.1 x.2.1, x.2.2))).bind fun r =>
          .ok (r, (l0.map fun x => (x.1, waterObs scale x.1 x.2.1, x.2.2)).map (·.2)) := by
  unfold pixel
  rw [h1]
  simp only [Out.bind, true_and, if_pos hw]

/-- C45: a water pixel whose SWIR2 reflectance is below 2.0 (20000) in each observation. -/
theorem c45_water_partial {exp : ℝ → ℝ} (he : ExpLike exp) {p : Par} (hg : GoodPar p) {t0 : Target}
    {ts : List Target} (ht : ∀ t ∈ t0 :: ts, GoodTarget p t) (nb : Nat) (nodata : Int)
    (os : List Obs) (old : List (Score × Int)) (hl : os.length ≤ old.length)
    (ho : ∀ o ∈ os, o.msk = true → ((o.year - p.yt).natAbs : Int) ≤ p.yr) (hw : isWater os)
    (hsw : ∀ o ∈ os, o.msk = true → -22767 ≤ o.sw2 ∧ o.sw2 < 20000) :
    ∃ l px, pixel exp p t0 ts true 10000 nb nodata os old = .ok (px, l.map (·.2)) ∧ l.map (·.1) = os ∧
      (∀ x ∈ l, x.1.msk = true → x.2.1.t = some (if x.1.nir < x.1.sw2 then (1 - (x.1.sw2 : ℝ) / 10000) / 2
        else 1 - (x.1.sw2 : ℝ) / 10000)) ∧
      ((∃ j x, Best p (hazeStats p l) l j x ∧ px.bap = x.1.dat ∧
          px.inf = [x.1.qai, (count p (hazeStats p l) l : Nat), x.1.doy, x.1.year, x.2.2, x.1.sensor + 1]) ∨
        (∀ x ∈ l, ¬ Admissible p (hazeStats p l) x) ∧ px = nodataPixel nb nodata) := by
  have ho' : ∀ x ∈ os.zip old, x.1.msk = true → ((x.1.year - p.yt).natAbs : Int) ≤ p.yr := by
    intro x hx
    exact ho x.1 (List.of_mem_zip (a := x.1) (b := x.2) hx).1
  obtain ⟨l0, h1, h2, _⟩ := scoreAll_ok he hg ht _ ho'
  rw [map_fst_zip hl] at h2
  set l := l0.map fun x => (x.1, waterObs 10000 x.1 x.2.1, x.2.2) with hldef
  have hlos : l.map (·.1) = os := by rw [hldef, List.map_map, ← h2]; rfl
  have hsc : ∀ x ∈ l, x.1.msk = true → x.2.1.t = some (if x.1.nir < x.1.sw2 then (1 - (x.1.sw2 : ℝ) / 10000) / 2
        else 1 - (x.1.sw2 : ℝ) / 10000) := by
    intro x hx hm
    rw [hldef, List.mem_map] at hx
    obtain ⟨y, _, rfl⟩ := hx
    have hm' : y.1.msk = true := hm
    have e : ((10000 : ℝ) - y.1.sw2) / 10000 = 1 - (y.1.sw2 : ℝ) / 10000 := by
      rw [sub_div]; norm_num
    simp only [waterObs, hm', Bool.not_true, Bool.false_eq_true, if_false, e]
  have hin : ∀ x ∈ l, x.1 ∈ os := by
    intro x hx; rw [← hlos]; exact List.mem_map_of_mem hx
  have hrange : ∀ x ∈ l, x.1.msk = true → ∃ u, x.2.1.t = some u ∧ -1 < u ∧ u * 10000 ≤ 32767 := by
    intro x hx hm
    obtain ⟨b1, b2⟩ := hsw x.1 (hin x hx) hm
    have c1 : (-22767 : ℝ) ≤ x.1.sw2 := by exact_mod_cast b1
    have c2 : (x.1.sw2 : ℝ) < 20000 := by exact_mod_cast b2
    refine ⟨_, hsc x hx hm, ?_, ?_⟩
    · split <;> linarith
    · split <;> linarith
  have hfix : ∀ r, pixel exp p t0 ts true 10000 nb nodata os old =
      (composite p (hazeStats p l) (isWater os) nb nodata l).bind (fun r => .ok (r, l.map (·.2))) → 
      composite p (hazeStats p l) (isWater os) nb nodata l = .ok r → 
      pixel exp p t0 ts true 10000 nb nodata os old = .ok (r, l.map (·.2)) := by
    intro r e1 e2; rw [e1, e2]; rfl
  have hpx : pixel exp p t0 ts true 10000 nb nodata os old =
      (composite p (hazeStats p l) (isWater os) nb nodata l).bind (fun r => .ok (r, l.map (·.2))) := by
    rw [pixel_water h1 hw]
  by_cases ha : ∃ x ∈ l, Admissible p (hazeStats p l) x
  · have hb : ∃ x ∈ l, Admissible p (hazeStats p l) x ∧ ∃ u, x.2.1.t = some u ∧ -1 < u := by
      obtain ⟨x, hx, hxa⟩ := ha
      obtain ⟨u, hu, hu0, _⟩ := hrange x hx hxa.1
      exact ⟨x, hx, hxa, u, hu, hu0⟩
    obtain ⟨j, x, hbest, hc⟩ := c45_best p (hazeStats p l) (isWater os) nb nodata l hb
    obtain ⟨u, hu, hu0, hu1⟩ := hrange x (List.mem_iff_getElem?.2 ⟨j, hbest.1⟩) hbest.2.1.1
    have hsh : ∃ k, shortOf (x.2.1.t.map (· * 10000)) = .ok k := by
      rw [hu]
      show ∃ k, shortOf (some (u * 10000)) = _
      unfold shortOf
      refine ⟨truncR (u * 10000), if_pos ?_⟩
      unfold truncR
      split
      · have h0 : 0 ≤ ⌊u * 10000⌋ := Int.floor_nonneg.2 (by assumption)
        have h3 : ⌊u * 10000⌋ ≤ 32767 := by
          have : ((⌊u * 10000⌋ : Int) : ℝ) ≤ 32767 := (Int.floor_le _).trans hu1
          exact_mod_cast this
        omega
      · have h0 : ⌈u * 10000⌉ ≤ 0 := by
          apply Int.ceil_le.2; push_cast; linarith
        have h3 : -10000 ≤ ⌈u * 10000⌉ := by
          have : (-10000 : ℝ) ≤ (⌈u * 10000⌉ : Int) := le_trans (by linarith) (Int.le_ceil _)
          exact_mod_cast this
        omega
    obtain ⟨k, hk⟩ := hsh
    refine ⟨l, ⟨x.1.dat, [x.1.qai, (count p (hazeStats p l) l : Nat), x.1.doy, x.1.year, x.2.2, x.1.sensor + 1],
      [k, 0, 0, 0, 0, 0, 0]⟩, ?_, hlos, hsc, .inl ⟨j, x, hbest, rfl, rfl⟩⟩
    apply hfix _ hpx
    rw [hc]
    simp only [scrOut, hk, Out.bind, if_pos hw]
  · have ha' : ∀ x ∈ l, ¬ Admissible p (hazeStats p l) x := fun x hx hxa => ha ⟨x, hx, hxa⟩
    refine ⟨l, nodataPixel nb nodata, ?_, hlos, hsc, .inr ⟨ha', rfl⟩⟩
    exact hfix _ hpx (c45_nodata p (hazeStats p l) (isWater os) nb nodata l ha')

theorem water_valid {os : List Obs} (h : isWater os) : ∃ o ∈ os, o.msk = true := by
  have := h.1
  obtain ⟨o, ho⟩ := List.exists_mem_of_length_pos this
  rw [List.mem_filter] at ho
  exact ⟨o, ho⟩

/-- C45, violated: a water pixel with SWIR2 reflectance of at least 2.0 (e.g. sun glint) and no lower NIR in
each valid observation; the arrays are accessed with index -1. -/
theorem c45_water_violated {exp : ℝ → ℝ} (he : ExpLike exp) {p : Par} (hg : GoodPar p) {t0 : Target}
    {ts : List Target} (ht : ∀ t ∈ t0 :: ts, GoodTarget p t) (nb : Nat) (nodata : Int)
    (os : List Obs) (old : List (Score × Int)) (hl : os.length ≤ old.length)
    (ho : ∀ o ∈ os, o.msk = true → ((o.year - p.yt).natAbs : Int) ≤ p.yr) (hw : isWater os)
    (hall : p.offsea = true ∧ p.useHazy = true ∧ p.useCloudy = true)
    (hsw : ∀ o ∈ os, o.msk = true → 20000 ≤ o.sw2 ∧ o.sw2 ≤ o.nir) :
    pixel exp p t0 ts true 10000 nb nodata os old = .ub := by
  have ho' : ∀ x ∈ os.zip old, x.1.msk = true → ((x.1.year - p.yt).natAbs : Int) ≤ p.yr := by
    intro x hx
    exact ho x.1 (List.of_mem_zip (a := x.1) (b := x.2) hx).1
  obtain ⟨l0, h1, h2, _⟩ := scoreAll_ok he hg ht _ ho'
  rw [map_fst_zip hl] at h2
  set l := l0.map fun x => (x.1, waterObs 10000 x.1 x.2.1, x.2.2) with hldef
  have hlos : l.map (·.1) = os := by rw [hldef, List.map_map, ← h2]; rfl
  have hu := c45_index_violated p (hazeStats p l) (isWater os) nb nodata l
    (by
      obtain ⟨o, hoin, hom⟩ := water_valid hw
      rw [← hlos, List.mem_map] at hoin
      obtain ⟨x, hx, rfl⟩ := hoin
      exact ⟨x, hx, hom, .inl hall.1, .inl hall.2.1, .inl hall.2.2⟩)
    (by
      intro x hx hxa u hu
      have hxo : x.1 ∈ os := by rw [← hlos]; exact List.mem_map_of_mem hx
      obtain ⟨b1, b2⟩ := hsw x.1 hxo hxa.1
      rw [hldef, List.mem_map] at hx
      obtain ⟨y, _, rfl⟩ := hx
      have hm' : y.1.msk = true := hxa.1
      have hn : ¬ y.1.nir < y.1.sw2 := not_lt.2 b2
      simp only [waterObs, hm', Bool.not_true, Bool.false_eq_true, if_false, if_neg hn, Option.some.injEq] at hu
      have c1 : (20000 : ℝ) ≤ y.1.sw2 := by exact_mod_cast b1
      rw [← hu, div_le_iff₀ (by norm_num)]; linarith)
  rw [pixel_water h1 hw, ← hldef, hu]
  rfl

theorem scoreObs_nan {exp : ℝ → ℝ} {p : Par} {tg : Target} {o : Obs} (hg : GoodPar p) (hm : o.msk = true)
    (hcor : ¬ corrupt tg) (hty : p.typ = .gauss) (ha : tg.a = 0) (hy : o.year = p.yt) (hce : o.ce < tg.ce1)
    (hw : 0 < p.w.y) (hlen : 0 ≤ tg.ce1 - tg.ce0 ∧ tg.ce1 - tg.ce0 ≤ 40000) (old : Score × Int) :
    ∃ s td, scoreObs exp p tg [] o old = .ok (s, td) ∧ s.t = none := by
  obtain ⟨sl, h1, _, _⟩ := slice_ok hg hlen.1 hlen.2
  have hdy : ((o.year - p.yt).natAbs : Int) = 0 := by rw [hy]; simp
  have hd : (o.ce - tg.ce1) * (o.ce - tg.ce1) ≠ 0 := by
    have : o.ce - tg.ce1 ≠ 0 := by omega
    exact mul_ne_zero this this
  have ht : temporal exp p tg o = .ok (some 0, none, o.ce - tg.ce1) := by
    unfold temporal
    simp only [hty, if_pos hce, h1, hdy, Out.bind, sqDist, tail, ha, if_neg hd]
    simp
  refine ⟨_, _, by
    simp only [scoreObs, hm, Bool.not_true, Bool.false_eq_true, if_false, closest, List.foldl_nil, if_neg hcor, ht,
      Out.bind, if_neg hw.ne']; rfl, ?_⟩
  have n1 : ∀ a : Option ℝ, addTerm a p.w.y none = none := by intro a; cases a <;> simp [addTerm, hw]
  have n2 : ∀ a : Option ℝ, mulTerm a p.w.y none = none := by intro a; cases a <;> simp [mulTerm, hw]
  have n3 : ∀ (w : ℝ) (x : Option ℝ), addTerm none w x = none := by intro w x; simp [addTerm]
  have n4 : ∀ (w : ℝ) (x : Option ℝ), mulTerm none w x = none := by intro w x; simp [mulTerm]
  simp only [total, n1, n2, n3, n4]
  simp

theorem scoreAll_nan {exp : ℝ → ℝ} {p : Par} {tg : Target} (hg : GoodPar p)
    (hcor : ¬ corrupt tg) (hty : p.typ = .gauss) (ha : tg.a = 0) 
    (hw : 0 < p.w.y) (hlen : 0 ≤ tg.ce1 - tg.ce0 ∧ tg.ce1 - tg.ce0 ≤ 40000) :
    ∀ l : List (Obs × Score × Int), (∀ x ∈ l, x.1.msk = true → x.1.year = p.yt ∧ x.1.ce < tg.ce1) →
    ∃ r, scoreAll exp p tg [] l = .ok r ∧ r.map (·.1) = l.map (·.1) ∧ ∀ x ∈ r, x.1.msk = true → x.2.1.t = none
  | [], _ => ⟨[], rfl, rfl, by simp⟩
  | (o, old) :: l, ho => by
    obtain ⟨r, h1, h2, h3⟩ := scoreAll_nan (exp := exp) hg hcor hty ha hw hlen l fun x hx => ho x (List.mem_cons_of_mem _ hx)
    by_cases hm : o.msk = true
    · have hoo := ho (o, old) List.mem_cons_self hm
      obtain ⟨s, td, h4, h5⟩ := scoreObs_nan (exp := exp) hg hm hcor hty ha hoo.1 hoo.2 hw hlen old
      refine ⟨(o, s, td) :: r, by simp [scoreAll, h4, h1, Out.bind], by simp [h2], ?_⟩
      intro x hx hxm
      rcases List.mem_cons.1 hx with hx | hx
      · subst hx; exact h5
      · exact h3 x hx hxm
    · refine ⟨(o, { old.1 with t := some 0 }, old.2) :: r, ?_, by simp [h2], ?_⟩
      · simp [scoreAll, scoreObs, hm, h1, Out.bind]
      · intro x hx hxm
        rcases List.mem_cons.1 hx with hx | hx
        · subst hx; exact absurd hxm hm
        · exact h3 x hx hxm

/-- C45, violated: with `DOY_SCORE = 0 …` (a bell-shaped scoring function that is 0 on the first target day),
the year score of an observation of the target year before the central day is 0/0. If this is so for each valid
observation, the arrays are accessed with index -1. -/
theorem c45_nan_violated (exp : ℝ → ℝ) (logistic : Int → Int → Par → ℝ × ℝ) {p : Par} (hg : GoodPar p)
    (hty : p.typ = .gauss) (hd0 : p.d0 = 0) (hw : 0 < p.w.y) (hyr : p.yr = 0) (hyt : 1902 ≤ p.yt)
    (hdoy : (1 ≤ p.t0 ∧ p.t0 ≤ 365) ∧ (1 ≤ p.t1 ∧ p.t1 ≤ 365) ∧ (1 ≤ p.t2 ∧ p.t2 ≤ 365))
    (hall : p.offsea = true ∧ p.useHazy = true ∧ p.useCloudy = true) (bands : Bool) (scale : ℝ) (nb : Nat)
    (nodata : Int) (os : List Obs) (old : List (Score × Int)) (hl : os.length ≤ old.length)
    (hv : ∃ o ∈ os, o.msk = true)
    (ho : ∀ o ∈ os, o.msk = true → o.year = p.yt ∧ o.ce < p.yt * 365 + p.t1) (hland : ¬ isWater os) :
    pixel exp p (targetFunction logistic p (staticDates p 0)) [] bands scale nb nodata os old = .ub := by
  set tg := targetFunction logistic p (staticDates p 0) with htg
  have e1 : tg.ce1 = p.yt * 365 + p.t1 := by
    rw [htg]; simp [targetFunction, hty, staticDates, Date.doy2ce, hyr]
  have e0 : tg.ce0 = (if p.t0 > p.t1 then (p.yt - 1) * 365 + p.t0 else p.yt * 365 + p.t0) := by
    rw [htg]; simp [targetFunction, hty, staticDates, Date.doy2ce, hyr]
  have e2 : tg.ce2 = (if p.t2 < p.t1 then (p.yt + 1) * 365 + p.t2 else p.yt * 365 + p.t2) := by
    rw [htg]; simp [targetFunction, hty, staticDates, Date.doy2ce, hyr]
  have ha : tg.a = 0 := by
    rw [htg]; simp [targetFunction, hty, sigma, hd0]
  have hcor : ¬ corrupt tg := by
    unfold corrupt; rw [e0, e1, e2]; split <;> split <;> omega
  have hlen : 0 ≤ tg.ce1 - tg.ce0 ∧ tg.ce1 - tg.ce0 ≤ 40000 := by
    rw [e0, e1]; split <;> omega
  obtain ⟨l, h1, h2, h3⟩ := scoreAll_nan (exp := exp) hg hcor hty ha hw hlen (os.zip old) (by
    intro x hx hm
    rw [e1]
    exact ho x.1 (List.of_mem_zip (a := x.1) (b := x.2) hx).1 hm)
  rw [map_fst_zip hl] at h2
  have hu := c45_index_violated p (hazeStats p l) (isWater os) nb nodata l
    (by
      obtain ⟨o, hoin, hom⟩ := hv
      rw [← h2, List.mem_map] at hoin
      obtain ⟨x, hx, rfl⟩ := hoin
      exact ⟨x, hx, hom, .inl hall.1, .inl hall.2.1, .inl hall.2.2⟩)
    (by
      intro x hx hxa u hu
      rw [h3 x hx hxa.1] at hu; cases hu)
  have hc : ¬ (bands = true ∧ isWater os) := fun h => hland h.2
  simp only [pixel, h1, Out.bind, if_neg hc, hu]

/-! ## The hypotheses can be met -/

/-- A bell-shaped scoring function around the middle of June 2020; only the DOY and cloud scores are used. -/
noncomputable def demoPar : Par where
  yt := 2020
  yr := 0
  yn := 1
  yf := 2
  d0 := 1 / 100
  d1 := 1
  d2 := 1 / 100
  t0 := 100
  t1 := 170
  t2 := 240
  offsea := true
  useCloudy := true
  useHazy := true
  add := true
  dreq := 100
  hreq := 200
  vreq := 20
  typ := .gauss
  w := ⟨1, 1 / 2, 1 / 2, 0, 0, 0, 2⟩

/-- Its target (with rounded widths). -/
noncomputable def demoTarget : Target := ⟨2020 * 365 + 100, 2020 * 365 + 170, 2020 * 365 + 240, 23, 23⟩

/-- Two observations, the second one is invalid. -/
noncomputable def demoObs : List Obs :=
  [⟨true, 2020 * 365 + 160, 160, 2020, 0, 3, 500, 0, 0, 1, false, 800, 3000, [300, 800]⟩,
   ⟨false, 2020 * 365 + 165, 165, 2020, 1, 3, 500, 0, 0, 1, false, 800, 3000, [-9999, -9999]⟩]

theorem demo_good : GoodPar demoPar := by
  constructor <;> try norm_num [demoPar]
  constructor <;> norm_num [demoPar]

theorem exp_like : ExpLike Real.exp := ⟨fun x => (Real.exp_pos x).le, fun _ h => Real.exp_le_one_iff.2 h⟩

example : GoodPar demoPar ∧ (∀ t ∈ [demoTarget], GoodTarget demoPar t) ∧ ExpLike Real.exp ∧
    (∀ o ∈ demoObs, o.msk = true → ((o.year - demoPar.yt).natAbs : Int) ≤ demoPar.yr) ∧ ¬ isWater demoObs := by
  refine ⟨demo_good, ?_, exp_like, ?_, ?_⟩
  · intro t ht
    simp only [List.mem_cons, List.not_mem_nil, or_false] at ht
    subst ht
    constructor <;> norm_num [demoTarget, demoPar]
  · simp [demoObs, demoPar]
  · simp [isWater, demoObs]

/-- Two observations of water; the SWIR2 reflectance is that of the arguments. -/
noncomputable def demoWater (a b : Int) : List Obs :=
  [⟨true, 2020 * 365 + 160, 160, 2020, 0, 3, 500, 0, 0, 1, true, a, 30000, [300, 800]⟩,
   ⟨true, 2020 * 365 + 165, 165, 2020, 1, 3, 500, 0, 0, 1, true, b, 30000, [400, 900]⟩]

example : isWater (demoWater 100 200) ∧ (∀ o ∈ demoWater 100 200, o.msk = true → -22767 ≤ o.sw2 ∧ o.sw2 < 20000) ∧
    isWater (demoWater 20000 21000) ∧
    (∀ o ∈ demoWater 20000 21000, o.msk = true → 20000 ≤ o.sw2 ∧ o.sw2 ≤ o.nir) := by
  refine ⟨by simp [isWater, demoWater], by simp [demoWater], by simp [isWater, demoWater], by simp [demoWater]⟩

/-- For `c45_nan_violated`: the observation is before the central day. -/
example : GoodPar { demoPar with d0 := 0 } ∧ (0 : ℝ) < ({ demoPar with d0 := 0 } : Par).w.y ∧
    (∃ o ∈ demoObs, o.msk = true) ∧
    (∀ o ∈ demoObs, o.msk = true → o.year = demoPar.yt ∧ o.ce < demoPar.yt * 365 + demoPar.t1) := by
  refine ⟨?_, by norm_num [demoPar], by simp [demoObs], by simp [demoObs, demoPar]⟩
  constructor <;> try norm_num [demoPar]
  constructor <;> norm_num [demoPar]

end

end Verif.Bap
