import Verif.Wvp.GranuleSpec
import Mathlib.Tactic.Linarith
import Mathlib.Tactic.Ring
import Mathlib.Algebra.Order.Field.Basic
import Mathlib.Tactic.FinCases
import Mathlib.Tactic.FieldSimp

/-!
# C141: granules that are read for a location
-/

namespace Verif.Wvp

open Verif.Wvp.Spec

theorem lonAt_lt (r : Ring) (i j : Fin 4) (px py : ℚ) (h : r.y j < r.y i) : lonAt r i j py < px ↔ 0 < side r i j px py := by
  unfold lonAt side
  rw [div_lt_iff_of_neg (by linarith)]
  constructor <;> intro h <;> nlinarith

theorem lt_lonAt (r : Ring) (i j : Fin 4) (px py : ℚ) (h : r.y j < r.y i) : px < lonAt r i j py ↔ side r i j px py < 0 := by
  unfold lonAt side
  rw [lt_div_iff_of_neg (by linarith)]
  constructor <;> intro h <;> nlinarith

theorem latAt_lt (r : Ring) (i j : Fin 4) (px py : ℚ) (h : r.x i < r.x j) : latAt r i j px < py ↔ 0 < side r i j px py := by
  unfold latAt side
  rw [div_lt_iff₀ (by linarith)]
  constructor <;> intro h <;> nlinarith

theorem lt_latAt (r : Ring) (i j : Fin 4) (px py : ℚ) (h : r.x i < r.x j) : py < latAt r i j px ↔ side r i j px py < 0 := by
  unfold latAt side
  rw [lt_div_iff₀ (by linarith)]
  constructor <;> intro h <;> nlinarith

theorem side_swap (r : Ring) (i j : Fin 4) (px py : ℚ) : side r i j px py = - side r j i px py := by
  unfold side; ring

/-- The side changes linearly with latitude. -/
theorem side_lat (r : Ring) (i j : Fin 4) (px py s n : ℚ) (h1 : s ≤ py) (h2 : py ≤ n) (h3 : s < n) :
    ((0 < side r i j px s ∧ 0 < side r i j px n → 0 < side r i j px py) ∧ (side r i j px s < 0 ∧ side r i j px n < 0 → side r i j px py < 0)) := by
  have e : (n - s) * side r i j px py = (n - py) * side r i j px s + (py - s) * side r i j px n := by unfold side; ring
  have hp : 0 < n - s := by linarith
  constructor
  · rintro ⟨a, b⟩
    have : 0 < (n - s) * side r i j px py := by
      rw [e]
      rcases eq_or_lt_of_le h1 with h | h
      · rw [← h]; nlinarith [mul_pos hp a]
      · nlinarith [mul_pos (sub_pos.2 h) b, mul_nonneg (sub_nonneg.2 h2) a.le]
    exact (pos_iff_pos_of_mul_pos this).1 hp
  · rintro ⟨a, b⟩
    have : (n - s) * side r i j px py < 0 := by
      rw [e]
      rcases eq_or_lt_of_le h1 with h | h
      · rw [← h]; nlinarith [mul_pos hp (neg_pos.2 a)]
      · nlinarith [mul_pos (sub_pos.2 h) (neg_pos.2 b), mul_nonneg (sub_nonneg.2 h2) (neg_pos.2 a).le]
    by_contra hc
    push_neg at hc
    nlinarith [mul_nonneg hp.le hc]

/-- The side changes linearly with longitude. -/
theorem side_lon (r : Ring) (i j : Fin 4) (px py w e : ℚ) (h1 : w ≤ px) (h2 : px ≤ e) (h3 : w < e) :
    ((0 < side r i j w py ∧ 0 < side r i j e py → 0 < side r i j px py) ∧ (side r i j w py < 0 ∧ side r i j e py < 0 → side r i j px py < 0)) := by
  have ee : (e - w) * side r i j px py = (e - px) * side r i j w py + (px - w) * side r i j e py := by unfold side; ring
  have hp : 0 < e - w := by linarith
  constructor
  · rintro ⟨a, b⟩
    have : 0 < (e - w) * side r i j px py := by
      rw [ee]
      rcases eq_or_lt_of_le h1 with h | h
      · rw [← h]; nlinarith [mul_pos hp a]
      · nlinarith [mul_pos (sub_pos.2 h) b, mul_nonneg (sub_nonneg.2 h2) a.le]
    exact (pos_iff_pos_of_mul_pos this).1 hp
  · rintro ⟨a, b⟩
    have : (e - w) * side r i j px py < 0 := by
      rw [ee]
      rcases eq_or_lt_of_le h1 with h | h
      · rw [← h]; nlinarith [mul_pos hp (neg_pos.2 a)]
      · nlinarith [mul_pos (sub_pos.2 h) (neg_pos.2 b), mul_nonneg (sub_nonneg.2 h2) (neg_pos.2 a).le]
    by_contra hc
    push_neg at hc
    nlinarith [mul_nonneg hp.le hc]

/-- Moving to the right. -/
theorem side_right (r : Ring) (i j : Fin 4) (px qx py : ℚ) (h : px ≤ qx) (hy : r.y j < r.y i) : side r i j px py ≤ side r i j qx py := by
  unfold side; nlinarith

theorem side_up (r : Ring) (i j : Fin 4) (px py qy : ℚ) (h : py ≤ qy) (hx : r.x i < r.x j) : side r i j px py ≤ side r i j px qy := by
  unfold side; nlinarith

theorem interior_iff (r : Ring) (px py : ℚ) : Interior r px py ↔ side r 0 1 px py < 0 ∧ side r 1 2 px py < 0 ∧ 0 < side r 3 2 px py ∧ 0 < side r 0 3 px py := by
  unfold Interior
  rw [side_swap r 2 3, side_swap r 3 0]
  simp

theorem holds_spec (r : Ring) (lat lon off : ℚ) (h : Ordered r) :
    holds r lat lon off = true ↔ ∀ px py, |px - (lon + off)| ≤ 3 / 4 → |py - lat| ≤ 3 / 4 → Interior r px py := by
  obtain ⟨h1, h2, -, h4, h5, -⟩ := h
  unfold holds half
  simp only [Bool.and_eq_true, decide_eq_true_eq, gt_iff_lt]
  rw [lonAt_lt r 0 3 _ _ h4, lonAt_lt r 0 3 _ _ h4, lt_lonAt r 1 2 _ _ h5, lt_lonAt r 1 2 _ _ h5,
    lt_latAt r 0 1 _ _ h1, lt_latAt r 0 1 _ _ h1, latAt_lt r 3 2 _ _ h2, latAt_lt r 3 2 _ _ h2]
  constructor
  · rintro ⟨⟨⟨⟨⟨⟨⟨a1, a2⟩, a3⟩, a4⟩, a5⟩, a6⟩, a7⟩, a8⟩ px py hx hy
    rw [abs_le] at hx hy
    rw [interior_iff]
    refine ⟨?_, ?_, ?_, ?_⟩
    · have := (side_lon r 0 1 px (lat + 3 / 4) (lon - 3 / 4 + off) (lon + 3 / 4 + off) (by linarith) (by linarith) (by linarith)).2 ⟨a5, a7⟩
      exact lt_of_le_of_lt (side_up r 0 1 px py (lat + 3 / 4) (by linarith) h1) this
    · have := (side_lat r 1 2 (lon + 3 / 4 + off) py (lat - 3 / 4) (lat + 3 / 4) (by linarith) (by linarith) (by linarith)).2 ⟨a4, a3⟩
      exact lt_of_le_of_lt (side_right r 1 2 px (lon + 3 / 4 + off) py (by linarith) h5) this
    · have := (side_lon r 3 2 px (lat - 3 / 4) (lon - 3 / 4 + off) (lon + 3 / 4 + off) (by linarith) (by linarith) (by linarith)).1 ⟨a6, a8⟩
      exact lt_of_lt_of_le this (side_up r 3 2 px (lat - 3 / 4) py (by linarith) h2)
    · have := (side_lat r 0 3 (lon - 3 / 4 + off) py (lat - 3 / 4) (lat + 3 / 4) (by linarith) (by linarith) (by linarith)).1 ⟨a2, a1⟩
      exact lt_of_lt_of_le this (side_right r 0 3 (lon - 3 / 4 + off) px py (by linarith) h4)
  · intro H
    have c : ∀ sx sy : ℚ, |sx| ≤ 3 / 4 → |sy| ≤ 3 / 4 → Interior r (lon + off + sx) (lat + sy) := by
      intro sx sy hx hy
      exact H _ _ (by rw [add_sub_cancel_left]; exact hx) (by rw [add_sub_cancel_left]; exact hy)
    have p1 : |(3 / 4 : ℚ)| ≤ 3 / 4 := by rw [abs_of_pos] <;> norm_num
    have p2 : |(-(3 / 4) : ℚ)| ≤ 3 / 4 := by rw [abs_neg]; exact p1
    have nw := (interior_iff _ _ _).1 (c (-(3 / 4)) (3 / 4) p2 p1)
    have ne := (interior_iff _ _ _).1 (c (3 / 4) (3 / 4) p1 p1)
    have sw := (interior_iff _ _ _).1 (c (-(3 / 4)) (-(3 / 4)) p2 p2)
    have se := (interior_iff _ _ _).1 (c (3 / 4) (-(3 / 4)) p1 p2)
    have ew : lon + off + -(3 / 4) = lon - 3 / 4 + off := by ring
    have ee : lon + off + 3 / 4 = lon + 3 / 4 + off := by ring
    have es : lat + -(3 / 4) = lat - 3 / 4 := by ring
    rw [ew] at nw sw; rw [ee] at ne se; rw [es] at sw se
    exact ⟨⟨⟨⟨⟨⟨⟨nw.2.2.2, sw.2.2.2⟩, ne.2.1⟩, se.2.1⟩, nw.1⟩, sw.2.2.1⟩, ne.1⟩, se.2.2.1⟩

theorem meets_of (r : Ring) (lat lon off : ℚ) (h : Ordered r) (px py : ℚ) (hx : |px - (lon + off)| ≤ 3 / 4) (hy : |py - lat| ≤ 3 / 4)
    (hi : Interior r px py) : meets r lat lon off = true := by
  obtain ⟨h1, h2, -, h4, h5, -⟩ := h
  rw [interior_iff] at hi
  rw [abs_le] at hx hy
  unfold meets half
  simp only [Bool.and_eq_true, Bool.or_eq_true, decide_eq_true_eq, gt_iff_lt]
  rw [lonAt_lt r 0 3 _ _ h4, lonAt_lt r 0 3 _ _ h4, lt_lonAt r 1 2 _ _ h5, lt_lonAt r 1 2 _ _ h5,
    lt_latAt r 0 1 _ _ h1, lt_latAt r 0 1 _ _ h1, latAt_lt r 3 2 _ _ h2, latAt_lt r 3 2 _ _ h2]
  have big : ∀ a b c d : ℚ, c = (1 - d) * a + d * b → 0 ≤ d → d ≤ 1 → 0 < c → 0 < a ∨ 0 < b := by
    intro a b c d e d0 d1 hc
    by_contra hn
    push_neg at hn
    nlinarith [mul_nonneg (sub_nonneg.2 d1) (neg_nonneg.2 hn.1), mul_nonneg d0 (neg_nonneg.2 hn.2)]
  refine ⟨⟨⟨?_, ?_⟩, ?_⟩, ?_⟩
  · have := lt_of_le_of_lt (side_right r 1 2 (lon - 3 / 4 + off) px py (by linarith) h5) hi.2.1
    rcases big (- side r 1 2 (lon - 3 / 4 + off) (lat - 3 / 4)) (- side r 1 2 (lon - 3 / 4 + off) (lat + 3 / 4)) _ ((py - (lat - 3 / 4)) / (3 / 2))
      (by unfold side; ring) (by apply div_nonneg <;> linarith) (by rw [div_le_one (by norm_num)]; linarith) (neg_pos.2 this) with h | h
    · right; linarith
    · left; linarith
  · have := lt_of_lt_of_le hi.2.2.2 (side_right r 0 3 px (lon + 3 / 4 + off) py (by linarith) h4)
    rcases big (side r 0 3 (lon + 3 / 4 + off) (lat - 3 / 4)) (side r 0 3 (lon + 3 / 4 + off) (lat + 3 / 4)) _ ((py - (lat - 3 / 4)) / (3 / 2))
      (by unfold side; ring) (by apply div_nonneg <;> linarith) (by rw [div_le_one (by norm_num)]; linarith) this with h | h
    · right; exact h
    · left; exact h
  · have := lt_of_lt_of_le hi.2.2.1 (side_up r 3 2 px py (lat + 3 / 4) (by linarith) h2)
    rcases big (side r 3 2 (lon - 3 / 4 + off) (lat + 3 / 4)) (side r 3 2 (lon + 3 / 4 + off) (lat + 3 / 4)) _ ((px - (lon - 3 / 4 + off)) / (3 / 2))
      (by unfold side; ring) (by apply div_nonneg <;> linarith) (by rw [div_le_one (by norm_num)]; linarith) this with h | h
    · left; exact h
    · right; exact h
  · have := lt_of_le_of_lt (side_up r 0 1 px (lat - 3 / 4) py (by linarith) h1) hi.1
    rcases big (- side r 0 1 (lon - 3 / 4 + off) (lat - 3 / 4)) (- side r 0 1 (lon + 3 / 4 + off) (lat - 3 / 4)) _ ((px - (lon - 3 / 4 + off)) / (3 / 2))
      (by unfold side; ring) (by apply div_nonneg <;> linarith) (by rw [div_le_one (by norm_num)]; linarith) (neg_pos.2 this) with h | h
    · left; linarith
    · right; linarith

/-- Longitude relative to the first corner. -/
theorem relative_one (a b : ℚ) (k : ℤ) (ha : |a| ≤ 180) (hb : |b| ≤ 180) (h : |a - (b + 360 * k)| < 180) :
    (if |a - (b - 360)| < |a - b| ∧ |a - (b - 360)| < |a - (b + 360)| then (if |a - (b + 360)| < |a - b| ∧ |a - (b + 360)| < |a - (b - 360)| then b + 360 else b) - 360
      else (if |a - (b + 360)| < |a - b| ∧ |a - (b + 360)| < |a - (b - 360)| then b + 360 else b)) = b + 360 * k := by
  rw [abs_le] at ha hb
  rw [abs_lt] at h
  have k1 : (k : ℚ) < 2 := by linarith
  have k2 : (-2 : ℚ) < k := by linarith
  have k1' : k < 2 := by exact_mod_cast k1
  have k2' : -2 < k := by exact_mod_cast k2
  have hk : k = -1 ∨ k = 0 ∨ k = 1 := by omega
  rcases hk with rfl | rfl | rfl
  · push_cast at h ⊢
    have e2 : |a - (b - 360)| < 180 := by rw [abs_lt]; constructor <;> linarith
    have e0 : 180 < |a - b| := by rw [lt_abs]; right; linarith
    have e1 : 180 < |a - (b + 360)| := by rw [lt_abs]; right; linarith
    rw [if_pos ⟨by linarith, by linarith⟩, if_neg (by intro hh; linarith [hh.2])]
    ring
  · push_cast at h ⊢
    have e0 : |a - b| < 180 := by rw [abs_lt]; constructor <;> linarith
    have e2 : 180 < |a - (b - 360)| := by rw [lt_abs]; left; linarith
    have e1 : 180 < |a - (b + 360)| := by rw [lt_abs]; right; linarith
    rw [if_neg (by intro hh; linarith [hh.1]), if_neg (by intro hh; linarith [hh.1])]
    ring
  · push_cast at h ⊢
    have e1 : |a - (b + 360)| < 180 := by rw [abs_lt]; constructor <;> linarith
    have e0 : 180 < |a - b| := by rw [lt_abs]; left; linarith
    have e2 : 180 < |a - (b - 360)| := by rw [lt_abs]; left; linarith
    rw [if_neg (by intro hh; linarith [hh.1]), if_pos ⟨by linarith, by linarith⟩]
    ring

theorem relative_spec (r : Ring) (u : Fin 4 → ℚ) (k : Fin 4 → ℤ) (hr : ∀ g, |r.x g| ≤ 180) (hu : ∀ i j, |u i - u j| < 180)
    (h : ∀ g, r.x g = u g + 360 * k g) : (relative r).x = fun g => u g + 360 * k 0 := by
  funext g
  unfold relative
  simp only
  by_cases hg : g = 0
  · subst hg; rw [if_pos rfl]; exact h 0
  · rw [if_neg hg]
    have := relative_one (r.x 0) (r.x g) (k 0 - k g) (hr 0) (hr g) (by
      rw [h 0, h g]; push_cast
      have e : u 0 + 360 * (k 0 : ℚ) - (u g + 360 * k g + 360 * (k 0 - k g)) = u 0 - u g := by ring
      rw [e]; exact hu 0 g)
    rw [this, h g]; push_cast; ring

/-- C141: from the table, the corners of every usable granule are obtained in the order upper left, upper right, lower right, lower left, without jump at the date line; night granules and granules at the poles are ignored. -/
theorem c141_corners (l : Line) : (¬ Usable l → geometa l = none) ∧
    ∀ t, Usable l → Describes l t → ∃ (r : Ring) (k : ℤ), geometa l = some r ∧ (∀ g, r.x g = t.x g + 360 * k ∧ r.y g = t.y g) ∧ ∃ g, |r.x g| ≤ 180 := by
  constructor
  · intro h
    unfold geometa
    by_cases hd : l.day = true
    · rw [if_neg (by simp [hd])]
      rw [if_pos]
      by_contra hc
      push_neg at hc
      exact h ⟨hd, fun hh => hc.1 hh.1 hh.2, hc.2.1, hc.2.2⟩
    · rw [if_pos hd]
  · rintro t ⟨u1, u2, u3, u4⟩ ⟨ho, hw, hr, k, hk⟩
    obtain ⟨o1, o2, o3, o4, o5, o6⟩ := ho
    have e : geometa l = some (reorder (relative l.ring)) := by
      unfold geometa
      rw [if_neg (by simp [u1]), if_neg]
      rintro (hh | hh | hh)
      · exact u2 hh
      · linarith
      · linarith
    rcases hk with hk | hk
    · have ex := relative_spec l.ring t.x k hr hw (fun g => (hk g).1)
      refine ⟨_, k 0, e, ?_⟩
      have : reorder (relative l.ring) = relative l.ring := by
        unfold reorder
        rw [if_neg]
        rw [ex]
        rintro ⟨hh, -⟩
        simp only at hh
        linarith
      rw [this, ex]
      refine ⟨fun g => ⟨rfl, (hk g).2⟩, 0, ?_⟩
      show |t.x 0 + 360 * (k 0 : ℚ)| ≤ 180
      rw [← (hk 0).1]; exact hr 0
    · have ex := relative_spec l.ring (fun g => t.x (g + 2)) k hr (fun i j => hw _ _) (fun g => (hk g).1)
      refine ⟨_, k 0, e, ?_⟩
      have : reorder (relative l.ring) = ⟨fun g => (relative l.ring).x (g + 2), fun g => (relative l.ring).y (g + 2)⟩ := by
        unfold reorder
        rw [if_pos]
        rw [ex]
        refine ⟨?_, ?_⟩
        · show t.x (2 + 2) + 360 * (k 0 : ℚ) < t.x (0 + 2) + 360 * (k 0 : ℚ)
          have : (2 + 2 : Fin 4) = 0 := rfl
          rw [this]
          have : (0 + 2 : Fin 4) = 2 := rfl
          rw [this]
          linarith
        · show l.ring.y 2 > l.ring.y 0
          rw [(hk 2).2, (hk 0).2]
          exact o6
      rw [this, ex]
      have e4 : ∀ g : Fin 4, g + 2 + 2 = g := by decide
      refine ⟨fun g => ⟨?_, ?_⟩, 2, ?_⟩
      · show t.x (g + 2 + 2) + _ = _
        rw [e4]
      · show l.ring.y (g + 2) = t.y g
        rw [(hk (g + 2)).2, e4]
      · show |t.x (2 + 2 + 2) + 360 * (k 0 : ℚ)| ≤ 180
        have : (2 + 2 + 2 : Fin 4) = 0 + 2 := rfl
        rw [this, ← (hk 0).1]; exact hr 0

theorem ordered_shift (t r : Ring) (k : ℤ) (h : ∀ g, r.x g = t.x g + 360 * k ∧ r.y g = t.y g) (ho : Ordered t) : Ordered r := by
  unfold Ordered at *
  rw [(h 0).1, (h 1).1, (h 2).1, (h 3).1, (h 0).2, (h 1).2, (h 2).2, (h 3).2]
  refine ⟨by linarith [ho.1], by linarith [ho.2.1], by linarith [ho.2.2.1], ho.2.2.2⟩

theorem interior_shift (t r : Ring) (k : ℤ) (h : ∀ g, r.x g = t.x g + 360 * k ∧ r.y g = t.y g) (px py : ℚ) :
    Interior r px py ↔ Interior t (px - 360 * k) py := by
  have : ∀ i j, side r i j px py = side t i j (px - 360 * k) py := by
    intro i j
    unfold side
    rw [(h i).1, (h j).1, (h i).2, (h j).2]
    ring
  unfold Interior
  rw [this, this, this, this]

theorem triangle_range (r : Ring) (a b c : Fin 4) (px py M : ℚ) (hM : ∀ g, |r.x g| ≤ M) (h1 : side r a b px py < 0) (h2 : side r b c px py ≤ 0)
    (h3 : side r c a px py ≤ 0) : |px| ≤ M := by
  have e : side r b c px py * r.x a + side r c a px py * r.x b + side r a b px py * r.x c =
      (side r a b px py + side r b c px py + side r c a px py) * px := by unfold side; ring
  have b0 := abs_le.1 (hM a)
  have b1 := abs_le.1 (hM b)
  have b2 := abs_le.1 (hM c)
  generalize side r a b px py = u at *
  generalize side r b c px py = v at *
  generalize side r c a px py = w at *
  have hs : 0 < -(u + v + w) := by linarith
  rw [abs_le]
  constructor
  · have : 0 ≤ -(u + v + w) * (px + M) := by nlinarith [mul_nonneg (neg_nonneg.2 h2) (by linarith [b0.1] : 0 ≤ r.x a + M), mul_nonneg (neg_nonneg.2 h3) (by linarith [b1.1] : 0 ≤ r.x b + M), mul_nonneg (neg_nonneg.2 h1.le) (by linarith [b2.1] : 0 ≤ r.x c + M)]
    by_contra hc
    push_neg at hc
    nlinarith [mul_pos hs (by linarith : 0 < -(px + M))]
  · have : 0 ≤ -(u + v + w) * (M - px) := by nlinarith [mul_nonneg (neg_nonneg.2 h2) (by linarith [b0.2] : 0 ≤ M - r.x a), mul_nonneg (neg_nonneg.2 h3) (by linarith [b1.2] : 0 ≤ M - r.x b), mul_nonneg (neg_nonneg.2 h1.le) (by linarith [b2.2] : 0 ≤ M - r.x c)]
    by_contra hc
    push_neg at hc
    nlinarith [mul_pos hs (by linarith : 0 < px - M)]

/-- A point of the interior lies between the westernmost and the easternmost corner. -/
theorem interior_range (r : Ring) (px py M : ℚ) (hM : ∀ g, |r.x g| ≤ M) (h : Interior r px py) : |px| ≤ M := by
  obtain ⟨h1, h2, h3, h4⟩ := h
  by_cases hd : side r 0 2 px py < 0
  · exact triangle_range r 0 2 3 px py M hM hd h3.le h4.le
  · refine triangle_range r 0 1 2 px py M hM h1 h2.le ?_
    rw [side_swap]; linarith

/-- Offsets that can matter. -/
theorem offset_mem (r t : Ring) (k m : ℤ) (lon px py : ℚ) (hl : |lon| ≤ 180) (hp : |px - lon| ≤ 3 / 4)
    (h : ∀ g, r.x g = t.x g + 360 * k ∧ r.y g = t.y g) (hw : ∀ i j, |t.x i - t.x j| < 180) (hr : ∃ g, |r.x g| ≤ 180)
    (hi : Interior t (px + 360 * m) py) : (360 * ((m + k : ℤ) : ℚ)) ∈ dboff := by
  obtain ⟨i, hi'⟩ := hr
  have hb : ∀ g, |r.x g| ≤ 360 := by
    intro g
    have := hw g i
    rw [(h i).1] at hi'
    rw [(h g).1]
    rw [abs_lt] at this
    rw [abs_le] at hi' ⊢
    constructor <;> linarith [this.1, this.2, hi'.1, hi'.2]
  have h2 : Interior r (px + 360 * ((m + k : ℤ) : ℚ)) py := by
    rw [interior_shift t r k h]
    have : px + 360 * ((m + k : ℤ) : ℚ) - 360 * (k : ℚ) = px + 360 * m := by push_cast; ring
    rw [this]; exact hi
  have h3 := abs_le.1 (interior_range r _ py 360 hb h2)
  have a1 := abs_le.1 hl
  have a2 := abs_le.1 hp
  generalize m + k = q at *
  have q1 : (q : ℚ) < 2 := by linarith [h3.1, h3.2, a1.1, a1.2, a2.1, a2.2]
  have q2 : (-2 : ℚ) < q := by linarith [h3.1, h3.2, a1.1, a1.2, a2.1, a2.2]
  have q1' : q < 2 := by exact_mod_cast q1
  have q2' : -2 < q := by exact_mod_cast q2
  have : q = -1 ∨ q = 0 ∨ q = 1 := by omega
  unfold dboff
  rcases this with rfl | rfl | rfl <;> norm_num

theorem mem_intersect (lat lon : ℚ) (gr : List (Option Ring)) (i : Nat) :
    i ∈ modisIntersect lat lon gr ↔ ∃ r off, gr[i]? = some (some r) ∧ off ∈ dboff ∧ meets r lat lon off = true := by
  unfold modisIntersect
  rw [List.mem_flatMap]
  constructor
  · rintro ⟨⟨o, j⟩, h1, h2⟩
    rw [List.mk_mem_zipIdx_iff_getElem?] at h1
    cases o with
    | none => simp at h2
    | some r =>
      simp only [List.mem_map, List.mem_filter] at h2
      obtain ⟨off, h3, h4⟩ := h2
      subst h4
      exact ⟨r, off, h1, h3⟩
  · rintro ⟨r, off, h1, h2, h3⟩
    refine ⟨(some r, i), (List.mk_mem_zipIdx_iff_getElem?).2 h1, ?_⟩
    simp only [List.mem_map, List.mem_filter]
    exact ⟨off, ⟨h2, h3⟩, trivial⟩

theorem contains_overlaps (t : Ring) (lat lon : ℚ) (h : Contains t lat lon) : Overlaps t lat lon := by
  obtain ⟨k, hk⟩ := h
  have h0 : InFrame lat lon lon lat := by constructor <;> rw [sub_self, abs_zero] <;> norm_num
  exact ⟨lon, lat, k, h0, hk _ _ h0⟩

/-- C141: for a location, every usable granule that overlaps its frame on the globe (also across the date line) is read, unless one granule that contains the whole frame is read alone. -/
theorem c141_granules (ls : List Line) (T : Nat → Ring) (hT : ∀ (i : Nat) (l : Line), ls[i]? = some l → Usable l → Describes l (T i)) (lat lon : ℚ) (hl : |lon| ≤ 180) :
    (∀ i ∈ granules lat lon (ls.map geometa), ∃ l, ls[i]? = some l ∧ Usable l) ∧
    ((∃ (i : Nat) (l : Line), ls[i]? = some l ∧ Usable l ∧ Contains (T i) lat lon) → ∃ p, granules lat lon (ls.map geometa) = [p] ∧ Contains (T p) lat lon) ∧
    ((¬ ∃ (i : Nat) (l : Line), ls[i]? = some l ∧ Usable l ∧ Contains (T i) lat lon) →
      ∀ (i : Nat) (l : Line), ls[i]? = some l → Usable l → Overlaps (T i) lat lon → i ∈ granules lat lon (ls.map geometa)) := by
  have get : ∀ (i : Nat) (r : Ring), (ls.map geometa)[i]? = some (some r) → ∃ l, ls[i]? = some l ∧ geometa l = some r := by
    intro i r h
    rw [List.getElem?_map, Option.map_eq_some_iff] at h
    exact h
  have usable : ∀ l r, geometa l = some r → Usable l := by
    intro l r h
    by_contra hc
    rw [(c141_corners l).1 hc] at h
    simp at h
  -- granules in the list
  have mem : ∀ (i : Nat) (l : Line), ls[i]? = some l → Usable l → Overlaps (T i) lat lon → i ∈ modisIntersect lat lon (ls.map geometa) := by
    intro i l h1 h2 ⟨px, py, m, hf, hi⟩
    have hd := hT i l h1 h2
    obtain ⟨r, k, e1, e2, e3⟩ := (c141_corners l).2 (T i) h2 hd
    rw [mem_intersect]
    refine ⟨r, 360 * ((m + k : ℤ) : ℚ), ?_, offset_mem r (T i) k m lon px py hl hf.1 e2 hd.2.1 e3 hi, ?_⟩
    · rw [List.getElem?_map, h1]; simp [e1]
    · refine meets_of r lat lon _ (ordered_shift (T i) r k e2 hd.1) (px + 360 * ((m + k : ℤ) : ℚ)) py ?_ hf.2 ?_
      · have : px + 360 * ((m + k : ℤ) : ℚ) - (lon + 360 * ((m + k : ℤ) : ℚ)) = px - lon := by ring
        rw [this]; exact hf.1
      · rw [interior_shift (T i) r k e2]
        have : px + 360 * ((m + k : ℤ) : ℚ) - 360 * (k : ℚ) = px + 360 * m := by push_cast; ring
        rw [this]; exact hi
  -- the test of `modis_inside`
  have ins : ∀ (i : Nat) (l : Line), ls[i]? = some l → Usable l →
      ((match (ls.map geometa)[i]? with | some (some r) => dboff.any (holds r lat lon) | _ => false) = true ↔ Contains (T i) lat lon) := by
    intro i l h1 h2
    have hd := hT i l h1 h2
    obtain ⟨r, k, e1, e2, e3⟩ := (c141_corners l).2 (T i) h2 hd
    have e : (ls.map geometa)[i]? = some (some r) := by rw [List.getElem?_map, h1]; simp [e1]
    rw [e]
    simp only [List.any_eq_true]
    have ho := ordered_shift (T i) r k e2 hd.1
    constructor
    · rintro ⟨off, h3, h4⟩
      rw [holds_spec r lat lon off ho] at h4
      have : ∃ q : ℤ, off = 360 * q := by
        unfold dboff at h3
        simp only [List.mem_cons, List.not_mem_nil, or_false] at h3
        rcases h3 with rfl | rfl | rfl
        · exact ⟨0, by norm_num⟩
        · exact ⟨1, by norm_num⟩
        · exact ⟨-1, by norm_num⟩
      obtain ⟨q, rfl⟩ := this
      refine ⟨q - k, fun px py hf => ?_⟩
      have := h4 (px + 360 * q) py (by
        have e : px + 360 * (q : ℚ) - (lon + 360 * q) = px - lon := by ring
        rw [e]; exact hf.1) hf.2
      rw [interior_shift (T i) r k e2] at this
      have e : px + 360 * (q : ℚ) - 360 * k = px + 360 * ((q - k : ℤ) : ℚ) := by push_cast; ring
      rwa [e] at this
    · rintro ⟨m, hm⟩
      have h0 : InFrame lat lon lon lat := by constructor <;> rw [sub_self, abs_zero] <;> norm_num
      refine ⟨360 * ((m + k : ℤ) : ℚ), offset_mem r (T i) k m lon lon lat hl h0.1 e2 hd.2.1 e3 (hm _ _ h0), ?_⟩
      rw [holds_spec r lat lon _ ho]
      intro px py hx hy
      rw [interior_shift (T i) r k e2]
      have := hm (px - 360 * ((m + k : ℤ) : ℚ)) py ⟨by
        have e : px - 360 * ((m + k : ℤ) : ℚ) - lon = px - (lon + 360 * ((m + k : ℤ) : ℚ)) := by ring
        rw [e]; exact hx, hy⟩
      have e : px - 360 * ((m + k : ℤ) : ℚ) + 360 * m = px - 360 * k := by push_cast; ring
      rwa [e] at this
  have memu : ∀ i ∈ modisIntersect lat lon (ls.map geometa), ∃ l, ls[i]? = some l ∧ Usable l := by
    intro i hi
    obtain ⟨r, off, h1, -, -⟩ := (mem_intersect _ _ _ _).1 hi
    obtain ⟨l, h2, h3⟩ := get i r h1
    exact ⟨l, h2, usable l r h3⟩
  have sub : ∀ i ∈ granules lat lon (ls.map geometa), i ∈ modisIntersect lat lon (ls.map geometa) := by
    intro i hi
    unfold granules at hi
    simp only at hi
    split_ifs at hi with hlen
    · cases hf : modisInside lat lon (ls.map geometa) (modisIntersect lat lon (ls.map geometa)) with
      | none => rw [hf] at hi; exact hi
      | some p =>
        rw [hf] at hi
        simp only [List.mem_singleton] at hi
        subst hi
        exact List.mem_of_find?_eq_some hf
    · exact hi
  refine ⟨fun i hi => memu i (sub i hi), ?_, ?_⟩
  · rintro ⟨i, l, h1, h2, h3⟩
    have hm := mem i l h1 h2 (contains_overlaps _ _ _ h3)
    unfold granules
    simp only
    split_ifs with hlen
    · cases hf : modisInside lat lon (ls.map geometa) (modisIntersect lat lon (ls.map geometa)) with
      | none =>
        exfalso
        unfold modisInside at hf
        rw [List.find?_eq_none] at hf
        exact hf i hm ((ins i l h1 h2).2 h3)
      | some p =>
        refine ⟨p, rfl, ?_⟩
        obtain ⟨l', g1, g2⟩ := memu p (List.mem_of_find?_eq_some hf)
        refine (ins p l' g1 g2).1 ?_
        have := List.find?_some hf
        exact this
    · refine ⟨i, ?_, h3⟩
      match hq : modisIntersect lat lon (ls.map geometa) with
      | [] => rw [hq] at hm; simp at hm
      | [a] => rw [hq] at hm; simp at hm; rw [hm]
      | a :: b :: c => rw [hq] at hlen; simp at hlen
  · intro hno i l h1 h2 h3
    have hm := mem i l h1 h2 h3
    unfold granules
    simp only
    split_ifs with hlen
    · cases hf : modisInside lat lon (ls.map geometa) (modisIntersect lat lon (ls.map geometa)) with
      | none => exact hm
      | some p =>
        exfalso
        obtain ⟨l', g1, g2⟩ := memu p (List.mem_of_find?_eq_some hf)
        refine hno ⟨p, l', g1, g2, (ins p l' g1 g2).1 ?_⟩
        have := List.find?_some hf
        exact this
    · exact hm

end Verif.Wvp
