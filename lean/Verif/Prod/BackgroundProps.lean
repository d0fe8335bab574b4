import Verif.Prod.Background
import Verif.Prod.BoaProps
import Mathlib.Data.List.Forall2
import Mathlib.Tactic.Linarith
import Mathlib.Tactic.NormNum
import Mathlib.Tactic.Positivity
import Mathlib.Tactic.Ring

/-!
# C154: the background reflectance
-/

namespace Verif.Prod

open Verif.Qai.Spec (value)

theorem sweep_length (α : ℚ) (c : List (Kind × ℚ)) : ∀ old, (sweep α c old).1.length = c.length := by
  induction c with
  | nil => intro old; rfl
  | cons x t ih =>
    intro old
    obtain ⟨k, a⟩ := x
    cases k <;> simp [sweep, ih]

/-- The cells of a line after one moving average. -/
def after (α : ℚ) (c : List (Kind × ℚ)) (old : ℚ) : List (Kind × ℚ) := List.zip (c.map (·.1)) (sweep α c old).1

theorem after_fst (α : ℚ) (c : List (Kind × ℚ)) (old : ℚ) : (after α c old).map (·.1) = c.map (·.1) := by
  unfold after
  rw [List.map_fst_zip]
  rw [sweep_length, List.length_map]

theorem both_cells (α mean : ℚ) (c : List (Kind × ℚ)) :
    List.zip (c.map (·.1)) (sweepBoth α mean c) =
      (after α (after α c mean).reverse (sweep α c mean).2).reverse := by
  have h1 : (after α c mean).reverse.map (·.1) = (c.map (·.1)).reverse := by rw [List.map_reverse, after_fst]
  unfold sweepBoth
  simp only
  rw [show List.zip (c.map (·.1)) (sweep α c mean).1 = after α c mean from rfl]
  generalize hb : sweep α (after α c mean).reverse (sweep α c mean).2 = b
  have hl : b.1.length = c.length := by
    rw [← hb, sweep_length, List.length_reverse]
    unfold after
    rw [List.length_zip, sweep_length, List.length_map, min_self]
  have : after α (after α c mean).reverse (sweep α c mean).2 = List.zip (c.map (·.1)).reverse b.1 := by
    conv_lhs => unfold after
    rw [show List.zip (c.map (·.1)) (sweep α c mean).1 = after α c mean from rfl, h1, hb]
  rw [this]
  show List.zipWith Prod.mk _ _ = (List.zipWith Prod.mk _ _).reverse
  rw [List.reverse_zipWith (by rw [List.length_reverse, List.length_map, hl]), List.reverse_reverse]

theorem both_length (α mean : ℚ) (c : List (Kind × ℚ)) : (sweepBoth α mean c).length = c.length := by
  unfold sweepBoth
  simp only
  rw [List.length_reverse, sweep_length, List.length_reverse, List.length_zip, sweep_length, List.length_map, min_self]

/-! ## Range -/

theorem after_range {α lo hi : ℚ} (h0 : 0 ≤ α) (h1 : α ≤ 1) (c : List (Kind × ℚ)) :
    ∀ old, lo ≤ old ∧ old ≤ hi → (∀ x ∈ c, x.1 = .clear → lo ≤ x.2 ∧ x.2 ≤ hi) →
      (∀ x ∈ after α c old, x.1 ≠ .off → lo ≤ x.2 ∧ x.2 ≤ hi) ∧ lo ≤ (sweep α c old).2 ∧ (sweep α c old).2 ≤ hi := by
  induction c with
  | nil => intro old ho _; exact ⟨by simp [after], ho⟩
  | cons x t ih =>
    intro old ho hc
    obtain ⟨k, a⟩ := x
    have ht : ∀ x ∈ t, x.1 = .clear → lo ≤ x.2 ∧ x.2 ≤ hi := fun x hx => hc x (List.mem_cons_of_mem _ hx)
    cases k with
    | off =>
      obtain ⟨i1, i2⟩ := ih old ho ht
      refine ⟨?_, i2⟩
      intro x hx hk
      rcases List.mem_cons.1 hx with rfl | hx
      · exact absurd rfl hk
      · exact i1 x hx hk
    | cloud =>
      obtain ⟨i1, i2⟩ := ih old ho ht
      refine ⟨?_, i2⟩
      intro x hx hk
      rcases List.mem_cons.1 hx with rfl | hx
      · exact ho
      · exact i1 x hx hk
    | clear =>
      have ha := hc _ (List.mem_cons_self) rfl
      simp only at ha
      have hv : lo ≤ α * a + (1 - α) * old ∧ α * a + (1 - α) * old ≤ hi := by
        have h2 : 0 ≤ 1 - α := by linarith
        constructor
        · nlinarith [mul_nonneg h0 (sub_nonneg.2 ha.1), mul_nonneg h2 (sub_nonneg.2 ho.1)]
        · nlinarith [mul_nonneg h0 (sub_nonneg.2 ha.2), mul_nonneg h2 (sub_nonneg.2 ho.2)]
      obtain ⟨i1, i2⟩ := ih _ hv ht
      refine ⟨?_, i2⟩
      intro x hx hk
      rcases List.mem_cons.1 hx with rfl | hx
      · exact hv
      · exact i1 x hx hk

theorem both_range {α lo hi mean : ℚ} (h0 : 0 ≤ α) (h1 : α ≤ 1) (c : List (Kind × ℚ)) (hm : lo ≤ mean ∧ mean ≤ hi)
    (hc : ∀ x ∈ c, x.1 = .clear → lo ≤ x.2 ∧ x.2 ≤ hi) :
    ∀ x ∈ List.zip (c.map (·.1)) (sweepBoth α mean c), x.1 ≠ .off → lo ≤ x.2 ∧ x.2 ≤ hi := by
  rw [both_cells]
  obtain ⟨r1, r2⟩ := after_range h0 h1 c mean hm hc
  obtain ⟨r3, -⟩ := after_range h0 h1 (after α c mean).reverse _ r2 (by
    intro x hx hk
    exact r1 x (List.mem_reverse.1 hx) (by rw [hk]; decide))
  intro x hx
  exact r3 x (List.mem_reverse.1 hx)

theorem sum_bounds {lo hi : ℚ} (l : List ℚ) (h : ∀ x ∈ l, lo ≤ x ∧ x ≤ hi) : lo * l.length ≤ l.sum ∧ l.sum ≤ hi * l.length := by
  induction l with
  | nil => simp
  | cons a t ih =>
    have h1 := h a (List.mem_cons_self)
    have h2 := ih fun x hx => h x (List.mem_cons_of_mem _ hx)
    simp only [List.sum_cons, List.length_cons]
    push_cast
    constructor <;> linarith [h1.1, h1.2, h2.1, h2.2]

theorem mean_range {lo hi : ℚ} (c : List (Kind × ℚ)) (hc : ∀ x ∈ c, x.1 = .clear → lo ≤ x.2 ∧ x.2 ≤ hi)
    (hex : ∃ x ∈ c, x.1 = .clear) : lo ≤ lineMean c ∧ lineMean c ≤ hi := by
  have hb : ∀ x ∈ (c.filter fun c => c.1 = .clear).map (·.2), lo ≤ x ∧ x ≤ hi := by
    intro x hx
    obtain ⟨y, hy, rfl⟩ := List.mem_map.1 hx
    obtain ⟨h1, h2⟩ := List.mem_filter.1 hy
    exact hc y h1 (by simpa using h2)
  have hl : 0 < ((c.filter fun c => c.1 = .clear).map (·.2)).length := by
    obtain ⟨x, hx, hk⟩ := hex
    rw [List.length_map]
    exact List.length_pos_of_mem (List.mem_filter.2 ⟨hx, by simpa using hk⟩)
  unfold lineMean
  simp only
  generalize (c.filter fun c => c.1 = .clear).map (·.2) = l at *
  rw [if_pos hl]
  obtain ⟨s1, s2⟩ := sum_bounds l hb
  have hq : (0 : ℚ) < l.length := by exact_mod_cast hl
  rw [le_div_iff₀ hq, div_le_iff₀ hq]
  exact ⟨s1, s2⟩

/-- A cell of a line. -/
theorem line_mem {n : Nat} (g : Nat → Kind × ℚ) (out : List ℚ) (hl : out.length = n) {j : Nat} (hj : j < n) :
    ((g j).1, out.getD j 0) ∈ List.zip (((List.range n).map g).map (·.1)) out := by
  rw [List.mem_iff_getElem]
  have h1 : j < (List.zip (((List.range n).map g).map (·.1)) out).length := by
    rw [List.length_zip, List.length_map, List.length_map, List.length_range, hl, min_self]; exact hj
  refine ⟨j, h1, ?_⟩
  rw [List.getElem_zip, List.getD_eq_getElem?_getD, List.getElem?_eq_getElem (by omega)]
  simp

theorem row_range {α lo hi : ℚ} (h0 : 0 ≤ α) (h1 : α ≤ 1) {nx : Nat} {kind : Nat → Nat → Kind} {ref : Nat → Nat → ℚ} {i j : Nat}
    (hj : j < nx) (hc : ∀ j < nx, kind i j = .clear → lo ≤ ref i j ∧ ref i j ≤ hi) (hk : kind i j = .clear) :
    lo ≤ rowPass α nx kind ref i j ∧ rowPass α nx kind ref i j ≤ hi := by
  have hcells : ∀ x ∈ (List.range nx).map (fun j => (kind i j, ref i j)), x.1 = .clear → lo ≤ x.2 ∧ x.2 ≤ hi := by
    intro x hx hk
    obtain ⟨j, hj, rfl⟩ := List.mem_map.1 hx
    exact hc j (List.mem_range.1 hj) hk
  have hm := mean_range _ hcells ⟨(kind i j, ref i j), List.mem_map.2 ⟨j, List.mem_range.2 hj, rfl⟩, hk⟩
  have hr := both_range h0 h1 _ hm hcells
  have := line_mem (n := nx) (fun j => (kind i j, ref i j)) (sweepBoth α (lineMean ((List.range nx).map fun j => (kind i j, ref i j)))
    ((List.range nx).map fun j => (kind i j, ref i j))) (by rw [both_length]; simp) hj
  have h3 := hr _ this (by simp only; rw [hk]; decide)
  unfold rowPass
  simpa only using h3

theorem surroundings_range {α lo hi : ℚ} (h0 : 0 ≤ α) (h1 : α ≤ 1) {nx ny : Nat} {kind : Nat → Nat → Kind} {ref : Nat → Nat → ℚ}
    (hc : ∀ i < ny, ∀ j < nx, kind i j = .clear → lo ≤ ref i j ∧ ref i j ≤ hi) {i j : Nat} (hi' : i < ny) (hj : j < nx)
    (hk : kind i j ≠ .off) (hex : ∃ m < ny, kind m j = .clear) :
    lo ≤ surroundings α nx ny kind ref i j ∧ surroundings α nx ny kind ref i j ≤ hi := by
  have hm : lo ≤ lineMean ((List.range ny).map fun i => (kind i j, ref i j)) ∧
      lineMean ((List.range ny).map fun i => (kind i j, ref i j)) ≤ hi := by
    apply mean_range
    · intro x hx hk
      obtain ⟨m, hm, rfl⟩ := List.mem_map.1 hx
      exact hc m (List.mem_range.1 hm) j hj hk
    · obtain ⟨m, hm, hk⟩ := hex
      exact ⟨(kind m j, ref m j), List.mem_map.2 ⟨m, List.mem_range.2 hm, rfl⟩, hk⟩
  have hcells : ∀ x ∈ (List.range ny).map (fun i => (kind i j, rowPass α nx kind ref i j)), x.1 = .clear → lo ≤ x.2 ∧ x.2 ≤ hi := by
    intro x hx hk
    obtain ⟨m, hm, rfl⟩ := List.mem_map.1 hx
    exact row_range h0 h1 hj (hc m (List.mem_range.1 hm)) hk
  have hr := both_range h0 h1 _ hm hcells
  have := line_mem (n := ny) (fun i => (kind i j, rowPass α nx kind ref i j)) (sweepBoth α (lineMean ((List.range ny).map fun i => (kind i j, ref i j)))
    ((List.range ny).map fun i => (kind i j, rowPass α nx kind ref i j))) (by rw [both_length]; simp) hi'
  have h3 := hr _ this hk
  unfold surroundings columnPass
  simpa only using h3

theorem alpha_range {km res : ℚ} (hkm : 1 / 4 ≤ km) (h0 : 0 < res) (h1 : res ≤ 250) : 0 ≤ alpha km res ∧ alpha km res ≤ 1 := by
  have hk : 0 < km := by linarith
  unfold alpha
  have h2 : 1 ≤ km * 1000 / res := by
    rw [le_div_iff₀ h0]; linarith
  constructor
  · positivity
  · rw [div_le_one (by linarith)]; linarith

/-- C154: at resolutions up to 250 m, the background of a pixel is between any bounds that hold for the reflectance of all
clear pixels and of the pixel itself, whatever the weights of the rings are; in particular, a uniform surface has itself as
its background. This holds for clear pixels, and for cloudy pixels if there is a clear pixel in the same column. Missing: the
other cloudy pixels, see `c154_column_violated`. -/
theorem c154_range_partial (res : ℚ) (h0 : 0 < res) (h1 : res ≤ 250) (dF : ℚ × ℚ × ℚ)
    (hF : 0 ≤ dF.1 ∧ 0 ≤ dF.2.1 ∧ 0 ≤ dF.2.2 ∧ 0 < dF.1 + dF.2.1 + dF.2.2) (F : ℚ) (hF0 : 0 ≤ F) (hF1 : F ≤ 1) (nx ny : Nat)
    (kind : Nat → Nat → Kind) (ref : Nat → Nat → ℚ) (lo hi : ℚ)
    (hc : ∀ i < ny, ∀ j < nx, kind i j = .clear → lo ≤ ref i j ∧ ref i j ≤ hi) (i j : Nat) (hi' : i < ny) (hj : j < nx)
    (hk : kind i j ≠ .off) (hself : lo ≤ ref i j ∧ ref i j ≤ hi) (hex : ∃ m < ny, kind m j = .clear) :
    lo ≤ background res dF F nx ny kind ref i j ∧ background res dF F nx ny kind ref i j ≤ hi := by
  have s := fun km (hkm : (1 / 4 : ℚ) ≤ km) => surroundings_range (alpha_range hkm h0 h1).1 (alpha_range hkm h0 h1).2 hc hi' hj hk hex
  obtain ⟨a1, a2⟩ := s (25 / 100) (by norm_num)
  obtain ⟨b1, b2⟩ := s 1 (by norm_num)
  obtain ⟨c1, c2⟩ := s (45 / 10) (by norm_num)
  unfold background
  simp only
  generalize surroundings (alpha (25 / 100) res) nx ny kind ref i j = A at *
  generalize surroundings (alpha 1 res) nx ny kind ref i j = B at *
  generalize surroundings (alpha (45 / 10) res) nx ny kind ref i j = C at *
  obtain ⟨f1, f2, f3⟩ := dF
  simp only at hF ⊢
  obtain ⟨p1, p2, p3, p4⟩ := hF
  have hw : lo ≤ (f1 * A + f2 * B + f3 * C) / (f1 + f2 + f3) ∧ (f1 * A + f2 * B + f3 * C) / (f1 + f2 + f3) ≤ hi := by
    rw [le_div_iff₀ p4, div_le_iff₀ p4]
    constructor
    · nlinarith [mul_nonneg p1 (sub_nonneg.2 a1), mul_nonneg p2 (sub_nonneg.2 b1), mul_nonneg p3 (sub_nonneg.2 c1)]
    · nlinarith [mul_nonneg p1 (sub_nonneg.2 a2), mul_nonneg p2 (sub_nonneg.2 b2), mul_nonneg p3 (sub_nonneg.2 c2)]
  generalize (f1 * A + f2 * B + f3 * C) / (f1 + f2 + f3) = w at *
  have q : 0 ≤ 1 - F := by linarith
  constructor
  · nlinarith [mul_nonneg hF0 (sub_nonneg.2 hself.1), mul_nonneg q (sub_nonneg.2 hw.1)]
  · nlinarith [mul_nonneg hF0 (sub_nonneg.2 hself.2), mul_nonneg q (sub_nonneg.2 hw.2)]

/-! ## Clouds do not contribute -/

/-- The same kinds, and the same values where the pixels are clear. -/
def SameClear (x y : Kind × ℚ) : Prop := x.1 = y.1 ∧ (x.1 = .clear → x.2 = y.2)

/-- The same kinds, and the same values where the pixels are not off. -/
def SameOn (x y : Kind × ℚ) : Prop := x.1 = y.1 ∧ (x.1 ≠ .off → x.2 = y.2)

theorem after_same {α : ℚ} {c d : List (Kind × ℚ)} (h : List.Forall₂ SameClear c d) :
    ∀ old, List.Forall₂ SameOn (after α c old) (after α d old) ∧ (sweep α c old).2 = (sweep α d old).2 := by
  induction h with
  | nil => intro old; exact ⟨by simp [after], rfl⟩
  | @cons x y s t h _ ih =>
    intro old
    obtain ⟨k, a⟩ := x
    obtain ⟨k', b⟩ := y
    obtain ⟨hk, hv⟩ := h
    simp only at hk hv
    subst hk
    cases k with
    | off =>
      obtain ⟨i1, i2⟩ := ih old
      exact ⟨List.Forall₂.cons ⟨rfl, fun h => absurd rfl h⟩ i1, i2⟩
    | cloud =>
      obtain ⟨i1, i2⟩ := ih old
      exact ⟨List.Forall₂.cons ⟨rfl, fun _ => rfl⟩ i1, i2⟩
    | clear =>
      have := hv rfl
      subst this
      obtain ⟨i1, i2⟩ := ih (α * a + (1 - α) * old)
      exact ⟨List.Forall₂.cons ⟨rfl, fun _ => rfl⟩ i1, i2⟩

theorem both_same {α mean : ℚ} {c d : List (Kind × ℚ)} (h : List.Forall₂ SameClear c d) :
    List.Forall₂ SameOn (List.zip (c.map (·.1)) (sweepBoth α mean c)) (List.zip (d.map (·.1)) (sweepBoth α mean d)) := by
  rw [both_cells, both_cells, List.forall₂_reverse_iff]
  obtain ⟨h1, h2⟩ := after_same (α := α) h mean
  rw [h2]
  apply (after_same _ _).1
  rw [List.forall₂_reverse_iff]
  exact h1.imp fun x y hxy => ⟨hxy.1, fun hc => hxy.2 (by rw [hc]; decide)⟩

theorem mean_same {c d : List (Kind × ℚ)} (h : List.Forall₂ SameClear c d) : lineMean c = lineMean d := by
  have : (c.filter fun c => c.1 = .clear).map (·.2) = (d.filter fun c => c.1 = .clear).map (·.2) := by
    induction h with
    | nil => rfl
    | @cons x y s t h _ ih =>
      obtain ⟨hk, hv⟩ := h
      by_cases hx : x.1 = .clear
      · rw [List.filter_cons_of_pos (by simpa using hx), List.filter_cons_of_pos (by simpa using hk ▸ hx), List.map_cons, List.map_cons, ih, hv hx]
      · rw [List.filter_cons_of_neg (by simpa using hx), List.filter_cons_of_neg (by simpa using hk ▸ hx), ih]
  unfold lineMean
  rw [this]

theorem line_same {n : Nat} {f g : Nat → Kind × ℚ} (h : ∀ j < n, SameClear (f j) (g j)) :
    List.Forall₂ SameClear ((List.range n).map f) ((List.range n).map g) := by
  rw [List.forall₂_map_left_iff, List.forall₂_map_right_iff, List.forall₂_same]
  intro j hj
  exact h j (List.mem_range.1 hj)

theorem get_same {n : Nat} {f g : Nat → Kind × ℚ} {o p : List ℚ} (ho : o.length = n) (hp : p.length = n)
    (h : List.Forall₂ SameOn (List.zip (((List.range n).map f).map (·.1)) o) (List.zip (((List.range n).map g).map (·.1)) p)) {j : Nat} (hj : j < n)
    (hk : (f j).1 ≠ .off) : o.getD j 0 = p.getD j 0 := by
  have l1 : j < (List.zip (((List.range n).map f).map (·.1)) o).length := by simp [ho, hj]
  have l2 : j < (List.zip (((List.range n).map g).map (·.1)) p).length := by simp [hp, hj]
  have := (List.forall₂_iff_get.1 h).2 j l1 l2
  simp only [List.get_eq_getElem, List.getElem_zip, List.getElem_map, List.getElem_range] at this
  rw [List.getD_eq_getElem?_getD, List.getElem?_eq_getElem (by omega), List.getD_eq_getElem?_getD, List.getElem?_eq_getElem (by omega)]
  exact this.2 hk

/-- C154: the reflectance of clouds and of nodata pixels has no influence on the surroundings of any pixel: two scenes that
agree in all clear pixels have the same averages. -/
theorem c154_clouds (α : ℚ) (nx ny : Nat) (kind : Nat → Nat → Kind) (ref ref' : Nat → Nat → ℚ)
    (h : ∀ i < ny, ∀ j < nx, kind i j = .clear → ref i j = ref' i j) (i j : Nat) (hi : i < ny) (hj : j < nx) (hk : kind i j ≠ .off) :
    surroundings α nx ny kind ref i j = surroundings α nx ny kind ref' i j := by
  have row : ∀ i < ny, ∀ j < nx, kind i j ≠ .off → rowPass α nx kind ref i j = rowPass α nx kind ref' i j := by
    intro i hi j hj hk
    have hs : List.Forall₂ SameClear ((List.range nx).map fun j => (kind i j, ref i j)) ((List.range nx).map fun j => (kind i j, ref' i j)) :=
      line_same fun j hj => ⟨rfl, fun hc => h i hi j hj hc⟩
    unfold rowPass
    simp only
    rw [← mean_same hs]
    refine get_same (n := nx) (f := fun j => (kind i j, ref i j)) (g := fun j => (kind i j, ref' i j)) ?_ ?_ (both_same hs) hj hk
    · rw [both_length]; simp
    · rw [both_length]; simp
  unfold surroundings columnPass
  simp only
  have hm : List.Forall₂ SameClear ((List.range ny).map fun i => (kind i j, ref i j)) ((List.range ny).map fun i => (kind i j, ref' i j)) :=
    line_same fun i hi => ⟨rfl, fun hc => h i hi j hj hc⟩
  have hs : List.Forall₂ SameClear ((List.range ny).map fun i => (kind i j, rowPass α nx kind ref i j))
      ((List.range ny).map fun i => (kind i j, rowPass α nx kind ref' i j)) :=
    line_same fun i hi => ⟨rfl, fun hc => row i hi j hj (by simp only at hc; rw [hc]; decide)⟩
  rw [← mean_same hm]
  refine get_same (n := ny) (f := fun i => (kind i j, rowPass α nx kind ref i j)) (g := fun i => (kind i j, rowPass α nx kind ref' i j)) ?_ ?_ (both_same hs) hi hk
  · rw [both_length]; simp
  · rw [both_length]; simp

/-- C154: the pixels that take part are those without the nodata flag and without any cloud. -/
theorem c154_kinds (q : BitVec 16) :
    (kindOf q = .off ↔ value .off q = 1) ∧ (kindOf q = .clear ↔ value .off q = 0 ∧ value .cld q = 0) := by
  unfold kindOf
  rcases Bool.eq_false_or_eq_true (isOff q) with h | h
  · have := (isOff_iff q).1 h
    rw [if_pos h]
    simp only [reduceCtorEq, true_iff, false_iff, true_and]
    omega
  · have h' := (isOff_false q).1 h
    rw [if_neg (by rw [h]; decide)]
    simp only [Qai.get_eq_value]
    by_cases hc : value .cld q > 0
    · rw [if_pos hc]; simp only [reduceCtorEq, false_iff]; omega
    · rw [if_neg hc]; simp only [reduceCtorEq, false_iff, true_iff]; omega

/-- C154: the moving average forgets its past exponentially: along a line whose clear pixels all have the reflectance `b`, the
distance of the average to `b` shrinks by the factor 1 − α with every clear pixel, and with no other pixel; for a ring of
`km` kilometers, α is 2 / (N + 1), where N is the number of pixels in that distance. -/
theorem c154_decay (km res b a : ℚ) (c : List (Kind × ℚ)) (hc : ∀ x ∈ c, x.1 = .clear → x.2 = b) :
    (sweep (alpha km res) c a).2 - b =
      (1 - 2 / (km * 1000 / res + 1)) ^ (c.filter fun x => x.1 = .clear).length * (a - b) := by
  have e : alpha km res = 2 / (km * 1000 / res + 1) := rfl
  rw [e]
  generalize 2 / (km * 1000 / res + 1) = α
  induction c generalizing a with
  | nil => simp [sweep]
  | cons x t ih =>
    have ih := fun a => ih a fun x hx => hc x (List.mem_cons_of_mem _ hx)
    obtain ⟨k, v⟩ := x
    cases k with
    | off => simpa [sweep] using ih a
    | cloud => simpa [sweep] using ih a
    | clear =>
      have hv : v = b := hc _ List.mem_cons_self rfl
      subst hv
      rw [List.filter_cons_of_pos (by simp), List.length_cons]
      have := ih (α * v + (1 - α) * a)
      have hs : (sweep α ((.clear, v) :: t) a).2 = (sweep α t (α * v + (1 - α) * a)).2 := rfl
      rw [hs, this, pow_succ]
      ring

/-- C154, violated: in a column without a clear pixel, the average of the surroundings is 0 at every cloudy pixel, whatever
the reflectance of the clear pixels elsewhere is. -/
theorem c154_column_violated (α : ℚ) (nx ny : Nat) (kind : Nat → Nat → Kind) (ref : Nat → Nat → ℚ) (i j : Nat) (hi : i < ny)
    (hk : kind i j = .cloud) (hex : ∀ m < ny, kind m j ≠ .clear) : surroundings α nx ny kind ref i j = 0 := by
  have hm : lineMean ((List.range ny).map fun i => (kind i j, ref i j)) = 0 := by
    unfold lineMean
    have : ((List.range ny).map fun i => (kind i j, ref i j)).filter (fun c => c.1 = .clear) = [] := by
      rw [List.filter_eq_nil_iff]
      intro x hx
      obtain ⟨m, hm, rfl⟩ := List.mem_map.1 hx
      simpa using hex m (List.mem_range.1 hm)
    rw [this]
    rfl
  have key : ∀ c : List (Kind × ℚ), (∀ x ∈ c, x.1 ≠ .clear) → (∀ x ∈ after α c 0, x.1 = .cloud → x.2 = 0) ∧ (sweep α c 0).2 = 0 := by
    intro c
    induction c with
    | nil => intro _; exact ⟨by simp [after], rfl⟩
    | cons x t ih =>
      intro h
      obtain ⟨i1, i2⟩ := ih fun x hx => h x (List.mem_cons_of_mem _ hx)
      obtain ⟨k, a⟩ := x
      cases k with
      | off =>
        refine ⟨?_, i2⟩
        intro x hx hc
        rcases List.mem_cons.1 hx with rfl | hx
        · cases hc
        · exact i1 x hx hc
      | cloud =>
        refine ⟨?_, i2⟩
        intro x hx hc
        rcases List.mem_cons.1 hx with rfl | hx
        · rfl
        · exact i1 x hx hc
      | clear => exact absurd rfl (h _ List.mem_cons_self)
  have hcells : ∀ x ∈ (List.range ny).map (fun i => (kind i j, rowPass α nx kind ref i j)), x.1 ≠ .clear := by
    intro x hx
    obtain ⟨m, hm, rfl⟩ := List.mem_map.1 hx
    exact hex m (List.mem_range.1 hm)
  have hr : ∀ x ∈ List.zip (((List.range ny).map (fun i => (kind i j, rowPass α nx kind ref i j))).map (·.1))
      (sweepBoth α 0 ((List.range ny).map (fun i => (kind i j, rowPass α nx kind ref i j)))), x.1 = .cloud → x.2 = 0 := by
    rw [both_cells]
    obtain ⟨k1, k2⟩ := key _ hcells
    rw [k2]
    intro x hx
    refine (key (after α _ 0).reverse ?_).1 x (List.mem_reverse.1 hx)
    intro y hy
    have : y.1 ∈ (after α ((List.range ny).map (fun i => (kind i j, rowPass α nx kind ref i j))) 0).map (·.1) :=
      List.mem_map.2 ⟨y, List.mem_reverse.1 hy, rfl⟩
    rw [after_fst] at this
    obtain ⟨z, hz, e⟩ := List.mem_map.1 this
    rw [← e]
    exact hcells z hz
  unfold surroundings columnPass
  simp only
  rw [hm]
  have := line_mem (n := ny) (fun i => (kind i j, rowPass α nx kind ref i j)) (sweepBoth α 0
    ((List.range ny).map fun i => (kind i j, rowPass α nx kind ref i j))) (by rw [both_length]; simp) hi
  exact hr _ this hk

end Verif.Prod
