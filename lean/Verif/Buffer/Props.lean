import Mathlib.Tactic.Linarith
import Mathlib.Tactic.Ring
import Mathlib.Tactic.Positivity
import Mathlib.Tactic.IntervalCases
import Verif.Buffer.Spec

/-!
# Theorems about buffering: C14
-/

namespace Verif.Buffer

open Spec
open Verif.Str (Out)

/-! ## The drawn shape -/

/-- Element of the array of the pixel at offset `(k, c)` from the source. -/
theorem mem_draw {nx i j x y p : Int} (hx : 0 ≤ x) (hy : 0 ≤ y) :
    p ∈ draw nx i j x y ↔ ∃ k c : Int, p = nx * (i + k) + (j + c) ∧
      ((|c| = x ∧ |k| ≤ y) ∨ (|c| = y ∧ |k| ≤ x)) := by
  simp only [draw, List.mem_append, List.mem_flatMap, List.mem_range, List.mem_cons, List.not_mem_nil, or_false]
  constructor
  · rintro (⟨n, hn, h | h⟩ | ⟨n, hn, h | h⟩)
    · exact ⟨n - y, x, by rw [h]; ring, Or.inl ⟨abs_of_nonneg hx, by rw [abs_le]; omega⟩⟩
    · exact ⟨n - y, -x, by rw [h]; ring, Or.inl ⟨by rw [abs_neg, abs_of_nonneg hx], by rw [abs_le]; omega⟩⟩
    · exact ⟨n - x, y, by rw [h]; ring, Or.inr ⟨abs_of_nonneg hy, by rw [abs_le]; omega⟩⟩
    · exact ⟨n - x, -y, by rw [h]; ring, Or.inr ⟨by rw [abs_neg, abs_of_nonneg hy], by rw [abs_le]; omega⟩⟩
  · rintro ⟨k, c, rfl, ⟨h1, h2⟩ | ⟨h1, h2⟩⟩
    · left
      rw [abs_le] at h2
      refine ⟨(k + y).toNat, by omega, ?_⟩
      have e : ((k + y).toNat : Int) = k + y := by omega
      rw [e]
      rcases abs_eq hx |>.1 h1 with rfl | rfl
      · left; ring
      · right; ring
    · right
      rw [abs_le] at h2
      refine ⟨(k + x).toNat, by omega, ?_⟩
      have e : ((k + x).toNat : Int) = k + x := by omega
      rw [e]
      rcases abs_eq hy |>.1 h1 with rfl | rfl
      · left; ring
      · right; ring

/-- Invariant of the midpoint circle algorithm. -/
structure Inv (r x y d : Int) : Prop where
  x0 : 0 ≤ x
  yr : y ≤ r
  y1 : -1 ≤ y
  d_eq : d = 2 * x ^ 2 + 4 * x + 3 + 2 * y ^ 2 - 2 * y - 2 * r ^ 2 + r
  up : x ≤ y → 2 * (x ^ 2 + y ^ 2) ≤ 2 * r ^ 2 + r
  lo : 2 * r ^ 2 - r - 1 ≤ 2 * x ^ 2 + 2 * y ^ 2 + 2 * y
  beg : 1 ≤ x ∨ y = r
  dlo : -4 * r ≤ d
  dup : d ≤ 14 * x + 6

theorem Inv.start {r : Int} (hr : 1 ≤ r) : Inv r 0 r (3 - r) where
  x0 := le_rfl
  yr := le_rfl
  y1 := by omega
  d_eq := by ring
  up := by intro; nlinarith
  lo := by nlinarith
  beg := Or.inr rfl
  dlo := by omega
  dup := by omega

theorem Inv.step {r x y d : Int} (h : Inv r x y d) (hr : 1 ≤ r) (hxy : x ≤ y) :
    Inv r (x + 1) (if d < 0 then y else y - 1) (if d < 0 then d + 4 * x + 6 else d + 4 * (x - y) + 10) := by
  have hx := h.x0
  have hyr := h.yr
  have he := h.d_eq
  have hup := h.up hxy
  have hlo := h.lo
  have hdl := h.dlo
  have hdu := h.dup
  by_cases hd : d < 0
  · simp only [if_pos hd]
    refine ⟨by omega, hyr, h.y1, ?_, ?_, ?_, Or.inl (by omega), by omega, by omega⟩
    · rw [he]; ring
    · intro _; nlinarith
    · nlinarith
  · simp only [if_neg hd]
    refine ⟨by omega, by omega, by omega, ?_, ?_, ?_, Or.inl (by omega), by omega, by omega⟩
    · rw [he]; ring
    · intro hxy2; nlinarith
    · nlinarith

theorem Inv.cover1 {r x y d k : Int} (h : Inv r x y d) (hr : 1 ≤ r) (hxy : x ≤ y) (hk : y + 1 ≤ k)
    (hkc : k ^ 2 + x ^ 2 ≤ r ^ 2) : False := by
  obtain ⟨x0, yr, _, _, _, lo, beg, _, _⟩ := h
  have a1 : (y + 1) ^ 2 ≤ k ^ 2 := pow_le_pow_left₀ (by omega) hk 2
  have a2 : 2 * y + 1 ≤ r := by linarith [show (y + 1) ^ 2 = y ^ 2 + 2 * y + 1 by ring]
  have a3 : x ^ 2 ≤ y ^ 2 := pow_le_pow_left₀ x0 hxy 2
  have a4 : (2 * y + 1) ^ 2 ≤ r ^ 2 := pow_le_pow_left₀ (by omega) a2 2
  rcases beg with hb | hb
  · have a5 : 3 ≤ r := by omega
    have a6 : 3 * r ≤ r ^ 2 := by rw [pow_two]; exact Int.mul_le_mul_of_nonneg_right a5 (by omega)
    linarith [show (2 * y + 1) ^ 2 = 4 * y ^ 2 + 4 * y + 1 by ring]
  · omega

theorem Inv.cover2 {r x y d k : Int} (h : Inv r x y d) (hr : 1 ≤ r) (hd : 0 ≤ d) (hxy : x + 1 ≤ y) (hk : x + 1 ≤ k)
    (hkc : k ^ 2 + y ^ 2 ≤ r ^ 2) : False := by
  obtain ⟨x0, yr, _, he, _, _, beg, _, _⟩ := h
  have a1 : (x + 1) ^ 2 ≤ k ^ 2 := pow_le_pow_left₀ (by omega) hk 2
  have a2 : 2 * y ≤ r + 1 := by linarith [show (x + 1) ^ 2 = x ^ 2 + 2 * x + 1 by ring]
  have a3 : (x + 1) ^ 2 ≤ y ^ 2 := pow_le_pow_left₀ (by omega) hxy 2
  have a4 : (2 * y) * (2 * y - 1) ≤ (r + 1) * r := by
    apply Int.mul_le_mul a2 (by omega) (by omega) (by omega)
  have a5 : r ^ 2 ≤ 2 * r + 1 := by
    linarith [show (x + 1) ^ 2 = x ^ 2 + 2 * x + 1 by ring, show (2 * y) * (2 * y - 1) = 4 * y ^ 2 - 2 * y by ring,
      show (r + 1) * r = r ^ 2 + r by ring]
  have a6 : r ≤ 2 := by
    by_contra hc
    have : 3 * r ≤ r ^ 2 := by rw [pow_two]; exact Int.mul_le_mul_of_nonneg_right (by omega) (by omega)
    omega
  have : r = 1 ∨ r = 2 := by omega
  rcases this with rfl | rfl
  · have : y = 1 := by omega
    subst this
    have : x = 0 := by omega
    subst this
    norm_num at hkc a1
    omega
  · rcases beg with hb | hb <;> omega

theorem circle_ok (nx i j : Int) {r : Int} (hr : 1 ≤ r) (hr2 : r ≤ 100000000) (fuel : Nat) :
    ∀ x y d, Inv r x y d → y - x < fuel →
      ∃ ws, circle nx i j fuel x y d = some (.ok ws) ∧
        (∀ p ∈ ws, ∃ k c, p = nx * (i + k) + (j + c) ∧ 2 * (k ^ 2 + c ^ 2) ≤ 2 * r ^ 2 + r) ∧
        (∀ k c : Int, k ^ 2 + c ^ 2 ≤ r ^ 2 → x ≤ |c| → |c| ≤ y → nx * (i + k) + (j + c) ∈ ws) := by
  induction fuel with
  | zero =>
    intro x y d h hf
    have hf : y - x < 0 := by simpa using hf
    exact ⟨[], by simp only [circle]; rw [if_neg (by omega)], by simp, fun k c _ h1 h2 => by omega⟩
  | succ fuel ih =>
    intro x y d h hf
    push_cast at hf
    by_cases hxy : x ≤ y
    · have hs := h.step hr hxy
      obtain ⟨ws, w1, w2, w3⟩ := ih _ _ _ hs (by split <;> omega)
      have hx := h.x0
      have hyr := h.yr
      refine ⟨draw nx i j x y ++ ws, ?_, ?_, ?_⟩
      · have h1 := hs.dlo
        have h2 := hs.dup
        have hi : int (if d < 0 then d + 4 * x + 6 else d + 4 * (x - y) + 10) =
            .ok (if d < 0 then d + 4 * x + 6 else d + 4 * (x - y) + 10) := by
          unfold int
          exact if_pos ⟨by omega, by omega⟩
        simp only [circle]
        rw [if_pos hxy, hi]
        simp only [w1, Option.map_some, Out.bind]
      · intro p hp
        rcases List.mem_append.1 hp with hp | hp
        · obtain ⟨k, c, rfl, hkc⟩ := (mem_draw hx (by omega)).1 hp
          refine ⟨k, c, rfl, ?_⟩
          have hup := h.up hxy
          have : k ^ 2 + c ^ 2 ≤ x ^ 2 + y ^ 2 := by
            rw [← sq_abs k, ← sq_abs c]
            have hk0 := abs_nonneg k
            rcases hkc with ⟨h1, h2⟩ | ⟨h1, h2⟩ <;> rw [h1] <;> nlinarith
          omega
        · exact w2 p hp
      · intro k c hkc h1 h2
        rw [List.mem_append]
        have hk0 := abs_nonneg k
        have hc0 := abs_nonneg c
        have hkc' : |k| ^ 2 + |c| ^ 2 ≤ r ^ 2 := by rw [sq_abs, sq_abs]; exact hkc
        have hlo := h.lo
        by_cases hcx : |c| = x
        · left
          rw [mem_draw hx (by omega)]
          refine ⟨k, c, rfl, Or.inl ⟨hcx, ?_⟩⟩
          by_contra hk
          rw [hcx] at hkc'
          exact h.cover1 hr hxy (by omega) hkc'
        · by_cases hd : d < 0
          · right
            simp only [if_pos hd] at w3
            exact w3 k c hkc (by omega) h2
          · simp only [if_neg hd] at w3
            by_cases hcy : |c| = y
            · left
              rw [mem_draw hx (by omega)]
              refine ⟨k, c, rfl, Or.inr ⟨hcy, ?_⟩⟩
              by_contra hk
              rw [hcy] at hkc'
              exact h.cover2 hr (by omega) (by omega) (by omega) hkc'
            · right
              exact w3 k c hkc (by omega) (by omega)
    · exact ⟨[], by simp only [circle]; rw [if_neg hxy], by simp, fun k c _ h1 h2 => by omega⟩

theorem circle_spec (nx i j : Int) {r : Int} (hr : 1 ≤ r) (hr2 : r ≤ 100000000) :
    ∃ ws, circle nx i j (r + 1).toNat 0 r (3 - r) = some (.ok ws) ∧
      (∀ p ∈ ws, ∃ k c, p = nx * (i + k) + (j + c) ∧ 2 * (k ^ 2 + c ^ 2) ≤ 2 * r ^ 2 + r) ∧
      (∀ k c : Int, k ^ 2 + c ^ 2 ≤ r ^ 2 → nx * (i + k) + (j + c) ∈ ws) := by
  obtain ⟨ws, h1, h2, h3⟩ := circle_ok nx i j hr hr2 (r + 1).toNat 0 r (3 - r) (Inv.start hr) (by omega)
  refine ⟨ws, h1, h2, fun k c hkc => h3 k c hkc (abs_nonneg c) ?_⟩
  apply abs_le_of_sq_le_sq _ (by omega)
  nlinarith [sq_nonneg k]

theorem writesFor_spec (nx : Int) {r : Int} (hr : 1 ≤ r) (hr2 : r ≤ 100000000) (ss : List (Int × Int)) :
    ∃ ws, writesFor nx r ss = some (.ok ws) ∧
      (∀ p ∈ ws, ∃ s ∈ ss, ∃ k c, p = nx * (s.1 + k) + (s.2 + c) ∧ 2 * (k ^ 2 + c ^ 2) ≤ 2 * r ^ 2 + r) ∧
      (∀ s ∈ ss, ∀ k c : Int, k ^ 2 + c ^ 2 ≤ r ^ 2 → nx * (s.1 + k) + (s.2 + c) ∈ ws) := by
  induction ss with
  | nil => exact ⟨[], rfl, by simp, by simp⟩
  | cons s ss ih =>
    obtain ⟨ws, a1, a2, a3⟩ := ih
    obtain ⟨vs, b1, b2, b3⟩ := circle_spec nx s.1 s.2 hr hr2
    refine ⟨vs ++ ws, by simp only [writesFor, a1, b1, Out.bind], ?_, ?_⟩
    · intro p hp
      rcases List.mem_append.1 hp with hp | hp
      · exact ⟨s, List.mem_cons_self, b2 p hp⟩
      · obtain ⟨s', m, h⟩ := a2 p hp
        exact ⟨s', List.mem_cons_of_mem _ m, h⟩
    · intro s' hs' k c hkc
      rw [List.mem_append]
      rcases List.mem_cons.1 hs' with rfl | hs'
      · exact Or.inl (b3 k c hkc)
      · exact Or.inr (a3 s' hs' k c hkc)

theorem mem_inner {n r k : Int} : k ∈ inner n r ↔ r ≤ k ∧ k < n - r := by
  simp only [inner, List.mem_map, List.mem_range]
  constructor
  · rintro ⟨m, hm, rfl⟩; omega
  · rintro ⟨h1, h2⟩; exact ⟨(k - r).toNat, by omega, by omega⟩

theorem mem_sources {img : Int → Bool} {nx ny r : Int} {s : Int × Int} :
    s ∈ sources img nx ny r ↔ (r ≤ s.1 ∧ s.1 < ny - r) ∧ (r ≤ s.2 ∧ s.2 < nx - r) ∧ img (nx * s.1 + s.2) = true := by
  simp only [sources, List.mem_flatMap, List.mem_filterMap, mem_inner]
  constructor
  · rintro ⟨i, hi, j, hj, h⟩
    split at h
    · next hc => cases h; exact ⟨hi, hj, hc⟩
    · cases h
  · rintro ⟨hi, hj, hc⟩
    exact ⟨s.1, hi, s.2, hj, by rw [if_pos hc]⟩

theorem store_spec (nc : Int) (ws : List Int) (hw : ∀ p ∈ ws, 0 ≤ p ∧ p < nc) (tmp : Int → Bool) :
    ∃ out, store nc ws tmp = .ok out ∧ ∀ p, out p = (tmp p || decide (p ∈ ws)) := by
  induction ws generalizing tmp with
  | nil => exact ⟨tmp, rfl, by simp⟩
  | cons q ws ih =>
    obtain ⟨out, h1, h2⟩ := ih (fun p hp => hw p (List.mem_cons_of_mem _ hp)) (fun k => if k = q then true else tmp k)
    refine ⟨out, by simp only [store]; rw [if_pos (hw q List.mem_cons_self)]; exact h1, ?_⟩
    intro p
    rw [h2]
    by_cases hpq : p = q <;> simp [hpq]

/-- An element of the array belongs to one pixel. -/
theorem index_inj {nx i j i' j' : Int} (h : nx * i + j = nx * i' + j') (h0 : 0 ≤ j) (h1 : j < nx) (h2 : 0 ≤ j')
    (h3 : j' < nx) : i = i' ∧ j = j' := by
  have e1 : (nx * i + j) / nx = i := by
    rw [Int.add_comm, Int.add_mul_ediv_left _ _ (by omega), Int.ediv_eq_zero_of_lt h0 h1, zero_add]
  have e2 : (nx * i' + j') / nx = i' := by
    rw [Int.add_comm, Int.add_mul_ediv_left _ _ (by omega), Int.ediv_eq_zero_of_lt h2 h3, zero_add]
  have : i = i' := by rw [← e1, h, e2]
  subst this
  exact ⟨rfl, by omega⟩

/-- Everything about `buffer_` with a positive radius. -/
theorem buffer_spec (nx ny r : Nat) (img : Int → Bool) (hr : 1 ≤ r) (hr2 : r ≤ 100000000) :
    ∃ ws, writes img nx ny r = some (.ok ws) ∧ ∀ order, order.Perm ws →
      ∃ out, buffer img nx ny r order = .ok out ∧ (∀ p, out p = decide (p ∈ ws)) ∧
        (∀ i j, i < ny → j < nx → px nx out i j = true → ∃ i' j', Inside ny r i' ∧ Inside nx r j' ∧
          px nx img i' j' = true ∧ 2 * dist2 i j i' j' ≤ 2 * r ^ 2 + r) ∧
        (∀ i' j' i j, Inside ny r i' → Inside nx r j' → px nx img i' j' = true → dist2 i j i' j' ≤ r ^ 2 →
          px nx out i j = true) := by
  obtain ⟨ws, h1, h2, h3⟩ := writesFor_spec nx (r := r) (by omega) (by omega) (sources img nx ny r)
  refine ⟨ws, h1, ?_⟩
  intro order hperm
  have hsmall : ∀ k c : Int, 2 * (k ^ 2 + c ^ 2) ≤ 2 * (r : Int) ^ 2 + r → |k| ≤ r ∧ |c| ≤ r := by
    intro k c h
    have a : ∀ z : Int, 2 * z ^ 2 ≤ 2 * (r : Int) ^ 2 + r → |z| ≤ r := by
      intro z hz
      by_contra hc
      have : (r : Int) + 1 ≤ |z| := by omega
      have : ((r : Int) + 1) ^ 2 ≤ |z| ^ 2 := by nlinarith
      rw [sq_abs] at this
      nlinarith
    exact ⟨a k (by nlinarith [sq_nonneg c]), a c (by nlinarith [sq_nonneg k])⟩
  obtain ⟨out, o1, o2⟩ := store_spec (nx * ny) order (by
    intro p hp
    obtain ⟨s, hs, k, c, rfl, hkc⟩ := h2 p (hperm.mem_iff.1 hp)
    obtain ⟨m1, m2, _⟩ := mem_sources.1 hs
    obtain ⟨b1, b2⟩ := hsmall k c hkc
    rw [abs_le] at b1 b2
    have c1 : 0 ≤ s.1 + k := by omega
    have c2 : s.1 + k ≤ (ny : Int) - 1 := by omega
    constructor
    · have : (0 : Int) ≤ nx * (s.1 + k) := Int.mul_nonneg (by omega) c1
      omega
    · have : (nx : Int) * (s.1 + k) ≤ nx * (ny - 1) := Int.mul_le_mul_of_nonneg_left c2 (by omega)
      have : (nx : Int) * (ny - 1) = nx * ny - nx := by ring
      omega) (fun _ => false)
  have o3 : ∀ p, out p = decide (p ∈ ws) := by
    intro p; rw [o2]; simp [hperm.mem_iff]
  refine ⟨out, by unfold buffer; rw [if_neg (by omega)]; exact o1, o3, ?_, ?_⟩
  · intro i j hi hj hp
    unfold px at hp
    rw [o3, decide_eq_true_iff] at hp
    obtain ⟨s, hs, k, c, he, hkc⟩ := h2 _ hp
    obtain ⟨m1, m2, m3⟩ := mem_sources.1 hs
    obtain ⟨b1, b2⟩ := hsmall k c hkc
    rw [abs_le] at b1 b2
    obtain ⟨e1, e2⟩ := index_inj he (by omega) (by omega) (by omega) (by omega)
    have f1 : ((s.1.toNat : Nat) : Int) = s.1 := by omega
    have f2 : ((s.2.toNat : Nat) : Int) = s.2 := by omega
    refine ⟨s.1.toNat, s.2.toNat, ⟨by omega, by omega⟩, ⟨by omega, by omega⟩, by unfold px; rw [f1, f2]; exact m3, ?_⟩
    unfold dist2
    rw [f1, f2, e1, e2]
    have : (s.1 + k - s.1) ^ 2 + (s.2 + c - s.2) ^ 2 = k ^ 2 + c ^ 2 := by ring
    rw [this]; exact hkc
  · intro i' j' i j hi' hj' hs hd
    unfold px at hs ⊢
    rw [o3, decide_eq_true_iff]
    have := h3 ((i' : Int), (j' : Int)) (mem_sources.2 ⟨⟨by have := hi'.1; simp only; omega, by have := hi'.2; simp only; omega⟩,
      ⟨by have := hj'.1; simp only; omega, by have := hj'.2; simp only; omega⟩, hs⟩) ((i : Int) - i') ((j : Int) - j') hd
    have e : (nx : Int) * ((i' : Int) + ((i : Int) - i')) + ((j' : Int) + ((j : Int) - j')) = nx * i + j := by ring
    rw [← e]; exact this

/-! ## C14 -/

/-- C14: buffering ends, writes only inside of the image, and the result does not depend on how the writes
of the threads are interleaved. (The limit of the radius is far beyond the size of any image.) -/
theorem c14_schedule (nx ny r : Nat) (img : Int → Bool) (hr2 : r ≤ 100000000) :
    ∃ ws, writes img nx ny r = some (.ok ws) ∧
      ∃ out, ∀ order, order.Perm ws → buffer img nx ny r order = .ok out := by
  by_cases hr : 1 ≤ r
  · obtain ⟨ws, h1, h2⟩ := buffer_spec nx ny r img hr hr2
    refine ⟨ws, h1, fun p => decide (p ∈ ws), ?_⟩
    intro order hperm
    obtain ⟨out, o1, o2, _⟩ := h2 order hperm
    rw [o1]
    congr 1
    funext p
    exact o2 p
  · have : r = 0 := by omega
    subst this
    have hc : ∀ ss, ∃ ws, writesFor nx ((0 : Nat) : Int) ss = some (.ok ws) := by
      intro ss
      induction ss with
      | nil => exact ⟨[], rfl⟩
      | cons s ss ih =>
        obtain ⟨ws, h⟩ := ih
        refine ⟨draw nx s.1 s.2 0 0 ++ [] ++ ws, ?_⟩
        simp only [writesFor, h]
        rfl
    obtain ⟨ws, h⟩ := hc (sources img nx ny ((0 : Nat) : Int))
    exact ⟨ws, h, img, fun order _ => by unfold buffer; rw [if_pos (by simp)]⟩

/-- C14: everything that is TRUE after buffering by `r` is within a distance of `√(r² + r/2)` (so less than
`r + 1/2`, and at most `r` columns and rows) of a pixel that was TRUE. -/
theorem c14_extent (nx ny r : Nat) (img : Int → Bool) (hr : 1 ≤ r) (hr2 : r ≤ 100000000) (ws : List Int)
    (hw : writes img nx ny r = some (.ok ws)) (order : List Int) (ho : order.Perm ws) (out : Int → Bool)
    (hb : buffer img nx ny r order = .ok out) (i j : Nat) (hi : i < ny) (hj : j < nx) (ht : px nx out i j = true) :
    ∃ i' j', i' < ny ∧ j' < nx ∧ px nx img i' j' = true ∧ 2 * dist2 i j i' j' ≤ 2 * r ^ 2 + r ∧
      (i ≤ i' + r ∧ i' ≤ i + r) ∧ (j ≤ j' + r ∧ j' ≤ j + r) := by
  obtain ⟨ws', h1, h2⟩ := buffer_spec nx ny r img hr hr2
  rw [hw] at h1
  cases h1
  obtain ⟨out', o1, _, o3, _⟩ := h2 order ho
  rw [hb] at o1
  cases o1
  obtain ⟨i', j', a, b, c, d⟩ := o3 i j hi hj ht
  have hsq : ∀ z w : Int, 2 * (z ^ 2 + w ^ 2) ≤ 2 * (r : Int) ^ 2 + r → |z| ≤ r := by
    intro z w hz
    by_contra hc
    have : (r : Int) + 1 ≤ |z| := by omega
    have : ((r : Int) + 1) ^ 2 ≤ |z| ^ 2 := by nlinarith
    rw [sq_abs] at this
    nlinarith [sq_nonneg w]
  have e1 := hsq _ _ d
  have e2 := hsq ((j : Int) - j') ((i : Int) - i') (by unfold dist2 at d; linarith)
  rw [abs_le] at e1 e2
  exact ⟨i', j', by have := a.2; omega, by have := b.2; omega, c, d, ⟨by omega, by omega⟩, ⟨by omega, by omega⟩⟩

/-- C14, partial: every TRUE pixel that is at least `r` pixels away from the edges stays TRUE, and so do all
pixels within a distance of `r`. Missing: TRUE pixels closer to the edge. -/
theorem c14_contains_partial (nx ny r : Nat) (img : Int → Bool) (hr : 1 ≤ r) (hr2 : r ≤ 100000000) (ws : List Int)
    (hw : writes img nx ny r = some (.ok ws)) (order : List Int) (ho : order.Perm ws) (out : Int → Bool)
    (hb : buffer img nx ny r order = .ok out) (i' j' : Nat) (hi : Inside ny r i') (hj : Inside nx r j')
    (ht : px nx img i' j' = true) (i j : Nat) (hd : dist2 i j i' j' ≤ r ^ 2) : px nx out i j = true := by
  obtain ⟨ws', h1, h2⟩ := buffer_spec nx ny r img hr hr2
  rw [hw] at h1
  cases h1
  obtain ⟨out', o1, _, _, o4⟩ := h2 order ho
  rw [hb] at o1
  cases o1
  exact o4 i' j' i j hi hj ht hd

/-- C14, violated: TRUE pixels closer than `r` to an edge are ignored. An image whose TRUE pixels are all
within `r` pixels of an edge is empty after buffering. -/
theorem c14_border_violated (nx ny r : Nat) (img : Int → Bool) (hr : 1 ≤ r) (hr2 : r ≤ 100000000) (ws : List Int)
    (hw : writes img nx ny r = some (.ok ws)) (order : List Int) (ho : order.Perm ws) (out : Int → Bool)
    (hb : buffer img nx ny r order = .ok out)
    (hedge : ∀ i j, i < ny → j < nx → px nx img i j = true → ¬ (Inside ny r i ∧ Inside nx r j)) :
    ∀ i j, i < ny → j < nx → px nx out i j = false := by
  intro i j hi hj
  by_contra hc
  obtain ⟨ws', h1, h2⟩ := buffer_spec nx ny r img hr hr2
  rw [hw] at h1
  cases h1
  obtain ⟨out', o1, _, o3, _⟩ := h2 order ho
  rw [hb] at o1
  cases o1
  obtain ⟨i', j', a, b, c, _⟩ := o3 i j hi hj (by simpa using hc)
  exact hedge i' j' (by have := a.2; omega) (by have := b.2; omega) c ⟨a, b⟩

/-- C14: a radius of 0 or less changes nothing. -/
theorem c14_no_radius (nx ny r : Int) (img : Int → Bool) (hr : r ≤ 0) (order : List Int) :
    buffer img nx ny r order = .ok img := by
  unfold buffer; rw [if_pos hr]

/-- An image of 5 x 5 pixels with TRUE pixels in the middle (kept) and in a corner (lost). -/
def demo : Int → Bool := fun p => p == 12 || p == 0

example : Inside 5 2 2 ∧ px 5 demo 2 2 = true ∧ dist2 1 3 2 2 ≤ 2 ^ 2 := by
  refine ⟨⟨by decide, by decide⟩, by decide, by decide⟩

example : ∃ ws, writes demo 5 5 2 = some (.ok ws) ∧
    (match buffer demo 5 5 2 ws with
     | .ok out => (List.range 25).map (fun k : Nat => out k)
     | _ => []) =
    [false, false, true, false, false,
     false, true, true, true, false,
     true, true, true, true, true,
     false, true, true, true, false,
     false, false, true, false, false] := by
  refine ⟨_, rfl, ?_⟩
  decide +kernel

end Verif.Buffer
