import Verif.View.Model
import Verif.View.Spec

/-! # The corners of an image -/

namespace Verif.View

open Spec

/-- What holds after the valid pixels `v`. -/
structure Found (v : List (ℤ × ℤ)) (k : Corners) : Prop where
  ul : (k.uly, k.ulx) ∈ v ∧ ∀ q ∈ v, k.uly < q.1 ∨ (k.uly = q.1 ∧ k.ulx ≤ q.2)
  ur : (k.ury, k.urx) ∈ v ∧ ∀ q ∈ v, q.2 < k.urx ∨ (q.2 = k.urx ∧ k.ury ≤ q.1)
  ll : (k.lly, k.llx) ∈ v ∧ ∀ q ∈ v, k.llx < q.2 ∨ (q.2 = k.llx ∧ q.1 ≤ k.lly)
  lr : (k.lry, k.lrx) ∈ v ∧ ∀ q ∈ v, q.1 < k.lry ∨ (q.1 = k.lry ∧ q.2 ≤ k.lrx)

theorem found_first (n : ℤ) (q : ℤ × ℤ) (h1 : 0 ≤ q.1) (h2 : 0 ≤ q.2) (h3 : q.2 ≤ n) : Found [q] ((Corners.init n).add q) := by
  have e : (Corners.init n).add q = ⟨q.1, q.2, q.1, q.2, q.1, q.2, q.1, q.2⟩ := by
    unfold Corners.add Corners.init
    simp only
    rw [if_pos (show q.2 > -1 by omega), if_pos (show q.1 ≥ -1 by omega)]
    simp [h3, show (-1 : ℤ) < q.2 by omega, show (-1 : ℤ) ≤ q.1 by omega]
  rw [e]
  constructor <;> simp

theorem found_next (v : List (ℤ × ℤ)) (k : Corners) (q : ℤ × ℤ) (h : Found v k) (hv : ∀ p ∈ v, 0 ≤ p.1)
    (hq : ∀ p ∈ v, p.1 < q.1 ∨ (p.1 = q.1 ∧ p.2 < q.2)) : Found (v ++ [q]) (k.add q) := by
  obtain ⟨⟨a1, a2⟩, ⟨b1, b2⟩, ⟨c1, c2⟩, ⟨d1, d2⟩⟩ := h
  have e1 : k.uly ≠ -1 := by have := hv _ a1; simp only at this; omega
  have e2 := hq _ d1
  have e3 : q.1 ≥ k.lry := by simp only at e2; omega
  unfold Corners.add
  simp only [e1, if_false, ge_iff_le, e3, if_true]
  constructor
  · refine ⟨List.mem_append_left _ a1, ?_⟩
    intro p hp
    rcases List.mem_append.1 hp with hp | hp
    · exact a2 p hp
    · obtain rfl := List.mem_singleton.1 hp
      have := hq _ a1
      simp only at this ⊢
      omega
  · by_cases h : q.2 > k.urx
    · simp only [h, if_true]
      refine ⟨by simp, ?_⟩
      intro p hp
      rcases List.mem_append.1 hp with hp | hp
      · have := b2 p hp; omega
      · obtain rfl := List.mem_singleton.1 hp; simp
    · simp only [h, if_false]
      refine ⟨List.mem_append_left _ b1, ?_⟩
      intro p hp
      rcases List.mem_append.1 hp with hp | hp
      · exact b2 p hp
      · obtain rfl := List.mem_singleton.1 hp
        have := hq _ b1
        simp only at this ⊢
        omega
  · by_cases h : q.2 ≤ k.llx
    · simp only [h, if_true]
      refine ⟨by simp, ?_⟩
      intro p hp
      rcases List.mem_append.1 hp with hp | hp
      · have := c2 p hp
        have := hq p hp
        omega
      · obtain rfl := List.mem_singleton.1 hp; simp
    · simp only [h, if_false]
      refine ⟨List.mem_append_left _ c1, ?_⟩
      intro p hp
      rcases List.mem_append.1 hp with hp | hp
      · exact c2 p hp
      · obtain rfl := List.mem_singleton.1 hp
        omega
  · refine ⟨by simp, ?_⟩
    intro p hp
    rcases List.mem_append.1 hp with hp | hp
    · have := hq p hp
      simp only
      omega
    · obtain rfl := List.mem_singleton.1 hp
      simp

theorem found_all (n : ℤ) (off : ℤ × ℤ → Bool) (l : List (ℤ × ℤ))
    (hs : l.Pairwise fun p q => p.1 < q.1 ∨ (p.1 = q.1 ∧ p.2 < q.2)) (h0 : ∀ p ∈ l, 0 ≤ p.1 ∧ 0 ≤ p.2 ∧ p.2 ≤ n) :
    let k := l.foldl (fun k q => if off q then k else k.add q) (Corners.init n)
    (l.filter (fun q => !off q) = [] → k = Corners.init n) ∧
    (l.filter (fun q => !off q) ≠ [] → Found (l.filter fun q => !off q) k) := by
  intro k
  have e : k = (l.filter fun q => !off q).foldl Corners.add (Corners.init n) := by
    show l.foldl _ _ = _
    rw [List.foldl_filter]
    congr 1
    funext k q
    cases off q <;> simp
  rw [e]
  have hs' := hs.filter (fun q => !off q)
  have h0' : ∀ p ∈ l.filter (fun q => !off q), 0 ≤ p.1 ∧ 0 ≤ p.2 ∧ p.2 ≤ n := fun p hp => h0 p (List.mem_of_mem_filter hp)
  generalize l.filter (fun q => !off q) = v at hs' h0'
  refine ⟨fun h => by rw [h]; rfl, ?_⟩
  induction v using List.reverseRecOn with
  | nil => intro h; exact absurd rfl h
  | append_singleton v q ih =>
    intro _
    rw [List.foldl_append]
    simp only [List.foldl_cons, List.foldl_nil]
    have h1 := List.pairwise_append.1 hs'
    have h2 := h0' q (by simp)
    rcases eq_or_ne v [] with rfl | hne
    · exact found_first n q h2.1 h2.2.1 h2.2.2
    · apply found_next v _ q (ih h1.1 (fun p hp => h0' p (List.mem_append_left _ hp)) hne)
      · exact fun p hp => (h0' p (List.mem_append_left _ hp)).1
      · exact fun p hp => h1.2.2 p hp q (by simp)

theorem mem_pixels (ny nx : Nat) (q : ℤ × ℤ) : q ∈ pixels ny nx ↔ (0 ≤ q.1 ∧ q.1 < ny) ∧ (0 ≤ q.2 ∧ q.2 < nx) := by
  unfold pixels
  simp only [List.mem_flatMap, List.mem_range, List.mem_map]
  constructor
  · rintro ⟨i, hi, j, hj, rfl⟩
    simp only
    omega
  · rintro ⟨h1, h2⟩
    exact ⟨q.1.toNat, by omega, q.2.toNat, by omega, Prod.ext (by simp only; omega) (by simp only; omega)⟩

theorem pixels_sorted (ny nx : Nat) : (pixels ny nx).Pairwise fun p q => p.1 < q.1 ∨ (p.1 = q.1 ∧ p.2 < q.2) := by
  unfold pixels
  rw [List.pairwise_flatMap]
  constructor
  · intro i _
    rw [List.pairwise_map]
    refine List.pairwise_lt_range.imp ?_
    intro a b h
    exact Or.inr ⟨rfl, by show (a : ℤ) < b; omega⟩
  · refine List.pairwise_lt_range.imp ?_
    intro a b h p hp q hq
    obtain ⟨j, _, rfl⟩ := List.mem_map.1 hp
    obtain ⟨j', _, rfl⟩ := List.mem_map.1 hq
    left
    show (a : ℤ) < b
    omega

/-- C111: if an image has valid pixels, its upper left corner is the leftmost valid pixel of the first row with valid
pixels, the upper right corner is the uppermost valid pixel of the last column, the lower left corner is the lowest valid pixel of
the first column, and the lower right corner is the rightmost valid pixel of the last row. -/
theorem c111_corners (off : ℤ × ℤ → Bool) (ny nx : Nat) (q : ℤ × ℤ) (hq : Valid off ny nx q) :
    First (Valid off ny nx) (fun P q => P.1 < q.1 ∨ (P.1 = q.1 ∧ P.2 < q.2)) ((corners off ny nx).uly, (corners off ny nx).ulx) ∧
    First (Valid off ny nx) (fun P q => q.2 < P.2 ∨ (q.2 = P.2 ∧ P.1 < q.1)) ((corners off ny nx).ury, (corners off ny nx).urx) ∧
    First (Valid off ny nx) (fun P q => P.2 < q.2 ∨ (q.2 = P.2 ∧ q.1 < P.1)) ((corners off ny nx).lly, (corners off ny nx).llx) ∧
    First (Valid off ny nx) (fun P q => q.1 < P.1 ∨ (q.1 = P.1 ∧ q.2 < P.2)) ((corners off ny nx).lry, (corners off ny nx).lrx) := by
  have hm : ∀ p, p ∈ (pixels ny nx).filter (fun q => !off q) ↔ Valid off ny nx p := by
    intro p
    rw [List.mem_filter, mem_pixels, Bool.not_eq_true']
    exact ⟨fun h => ⟨h.2, h.1⟩, fun h => ⟨h.2, h.1⟩⟩
  have hb : ∀ p ∈ pixels ny nx, 0 ≤ p.1 ∧ 0 ≤ p.2 ∧ p.2 ≤ (nx : ℤ) * ny := by
    intro p hp
    have h := (mem_pixels ny nx p).1 hp
    refine ⟨h.1.1, h.2.1, ?_⟩
    have : (nx : ℤ) * 1 ≤ nx * ny := Int.mul_le_mul_of_nonneg_left (by omega) (by omega)
    omega
  have h := (found_all (nx * ny) off (pixels ny nx) (pixels_sorted ny nx) hb).2
    (List.ne_nil_of_mem ((hm q).2 hq))
  change Found _ (corners off ny nx) at h
  obtain ⟨⟨a1, a2⟩, ⟨b1, b2⟩, ⟨c1, c2⟩, ⟨d1, d2⟩⟩ := h
  refine ⟨⟨(hm _).1 a1, fun p hp hne => ?_⟩, ⟨(hm _).1 b1, fun p hp hne => ?_⟩, ⟨(hm _).1 c1, fun p hp hne => ?_⟩,
    ⟨(hm _).1 d1, fun p hp hne => ?_⟩⟩
  · have h1 := a2 p ((hm _).2 hp)
    have h2 : ¬ (p.1 = (corners off ny nx).uly ∧ p.2 = (corners off ny nx).ulx) := fun h => hne (Prod.ext h.1 h.2)
    simp only
    omega
  · have h1 := b2 p ((hm _).2 hp)
    have h2 : ¬ (p.1 = (corners off ny nx).ury ∧ p.2 = (corners off ny nx).urx) := fun h => hne (Prod.ext h.1 h.2)
    simp only
    omega
  · have h1 := c2 p ((hm _).2 hp)
    have h2 : ¬ (p.1 = (corners off ny nx).lly ∧ p.2 = (corners off ny nx).llx) := fun h => hne (Prod.ext h.1 h.2)
    simp only
    omega
  · have h1 := d2 p ((hm _).2 hp)
    have h2 : ¬ (p.1 = (corners off ny nx).lry ∧ p.2 = (corners off ny nx).lrx) := fun h => hne (Prod.ext h.1 h.2)
    simp only
    omega

/-- C111: the ends of the nadir line are the middles of upper left and upper right, lower left and lower right corner, up to half a pixel. -/
theorem c111_middle (off : ℤ × ℤ → Bool) (ny nx : Nat) (q : ℤ × ℤ) (hq : Valid off ny nx q) :
    let k := corners off ny nx
    let n := k.nadir
    (2 * n.ux ≤ k.ulx + k.urx ∧ k.ulx + k.urx ≤ 2 * n.ux + 1) ∧ (2 * n.uy ≤ k.uly + k.ury ∧ k.uly + k.ury ≤ 2 * n.uy + 1) ∧
    (2 * n.lx ≤ k.llx + k.lrx ∧ k.llx + k.lrx ≤ 2 * n.lx + 1) ∧ (2 * n.ly ≤ k.lly + k.lry ∧ k.lly + k.lry ≤ 2 * n.ly + 1) ∧
    n.uy ≤ n.ly := by
  intro k n
  have hc : corners off ny nx = k := rfl
  obtain ⟨⟨a1, a2⟩, ⟨b1, b2⟩, ⟨c1, c2⟩, ⟨d1, d2⟩⟩ := c111_corners off ny nx q hq
  have g1 := a1.2; have g2 := b1.2; have g3 := c1.2; have g4 := d1.2
  simp only [hc] at g1 g2 g3 g4
  rw [hc] at a1 a2 b1 b2 c1 c2 d1 d2
  clear_value k
  have e1 : n.ux = (k.ulx + k.urx).tdiv 2 := rfl
  have e2 : n.uy = (k.uly + k.ury).tdiv 2 := rfl
  have e3 : n.lx = (k.llx + k.lrx).tdiv 2 := rfl
  have e4 : n.ly = (k.lly + k.lry).tdiv 2 := rfl
  rw [Int.tdiv_eq_ediv_of_nonneg (by omega)] at e1 e2 e3 e4
  have h1 : k.uly ≤ k.lly := by
    by_cases h : (k.lly, k.llx) = (k.uly, k.ulx)
    · exact (congrArg Prod.fst h).ge
    · have := a2 _ c1 h; simp only at this; omega
  have h2 : k.ury ≤ k.lry := by
    by_cases h : (k.ury, k.urx) = (k.lry, k.lrx)
    · exact (congrArg Prod.fst h).le
    · have := d2 _ b1 h; simp only at this; omega
  omega

end Verif.View
