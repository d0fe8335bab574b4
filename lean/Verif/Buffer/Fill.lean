import Mathlib.Tactic.Linarith
import Mathlib.Data.List.Nodup
import Verif.Buffer.Props

/-!
# Theorems about majority filling: C15
-/

namespace Verif.Buffer

open Spec

/-- Offsets in the order of the loops. -/
def offs : List (Int × Int) := [(-1, -1), (-1, 0), (-1, 1), (0, -1), (0, 0), (0, 1), (1, -1), (1, 0), (1, 1)]

/-- Condition under which a neighbour is counted. -/
def counted (nx ny : Int) (img : Int → Bool) (i j : Int) (o : Int × Int) : Bool :=
  decide (¬ (o.1 = 0 ∧ o.2 = 0)) && decide (¬ (i + o.1 < 0 ∨ i + o.1 ≥ ny ∨ j + o.2 < 0 ∨ j + o.2 ≥ nx)) &&
    img ((i + o.1) * nx + (j + o.2))

theorem count_eq_sum (nx ny : Int) (img : Int → Bool) (i j : Int) :
    count nx ny img i j = (offs.map fun o => if counted nx ny img i j o then 1 else 0).sum := by
  have key : ∀ ii jj : Int, (if ii = 0 ∧ jj = 0 then 0
      else if i + ii < 0 ∨ i + ii ≥ ny ∨ j + jj < 0 ∨ j + jj ≥ nx then 0
      else if img ((i + ii) * nx + (j + jj)) then 1 else 0 : Nat) = if counted nx ny img i j (ii, jj) then 1 else 0 := by
    intro ii jj
    by_cases h1 : ii = 0 ∧ jj = 0
    · rw [if_pos h1, if_neg (by simp [counted, h1])]
    · by_cases h2 : i + ii < 0 ∨ i + ii ≥ ny ∨ j + jj < 0 ∨ j + jj ≥ nx
      · rw [if_neg h1, if_pos h2, if_neg (by unfold counted; rw [decide_eq_false (not_not.2 h2)]; simp)]
      · rw [if_neg h1, if_neg h2]
        have : counted nx ny img i j (ii, jj) = img ((i + ii) * nx + (j + jj)) := by
          unfold counted
          rw [decide_eq_true h1, decide_eq_true h2]; simp
        rw [this]
  unfold count
  simp only [key]
  rfl

theorem sum_filter (p : Int × Int → Bool) (l : List (Int × Int)) :
    (l.map fun o => if p o then 1 else 0).sum = (l.filter p).length := by
  induction l with
  | nil => rfl
  | cons a l ih =>
    simp only [List.map_cons, List.sum_cons, ih, List.filter_cons]
    split <;> simp [Nat.add_comm]

theorem mem_offs {o : Int × Int} : o ∈ offs ↔ |o.1| ≤ 1 ∧ |o.2| ≤ 1 := by
  obtain ⟨a, b⟩ := o
  simp only [offs, List.mem_cons, Prod.mk.injEq, List.not_mem_nil, or_false, abs_le]
  omega

theorem counted_iff (nx ny : Nat) (img : Int → Bool) (p o : Int × Int) :
    (o ∈ offs ∧ counted nx ny img p.1 p.2 o = true) ↔
      Neighbour nx ny p (p.1 + o.1, p.2 + o.2) ∧ val nx img (p.1 + o.1, p.2 + o.2) = true := by
  obtain ⟨i, j⟩ := p
  obtain ⟨a, b⟩ := o
  simp only [mem_offs, counted, Neighbour, val, Bool.and_eq_true, decide_eq_true_eq, ne_eq, Prod.mk.injEq, abs_le]
  constructor
  · rintro ⟨h1, ⟨h2, h3⟩, h4⟩
    exact ⟨⟨by omega, by omega, by omega, by omega, by omega⟩, h4⟩
  · rintro ⟨⟨h1, h2, h3, h4, h5⟩, h6⟩
    exact ⟨by omega, ⟨by omega, by omega⟩, h6⟩

/-- The count is the number of TRUE neighbours. -/
theorem count_iff (nx ny : Nat) (img : Int → Bool) (p : Int × Int) (n : Nat) :
    n ≤ count nx ny img p.1 p.2 ↔ Surrounded nx ny img n p := by
  rw [count_eq_sum, sum_filter]
  constructor
  · intro h
    have hnd : ((offs.filter (counted nx ny img p.1 p.2)).map fun o => (p.1 + o.1, p.2 + o.2)).Nodup := by
      apply List.Nodup.map
      · intro a b hab
        simp only [Prod.mk.injEq] at hab
        obtain ⟨a1, a2⟩ := a
        obtain ⟨b1, b2⟩ := b
        simp only [Prod.mk.injEq] at hab ⊢
        omega
      · exact List.Nodup.filter _ (by decide)
    refine ⟨(((offs.filter (counted nx ny img p.1 p.2)).map fun o => (p.1 + o.1, p.2 + o.2)).take n),
      hnd.sublist (List.take_sublist _ _), by simp only [List.length_take, List.length_map]; omega, ?_⟩
    intro q hq
    obtain ⟨o, ho, rfl⟩ := List.mem_map.1 (List.mem_of_mem_take hq)
    exact (counted_iff nx ny img p o).1 (List.mem_filter.1 ho)
  · rintro ⟨l, h1, h2, h3⟩
    have hsub : l ⊆ (offs.filter (counted nx ny img p.1 p.2)).map fun o => (p.1 + o.1, p.2 + o.2) := by
      intro q hq
      refine List.mem_map.2 ⟨(q.1 - p.1, q.2 - p.2), ?_, by simp⟩
      rw [List.mem_filter]
      apply (counted_iff nx ny img p _).2
      simpa using h3 q hq
    have := (h1.subperm hsub).length_le
    rw [List.length_map] at this
    omega

/-- More TRUE pixels. -/
def Le (a b : Int → Bool) : Prop := ∀ k, a k = true → b k = true

theorem Surrounded.mono {nx ny : Nat} {a b : Int → Bool} (h : Le a b) {n : Nat} {p : Int × Int}
    (hs : Surrounded nx ny a n p) : Surrounded nx ny b n p := by
  obtain ⟨l, h1, h2, h3⟩ := hs
  exact ⟨l, h1, h2, fun q hq => ⟨(h3 q hq).1, h _ (h3 q hq).2⟩⟩

theorem fillPixel_le (nx ny : Int) (img : Int → Bool) (p : Int × Int) : Le img (fillPixel nx ny img p) := by
  intro k hk
  unfold fillPixel
  split
  · exact hk
  · split
    · simp only [hk, ite_self]
    · exact hk

theorem fold_le (nx ny : Int) (order : List (Int × Int)) (img : Int → Bool) : Le img (majorfill nx ny order img) := by
  induction order generalizing img with
  | nil => exact fun _ h => h
  | cons p ps ih => exact fun k hk => ih _ k (fillPixel_le nx ny img p k hk)

theorem fillPixel_val (nx ny : Nat) (img : Int → Bool) (p : Int × Int) (hs : Surrounded nx ny img 5 p) :
    val nx (fillPixel nx ny img p) p = true := by
  unfold val fillPixel
  split
  · assumption
  · rw [if_pos ((count_iff nx ny img p 5).2 hs)]; simp

/-! ## C15 -/

/-- C15, partial: in every order of the pixels, majority filling keeps TRUE pixels, and it sets all FALSE
pixels that have at least five TRUE neighbours in the input image. Missing: it may set more than these,
depending on the order. -/
theorem c15_fills_partial (nx ny : Nat) (img : Int → Bool) (order : List (Int × Int))
    (ho : order.Perm (pixels nx ny)) :
    (∀ k, img k = true → majorfill nx ny order img k = true) ∧
    (∀ p : Int × Int, (0 ≤ p.1 ∧ p.1 < ny) → (0 ≤ p.2 ∧ p.2 < nx) → Surrounded nx ny img 5 p →
      val nx (majorfill nx ny order img) p = true) := by
  refine ⟨fold_le nx ny order img, ?_⟩
  intro p h1 h2 hs
  have hmem : p ∈ order := by
    rw [ho.mem_iff]
    simp only [pixels, List.mem_flatMap, List.mem_map, List.mem_range]
    exact ⟨p.1.toNat, by omega, p.2.toNat, by omega, by
      obtain ⟨a, b⟩ := p
      simp only [Prod.mk.injEq] at *
      omega⟩
  clear ho
  induction order generalizing img with
  | nil => cases hmem
  | cons q ps ih =>
    rcases List.mem_cons.1 hmem with rfl | hm
    · exact fold_le nx ny ps _ _ (fillPixel_val nx ny img p hs)
    · exact ih (fillPixel nx ny img q) (Surrounded.mono (fillPixel_le nx ny img q) hs) hm

/-- C15, partial: in every order, a pixel that is set has at least five TRUE neighbours in the result. -/
theorem c15_reason_partial (nx ny : Nat) (img : Int → Bool) (order : List (Int × Int)) (k : Int)
    (h0 : img k = false) (h1 : majorfill nx ny order img k = true) :
    ∃ p ∈ order, k = p.1 * nx + p.2 ∧ Surrounded nx ny (majorfill nx ny order img) 5 p := by
  induction order generalizing img with
  | nil => simp only [majorfill, List.foldl_nil] at h1; rw [h0] at h1; cases h1
  | cons q ps ih =>
    change majorfill nx ny ps (fillPixel nx ny img q) k = true at h1
    by_cases hk : fillPixel nx ny img q k = true
    · refine ⟨q, List.mem_cons_self, ?_⟩
      unfold fillPixel at hk
      split at hk
      · rw [h0] at hk; cases hk
      · split at hk
        · next hc =>
          simp only at hk
          split at hk
          · next he =>
            refine ⟨he, ?_⟩
            apply Surrounded.mono (fold_le nx ny (q :: ps) img)
            exact (count_iff nx ny img q 5).1 hc
          · rw [h0] at hk; cases hk
        · rw [h0] at hk; cases hk
    · obtain ⟨p, h2, h3, h4⟩ := ih (fillPixel nx ny img q) (by simpa using hk) h1
      exact ⟨p, List.mem_cons_of_mem _ h2, h3, h4⟩

/-- A pixel that is not considered is not changed. -/
theorem fold_other (nx ny : Nat) (order : List (Int × Int)) (img : Int → Bool) (k : Int)
    (h : ∀ p ∈ order, k ≠ p.1 * nx + p.2) : majorfill nx ny order img k = img k := by
  induction order generalizing img with
  | nil => rfl
  | cons q ps ih =>
    change majorfill nx ny ps (fillPixel nx ny img q) k = img k
    rw [ih _ fun p hp => h p (List.mem_cons_of_mem _ hp)]
    unfold fillPixel
    split
    · rfl
    · split
      · simp only [if_neg (h q List.mem_cons_self)]
      · rfl

theorem pixels_nodup (nx ny : Nat) : (pixels nx ny).Nodup := by
  unfold pixels
  rw [List.nodup_flatMap]
  refine ⟨?_, ?_⟩
  · intro i _
    apply List.Nodup.map
    · intro a b hab
      simp only [Prod.mk.injEq, Nat.cast_inj, true_and] at hab
      exact hab
    · exact List.nodup_range
  · apply List.Pairwise.imp _ List.nodup_range
    intro a b hab
    simp only [Function.onFun, List.disjoint_left, List.mem_map, List.mem_range, not_exists, not_and]
    rintro ⟨x, y⟩ ⟨c, _, he⟩ d _ hd
    simp only [Prod.mk.injEq] at he hd
    omega

/-- C15, violated: take any image in which a FALSE pixel `a` with five TRUE neighbours is a neighbour of a
FALSE pixel `b` with just four. If `a` is processed before `b`, `b` is set (although it has not five TRUE
neighbours in the input image); if `b` is processed first, it is not. -/
theorem c15_order_violated (nx ny : Nat) (img : Int → Bool) (a b : Int × Int)
    (ha : (0 ≤ a.1 ∧ a.1 < ny) ∧ (0 ≤ a.2 ∧ a.2 < nx)) (hb : (0 ≤ b.1 ∧ b.1 < ny) ∧ (0 ≤ b.2 ∧ b.2 < nx))
    (hab : Neighbour nx ny b a) (ha0 : val nx img a = false) (hb0 : val nx img b = false)
    (ha5 : Surrounded nx ny img 5 a) (hb4 : Surrounded nx ny img 4 b) (hb5 : ¬ Surrounded nx ny img 5 b) :
    (∀ rest, (a :: b :: rest).Perm (pixels nx ny) → val nx (majorfill nx ny (a :: b :: rest) img) b = true) ∧
    (∀ rest, (b :: rest).Perm (pixels nx ny) → val nx (majorfill nx ny (b :: rest) img) b = false) := by
  constructor
  · intro rest _
    apply fold_le nx ny rest
    apply fillPixel_val
    obtain ⟨l, h1, h2, h3⟩ := hb4
    refine ⟨a :: l, ?_, by simp [h2], ?_⟩
    · rw [List.nodup_cons]
      refine ⟨?_, h1⟩
      intro hm
      have := (h3 a hm).2
      rw [ha0] at this; cases this
    · intro q hq
      rcases List.mem_cons.1 hq with rfl | hq
      · exact ⟨hab, fillPixel_val nx ny img q ha5⟩
      · exact ⟨(h3 q hq).1, fillPixel_le nx ny img a _ (h3 q hq).2⟩
  · intro rest hp
    have hnd := hp.nodup_iff.2 (pixels_nodup nx ny)
    rw [List.nodup_cons] at hnd
    unfold val
    change majorfill nx ny rest (fillPixel nx ny img b) _ = false
    rw [fold_other nx ny rest _ _ ?_]
    · unfold fillPixel
      unfold val at hb0
      rw [if_neg (by simp [hb0]), if_neg (fun h => hb5 ((count_iff nx ny img b 5).1 h))]
      exact hb0
    · intro p hp' he
      have hpp : p ∈ pixels nx ny := hp.mem_iff.1 (List.mem_cons_of_mem _ hp')
      simp only [pixels, List.mem_flatMap, List.mem_map, List.mem_range] at hpp
      obtain ⟨i, hi, j, hj, rfl⟩ := hpp
      have he' : (nx : Int) * b.1 + b.2 = nx * i + j := by
        simp only at he
        rw [Int.mul_comm, he, Int.mul_comm]
      obtain ⟨e1, e2⟩ := index_inj he' hb.2.1 hb.2.2 (by omega) (by omega)
      apply hnd.1
      have : b = ((i : Int), (j : Int)) := by
        obtain ⟨b1, b2⟩ := b
        simp only at e1 e2
        rw [e1, e2]
      rw [this]; exact hp'

/-- An image of 3 x 4 pixels as in `c15_order_violated`: `a` and `b` are the two pixels in the middle of
```
1 1 1 1
1 a b 0
1 0 0 1
``` -/
def fillDemo : Int → Bool := fun p => p == 0 || p == 1 || p == 2 || p == 3 || p == 4 || p == 8 || p == 11

example : Neighbour 4 3 (1, 2) (1, 1) ∧ Surrounded 4 3 fillDemo 5 (1, 1) ∧ Surrounded 4 3 fillDemo 4 (1, 2) ∧ ¬ Surrounded 4 3 fillDemo 5 (1, 2) ∧
    val 4 fillDemo (1, 1) = false ∧ val 4 fillDemo (1, 2) = false := by
  refine ⟨⟨by decide, by decide, by decide, by decide, by decide⟩, ?_, ?_, ?_, by decide, by decide⟩
  · rw [← count_iff]; decide +kernel
  · rw [← count_iff]; decide +kernel
  · rw [← count_iff]; decide +kernel

/-- The single-threaded order sets `b`, too. -/
example : val 4 (majorfill 4 3 (pixels 4 3) fillDemo) (1, 2) = true := by decide +kernel

end Verif.Buffer
