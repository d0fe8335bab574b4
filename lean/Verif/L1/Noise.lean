import Verif.L1.Model
import Verif.L1.Spec
import Verif.Stats.Props

/-!
# C117: impulse noise
-/

namespace Verif.L1

open Verif.L1.Spec
open Verif.Stats.Spec (mean moment)

/-- Pixel `r` comes before pixel `q` when the image is read row by row. -/
def Before (r q : ℤ × ℤ) : Prop := r.1 < q.1 ∨ r.1 = q.1 ∧ r.2 < q.2

theorem mem_interior {ny nx : ℕ} {q : ℤ × ℤ} : q ∈ interior ny nx ↔ (1 ≤ q.1 ∧ q.1 + 1 < ny) ∧ 1 ≤ q.2 ∧ q.2 + 1 < nx := by
  obtain ⟨a, b⟩ := q
  unfold interior
  rw [List.mem_flatMap]
  constructor
  · rintro ⟨i, hi, h⟩
    rw [List.mem_map] at h
    obtain ⟨j, hj, e⟩ := h
    rw [List.mem_range] at hi hj
    simp only [Prod.mk.injEq] at e
    show (1 ≤ a ∧ a + 1 < ny) ∧ 1 ≤ b ∧ b + 1 < nx
    omega
  · intro h
    replace h : (1 ≤ a ∧ a + 1 < ny) ∧ 1 ≤ b ∧ b + 1 < nx := h
    refine ⟨(a - 1).toNat, List.mem_range.2 (by omega), List.mem_map.2 ⟨(b - 1).toNat, List.mem_range.2 (by omega), ?_⟩⟩
    rw [Prod.mk.injEq]
    omega

theorem interior_sorted (ny nx : ℕ) : (interior ny nx).Pairwise Before := by
  unfold interior
  rw [List.pairwise_flatMap]
  constructor
  · intro i _
    rw [List.pairwise_map]
    exact (List.pairwise_lt_range (n := nx - 2)).imp fun {a b} h => Or.inr ⟨rfl, by show (a : ℤ) + 1 < b + 1; omega⟩
  · refine (List.pairwise_lt_range (n := ny - 2)).imp fun {a b} h => ?_
    intro x hx y hy
    rw [List.mem_map] at hx hy
    obtain ⟨j, _, rfl⟩ := hx
    obtain ⟨k, _, rfl⟩ := hy
    left
    show (a : ℤ) + 1 < b + 1
    omega

theorem noisePixel_other (dn : ℕ → ℤ × ℤ → ℝ) (off : ℤ × ℤ → Bool) (q r : ℤ × ℤ) (h : r ≠ q) : noisePixel dn off q r = off r := by
  unfold noisePixel
  by_cases h1 : off q = true
  · rw [if_pos h1]
  · rw [if_neg h1]
    split
    · exact if_neg h
    · rfl

theorem fold_other (dn : ℕ → ℤ × ℤ → ℝ) (l : List (ℤ × ℤ)) (off : ℤ × ℤ → Bool) (r : ℤ × ℤ) (h : r ∉ l) : l.foldl (noisePixel dn) off r = off r := by
  induction l generalizing off with
  | nil => rfl
  | cons q l ih =>
    rw [List.foldl_cons, ih _ (fun h' => h (by simp [h']))]
    exact noisePixel_other dn off q r (fun e => h (by simp [e]))

theorem fold_mono (dn : ℕ → ℤ × ℤ → ℝ) (l : List (ℤ × ℤ)) (off : ℤ × ℤ → Bool) (r : ℤ × ℤ) (h : off r = true) : l.foldl (noisePixel dn) off r = true := by
  induction l generalizing off with
  | nil => exact h
  | cons q l ih =>
    rw [List.foldl_cons]
    apply ih
    unfold noisePixel
    by_cases h1 : off q = true
    · rw [if_pos h1]; exact h
    · rw [if_neg h1]
      split
      · show (if r = q then true else off r) = true
        split
        · rfl
        · exact h
      · exact h

/-- The state at the time pixel `q` is looked at. -/
theorem fold_at (dn : ℕ → ℤ × ℤ → ℝ) (ny nx : ℕ) (off : ℤ × ℤ → Bool) (q : ℤ × ℤ) (hq : q ∈ interior ny nx) :
    ∃ o : ℤ × ℤ → Bool, (∀ r, Before r q → o r = (interior ny nx).foldl (noisePixel dn) off r) ∧ (∀ r, ¬ Before r q → o r = off r) ∧
      (interior ny nx).foldl (noisePixel dn) off q = noisePixel dn o q q := by
  obtain ⟨pre, post, e⟩ := List.append_of_mem hq
  have hp := interior_sorted ny nx
  rw [e] at hp
  obtain ⟨_, p2, p3⟩ := List.pairwise_append.1 hp
  have irr : ∀ x : ℤ × ℤ, ¬ Before x x := by intro x h; rcases h with h | h <;> omega
  have asym : ∀ x y : ℤ × ℤ, Before x y → ¬ Before y x := by intro x y h h'; unfold Before at h h'; omega
  have hpost : ∀ x ∈ post, Before q x := fun x hx => List.rel_of_pairwise_cons p2 hx
  refine ⟨pre.foldl (noisePixel dn) off, ?_, ?_, ?_⟩
  · intro r hr
    rw [e, List.foldl_append]
    refine (fold_other dn _ _ r ?_).symm
    intro h
    rcases List.mem_cons.1 h with rfl | h
    · exact irr _ hr
    · exact asym _ _ hr (hpost r h)
  · intro r hr
    refine fold_other dn _ _ r ?_
    intro h
    exact hr (p3 r h q (by simp))
  · rw [e, List.foldl_append, List.foldl_cons]
    refine fold_other dn post _ q ?_
    intro h
    exact irr q (hpost q h)

/-- C117: only 8-bit images are changed, and only if the option is on; masked pixels stay masked; pixels at the edge of the image do not change. -/
theorem c117_frame (bits : ℕ) (on : Bool) (dn : ℕ → ℤ × ℤ → ℝ) (ny nx : ℕ) (off : ℤ × ℤ → Bool) :
    (bits ≠ 8 ∨ on = false → noise bits on dn ny nx off = off) ∧
    (∀ r, off r = true → noise bits on dn ny nx off r = true) ∧
    (∀ r : ℤ × ℤ, r.1 = 0 ∨ r.1 + 1 = ny ∨ r.2 = 0 ∨ r.2 + 1 = nx → noise bits on dn ny nx off r = off r) := by
  refine ⟨fun h => if_pos h, ?_, ?_⟩
  · intro r h
    unfold noise
    split
    · exact h
    · exact fold_mono dn _ off r h
  · intro r h
    unfold noise
    split
    · rfl
    · refine fold_other dn _ off r ?_
      rw [mem_interior]
      omega

/-! ## The standard deviations -/

/-- The pixels of the window of `q` that are not masked in `o`, each one once. -/
structure Window (o : ℤ × ℤ → Bool) (q : ℤ × ℤ) (l : List (ℤ × ℤ)) : Prop where
  nodup : l.Nodup
  mem : ∀ r, r ∈ l ↔ (|r.1 - q.1| ≤ 1 ∧ |r.2 - q.2| ≤ 1) ∧ o r = false

theorem window_grid (q : ℤ × ℤ) :
    let g := (List.range 3).flatMap fun (a : ℕ) => (List.range 3).map fun (b : ℕ) => (q.1 + a - 1, q.2 + b - 1)
    g.Nodup ∧ ∀ r, r ∈ g ↔ |r.1 - q.1| ≤ 1 ∧ |r.2 - q.2| ≤ 1 := by
  intro g
  constructor
  · refine List.nodup_flatMap.2 ⟨?_, ?_⟩
    · intro a _
      refine List.Nodup.map ?_ List.nodup_range
      intro b c h
      simp only [Prod.mk.injEq] at h
      omega
    · refine (List.nodup_range (n := 3)).imp fun {a b} h => ?_
      intro x hx hy
      rw [List.mem_map] at hx hy
      obtain ⟨c, _, rfl⟩ := hx
      obtain ⟨d, _, e⟩ := hy
      simp only [Prod.mk.injEq] at e
      omega
  · rintro ⟨a, b⟩
    show _ ↔ |a - q.1| ≤ 1 ∧ |b - q.2| ≤ 1
    rw [abs_le, abs_le, List.mem_flatMap]
    constructor
    · rintro ⟨i, hi, h⟩
      rw [List.mem_map] at h
      obtain ⟨j, hj, e⟩ := h
      rw [List.mem_range] at hi hj
      simp only [Prod.mk.injEq] at e
      omega
    · intro h
      refine ⟨(a - q.1 + 1).toNat, List.mem_range.2 (by omega), List.mem_map.2 ⟨(b - q.2 + 1).toNat, List.mem_range.2 (by omega), ?_⟩⟩
      rw [Prod.mk.injEq]
      omega

theorem sd_eq (o : ℤ × ℤ → Bool) (dn : ℤ × ℤ → ℝ) (q : ℤ × ℤ) (l : List (ℤ × ℤ)) (hl : Window o q l) (hq : o q = false) :
    sd o dn q = sampleSd (l.map dn) := by
  obtain ⟨g1, g2⟩ := window_grid q
  set g := (List.range 3).flatMap fun (a : ℕ) => (List.range 3).map fun (b : ℕ) => (q.1 + a - 1, q.2 + b - 1) with hg
  have hp : (g.filter fun r => !o r).Perm l := by
    rw [List.perm_ext_iff_of_nodup (g1.filter _) hl.nodup]
    intro r
    rw [List.mem_filter, g2, hl.mem, Bool.not_eq_true']
  have hp2 := hp.map dn
  have ha : around o dn q = (g.filter fun r => !o r).map dn := rfl
  have hne : around o dn q ≠ [] := by
    rw [ha, Ne, List.map_eq_nil_iff, ← Ne, ← List.length_pos_iff]
    refine List.length_pos_of_mem (a := q) ?_
    rw [List.mem_filter, g2]
    refine ⟨by simp, by rw [hq]; rfl⟩
  unfold sd sampleSd
  show Stats.standdev (Stats.varLoop (around o dn q) (0, 0, 0)).2.2 ((Stats.varLoop (around o dn q) (0, 0, 0)).1 : ℕ) = _
  rw [Stats.c36_variance _ hne]
  unfold Stats.standdev Stats.variance
  rw [ha]
  show √(moment 2 _ / (((List.map dn (g.filter fun r => !o r)).length : ℝ) - 1)) = _
  rw [(Stats.moment_perm 2 hp2).2, hp2.length_eq]

theorem noise_at (dn : ℕ → ℤ × ℤ → ℝ) (ny nx : ℕ) (off : ℤ × ℤ → Bool) (q : ℤ × ℤ) (hq : q ∈ interior ny nx) :
    ∃ o : ℤ × ℤ → Bool, (∀ r, Before r q → o r = noise 8 true dn ny nx off r) ∧ (∀ r, ¬ Before r q → o r = off r) ∧
      ∀ l, Window o q l → (noise 8 true dn ny nx off q = true ↔
        off q = true ∨ excess (sampleSd (l.map (dn 0))) (sampleSd (l.map (dn 1))) (sampleSd (l.map (dn 2))) > 15) := by
  obtain ⟨o, o1, o2, o3⟩ := fold_at dn ny nx off q hq
  have e : noise 8 true dn ny nx off = (interior ny nx).foldl (noisePixel dn) off := if_neg (by simp)
  refine ⟨o, by rw [e]; exact o1, o2, ?_⟩
  intro l hl
  rw [e, o3]
  have hqq : o q = off q := o2 q (by intro h; rcases h with h | h <;> omega)
  unfold noisePixel
  by_cases h1 : o q = true
  · rw [if_pos h1, h1, ← hqq, h1]; simp
  · rw [if_neg h1, ← hqq]
    rw [Bool.not_eq_true] at h1
    rw [sd_eq o (dn 0) q l hl h1, sd_eq o (dn 1) q l hl h1, sd_eq o (dn 2) q l hl h1]
    by_cases h2 : excess (sampleSd (l.map (dn 0))) (sampleSd (l.map (dn 1))) (sampleSd (l.map (dn 2))) > 15
    · rw [if_pos h2]; simp [h2]
    · rw [if_neg h2]; simp [h1, h2]

/-! ## The largest and the second largest -/

theorem excess_cases (a b c : ℝ) :
    excess a b c = if c > max a b then c - max a b else if b > a then b - a else 0 := by
  unfold excess
  rcases lt_or_ge a b with h | h
  · rw [max_eq_right h.le]
    simp only [gt_iff_lt, if_pos h]
    split <;> simp
  · rw [max_eq_left h]
    simp only [gt_iff_lt, if_neg (not_lt.2 h)]
    split <;> simp

/-- C117, partial: let `o` be the mask at the time a pixel is looked at, that is the final one for the pixels before it and the initial one for the others, and
`s` the sample standard deviations of blue, green and red among the pixels of the window of 3 x 3 pixels that are not masked in `o`. If the one of red is the largest, or the one of green, followed by the one of blue,
the pixel is masked if and only if it had been masked before or the largest exceeds the second largest by more than 15. Missing: the other cases. -/
theorem c117_detection_partial (dn : ℕ → ℤ × ℤ → ℝ) (ny nx : ℕ) (off : ℤ × ℤ → Bool) (q : ℤ × ℤ)
    (hq : (1 ≤ q.1 ∧ q.1 + 1 < ny) ∧ 1 ≤ q.2 ∧ q.2 + 1 < nx) :
    ∃ o : ℤ × ℤ → Bool, (∀ r, Before r q → o r = noise 8 true dn ny nx off r) ∧ (∀ r, ¬ Before r q → o r = off r) ∧
      ∀ l, Window o q l → ∀ s : ℕ → ℝ, (∀ k, s k = sampleSd (l.map (dn k))) → (s 0 < s 2 ∧ s 1 < s 2) ∨ (s 0 < s 1 ∧ s 2 ≤ s 0) →
        (noise 8 true dn ny nx off q = true ↔ off q = true ∨ StandsOut 15 (s 0) (s 1) (s 2)) := by
  obtain ⟨o, o1, o2, o3⟩ := noise_at dn ny nx off q (mem_interior.2 hq)
  refine ⟨o, o1, o2, ?_⟩
  intro l hl s hs hc
  rw [o3 l hl, ← hs, ← hs, ← hs]
  refine or_congr Iff.rfl ?_
  rw [excess_cases]
  unfold StandsOut
  rcases hc with ⟨h1, h2⟩ | ⟨h1, h2⟩
  · rw [if_pos (max_lt h1 h2)]
    constructor
    · intro h
      have a := le_max_left (s 0) (s 1)
      have b := le_max_right (s 0) (s 1)
      exact Or.inr (Or.inr ⟨by linarith, by linarith⟩)
    · rintro (h | h | h)
      · linarith [h.2]
      · linarith [h.2]
      · have := max_lt h.1 h.2
        rw [max_add_add_right] at this
        linarith
  · rw [if_neg (not_lt.2 (le_trans h2 (le_max_left _ _))), if_pos h1]
    constructor
    · intro h; exact Or.inr (Or.inl ⟨by linarith, by linarith⟩)
    · rintro (h | h | h)
      · linarith [h.1]
      · linarith [h.1]
      · linarith [h.1]

/-- C117, violated: noise in the blue band is never detected. If the standard deviation of blue is not smaller than the ones of green and red, the pixel is
not masked, however large it is. -/
theorem c117_blue_violated (dn : ℕ → ℤ × ℤ → ℝ) (ny nx : ℕ) (off : ℤ × ℤ → Bool) (q : ℤ × ℤ)
    (hq : (1 ≤ q.1 ∧ q.1 + 1 < ny) ∧ 1 ≤ q.2 ∧ q.2 + 1 < nx) :
    ∃ o : ℤ × ℤ → Bool, (∀ r, Before r q → o r = noise 8 true dn ny nx off r) ∧ (∀ r, ¬ Before r q → o r = off r) ∧
      ∀ l, Window o q l → ∀ s : ℕ → ℝ, (∀ k, s k = sampleSd (l.map (dn k))) → s 1 ≤ s 0 → s 2 ≤ s 0 →
        noise 8 true dn ny nx off q = off q := by
  obtain ⟨o, o1, o2, o3⟩ := noise_at dn ny nx off q (mem_interior.2 hq)
  refine ⟨o, o1, o2, ?_⟩
  intro l hl s hs h1 h2
  have h := o3 l hl
  rw [← hs, ← hs, ← hs, excess_cases, if_neg (not_lt.2 (le_trans h2 (le_max_left _ _))), if_neg (not_lt.2 h1)] at h
  rw [Bool.eq_iff_iff, h]
  norm_num

/-- C117, violated: if green has the largest standard deviation and red the second largest one, green is compared with blue, and red does not matter: pixels are masked although
two bands deviate by the same amount. -/
theorem c117_green_violated (dn : ℕ → ℤ × ℤ → ℝ) (ny nx : ℕ) (off : ℤ × ℤ → Bool) (q : ℤ × ℤ)
    (hq : (1 ≤ q.1 ∧ q.1 + 1 < ny) ∧ 1 ≤ q.2 ∧ q.2 + 1 < nx) :
    ∃ o : ℤ × ℤ → Bool, (∀ r, Before r q → o r = noise 8 true dn ny nx off r) ∧ (∀ r, ¬ Before r q → o r = off r) ∧
      ∀ l, Window o q l → ∀ s : ℕ → ℝ, (∀ k, s k = sampleSd (l.map (dn k))) → s 0 + 15 < s 1 → s 2 ≤ s 1 →
        noise 8 true dn ny nx off q = true := by
  obtain ⟨o, o1, o2, o3⟩ := noise_at dn ny nx off q (mem_interior.2 hq)
  refine ⟨o, o1, o2, ?_⟩
  intro l hl s hs h1 h2
  rw [o3 l hl, ← hs, ← hs, ← hs, excess_cases, if_neg (not_lt.2 (le_trans h2 (le_max_right _ _))), if_pos (by linarith)]
  right
  linarith

end Verif.L1
