import Verif.Pca.Model
import Mathlib.Algebra.BigOperators.Ring.Finset
import Mathlib.Algebra.BigOperators.Field
import Mathlib.Algebra.Order.Field.Rat
import Mathlib.Tactic.Ring
import Mathlib.Tactic.Linarith
import Mathlib.Tactic.FieldSimp
import Mathlib.Tactic.FinCases

/-! # Theorems on the principal component analysis -/

namespace Verif.Pca

variable {nb nc : Nat}

/-- Eigenvalues in descending order, and a matrix whose columns are orthonormal eigenvectors. -/
structure Eigen (c : Fin nb → Fin nb → ℚ) (s : Solution nb) : Prop where
  eigen : ∀ a k, ∑ b, c a b * s.evec b k = s.eval k * s.evec a k
  ortho : ∀ k l, ∑ a, s.evec a k * s.evec a l = if k = l then 1 else 0
  order : ∀ k l, k ≤ l → s.eval l ≤ s.eval k

/-- The sum of products of two results over the valid pixels, divided by their number minus one. -/
def covariance (m : Image nb nc) (r : Fin nc → ℚ) (r' : Fin nc → ℚ) : ℚ :=
  (∑ p ∈ Finset.univ.filter fun p => m.invalid p = false, r p * r' p) / ((m.nk : ℚ) - 1)

theorem cov_projected (m : Image nb nc) (s : Solution nb) (a b : Fin nb) :
    covariance m (fun p => m.projected s p a) (fun p => m.projected s p b) =
      ∑ i, ∑ j, s.evec a i * m.cov i j * s.evec b j := by
  unfold covariance Image.projected Image.cov
  have e : ∀ p, (∑ j, m.centred p j * s.evec a j) * (∑ j, m.centred p j * s.evec b j) =
      ∑ i, ∑ j, s.evec a i * (m.centred p i * m.centred p j) * s.evec b j := by
    intro p
    rw [Finset.sum_mul_sum]
    refine Finset.sum_congr rfl fun i _ => Finset.sum_congr rfl fun j _ => by ring
  simp only [e]
  rw [Finset.sum_comm]
  rw [Finset.sum_div]
  refine Finset.sum_congr rfl fun i _ => ?_
  rw [Finset.sum_comm, Finset.sum_div]
  refine Finset.sum_congr rfl fun j _ => ?_
  rw [← Finset.sum_mul, ← Finset.mul_sum, div_eq_mul_inv, one_div]
  ring

/-- C102: if the matrix of eigenvectors happens to be symmetric, the components are uncorrelated and their variances are the
eigenvalues, in descending order. -/
theorem c102_components_partial (m : Image nb nc) (s : Solution nb) (h : Eigen m.cov s)
    (hsym : ∀ a b, s.evec a b = s.evec b a) (a b : Fin nb) :
    covariance m (fun p => m.projected s p a) (fun p => m.projected s p b) = if a = b then s.eval a else 0 := by
  rw [cov_projected]
  have h1 : ∀ i, ∑ j, s.evec a i * m.cov i j * s.evec b j = s.evec a i * (s.eval b * s.evec i b) := by
    intro i
    rw [← h.eigen i b, Finset.mul_sum]
    refine Finset.sum_congr rfl fun j _ => ?_
    rw [hsym b j]; ring
  simp only [h1]
  have h2 : ∀ i, s.evec a i * (s.eval b * s.evec i b) = s.eval b * (s.evec i a * s.evec i b) := by
    intro i
    rw [hsym a i]; ring
  simp only [h2]
  rw [← Finset.mul_sum, h.ortho]
  by_cases hab : a = b
  · simp [hab]
  · simp [hab]

/-- C102: all components together keep the squared distance of any two pixels (for an orthogonal matrix: the rows are orthonormal, too). -/
theorem c102_distance (m : Image nb nc) (s : Solution nb)
    (hrow : ∀ i j, ∑ k, s.evec k i * s.evec k j = if i = j then 1 else 0) (p q : Fin nc) :
    ∑ b, (m.projected s p b - m.projected s q b) ^ 2 = ∑ b, ((m.inp b p : ℚ) - m.inp b q) ^ 2 := by
  have e : ∀ b, m.projected s p b - m.projected s q b = ∑ j, ((m.inp j p : ℚ) - m.inp j q) * s.evec b j := by
    intro b
    unfold Image.projected Image.centred
    rw [← Finset.sum_sub_distrib]
    refine Finset.sum_congr rfl fun j _ => by ring
  have e2 : ∀ b, (m.projected s p b - m.projected s q b) ^ 2 =
      ∑ i, ∑ j, ((m.inp i p : ℚ) - m.inp i q) * ((m.inp j p : ℚ) - m.inp j q) * (s.evec b i * s.evec b j) := by
    intro b
    rw [e, sq, Finset.sum_mul_sum]
    refine Finset.sum_congr rfl fun i _ => Finset.sum_congr rfl fun j _ => by ring
  simp only [e2]
  rw [Finset.sum_comm]
  refine Finset.sum_congr rfl fun i _ => ?_
  rw [Finset.sum_comm]
  have e3 : ∀ j, ∑ b, ((m.inp i p : ℚ) - m.inp i q) * ((m.inp j p : ℚ) - m.inp j q) * (s.evec b i * s.evec b j) =
      if i = j then ((m.inp i p : ℚ) - m.inp i q) * ((m.inp j p : ℚ) - m.inp j q) else 0 := by
    intro j
    rw [← Finset.mul_sum, hrow]
    split <;> simp
  simp only [e3]
  rw [Finset.sum_ite_eq]
  simp [sq]

/-- C102: pixels that are masked or where a band is nodata are nodata in all bands that are kept. -/
theorem c102_nodata (m : Image nb nc) (solve : (Fin nb → Fin nb → ℚ) → Solution nb) (minvar : ℚ) (b : Fin nb) (p : Fin nc)
    (h : m.masked p = true ∨ ∃ b, m.inp b p = m.nodata) (hb : b.val < numcomp minvar (solve m.cov)) :
    m.pca solve minvar b p = some (m.nodata : ℚ) := by
  unfold Image.pca
  simp only
  rw [if_neg (by omega), if_pos]
  unfold Image.invalid
  rcases h with h | h
  · rw [h, Bool.true_or]
  · rw [decide_eq_true h, Bool.or_true]

theorem search_spec (minvar total : ℚ) (l : List ℚ) (cum : ℚ) (b n : Nat) :
    search minvar total l cum b = some n ↔ b < n ∧ n ≤ b + l.length ∧ (cum + (l.take (n - b)).sum) / total > minvar ∧
      ∀ k, b < k → k < n → ¬ (cum + (l.take (k - b)).sum) / total > minvar := by
  induction l generalizing cum b with
  | nil =>
    simp only [search, List.length_nil]
    constructor
    · simp
    · rintro ⟨h1, h2, _⟩; omega
  | cons e t ih =>
    unfold search
    by_cases h : (cum + e) / total > minvar
    · rw [if_pos h]
      constructor
      · rintro ⟨⟩
        refine ⟨by omega, by simp, ?_, fun k h1 h2 => by omega⟩
        rw [show b + 1 - b = 1 by omega]
        simpa using h
      · rintro ⟨h1, _, _, h4⟩
        by_contra hne
        have hlt : b + 1 < n := by
          rcases Nat.lt_or_ge (b + 1) n with h5 | h5
          · exact h5
          · exact absurd (congrArg some (by omega : b + 1 = n)) hne
        have := h4 (b + 1) (by omega) hlt
        rw [show b + 1 - b = 1 by omega] at this
        apply this
        simpa using h
    · rw [if_neg h, ih]
      have e1 : ∀ k, b + 1 < k → (cum + ((e :: t).take (k - b)).sum) = (cum + e + (t.take (k - (b + 1))).sum) := by
        intro k hk
        rw [show k - b = (k - (b + 1)) + 1 by omega, List.take_succ_cons, List.sum_cons]; ring
      constructor
      · rintro ⟨h1, h2, h3, h4⟩
        refine ⟨by omega, by simp only [List.length_cons]; omega, by rw [e1 n h1]; exact h3, ?_⟩
        intro k hk1 hk2
        rcases Nat.lt_or_ge (b + 1) k with h5 | h5
        · rw [e1 k h5]; exact h4 k h5 hk2
        · rw [show k - b = 1 by omega]
          simpa using h
      · rintro ⟨h1, h2, h3, h4⟩
        have hlt : b + 1 < n := by
          rcases Nat.lt_or_ge (b + 1) n with h5 | h5
          · exact h5
          · exfalso
            rw [show n - b = 1 by omega] at h3
            apply h
            simpa using h3
        refine ⟨hlt, by simp only [List.length_cons] at h2; omega, by rw [← e1 n hlt]; exact h3, ?_⟩
        intro k hk1 hk2
        rw [← e1 k hk1]; exact h4 k (by omega) hk2

/-- C102: the smallest number of components is kept whose eigenvalues sum up to more than the requested share of the total
variance. -/
theorem c102_number (minvar : ℚ) (s : Solution nb) (n : Nat) (h0 : 0 < n) (hn : n ≤ nb)
    (hm : minvar < 1) (hshare : ((List.ofFn s.eval).take n).sum / (∑ b, s.eval b) > minvar)
    (hless : ∀ k, 0 < k → k < n → ((List.ofFn s.eval).take k).sum / (∑ b, s.eval b) ≤ minvar) :
    numcomp minvar s = n := by
  unfold numcomp
  rw [if_pos hm, (search_spec minvar (∑ b, s.eval b) (List.ofFn s.eval) 0 0 n).2]
  · rfl
  · refine ⟨h0, by simpa using hn, by simpa using hshare, ?_⟩
    intro k h1 h2
    simpa using hless k h1 h2

/-- C102: if no number of components has more than the requested share (or a share of one is requested), all are kept. -/
theorem c102_all (minvar : ℚ) (s : Solution nb)
    (h : 1 ≤ minvar ∨ ∀ k, 0 < k → k ≤ nb → ((List.ofFn s.eval).take k).sum / (∑ b, s.eval b) ≤ minvar) :
    numcomp minvar s = nb := by
  unfold numcomp
  by_cases hm : minvar < 1
  · rw [if_pos hm]
    have h' := h.resolve_left (not_le.2 hm)
    cases hs : search minvar (∑ b, s.eval b) (List.ofFn s.eval) 0 0 with
    | none => rfl
    | some n =>
      obtain ⟨h1, h2, h3, _⟩ := (search_spec _ _ _ _ _ _).1 hs
      have := h' n h1 (by simpa using h2)
      simp only [zero_add, Nat.sub_zero] at h3
      exact absurd h3 (not_lt.2 this)
  · rw [if_neg hm]

/-- C102: exactly the bands up to the number of kept components are in the result, for every pixel. -/
theorem c102_bands (m : Image nb nc) (solve : (Fin nb → Fin nb → ℚ) → Solution nb) (minvar : ℚ) (n : Nat)
    (hn : numcomp minvar (solve m.cov) = n) (b : Fin nb) (p : Fin nc) :
    (m.pca solve minvar b p).isSome ↔ b.val < n := by
  unfold Image.pca
  simp only [hn]
  by_cases h : b.val ≥ n
  · rw [if_pos h]; simp; omega
  · rw [if_neg h]
    split <;> simp <;> omega

/-- The image of the counterexample: two bands, four pixels. -/
def turned : Image 2 4 :=
  { inp := fun b p => if b = 0 then [6, -6, -4, 4].getD p.val 0 else [8, -8, 3, -3].getD p.val 0
    masked := fun _ => false
    nodata := -9999 }

/-- Its eigenvectors. -/
def turnedSolution : Solution 2 :=
  { eval := fun k => if k = 0 then 200 / 3 else 50 / 3
    evec := fun a k => if a = 0 then (if k = 0 then 3 / 5 else -4 / 5) else (if k = 0 then 4 / 5 else 3 / 5) }

/-- C102, violated: the data are multiplied with the transposed matrix, so that the components are not the projections on the
eigenvectors: for an image with two bands, the components are correlated, and the first, which has most of the variance
according to its eigenvalue, has less variance than the second one (which may be dropped). -/
theorem c102_transposed_violated : ∃ (m : Image 2 4) (s : Solution 2), Eigen m.cov s ∧ numcomp (7 / 10) s = 1 ∧
    covariance m (fun p => m.projected s p 0) (fun p => m.projected s p 1) ≠ 0 ∧
    covariance m (fun p => m.projected s p 0) (fun p => m.projected s p 0) <
      covariance m (fun p => m.projected s p 1) (fun p => m.projected s p 1) := by
  have hc : ∀ a b, turned.cov a b = if a = 0 then (if b = 0 then 104 / 3 else 24) else (if b = 0 then 24 else 146 / 3) := by
    decide +kernel
  refine ⟨turned, turnedSolution, ⟨?_, ?_, ?_⟩, ?_, ?_, ?_⟩
  · intro a k
    simp only [hc]
    revert a k
    decide +kernel
  · decide +kernel
  · decide +kernel
  · decide +kernel
  · decide +kernel
  · decide +kernel

/-- C102, violated: the mean of a band includes pixels that are left out because another band is nodata, but is divided by the number of
complete pixels: with one complete pixel, it is not centred at zero. -/
theorem c102_mean_violated (x y z nodata : Int) (hx : x ≠ nodata) (hy : y ≠ nodata) (hz : z ≠ nodata) :
    let m : Image 2 2 := { inp := fun b p => if b = 0 then (if p = 0 then x else y) else (if p = 0 then z else nodata)
                           masked := fun _ => false, nodata := nodata }
    m.invalid 0 = false ∧ m.invalid 1 = true ∧ m.centred 0 0 = -y := by
  intro m
  have h0 : m.invalid 0 = false := by
    simp [Image.invalid, m, hx, hz, Fin.exists_fin_two]
  have h1 : m.invalid 1 = true := by
    simp [Image.invalid, m, Fin.exists_fin_two]
  refine ⟨h0, h1, ?_⟩
  have hk : m.nk = 1 := by
    unfold Image.nk
    rw [show (Finset.univ.filter fun p => m.invalid p = false) = {0} by
      ext p
      fin_cases p
      · simpa using h0
      · simpa using h1]
    simp
  unfold Image.centred Image.mean
  rw [hk, Fin.sum_univ_two]
  simp [m, hx, hy]

end Verif.Pca
