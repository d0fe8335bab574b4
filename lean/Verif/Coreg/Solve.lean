import Mathlib.Algebra.BigOperators.Intervals
import Mathlib.Algebra.BigOperators.Ring.Finset
import Mathlib.Tactic.Ring
import Mathlib.Tactic.FieldSimp
import Mathlib.Tactic.Linarith
import Mathlib.Tactic.LinearCombination
import Verif.Coreg.Model
import Verif.Coreg.Spec

namespace Verif.Coreg

/-! ### The pivot -/

theorem pivot_fold (k : Nat) (A : Mat) (l : List Nat) (st : ℚ × Nat) :
    (∀ i ∈ l, |A i k| ≤ |(l.foldl (fun (st : ℚ × Nat) (i : Nat) =>
      if |A i k| ≥ |st.1| then (A i k, i) else st) st).1|) ∧
    |st.1| ≤ |(l.foldl (fun (st : ℚ × Nat) (i : Nat) =>
      if |A i k| ≥ |st.1| then (A i k, i) else st) st).1| ∧
    ((l.foldl (fun (st : ℚ × Nat) (i : Nat) => if |A i k| ≥ |st.1| then (A i k, i) else st) st) = st ∨
     ((l.foldl (fun (st : ℚ × Nat) (i : Nat) => if |A i k| ≥ |st.1| then (A i k, i) else st) st).2 ∈ l ∧
      (l.foldl (fun (st : ℚ × Nat) (i : Nat) => if |A i k| ≥ |st.1| then (A i k, i) else st) st).1 =
       A (l.foldl (fun (st : ℚ × Nat) (i : Nat) => if |A i k| ≥ |st.1| then (A i k, i) else st) st).2 k)) := by
  induction l generalizing st with
  | nil => exact ⟨(fun i hi => by cases hi), le_refl _, Or.inl rfl⟩
  | cons a l ih =>
    simp only [List.foldl_cons]
    by_cases h : |A a k| ≥ |st.1|
    · simp only [h, if_true]
      obtain ⟨h1, h2, h3⟩ := ih (A a k, a)
      refine ⟨fun i hi => ?_, le_trans h h2, Or.inr ?_⟩
      · rcases List.mem_cons.1 hi with rfl | hi
        · exact h2
        · exact h1 i hi
      · rcases h3 with h3 | ⟨h3, h4⟩
        · rw [h3]; exact ⟨List.mem_cons_self, rfl⟩
        · exact ⟨List.mem_cons_of_mem _ h3, h4⟩
    · simp only [h, if_false]
      obtain ⟨h1, h2, h3⟩ := ih st
      refine ⟨fun i hi => ?_, h2, ?_⟩
      · rcases List.mem_cons.1 hi with rfl | hi
        · exact le_trans (le_of_lt (not_le.1 h)) h2
        · exact h1 i hi
      · rcases h3 with h3 | ⟨h3, h4⟩
        · exact Or.inl h3
        · exact Or.inr ⟨List.mem_cons_of_mem _ h3, h4⟩

theorem pivot_spec {n k : Nat} (hk : k < n) (A : Mat) :
    (∀ i, k ≤ i → i < n → |A i k| ≤ |(pivot n k A).1|) ∧
    ((pivot n k A).1 ≠ 0 → k ≤ (pivot n k A).2 ∧ (pivot n k A).2 < n ∧ (pivot n k A).1 = A (pivot n k A).2 k) := by
  obtain ⟨h1, -, h3⟩ := pivot_fold k A (List.range' k (n - k)) (0, 0)
  refine ⟨fun i hi hn => h1 i (List.mem_range'_1.2 ⟨hi, by omega⟩), fun h => ?_⟩
  rcases h3 with h3 | ⟨h3, h4⟩
  · exact absurd (congrArg Prod.fst h3) h
  · have := List.mem_range'_1.1 h3
    exact ⟨this.1, by have := this.2; unfold pivot; omega, h4⟩

/-! ### What the elimination keeps -/

/-- The equations after `k` steps: the first `k` rows are upper triangular with unit diagonal, the
others no longer contain the first `k` unknowns. -/
def Sol (n k : Nat) (A : Mat) (B y : Vec) : Prop :=
  (∀ i, i < k → i < n → y i + ∑ j ∈ Finset.Ico (i + 1) n, A i j * y j = B i) ∧
  (∀ i, k ≤ i → i < n → ∑ j ∈ Finset.Ico k n, A i j * y j = B i)

theorem sol_swap {n k i0 : Nat} (hk : k < n) (h0 : k ≤ i0) (h1 : i0 < n) (A : Mat) (B y : Vec) :
    Sol n k (swapMat k i0 A) (swapVec k i0 B) y ↔ Sol n k A B y := by
  have row : ∀ i, ∑ j ∈ Finset.Ico k n, swapMat k i0 A i j * y j =
      ∑ j ∈ Finset.Ico k n, (if i = k then A i0 j else if i = i0 then A k j else A i j) * y j := by
    intro i
    refine Finset.sum_congr rfl fun j hj => ?_
    rw [swapMat, if_pos (Finset.mem_Ico.1 hj).1]
  have low : ∀ i, i < k → ∀ j, swapMat k i0 A i j = A i j := by
    intro i hi j
    unfold swapMat
    rw [if_neg (by omega : ¬ i = k), if_neg (by omega : ¬ i = i0)]
    split <;> rfl
  constructor
  · rintro ⟨ha, hb⟩
    refine ⟨fun i hi hn => ?_, fun i hi hn => ?_⟩
    · have := ha i hi hn
      simp only [low i hi] at this
      rw [this, swapVec, if_neg (by omega), if_neg (by omega)]
    · by_cases e : i = k
      · have := hb i0 h0 h1
        rw [row] at this
        by_cases e0 : i0 = k
        · rw [e]
          simp only [e0, swapVec, if_true] at this
          exact this
        · simp only [e0, if_false, if_true, swapVec] at this
          rw [e]; exact this
      · by_cases e0 : i = i0
        · have := hb k (le_refl k) hk
          rw [row] at this
          simp only [if_true, swapVec] at this
          rw [e0]; exact this
        · have := hb i hi hn
          rw [row] at this
          simp only [e, e0, if_false, swapVec] at this
          exact this
  · rintro ⟨ha, hb⟩
    refine ⟨fun i hi hn => ?_, fun i hi hn => ?_⟩
    · simp only [low i hi]
      rw [ha i hi hn, swapVec, if_neg (by omega), if_neg (by omega)]
    · rw [row, swapVec]
      by_cases e : i = k
      · simp only [e, if_true]; exact hb i0 h0 h1
      · simp only [e, if_false]
        by_cases e0 : i = i0
        · simp only [e0, if_true]; exact hb k (le_refl k) hk
        · simp only [e0, if_false]; exact hb i hi hn

theorem sol_elim {n k : Nat} (hk : k < n) (A : Mat) (B y : Vec) (h0 : A k k ≠ 0) :
    Sol n (k + 1) (elimMat k (A k k) A) (elimVec k (A k k) A B) y ↔ Sol n k A B y := by
  have low : ∀ i, i < k → ∀ j, elimMat k (A k k) A i j = A i j := by
    intro i hi j
    unfold elimMat
    rw [if_neg (by omega : ¬ i = k), if_neg (by omega : ¬ k < i)]
    split <;> rfl
  have split : ∀ i, ∑ j ∈ Finset.Ico k n, A i j * y j =
      A i k * y k + ∑ j ∈ Finset.Ico (k + 1) n, A i j * y j := fun i =>
    Finset.sum_eq_sum_Ico_succ_bot hk _
  have rk : ∑ j ∈ Finset.Ico (k + 1) n, elimMat k (A k k) A k j * y j =
      (∑ j ∈ Finset.Ico (k + 1) n, A k j * y j) / A k k := by
    rw [div_eq_mul_inv, Finset.sum_mul]
    refine Finset.sum_congr rfl fun j hj => ?_
    have := (Finset.mem_Ico.1 hj).1
    rw [elimMat, if_pos (by omega), if_pos rfl]
    field_simp
  have ri : ∀ i, k < i → ∑ j ∈ Finset.Ico (k + 1) n, elimMat k (A k k) A i j * y j =
      (∑ j ∈ Finset.Ico (k + 1) n, A i j * y j) - A i k / A k k * ∑ j ∈ Finset.Ico (k + 1) n, A k j * y j := by
    intro i hi
    rw [Finset.mul_sum, ← Finset.sum_sub_distrib]
    refine Finset.sum_congr rfl fun j hj => ?_
    have := (Finset.mem_Ico.1 hj).1
    rw [elimMat, if_pos (by omega), if_neg (by omega), if_pos hi]
    field_simp
  constructor
  · rintro ⟨ha, hb⟩
    have hkk : A k k * y k + ∑ j ∈ Finset.Ico (k + 1) n, A k j * y j = B k := by
      have := ha k (by omega) hk
      rw [rk, elimVec, if_pos rfl] at this
      field_simp at this
      linarith
    refine ⟨fun i hi hn => ?_, fun i hi hn => ?_⟩
    · have := ha i (by omega) hn
      simp only [low i hi] at this
      rw [this, elimVec, if_neg (by omega), if_neg (by omega)]
    · rw [split]
      by_cases e : i = k
      · rw [e]; exact hkk
      · have hki : k < i := by omega
        have := hb i (by omega) hn
        rw [ri i hki, elimVec, if_neg e, if_pos hki] at this
        have hy : B k - ∑ j ∈ Finset.Ico (k + 1) n, A k j * y j = A k k * y k := by linarith
        have hB : B k / A k k * A i k - A i k / A k k * ∑ j ∈ Finset.Ico (k + 1) n, A k j * y j =
            A i k * y k := by
          have : B k / A k k * A i k - A i k / A k k * ∑ j ∈ Finset.Ico (k + 1) n, A k j * y j =
            A i k / A k k * (B k - ∑ j ∈ Finset.Ico (k + 1) n, A k j * y j) := by ring
          rw [this, hy]; field_simp
        linarith
  · rintro ⟨ha, hb⟩
    have hkk := hb k (le_refl k) hk
    rw [split] at hkk
    refine ⟨fun i hi hn => ?_, fun i hi hn => ?_⟩
    · by_cases e : i = k
      · rw [e, rk, elimVec, if_pos rfl, ← hkk]
        field_simp
      · have hik : i < k := by omega
        simp only [low i hik]
        rw [ha i hik hn, elimVec, if_neg e, if_neg (by omega)]
    · have hki : k < i := by omega
      have hi' := hb i (by omega) hn
      rw [split] at hi'
      rw [ri i hki, elimVec, if_neg (by omega), if_pos hki, ← hi', ← hkk]
      field_simp
      ring

theorem stage_some {n k : Nat} (hk : k < n) {s s' : Mat × Vec} (h : stage n s k = some s') (y : Vec) :
    Sol n (k + 1) s'.1 s'.2 y ↔ Sol n k s.1 s.2 y := by
  unfold stage at h
  dsimp only at h
  split at h
  · cases h
  · rename_i hp
    have hp0 : (pivot n k s.1).1 ≠ 0 := fun e => hp (by rw [e]; simp)
    obtain ⟨h1, h2, h3⟩ := (pivot_spec hk s.1).2 hp0
    have e : swapMat k (pivot n k s.1).2 s.1 k k = (pivot n k s.1).1 := by
      rw [swapMat, if_pos (le_refl k), if_pos rfl, ← h3]
    rw [← Option.some.inj h]
    have := sol_elim (n := n) hk (swapMat k (pivot n k s.1).2 s.1) (swapVec k (pivot n k s.1).2 s.2) y
      (by rw [e]; exact hp0)
    rw [e] at this
    rw [this]
    exact sol_swap hk h1 h2 _ _ _

theorem stages_some {n : Nat} (m k : Nat) (hm : k + m ≤ n) {s s' : Mat × Vec}
    (h : (List.range' k m).foldlM (stage n) s = some s') (y : Vec) :
    Sol n (k + m) s'.1 s'.2 y ↔ Sol n k s.1 s.2 y := by
  induction m generalizing k s with
  | zero =>
    have : s = s' := Option.some.inj h
    rw [this]; rfl
  | succ m ih =>
    rw [List.range'_succ, List.foldlM_cons] at h
    cases hs : stage n s k with
    | none => rw [hs] at h; cases h
    | some t =>
      rw [hs] at h
      have := ih (k + 1) (by omega) h
      rw [show k + (m + 1) = k + 1 + m by omega, this]
      exact stage_some (by omega) hs y

/-! ### Back substitution -/

theorem listSum_range' (g : Nat → ℚ) (a m : Nat) :
    ((List.range' a m).map g).sum = ∑ j ∈ Finset.Ico a (a + m), g j := by
  induction m generalizing a with
  | zero => simp
  | succ m ih =>
    rw [List.range'_succ, List.map_cons, List.sum_cons, ih,
      Finset.sum_eq_sum_Ico_succ_bot (by omega : a < a + (m + 1)), show a + 1 + m = a + (m + 1) by omega]

theorem back_fold (n : Nat) (A : Mat) (y : Vec) (m : Nat) (hm : m + 1 ≤ n) (B B0 : Vec)
    (hB : ∀ i, m ≤ i → i < n → B i = y i) (hB' : ∀ i, i < m → B i = B0 i)
    (hy : ∀ i, i < m → y i = B0 i - ∑ j ∈ Finset.Ico (i + 1) n, A i j * y j) :
    ∀ i, i < n → (List.range m).reverse.foldl (fun (B : Vec) (i : Nat) => fun (r : Nat) =>
      if r = i then B i - ((List.range' (i + 1) (n - (i + 1))).map (fun j => A i j * B j)).sum else B r) B i = y i := by
  induction m generalizing B with
  | zero => intro i hi; exact hB i (Nat.zero_le _) hi
  | succ m ih =>
    rw [List.range_succ, List.reverse_append, List.reverse_singleton, List.singleton_append, List.foldl_cons]
    refine ih (by omega) _ (fun i hi hn => ?_) (fun i hi => ?_) (fun i hi => hy i (by omega))
    · by_cases e : i = m
      · rw [if_pos e, listSum_range', show m + 1 + (n - (m + 1)) = n by omega, hB' m (by omega), e, hy m (by omega)]
        refine congrArg _ (Finset.sum_congr rfl fun j hj => ?_)
        have := Finset.mem_Ico.1 hj
        rw [hB j (by omega) this.2]
      · rw [if_neg e]; exact hB i (by omega) hn
    · rw [if_neg (by omega)]; exact hB' i (by omega)

/-- There is exactly one solution of a triangular system (as far as the first `n` unknowns matter). -/
theorem triangular (n : Nat) (A : Mat) (B : Vec) (m : Nat) (hm : m ≤ n) :
    ∃ y : Vec, ∀ i, n - m ≤ i → i < n → y i + ∑ j ∈ Finset.Ico (i + 1) n, A i j * y j = B i := by
  induction m with
  | zero => exact ⟨fun _ => 0, fun i h1 h2 => by omega⟩
  | succ m ih =>
    obtain ⟨y, hy⟩ := ih (by omega)
    refine ⟨fun i => if i = n - (m + 1) then
      B i - ∑ j ∈ Finset.Ico (i + 1) n, A i j * y j else y i, fun i h1 h2 => ?_⟩
    have hs : ∑ j ∈ Finset.Ico (i + 1) n, A i j * (if j = n - (m + 1) then
        B j - ∑ l ∈ Finset.Ico (j + 1) n, A j l * y l else y j) = ∑ j ∈ Finset.Ico (i + 1) n, A i j * y j := by
      refine Finset.sum_congr rfl fun j hj => ?_
      have := Finset.mem_Ico.1 hj
      rw [if_neg (by omega)]
    rw [hs]
    dsimp only
    by_cases e : i = n - (m + 1)
    · rw [if_pos e]; ring
    · rw [if_neg e]; exact hy i (by omega) h2

theorem triangular_unique {n : Nat} {A : Mat} {y z : Vec}
    (h : ∀ i, i < n → y i + ∑ j ∈ Finset.Ico (i + 1) n, A i j * y j = z i + ∑ j ∈ Finset.Ico (i + 1) n, A i j * z j) :
    ∀ m, ∀ i, n - m ≤ i → i < n → y i = z i := by
  intro m
  induction m with
  | zero => intro i h1 h2; omega
  | succ m ih =>
    intro i h1 h2
    have hs : ∑ j ∈ Finset.Ico (i + 1) n, A i j * y j = ∑ j ∈ Finset.Ico (i + 1) n, A i j * z j := by
      refine Finset.sum_congr rfl fun j hj => ?_
      have := Finset.mem_Ico.1 hj
      rw [ih j (by omega) this.2]
    have := h i h2
    rw [hs] at this
    linarith

theorem back_spec {n : Nat} (A : Mat) (B : Vec) (y : Vec)
    (hy : ∀ i, i < n → y i + ∑ j ∈ Finset.Ico (i + 1) n, A i j * y j = B i) :
    ∀ i, i < n → back n A B i = y i := by
  rcases Nat.eq_zero_or_pos n with rfl | hn
  · intro i hi; omega
  · unfold back
    refine back_fold n A y (n - 1) (by omega) B B (fun i h1 h2 => ?_) (fun _ _ => rfl) (fun i hi => ?_)
    · have := hy i h2
      rw [show i = n - 1 by omega, show n - 1 + 1 = n by omega] at this
      rw [show i = n - 1 by omega]
      simpa using this.symm
    · rw [← hy i (by omega)]; ring

/-! ### No pivot -/

theorem stage_none {n k : Nat} (hk : k < n) {s : Mat × Vec} (h : stage n s k = none) :
    ∀ i, k ≤ i → i < n → s.1 i k = 0 := by
  unfold stage at h
  dsimp only at h
  split at h
  · rename_i hp
    intro i h1 h2
    have := (pivot_spec hk s.1).1 i h1 h2
    have h0 : |s.1 i k| ≤ 0 := le_trans this hp
    exact abs_eq_zero.1 (le_antisymm h0 (abs_nonneg _))
  · cases h

theorem elimVec_zero (k : Nat) (C : ℚ) (A : Mat) : elimVec k C A (fun _ => 0) = fun _ => 0 := by
  funext i; unfold elimVec; simp

theorem swapVec_zero (k i0 : Nat) : swapVec k i0 (fun _ => 0) = fun _ => 0 := by
  funext i; unfold swapVec; simp

/-- The matrices do not depend on the right hand side. -/
theorem stage_zero {n k : Nat} (A : Mat) (B : Vec) :
    stage n (A, fun _ => 0) k = (stage n (A, B) k).map (fun s => (s.1, fun _ => 0)) := by
  unfold stage
  dsimp only
  rw [swapVec_zero, elimVec_zero]
  split <;> rfl

theorem stages_zero {n : Nat} (l : List Nat) (A : Mat) (B : Vec) :
    l.foldlM (stage n) (A, fun _ => 0) = (l.foldlM (stage n) (A, B)).map (fun s => (s.1, fun _ => 0)) := by
  induction l generalizing A B with
  | nil => rfl
  | cons k l ih =>
    rw [List.foldlM_cons, List.foldlM_cons, stage_zero A B]
    cases stage n (A, B) k with
    | none => rfl
    | some s => exact ih s.1 s.2

theorem stages_none {n : Nat} (m k : Nat) (hm : k + m ≤ n) {s : Mat × Vec}
    (h : (List.range' k m).foldlM (stage n) s = none) :
    ∃ k' s', k ≤ k' ∧ k' < k + m ∧ (List.range' k (k' - k)).foldlM (stage n) s = some s' ∧ stage n s' k' = none := by
  induction m generalizing k s with
  | zero => cases h
  | succ m ih =>
    rw [List.range'_succ, List.foldlM_cons] at h
    cases hs : stage n s k with
    | none => exact ⟨k, s, le_refl k, by omega, by rw [Nat.sub_self]; rfl, hs⟩
    | some t =>
      rw [hs] at h
      obtain ⟨k', s', h1, h2, h3, h4⟩ := ih (k + 1) (by omega) h
      refine ⟨k', s', by omega, by omega, ?_, h4⟩
      rw [show k' - k = (k' - (k + 1)) + 1 by omega, List.range'_succ, List.foldlM_cons, hs]
      exact h3

/-- A system whose `k`-th column vanishes from row `k` on has a solution that is not zero. -/
theorem kernel {n k : Nat} (hk : k < n) (A : Mat) (h : ∀ i, k ≤ i → i < n → A i k = 0) :
    ∃ y : Vec, y k = 1 ∧ Sol n k A (fun _ => 0) y := by
  -- unknowns beyond `k` are zero, the `k`-th is one, the others follow
  obtain ⟨y, hy⟩ := triangular k A (fun i => - A i k) k (le_refl k)
  refine ⟨fun j => if j < k then y j else if j = k then 1 else 0, by simp, fun i hi hn => ?_, fun i hi hn => ?_⟩
  · dsimp only
    rw [if_pos hi, ← Finset.sum_Ico_consecutive _ (by omega : i + 1 ≤ k) (by omega : k ≤ n),
      Finset.sum_eq_sum_Ico_succ_bot hk]
    have h1 : ∑ j ∈ Finset.Ico (i + 1) k, A i j * (if j < k then y j else if j = k then (1 : ℚ) else 0) =
        ∑ j ∈ Finset.Ico (i + 1) k, A i j * y j := by
      refine Finset.sum_congr rfl fun j hj => ?_
      rw [if_pos (Finset.mem_Ico.1 hj).2]
    have h2 : ∑ j ∈ Finset.Ico (k + 1) n, A i j * (if j < k then y j else if j = k then (1 : ℚ) else 0) = 0 := by
      refine Finset.sum_eq_zero fun j hj => ?_
      have := (Finset.mem_Ico.1 hj).1
      rw [if_neg (by omega), if_neg (by omega), mul_zero]
    rw [h1, h2, if_neg (lt_irrefl k), if_pos rfl]
    have := hy i (by omega) hi
    linarith
  · rw [Finset.sum_eq_sum_Ico_succ_bot hk]
    dsimp only
    have h2 : ∑ j ∈ Finset.Ico (k + 1) n, A i j * (if j < k then y j else if j = k then (1 : ℚ) else 0) = 0 := by
      refine Finset.sum_eq_zero fun j hj => ?_
      have := (Finset.mem_Ico.1 hj).1
      rw [if_neg (by omega), if_neg (by omega), mul_zero]
    rw [h2, h i hi hn, zero_mul, add_zero]

theorem sol_zero {n : Nat} {A : Mat} {B y : Vec} : Sol n 0 A B y ↔ Spec.Solves n A B y := by
  unfold Sol Spec.Solves
  simp only [Finset.range_eq_Ico]
  constructor
  · rintro ⟨-, h⟩ i hi; exact h i (Nat.zero_le _) hi
  · intro h; exact ⟨fun i hi => by omega, fun i _ hi => h i hi⟩

/-- C225: if the routine reports success, what it returns solves the equations, and nothing else does. -/
theorem c225_solution {n : Nat} {A A' : Mat} {B x : Vec} (h : solve n A B = some (A', x)) (y : Vec) :
    Spec.Solves n A B y ↔ ∀ i, i < n → y i = x i := by
  unfold solve at h
  cases hs : (List.range n).foldlM (stage n) (A, B) with
  | none => rw [hs] at h; cases h
  | some s =>
    rw [hs] at h
    have hx : back n s.1 s.2 = x := congrArg Prod.snd (Option.some.inj h)
    rw [List.range_eq_range'] at hs
    have key : ∀ z, Spec.Solves n A B z ↔ ∀ i, i < n → z i + ∑ j ∈ Finset.Ico (i + 1) n, s.1 i j * z j = s.2 i := by
      intro z
      rw [← sol_zero, ← stages_some n 0 (by omega) hs z, Nat.zero_add]
      unfold Sol
      constructor
      · rintro ⟨h1, -⟩ i hi; exact h1 i hi hi
      · intro h1; exact ⟨fun i _ hi => h1 i hi, fun i h2 h3 => by omega⟩
    obtain ⟨z, hz⟩ := triangular n s.1 s.2 n (le_refl n)
    have hz' : ∀ i, i < n → z i + ∑ j ∈ Finset.Ico (i + 1) n, s.1 i j * z j = s.2 i := fun i hi => hz i (by omega) hi
    have hb := back_spec s.1 s.2 z hz'
    rw [hx] at hb
    rw [key]
    constructor
    · intro hy i hi
      rw [hb i hi]
      exact triangular_unique (fun i hi => (hy i hi).trans (hz' i hi).symm) n i (by omega) hi
    · intro hy i hi
      rw [← hz' i hi, hy i hi, hb i hi]
      refine congrArg _ (Finset.sum_congr rfl fun j hj => ?_)
      have := Finset.mem_Ico.1 hj
      rw [hy j this.2, hb j this.2]

/-- C225: the routine reports failure exactly if the matrix is singular. -/
theorem c225_singular (n : Nat) (A : Mat) (B : Vec) : solve n A B = none ↔ Spec.Singular n A := by
  constructor
  · intro h
    unfold solve at h
    rw [Option.map_eq_none_iff, List.range_eq_range'] at h
    have h0 : (List.range' 0 n).foldlM (stage n) (A, fun _ => 0) = none := by
      rw [stages_zero _ A B, h]; rfl
    obtain ⟨k, s, -, hk, h3, h4⟩ := stages_none n 0 (by omega) h0
    rw [Nat.sub_zero] at h3
    have hs2 : s.2 = fun _ => 0 := by
      rw [stages_zero _ A (fun _ => 0)] at h3
      obtain ⟨t, -, ht⟩ := Option.map_eq_some_iff.1 h3
      rw [← ht]
    obtain ⟨y, hy1, hy⟩ := kernel (by omega : k < n) s.1 (stage_none (by omega) h4)
    refine ⟨y, ⟨k, by omega, by rw [hy1]; exact one_ne_zero⟩, ?_⟩
    rw [← hs2] at hy
    have := (stages_some k 0 (by omega) h3 y).1 (by rw [Nat.zero_add]; exact hy)
    exact sol_zero.1 this
  · rintro ⟨y, ⟨j, hj, hne⟩, hy⟩
    cases hs : solve n A B with
    | none => rfl
    | some r =>
      exfalso
      obtain ⟨A', x⟩ := r
      have hx : Spec.Solves n A B x := (c225_solution hs x).2 (fun _ _ => rfl)
      have : Spec.Solves n A B (fun i => x i + y i) := by
        intro i hi
        have h1 := hx i hi
        have h2 := hy i hi
        simp only [mul_add, Finset.sum_add_distrib]
        rw [h1, h2, add_zero]
      have := (c225_solution hs _).1 this j hj
      exact hne (by linarith)

end Verif.Coreg
