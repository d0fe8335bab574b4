import Mathlib.Data.Fintype.Card
import Mathlib.Tactic.Linarith
import Verif.Unmix.Model

/-! # The unmixing ends -/

namespace Verif.Unmix

open Verif.Str

variable {α : Type} {M : Nat}

/-- The number of passive endmembers. -/
def card (P : Fin M → Bool) : Nat := (Finset.univ.filter fun i => P i = true).card

theorem card_le (P : Fin M → Bool) : card P ≤ M := by
  unfold card
  calc _ ≤ (Finset.univ : Finset (Fin M)).card := Finset.card_le_card (Finset.filter_subset _ _)
    _ = M := by simp

theorem card_add {P : Fin M → Bool} {m : Fin M} (h : P m = false) :
    card (fun i => if i = m then true else P i) = card P + 1 := by
  unfold card
  rw [← Finset.card_insert_of_notMem (a := m) (s := Finset.univ.filter fun i => P i = true)]
  · congr 1
    ext i
    simp only [Finset.mem_filter, Finset.mem_univ, true_and, Finset.mem_insert]
    by_cases hi : i = m <;> simp [hi]
  · simp [h]

theorem card_lt {P : Fin M → Bool} {m : Fin M} (h : P m = false) : card P < M := by
  have := card_le fun i => if i = m then true else P i
  rw [card_add h] at this
  omega

theorem refit_ok {n : Num α} {solve : (Fin M → Bool) → Fin M → α} {st : St α M} {r : St α M × α}
    (h : refit n solve st = .ok r) :
    r.1.P = st.P ∧ r.1.R = st.R ∧ r.1.it = st.it ∧ r.1.d = st.d ∧ r.1.w = st.w ∧
      (r.1.s = fun i => if st.P i then solve st.P i else n.zero) ∧
      ∃ i, pick n.lt n.isnan (solve st.P) ((List.finRange M).filter st.P) = some i ∧ r.2 = solve st.P i := by
  unfold refit at h
  split at h
  · cases h
  · rename_i i hi
    cases h
    exact ⟨rfl, rfl, rfl, rfl, rfl, rfl, i, hi, rfl⟩

theorem shrink_it (n : Num α) (st : St α M) : (shrink n st).it = st.it + 1 := by
  unfold shrink
  dsimp only
  split <;> rfl

/-- The active set is the complement of the passive set. -/
def Compl (st : St α M) : Prop := ∀ i, st.R i = !st.P i

theorem shrink_compl {n : Num α} {st : St α M} (h : Compl st) : Compl (shrink n st) := by
  unfold shrink
  dsimp only
  split
  · exact h
  · intro i
    dsimp only
    split <;> simp [h i]

theorem inner_spec {n : Num α} {solve : (Fin M → Bool) → Fin M → α} :
    ∀ {k : Nat} {st st' : St α M} {x : α}, inner n solve k st x = .ok st' → Compl st →
      Compl st' ∧ st.it ≤ st'.it ∧ st'.it ≤ st.it + k ∧ (st' = st ∨ st.it + 1 ≤ st'.it) := by
  intro k
  induction k with
  | zero =>
    intro st st' x h hc
    cases h
    exact ⟨hc, le_refl _, le_refl _, Or.inl rfl⟩
  | succ k ih =>
    intro st st' x h hc
    unfold inner at h
    split at h
    · cases hr : refit n solve (shrink n st) with
      | ub => rw [hr] at h; cases h
      | exit => rw [hr] at h; cases h
      | ok r =>
        rw [hr] at h
        obtain ⟨e1, e2, e3, -⟩ := refit_ok hr
        have hc' : Compl r.1 := by
          intro i
          rw [e1, e2]
          exact shrink_compl hc i
        obtain ⟨a, b, c, -⟩ := ih h hc'
        rw [e3, shrink_it] at b c
        exact ⟨a, by omega, by omega, Or.inr (by omega)⟩
    · cases h
      exact ⟨hc, le_refl _, by omega, Or.inl rfl⟩

/-- Invariant: the sets are complementary, passive elements have the weight -1, the limit is kept. -/
structure Inv (n : Num α) (itmax : Nat) (st : St α M) : Prop where
  compl : Compl st
  w : ∀ i, st.P i = true → st.w i = n.neg1
  it : st.it ≤ itmax

theorem body_spec {n : Num α} {itmax : Nat} {solve : (Fin M → Bool) → Fin M → α}
    {grad : (Fin M → α) → Fin M → α} {m : Fin M} {st st' : St α M} (hi : Inv n itmax st)
    (hm : st.P m = false) (h : body n itmax solve grad m st = .ok st') :
    Inv n itmax st' ∧ (card st'.P = card st.P + 1 ∧ st'.it = st.it ∨ st.it + 1 ≤ st'.it) := by
  unfold body at h
  cases hr : refit n solve { st with
    P := fun i => if i = m then true else st.P i
    R := fun i => if i = m then false else st.R i } with
  | ub => rw [hr] at h; cases h
  | exit => rw [hr] at h; cases h
  | ok r =>
    rw [hr] at h
    simp only [Out.bind] at h
    obtain ⟨e1, e2, e3, -⟩ := refit_ok hr
    cases hn : inner n solve (itmax - st.it) r.1 r.2 with
    | ub => rw [hn] at h; cases h
    | exit => rw [hn] at h; cases h
    | ok st2 =>
      rw [hn] at h
      cases h
      have hc : Compl r.1 := by
        intro i
        rw [e1, e2]
        dsimp only
        by_cases hi' : i = m
        · simp [hi']
        · simp [hi', hi.compl i]
      obtain ⟨a, b, c, hd⟩ := inner_spec hn hc
      have hit := hi.it
      simp only at e3
      refine ⟨⟨a, ?_, ?_⟩, ?_⟩
      · intro i hi'
        have hp : st2.P i = true := hi'
        show (if st2.R i = true then grad st2.s i else n.neg1) = n.neg1
        rw [if_neg]
        rw [a i, hp]
        simp
      · show st2.it ≤ itmax
        omega
      · rcases hd with rfl | hd
        · left
          refine ⟨?_, e3⟩
          show card r.1.P = _
          rw [e1]
          exact card_add hm
        · right
          show _ ≤ st2.it
          omega

theorem best_mem {better : α → α → Bool} {isnan : α → Bool} {v : Fin M → α} :
    ∀ {l : List (Fin M)} {b : Fin M}, best better isnan v l b = b ∨ best better isnan v l b ∈ l := by
  intro l
  induction l with
  | nil => intro b; exact Or.inl rfl
  | cons i is ih =>
    intro b
    unfold best
    split
    · right; exact List.mem_cons_self
    · split
      · rcases ih (b := i) with h | h
        · right; rw [h]; exact List.mem_cons_self
        · right; exact List.mem_cons_of_mem _ h
      · rcases ih (b := b) with h | h
        · exact Or.inl h
        · right; exact List.mem_cons_of_mem _ h

theorem pick_some {better : α → α → Bool} {isnan : α → Bool} {v : Fin M → α} {l : List (Fin M)}
    {i : Fin M} (h : pick better isnan v l = some i) : i ∈ l := by
  unfold pick at h
  cases l with
  | nil => cases h
  | cons b l =>
    simp only [List.head?_cons, Option.map_some, Option.some.injEq] at h
    rw [← h]
    rcases best_mem (better := better) (isnan := isnan) (v := v) (l := b :: l) (b := b) with h | h
    · rw [h]; exact List.mem_cons_self
    · exact h

theorem enter_some {n : Num α} {itmax : Nat} (hn : n.gt n.neg1 n.tol = false) {st : St α M}
    (hi : Inv n itmax st) {m : Fin M} (h : enter n st = .ok (some m)) : st.P m = false := by
  unfold enter at h
  split at h
  · cases h
  · rename_i k hk
    simp only [Out.ok.injEq] at h
    split at h
    · rename_i hg
      cases h
      rw [Bool.and_eq_true] at hg
      cases hp : st.P m with
      | false => rfl
      | true =>
        rw [hi.w m hp, hn] at hg
        cases hg.2
    · cases h

theorem loop_ends {n : Num α} {itmax : Nat} {solve : (Fin M → Bool) → Fin M → α}
    {grad : (Fin M → α) → Fin M → α} (hn : n.gt n.neg1 n.tol = false) :
    ∀ {fuel : Nat} {st : St α M}, Inv n itmax st → (M - card st.P) + M * (itmax - st.it) ≤ fuel →
      loop n itmax solve grad fuel st ≠ none := by
  intro fuel
  induction fuel with
  | zero =>
    intro st hi hf
    unfold loop
    split
    · simp
    · rename_i m hm
      have := card_lt (enter_some hn hi hm)
      omega
    · simp
  | succ fuel ih =>
    intro st hi hf
    unfold loop
    split
    · simp
    · rename_i m hm
      have hpm := enter_some hn hi hm
      have hlt := card_lt hpm
      split
      · rename_i st' hb
        obtain ⟨hi', hd⟩ := body_spec hi hpm hb
        apply ih hi'
        rcases hd with ⟨h1, h2⟩ | h
        · rw [h1, h2]; omega
        · have h2 := hi'.it
          have : itmax - st.it = (itmax - st'.it) + (st'.it - st.it) := by omega
          have hM : M * (itmax - st'.it) + M ≤ M * (itmax - st.it) := by
            calc M * (itmax - st'.it) + M = M * (itmax - st'.it + 1) := by ring
              _ ≤ _ := Nat.mul_le_mul_left _ (by omega)
          omega
      · simp
    · simp

theorem start_inv (n : Num α) (itmax : Nat) (grad : (Fin M → α) → Fin M → α) :
    Inv n itmax (start n grad) :=
  ⟨fun _ => rfl, fun _ h => absurd h (by simp [start]), Nat.zero_le _⟩

/-- C78: the non-negative unmixing of `M` endmembers ends after at most `M + 30 M²` rounds, whatever the
spectrum and the endmembers are: for every arithmetic (with rounding, infinities and NaN), every result
of the linear algebra, as long as -1 is not greater than the tolerance. -/
theorem c78_terminates (n : Num α) (hn : n.gt n.neg1 n.tol = false)
    (solve : (Fin M → Bool) → Fin M → α) (grad : (Fin M → α) → Fin M → α) :
    ∃ o, nonNeg n solve grad (M + 30 * M * M) = some o := by
  have h := loop_ends (itmax := 30 * M) (solve := solve) (grad := grad) hn
    (fuel := M + 30 * M * M) (start_inv n (30 * M) grad) (by
      have : M * (30 * M) = 30 * M * M := by ring
      show M - card (fun _ : Fin M => false) + M * (30 * M) ≤ _
      omega)
  unfold nonNeg
  cases hl : loop n (30 * M) solve grad (M + 30 * M * M) (start n grad) with
  | none => exact absurd hl h
  | some o => exact ⟨o, rfl⟩

end Verif.Unmix
