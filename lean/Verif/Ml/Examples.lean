import Verif.Ml.Prob

/-! # The hypotheses of the theorems can be met -/

namespace Verif.Ml

open Verif.Str (Out)
open Verif.Float (Nearest)
open Spec

/-- Two sets of classifiers, with three models and one. -/
def exPar : Par := ⟨false, false, 0, 1, [(3, 2), (1, 2)]⟩

/-- Their predictions. -/
def exModels : Models := ⟨fun k => ([4, 7, 7, 2] : List Int).getD k 0, fun _ => []⟩

example : Classifiers exPar exModels := by
  refine ⟨rfl, ?_⟩
  intro i nm nc hi
  have hz : ∀ k, ∃ z : Int, exModels.predict k = z ∧ -32768 ≤ z ∧ z ≤ 32767 := by
    intro k
    refine ⟨([4, 7, 7, 2] : List Int).getD k 0, rfl, ?_⟩
    match k with
    | 0 => decide
    | 1 => decide
    | 2 => decide
    | 3 => decide
    | k + 4 => simp
  have hn : 1 ≤ nm := by
    match i, hi with
    | 0, hi => simp [exPar] at hi; omega
    | 1, hi => simp [exPar] at hi; omega
    | i + 2, hi => simp [exPar] at hi
  refine ⟨hn, fun j _ => ⟨fun _ => ?_, fun h => (by cases h), ?_⟩⟩
  · obtain ⟨z, h, _⟩ := hz (first exPar.sets i + j)
    exact ⟨z, h⟩
  · intro cls ha
    obtain ⟨z, h, h1⟩ := hz (first exPar.sets i + j)
    have ha : exModels.predict (first exPar.sets i + j) = cls := ha
    rw [h] at ha
    have : z = cls := by exact_mod_cast ha
    rw [← this]
    exact h1

example : Predicted true none [(1200, true), (300, true)] := ⟨by simp, by decide⟩
example : ¬ Predicted true none [(1200, true), (300, false)] := by
  intro h; have := h.2 rfl (300, false) (by simp); cases this
example : Predicted false none [(1200, true), (300, false)] := ⟨by simp, by simp⟩

/-- A regression with two sets; the first converges with the third of five models. -/
def exReg : Par := ⟨true, false, 1 / 2, 100, [(5, 0), (2, 0)]⟩

/-- The predictions. -/
def exRegModels : Models := ⟨fun k => ([1, 2, 2, 9, 9, 4, 6] : List Int).getD k 0, fun _ => []⟩

example : Regressors exReg exRegModels := by
  refine ⟨rfl, rfl, ?_⟩
  intro i nm nc hi
  have hz : ∀ k, -2147483648 ≤ exRegModels.predict k ∧ exRegModels.predict k ≤ 2147483647 := by
    intro k
    show -2147483648 ≤ ((([1, 2, 2, 9, 9, 4, 6] : List Int).getD k 0 : Int) : ℚ) ∧
      ((([1, 2, 2, 9, 9, 4, 6] : List Int).getD k 0 : Int) : ℚ) ≤ 2147483647
    have : -2147483648 ≤ ([1, 2, 2, 9, 9, 4, 6] : List Int).getD k 0 ∧
      ([1, 2, 2, 9, 9, 4, 6] : List Int).getD k 0 ≤ 2147483647 := by
      match k with
      | 0 => decide
      | 1 => decide
      | 2 => decide
      | 3 => decide
      | 4 => decide
      | 5 => decide
      | 6 => decide
      | k + 7 => simp
    exact ⟨by exact_mod_cast this.1, by exact_mod_cast this.2⟩
  have hn : 1 ≤ nm ∧ nm ≤ 32767 := by
    match i, hi with
    | 0, hi => simp [exReg] at hi; omega
    | 1, hi => simp [exReg] at hi; omega
    | i + 2, hi => simp [exReg] at hi
  exact ⟨hn.1, hn.2, fun j _ => hz _⟩

example : Used (1 / 2) exRegModels (first exReg.sets 0) 5 3 := by
  refine ⟨by decide, fun j hj h => ?_, Or.inl ⟨le_refl _, ?_⟩⟩
  · have := h.1; omega
  · norm_num [meanOf, Finset.sum_range_succ, first, exRegModels]

/-- The second set starts with the sixth model whatever the first one used. -/
example : Used (1 / 2) exRegModels (first exReg.sets 1) 2 2 ∧ meanOf exRegModels (first exReg.sets 1) 2 = 5 := by
  refine ⟨⟨by decide, fun j hj h => ?_, Or.inr rfl⟩, ?_⟩
  · have := h.1; omega
  · norm_num [meanOf, Finset.sum_range_succ, first, exReg, exRegModels]

/-- A forest with three classes and probabilities. -/
def exRf : Par := ⟨false, true, 0, 1, [(2, 3)]⟩

/-- Two models with 10 trees each. -/
def exRfModels : Models :=
  ⟨fun _ => 0, fun k => if k = 0 then [(1, 5), (2, 5), (3, 0)] else [(1, 3), (2, 3), (3, 4)]⟩

example : Classifiers exRf exRfModels := by
  refine ⟨rfl, ?_⟩
  intro i nm nc hi
  match i, hi with
  | 0, hi =>
    simp only [exRf, List.getElem?_cons_zero, Option.some.injEq, Prod.mk.injEq] at hi
    obtain ⟨rfl, rfl⟩ := hi
    refine ⟨by decide, fun j hj => ⟨fun h => (by cases h), fun _ => ?_, ?_⟩⟩
    · match j, hj with
      | 0, _ => exact ⟨rfl, (1, 5), by decide, by decide⟩
      | 1, _ => exact ⟨rfl, (1, 3), by decide, by decide⟩
    · intro cls ha
      obtain ⟨c, n, hw, hc⟩ := ha
      have hall : ∀ (k c : Nat) (x : Int × Int), (exRfModels.votes k)[c]? = some x → -32768 ≤ x.1 ∧ x.1 ≤ 32767 := by
        intro k c x hx
        have hm := List.mem_of_getElem? hx
        unfold exRfModels at hm
        simp only at hm
        split at hm
        · simp only [List.mem_cons, List.not_mem_nil, or_false] at hm
          rcases hm with rfl | rfl | rfl <;> decide
        · simp only [List.mem_cons, List.not_mem_nil, or_false] at hm
          rcases hm with rfl | rfl | rfl <;> decide
      exact hall _ _ _ hc
  | i + 1, hi => simp [exRf] at hi

example : ∀ k c, 0 ≤ votesFor (exRfModels.votes k) c := by
  intro k c
  unfold votesFor
  split
  · rename_i x hx
    have hm := List.mem_of_getElem? hx
    unfold exRfModels at hm
    simp only at hm
    split at hm
    · simp only [List.mem_cons, List.not_mem_nil, or_false] at hm
      rcases hm with rfl | rfl | rfl <;> decide
    · simp only [List.mem_cons, List.not_mem_nil, or_false] at hm
      rcases hm with rfl | rfl | rfl <;> decide
  · exact le_refl _

example : allVotes exRfModels 0 2 3 = 20 ∧ votesOf exRfModels 0 2 0 = 8 ∧ votesOf exRfModels 0 2 1 = 8 := by
  decide +kernel

example : ∃ rd : ℚ → ℚ, ∀ x, Nearest 53 x (rd x) := Verif.Float.exists_round 53 (by norm_num)

end Verif.Ml
