import Mathlib.Order.Interval.Finset.Defs
import Mathlib.Order.Interval.Set.Basic
import Mathlib.Data.Int.Interval
import Mathlib.Data.Fintype.EquivFin
import Mathlib.Data.Set.Finite.Basic
import Mathlib.Data.Finite.Prod
import Mathlib.Data.Fintype.Prod
import Mathlib.Data.Fintype.Pigeonhole
import Mathlib.Order.Interval.Set.Infinite
import Mathlib.Logic.Function.Iterate
import Mathlib.Algebra.Group.Prod
import Mathlib.Tactic.Abel
import Verif.Ccl.Dir

/-! # Contours are closed -/

namespace Verif.Ccl

/-- The neighbours of a pixel. -/
def nb (F : Px → Bool) (c : Px) : Fin 8 → Bool := fun d => F (c + vec d)

/-- Pixel, and the direction in which the search starts. -/
abbrev State := Px × Fin 8

def Good (F : Px → Bool) (σ : State) : Prop := F σ.1 = true ∧ good (nb F σ.1) σ.2 = true

/-- The next pixel of the contour. -/
def next (F : Px → Bool) (σ : State) : State :=
  match search (nb F σ.1) 7 σ.2 with
  | some d => (σ.1 + vec d, d + 6)
  | none => σ

/-- There are finitely many set pixels. -/
def Bounded (F : Px → Bool) (ny nx : Nat) : Prop :=
  ∀ p, F p = true → 0 ≤ p.1 ∧ p.1 < ny ∧ 0 ≤ p.2 ∧ p.2 < nx

theorem vec_opp (c : Px) : ∀ d, c + vec d + vec (d + 4) = c := by
  have : ∀ d, vec d + vec (d + 4) = 0 := by decide
  intro d; rw [add_assoc, this, add_zero]

theorem vec_e5 (c : Px) : ∀ d, even d = true → c + vec d + vec (d + 5) = c + vec (d - 2) := by
  have : ∀ d, even d = true → vec d + vec (d + 5) = vec (d - 2) := by decide
  intro d h; rw [add_assoc, this d h]

theorem vec_o5 (c : Px) : ∀ d, even d = false → c + vec d + vec (d + 5) = c + vec (d - 1) := by
  have : ∀ d, even d = false → vec d + vec (d + 5) = vec (d - 1) := by decide
  intro d h; rw [add_assoc, this d h]

theorem vec_e6 (c : Px) : ∀ d, even d = true → c + vec d + vec (d + 6) = c + vec (d - 1) := by
  have : ∀ d, even d = true → vec d + vec (d + 6) = vec (d - 1) := by decide
  intro d h; rw [add_assoc, this d h]

theorem d62 : ∀ d : Fin 8, d + 6 - 2 = d + 4 := by decide
theorem d61 : ∀ d : Fin 8, d + 6 - 1 = d + 5 := by decide
theorem even6 : ∀ d : Fin 8, even (d + 6) = even d := by decide
theorem cancel6 : ∀ d d' : Fin 8, d + 6 = d' + 6 → d = d' := by decide

theorem after_good {F : Px → Bool} {c : Px} {s d : Fin 8} (hc : F c = true) (hp : pre (nb F c) s = true)
    (hs : search (nb F c) 7 s = some d) : Good F (c + vec d, d + 6) := by
  obtain ⟨h1, h2, h3⟩ := search_seen _ s d hp hs
  refine ⟨h1, ?_⟩
  have e4 := d62 d
  have e5 := d61 d
  have e6 := even6 d
  simp only [good, e4, e5, e6, nb, vec_opp, hc, Bool.true_and, Bool.and_eq_true, Bool.not_eq_true',
    Bool.or_eq_true]
  cases he : even d with
  | true => exact ⟨by rw [vec_e5 _ _ he]; exact h3 he, Or.inr (by rw [vec_e6 _ _ he]; exact h2)⟩
  | false => exact ⟨by rw [vec_o5 _ _ he]; exact h2, Or.inl rfl⟩

theorem next_some {F : Px → Bool} {σ : State} (h : Good F σ) :
    ∃ d, search (nb F σ.1) 7 σ.2 = some d ∧ next F σ = (σ.1 + vec d, d + 6) := by
  obtain ⟨d, hd⟩ := Option.isSome_iff_exists.1 (search_good _ _ h.2)
  exact ⟨d, hd, by simp only [next, hd]⟩

theorem good_next {F : Px → Bool} {σ : State} (h : Good F σ) : Good F (next F σ) := by
  obtain ⟨d, hd, e⟩ := next_some h
  rw [e]
  exact after_good h.1 (good_pre _ _ h.2) hd

theorem next_inj {F : Px → Bool} {σ τ : State} (h : Good F σ) (h' : Good F τ) (e : next F σ = next F τ) : σ = τ := by
  obtain ⟨d, hd, e1⟩ := next_some h
  obtain ⟨d', hd', e2⟩ := next_some h'
  rw [e1, e2] at e
  have ed : d = d' := by
    have := congrArg Prod.snd e
    simp only at this
    exact cancel6 _ _ this
  subst ed
  have ec : σ.1 = τ.1 := by
    have := congrArg Prod.fst e
    simp only at this
    exact add_right_cancel this
  rw [← ec] at hd'
  have hτ := h'.2
  rw [← ec] at hτ
  exact Prod.ext ec (search_unique _ _ _ d h.2 hτ hd hd')

theorem good_iter {F : Px → Bool} {σ : State} (h : Good F σ) : ∀ n, Good F ((next F)^[n] σ) := by
  intro n
  induction n with
  | zero => exact h
  | succ n ih => rw [Function.iterate_succ_apply']; exact good_next ih

theorem iter_cancel {F : Px → Bool} {σ : State} (h : Good F σ) : ∀ m n,
    (next F)^[m] σ = (next F)^[m + n] σ → σ = (next F)^[n] σ := by
  intro m
  induction m with
  | zero => intro n e; simpa using e
  | succ m ih =>
    intro n e
    apply ih
    rw [Nat.add_right_comm, Function.iterate_succ_apply', Function.iterate_succ_apply'] at e
    exact next_inj (good_iter h m) (good_iter h (m + n)) e

theorem finite_states {F : Px → Bool} {ny nx : Nat} (hF : Bounded F ny nx) : {σ : State | F σ.1 = true}.Finite := by
  apply Set.Finite.subset (Set.Finite.prod (Set.finite_Icc ((0 : Int), (0 : Int)) ((ny : Int), (nx : Int)))
    (Set.finite_univ (α := Fin 8)))
  rintro ⟨c, s⟩ hc
  have := hF c hc
  refine ⟨?_, Set.mem_univ _⟩
  constructor
  · exact Prod.mk_le_mk.2 ⟨this.1, this.2.2.1⟩
  · exact Prod.mk_le_mk.2 ⟨this.2.1.le, this.2.2.2.le⟩

theorem periodic {F : Px → Bool} {ny nx : Nat} (hF : Bounded F ny nx) {σ : State} (h : Good F σ) :
    ∃ n, 0 < n ∧ (next F)^[n] σ = σ := by
  have hfin : Finite {σ : State // F σ.1 = true} := (finite_states hF).to_subtype
  obtain ⟨m, n, hne, he⟩ := Finite.exists_ne_map_eq_of_infinite
    (fun n : Nat => (⟨(next F)^[n] σ, (good_iter h n).1⟩ : {σ : State // F σ.1 = true}))
  have he' : (next F)^[m] σ = (next F)^[n] σ := congrArg Subtype.val he
  rcases Nat.lt_or_gt_of_ne hne with hlt | hlt
  · refine ⟨n - m, by omega, (iter_cancel h m (n - m) ?_).symm⟩
    rw [he']; congr 2; omega
  · refine ⟨m - n, by omega, (iter_cancel h n (m - n) ?_).symm⟩
    rw [← he']; congr 2; omega

/-- The states of a contour. -/
def Orbit (F : Px → Bool) (σ τ : State) : Prop := ∃ n, (next F)^[n] σ = τ

theorem orbit_refl (F : Px → Bool) (σ : State) : Orbit F σ σ := ⟨0, rfl⟩

theorem orbit_good {F : Px → Bool} {σ τ : State} (h : Good F σ) (o : Orbit F σ τ) : Good F τ := by
  obtain ⟨n, rfl⟩ := o; exact good_iter h n

theorem orbit_next {F : Px → Bool} {σ τ : State} (o : Orbit F σ τ) : Orbit F σ (next F τ) := by
  obtain ⟨n, rfl⟩ := o
  exact ⟨n + 1, Function.iterate_succ_apply' ..⟩

theorem orbit_trans {F : Px → Bool} {σ τ υ : State} (o : Orbit F σ τ) (o' : Orbit F τ υ) : Orbit F σ υ := by
  obtain ⟨n, rfl⟩ := o
  obtain ⟨m, rfl⟩ := o'
  exact ⟨m + n, Function.iterate_add_apply ..⟩

theorem iter_period {F : Px → Bool} {σ : State} {n : Nat} (e : (next F)^[n] σ = σ) : ∀ k, (next F)^[k * n] σ = σ := by
  intro k
  induction k with
  | zero => simp
  | succ k ih => rw [Nat.succ_mul, Function.iterate_add_apply, e, ih]

theorem orbit_symm {F : Px → Bool} {ny nx : Nat} (hF : Bounded F ny nx) {σ τ : State} (h : Good F σ)
    (o : Orbit F σ τ) : Orbit F τ σ := by
  obtain ⟨n, rfl⟩ := o
  obtain ⟨m, hm, e⟩ := periodic hF h
  refine ⟨n * m - n, ?_⟩
  rw [← Function.iterate_add_apply, Nat.sub_add_cancel (Nat.le_mul_of_pos_right n hm)]
  exact iter_period e n

theorem orbit_prev {F : Px → Bool} {ny nx : Nat} (hF : Bounded F ny nx) {σ τ : State} (h : Good F σ)
    (o : Orbit F σ τ) : ∃ υ, Orbit F σ υ ∧ next F υ = τ := by
  obtain ⟨n, rfl⟩ := o
  obtain ⟨m, hm, e⟩ := periodic hF h
  refine ⟨(next F)^[n + m - 1] σ, ⟨_, rfl⟩, ?_⟩
  rw [← Function.iterate_succ_apply' (next F), show (n + m - 1).succ = n + m by omega, Function.iterate_add_apply, e]

end Verif.Ccl
