import Verif.Ccl.Parity

/-! # Inside and outside of a contour -/

namespace Verif.Ccl

open Spec

/-- The number of walls up to column `n`, modulo two. -/
noncomputable def parity (F : Px → Bool) (σ : State) (y : Int) : Nat → Bool
  | 0 => false
  | n + 1 => xor (parity F σ y n) (wall F σ y n)

/-- The pixel is inside of the contour. -/
noncomputable def inner (F : Px → Bool) (σ : State) (p : Px) : Bool := parity F σ p.1 (p.2 + 1).toNat

/-- The border between a pixel and its neighbour to the side `o` is on the contour. -/
noncomputable def border (F : Px → Bool) (σ : State) (c : Px) (o : Fin 8) : Bool :=
  (F c && !F (c + vec o) && side F σ c o) || (F (c + vec o) && !F c && side F σ (c + vec o) (o + 4))

/-- Connected by a path of unset pixels to the sides. -/
def Gap (F : Px → Bool) (p q : Px) : Prop :=
  F p = false ∧ Relation.ReflTransGen (fun a b => (∃ o, even o = true ∧ b = a + vec o) ∧ F b = false) p q

section

variable {F : Px → Bool} {ny nx : Nat} (hF : Bounded F ny nx)
include hF

theorem unset {p : Px} (h : p.1 < 0 ∨ (ny : Int) ≤ p.1 ∨ p.2 < 0 ∨ (nx : Int) ≤ p.2) : F p = false := by
  cases e : F p with
  | false => rfl
  | true => have := hF p e; omega

theorem wall_neg (σ : State) (y x : Int) (h : y < 0 ∨ x < 0 ∨ (nx : Int) < x) : wall F σ y x = false := by
  unfold wall
  rw [unset hF (p := (y, x)) (by simp only; omega), unset hF (p := (y, x - 1)) (by simp only; omega)]
  simp

theorem floor_neg (σ : State) (y x : Int) (h : x < 0 ∨ (nx : Int) ≤ x) : floor F σ y x = false := by
  unfold floor
  rw [unset hF (p := (y, x)) (by simp only; omega), unset hF (p := (y + 1, x)) (by simp only; omega)]
  simp

theorem inner_west (σ : State) (y x : Int) : xor (inner F σ (y, x)) (inner F σ (y, x - 1)) = wall F σ y x := by
  unfold inner
  simp only
  by_cases h : x < 0
  · rw [wall_neg hF _ _ _ (by omega), show (x + 1).toNat = 0 by omega, show (x - 1 + 1).toNat = 0 by omega]
    rfl
  · rw [show (x + 1).toNat = x.toNat + 1 by omega, show (x - 1 + 1).toNat = x.toNat by omega, parity,
      Int.toNat_of_nonneg (by omega)]
    cases parity F σ y x.toNat <;> simp

theorem inner_neg (σ : State) (p : Px) (h : p.1 < 0 ∨ p.2 < 0) : inner F σ p = false := by
  unfold inner
  rcases h with h | h
  · generalize (p.2 + 1).toNat = n
    induction n with
    | zero => rfl
    | succ n ih => rw [parity, ih, wall_neg hF _ _ _ (Or.inl h)]; rfl
  · rw [show (p.2 + 1).toNat = 0 by omega]; rfl

variable {σ : State} (h : Good F σ)
include h

theorem inner_south (y x : Int) : xor (inner F σ (y, x)) (inner F σ (y + 1, x)) = floor F σ y x := by
  by_cases hx : x < 0
  · rw [inner_neg hF _ _ (Or.inr hx), inner_neg hF _ _ (Or.inr hx), floor_neg hF _ _ _ (Or.inl hx)]
    rfl
  · obtain ⟨n, rfl⟩ := Int.eq_ofNat_of_zero_le (not_lt.1 hx)
    clear hx
    induction n with
    | zero =>
      have c := corner hF h y (-1)
      have w1 := inner_west hF σ y 0
      have w2 := inner_west hF σ (y + 1) 0
      rw [inner_neg hF σ (y, 0 - 1) (Or.inr (by simp))] at w1
      rw [inner_neg hF σ (y + 1, 0 - 1) (Or.inr (by simp))] at w2
      rw [floor_neg hF _ _ (-1) (Or.inl (by decide))] at c
      simp only [Int.reduceNeg, neg_add_cancel, Bool.false_bne, Bool.bne_false, Bool.xor_false, Bool.false_xor] at c w1 w2 ⊢
      simp only [Nat.cast_zero, Int.ofNat_eq_natCast]
      rw [w1, w2]
      revert c
      cases wall F σ y 0 <;> cases wall F σ (y + 1) 0 <;> cases floor F σ y 0 <;> simp
    | succ n ih =>
      have c := corner hF h y n
      have w1 := inner_west hF σ y (n + 1)
      have w2 := inner_west hF σ (y + 1) (n + 1)
      rw [show (n : Int) + 1 - 1 = n by omega] at w1 w2
      push_cast at ih ⊢
      revert c w1 w2 ih
      cases wall F σ y (n + 1) <;> cases wall F σ (y + 1) (n + 1) <;> cases floor F σ y (n + 1) <;>
        cases floor F σ y n <;> cases inner F σ (y, n) <;> cases inner F σ (y + 1, n) <;>
        cases inner F σ (y, n + 1) <;> cases inner F σ (y + 1, n + 1) <;> simp

theorem inner_right (p : Px) (hp : p.2 = nx) : inner F σ p = false := by
  by_cases hy : p.1 < 0
  · exact inner_neg hF _ _ (Or.inl hy)
  · obtain ⟨n, hn⟩ := Int.eq_ofNat_of_zero_le (not_lt.1 hy)
    obtain ⟨y, x⟩ := p
    simp only at hp hn
    subst hp hn
    clear hy
    induction n with
    | zero =>
      have := inner_south hF h (-1) nx
      rw [floor_neg hF _ _ _ (Or.inr (le_refl _)), inner_neg hF σ (-1, nx) (Or.inl (by simp))] at this
      simpa using this
    | succ n ih =>
      have := inner_south hF h n nx
      rw [floor_neg hF _ _ _ (Or.inr (le_refl _)), ih] at this
      push_cast
      simpa using this

theorem inner_step (c : Px) (o : Fin 8) (ho : even o = true) :
    xor (inner F σ c) (inner F σ (c + vec o)) = border F σ c o := by
  obtain ⟨y, x⟩ := c
  have hcases : o = 0 ∨ o = 2 ∨ o = 4 ∨ o = 6 := by revert o; decide
  rcases hcases with rfl | rfl | rfl | rfl
  · have e : ((y, x) : Px) + vec 0 = (y, x + 1) := by simp [vec]
    have w := inner_west hF σ y (x + 1)
    rw [show x + 1 - 1 = x by omega] at w
    unfold border
    rw [e, Bool.xor_comm, w]
    unfold wall
    rw [show x + 1 - 1 = x by omega]
    rfl
  · have e : ((y, x) : Px) + vec 2 = (y + 1, x) := by simp [vec]
    unfold border
    rw [e, inner_south hF h]
    rfl
  · have e : ((y, x) : Px) + vec 4 = (y, x - 1) := by simp [vec]; rfl
    unfold border
    rw [e, inner_west hF]
    unfold wall
    rw [Bool.or_comm]
    rfl
  · have e : ((y, x) : Px) + vec 6 = (y - 1, x) := by simp [vec]; rfl
    have w := inner_south hF h (y - 1) x
    rw [show y - 1 + 1 = y by omega] at w
    unfold border
    rw [e, Bool.xor_comm, w]
    unfold floor
    rw [show y - 1 + 1 = y by omega, Bool.or_comm]
    rfl

theorem inner_gap_step {p : Px} {o : Fin 8} (ho : even o = true) (hp : F p = false) (hq : F (p + vec o) = false) :
    inner F σ p = inner F σ (p + vec o) := by
  have := inner_step hF h p o ho
  rw [border, hp, hq] at this
  simpa using this

theorem inner_set_step {p : Px} {o : Fin 8} (ho : even o = true) (hp : F p = true) (hq : F (p + vec o) = true) :
    inner F σ p = inner F σ (p + vec o) := by
  have := inner_step hF h p o ho
  rw [border, hp, hq] at this
  simpa using this

theorem inner_cross {p : Px} {o : Fin 8} (ho : even o = true) (hp : F p = true) (hq : F (p + vec o) = false) :
    inner F σ p ≠ inner F σ (p + vec o) ↔ side F σ p o = true := by
  have := inner_step hF h p o ho
  rw [border, hp, hq] at this
  simp only [Bool.not_false, Bool.and_self, Bool.true_and, Bool.not_true, Bool.and_false, Bool.false_and,
    Bool.or_false] at this
  rw [← this]
  cases inner F σ p <;> cases inner F σ (p + vec o) <;> simp

theorem inner_diag {p : Px} {o : Fin 8} (ho : even o = true) (hp : F p = true) (hq : F (p + vec (o + 1)) = true) :
    inner F σ p = inner F σ (p + vec (o + 1)) := by
  have e : p + vec o + vec (o + 2) = p + vec (o + 1) := by
    rw [add_assoc, add_comm (vec o), ← add_assoc, v2 _ _ ho]
  cases hx : F (p + vec o) with
  | true =>
    rw [inner_set_step hF h ho hp hx, ← e]
    exact inner_set_step hF h (by rw [f9]; exact ho) hx (by rw [e]; exact hq)
  | false =>
    have s1 := inner_step hF h p o ho
    have s2 := inner_step hF h (p + vec o) (o + 2) (by rw [f9]; exact ho)
    have r := rule1 hF h hp ho hx hq
    rw [border, hp, hx] at s1
    rw [border, e, hx, hq, show o + 2 + 4 = o - 2 by rw [f4]] at s2
    simp only [Bool.not_false, Bool.and_self, Bool.true_and, Bool.not_true, Bool.and_false, Bool.false_and,
      Bool.or_false, Bool.false_or] at s1 s2
    rw [r, ← s2] at s1
    revert s1
    cases inner F σ p <;> cases inner F σ (p + vec o) <;> cases inner F σ (p + vec (o + 1)) <;> simp

theorem inner_vec {p : Px} {d : Fin 8} (hp : F p = true) (hq : F (p + vec d) = true) :
    inner F σ p = inner F σ (p + vec d) := by
  cases hd : even d with
  | true => exact inner_set_step hF h hd hp hq
  | false =>
    have e : d = d - 1 + 1 := by
      have : ∀ d : Fin 8, d = d - 1 + 1 := by decide
      exact this d
    have e2 : even (d - 1) = true := by
      have : ∀ d, even d = false → even (d - 1) = true := by decide
      exact this d hd
    rw [e] at hq ⊢
    exact inner_diag hF h e2 hp hq

end

theorem adjacent_vec (p : Px) (d : Fin 8) : Adjacent p (p + vec d) := by
  obtain ⟨y, x⟩ := p
  have : ∀ d, -1 ≤ (vec d).1 ∧ (vec d).1 ≤ 1 ∧ -1 ≤ (vec d).2 ∧ (vec d).2 ≤ 1 := by decide
  have := this d
  simp only [Adjacent, Prod.fst_add, Prod.snd_add]
  omega

theorem vec_adjacent {p q : Px} (h : Adjacent p q) : q = p ∨ ∃ d, q = p + vec d := by
  obtain ⟨y, x⟩ := p
  obtain ⟨y', x'⟩ := q
  simp only [Adjacent] at h
  have hy : y' = y - 1 ∨ y' = y ∨ y' = y + 1 := by omega
  have hx : x' = x - 1 ∨ x' = x ∨ x' = x + 1 := by omega
  rcases hy with rfl | rfl | rfl <;> rcases hx with rfl | rfl | rfl
  · right; exact ⟨5, by simp [vec]; constructor <;> rfl⟩
  · right; exact ⟨6, by simp [vec]; rfl⟩
  · right; exact ⟨7, by simp [vec]; rfl⟩
  · right; exact ⟨4, by simp [vec]; rfl⟩
  · left; rfl
  · right; exact ⟨0, by simp [vec]⟩
  · right; exact ⟨3, by simp [vec]; rfl⟩
  · right; exact ⟨2, by simp [vec]⟩
  · right; exact ⟨1, by simp [vec]⟩

/-- Set pixels, as a property. -/
abbrev Fg (F : Px → Bool) : Px → Prop := fun p => F p = true

theorem inner_connected {F : Px → Bool} {ny nx : Nat} (hF : Bounded F ny nx) {σ : State} (h : Good F σ) {p q : Px}
    (hc : Connected (Fg F) p q) : F q = true ∧ inner F σ p = inner F σ q := by
  obtain ⟨hp, hc⟩ := hc
  induction hc with
  | refl => exact ⟨hp, rfl⟩
  | tail _ hbc ih =>
    obtain ⟨hadj, hq⟩ := hbc
    refine ⟨hq, ih.2.trans ?_⟩
    rcases vec_adjacent hadj with rfl | ⟨d, rfl⟩
    · rfl
    · exact inner_vec hF h ih.1 hq

theorem inner_gap {F : Px → Bool} {ny nx : Nat} (hF : Bounded F ny nx) {σ : State} (h : Good F σ) {p q : Px}
    (hc : Gap F p q) : F q = false ∧ inner F σ p = inner F σ q := by
  obtain ⟨hp, hc⟩ := hc
  induction hc with
  | refl => exact ⟨hp, rfl⟩
  | tail _ hbc ih =>
    obtain ⟨⟨o, ho, rfl⟩, hq⟩ := hbc
    exact ⟨hq, ih.2.trans (inner_gap_step hF h ho ih.1 hq)⟩

theorem orbit_connected {F : Px → Bool} {σ τ : State} (h : Good F σ) (o : Orbit F σ τ) :
    Connected (Fg F) σ.1 τ.1 := by
  obtain ⟨n, rfl⟩ := o
  induction n with
  | zero => exact ⟨h.1, Relation.ReflTransGen.refl⟩
  | succ n ih =>
    rw [Function.iterate_succ_apply']
    obtain ⟨d, hd, e⟩ := next_some (good_iter h n)
    rw [e]
    refine ⟨h.1, ih.2.tail ⟨adjacent_vec _ _, ?_⟩⟩
    exact (search_seen _ _ _ (good_pre _ _ (good_iter h n).2) hd).1

theorem connected_symm {F : Px → Bool} {p q : Px} (h : Connected (Fg F) p q) : Connected (Fg F) q p := by
  obtain ⟨hp, hc⟩ := h
  suffices hs : F q = true ∧ Relation.ReflTransGen (fun a b => Adjacent a b ∧ Fg F b) q p from hs
  induction hc with
  | refl => exact ⟨hp, Relation.ReflTransGen.refl⟩
  | tail _ hbc ih =>
    refine ⟨hbc.2, Relation.ReflTransGen.head ⟨?_, ih.1⟩ ih.2⟩
    have := hbc.1
    simp only [Adjacent] at this ⊢
    omega

theorem connected_trans {F : Px → Bool} {p q r : Px} (h : Connected (Fg F) p q) (h' : Connected (Fg F) q r) :
    Connected (Fg F) p r := ⟨h.1, h.2.trans h'.2⟩

theorem exists_first {P : Px → Prop} (hP : ∀ p, P p → 0 ≤ p.1 ∧ 0 ≤ p.2) {p : Px} (hp : P p) :
    ∃ x, P x ∧ ∀ q, Before q x → ¬ P q := by
  classical
  have h1 : ∃ n : Nat, ∃ q, P q ∧ q.1 = n := ⟨p.1.toNat, p, hp, by have := hP p hp; omega⟩
  obtain ⟨q, hq, hq1⟩ := Nat.find_spec h1
  have h2 : ∃ n : Nat, ∃ r, P r ∧ r.1 = (Nat.find h1 : Int) ∧ r.2 = n :=
    ⟨q.2.toNat, q, hq, hq1, by have := hP q hq; omega⟩
  obtain ⟨x, hx, hx1, hx2⟩ := Nat.find_spec h2
  refine ⟨x, hx, fun r hb hr => ?_⟩
  have hr0 := hP r hr
  rcases hb with hb | ⟨hb1, hb2⟩
  · exact Nat.find_min h1 (m := r.1.toNat) (by omega) ⟨r, hr, by omega⟩
  · exact Nat.find_min h2 (m := r.2.toNat) (by omega) ⟨r, hr, by omega, by omega⟩

theorem before_total (p q : Px) : Before p q ∨ p = q ∨ Before q p := by
  obtain ⟨a, b⟩ := p
  obtain ⟨c, d⟩ := q
  simp only [Before, Prod.mk.injEq]
  omega

theorem before_trans {p q r : Px} (h : Before p q) (h' : Before q r) : Before p r := by
  unfold Before at *; omega

theorem before_irrefl (p : Px) : ¬ Before p p := by unfold Before; omega

theorem west_before (p : Px) : Before (p + vec 4) p := by
  obtain ⟨y, x⟩ := p
  simp [Before, vec]

theorem north_before (p : Px) : Before (p + vec 6) p := by
  obtain ⟨y, x⟩ := p
  simp [Before, vec]

/-- The contour of the western side of a pixel: it also passes the first pixel of the segment, or the first
pixel of the gap is to the right of it. -/
theorem first_event {F : Px → Bool} {ny nx : Nat} (hF : Bounded F ny nx) {p : Px} {s0 : Fin 8} (hg : Good F (p, s0))
    (ha : arc (nb F p) s0 4 = true) :
    (∃ x s, Connected (Fg F) p x ∧ First (Fg F) x ∧ Orbit F (p, s0) (x, s) ∧ arc (nb F x) s 4 = true) ∨
    (∃ x s, F x = false ∧ F (x + vec 4) = true ∧ (0 ≤ x.1 ∧ x.1 < ny ∧ 0 ≤ x.2 ∧ x.2 < nx) ∧ Before x p ∧
      (∀ z, Gap F x z → ¬ Before z x) ∧
      Orbit F (p, s0) (x + vec 4, s) ∧ arc (nb F (x + vec 4)) s 0 = true) := by
  have hp : F p = true := hg.1
  have hq : F (p + vec 4) = false := arc_unset _ _ _ ha
  have hside : side F (p, s0) p 4 = true := side_iff.2 ⟨s0, orbit_refl _ _, ha⟩
  have hne := (inner_cross hF hg (o := 4) rfl hp hq).2 hside
  have hex : ∃ z, inner F (p, s0) z = true := by
    cases e : inner F (p, s0) p with
    | true => exact ⟨p, e⟩
    | false =>
      refine ⟨p + vec 4, ?_⟩
      rw [e] at hne
      cases e2 : inner F (p, s0) (p + vec 4) with
      | true => rfl
      | false => exact absurd e2.symm hne
  obtain ⟨z, hz⟩ := hex
  obtain ⟨x, hx, hmin⟩ := exists_first (P := fun z => inner F (p, s0) z = true) (fun q hq => by
    constructor
    · by_contra hn; rw [inner_neg hF _ _ (Or.inl (not_le.1 hn))] at hq; exact absurd hq (by decide)
    · by_contra hn; rw [inner_neg hF _ _ (Or.inr (not_le.1 hn))] at hq; exact absurd hq (by decide)) hz
  have hw : inner F (p, s0) (x + vec 4) = false := by
    have := hmin _ (west_before x)
    simpa using this
  cases hFx : F x with
  | true =>
    left
    have hFw : F (x + vec 4) = false := by
      cases e : F (x + vec 4) with
      | false => rfl
      | true =>
        have := inner_vec hF hg hFx e
        rw [hx, hw] at this
        exact absurd this (by decide)
    have hs := (inner_cross hF hg (o := 4) rfl hFx hFw).1 (by rw [hx, hw]; decide)
    obtain ⟨s, ho, has⟩ := side_iff.1 hs
    refine ⟨x, s, orbit_connected hg ho, ⟨hFx, fun q hcq hb => ?_⟩, ho, has⟩
    have := (inner_connected hF hg hcq).2
    rw [hx] at this
    exact hmin q hb this.symm
  | false =>
    right
    have hFw : F (x + vec 4) = true := by
      cases e : F (x + vec 4) with
      | true => rfl
      | false =>
        have := inner_gap_step hF hg (o := 4) rfl hFx e
        rw [hx, hw] at this
        exact absurd this (by decide)
    have e0 : x + vec 4 + vec 0 = x := vec_opp x 4
    have hs := (inner_cross hF hg (p := x + vec 4) (o := 0) rfl hFw (by rw [e0]; exact hFx)).1
      (by rw [e0, hx, hw]; decide)
    obtain ⟨s, ho, has⟩ := side_iff.1 hs
    have hin := hF _ hFw
    have hnx : x.2 ≠ nx := by
      intro e
      rw [inner_right hF hg x e] at hx
      exact absurd hx (by decide)
    have hgrid : 0 ≤ x.1 ∧ x.1 < ny ∧ 0 ≤ x.2 ∧ x.2 < nx := by
      obtain ⟨y, x'⟩ := x
      simp only [Prod.fst_add, Prod.snd_add, vec] at hin hnx ⊢
      omega
    refine ⟨x, s, hFx, hFw, hgrid, ?_, ?_, ho, has⟩
    · have hpi : inner F (p, s0) p = false := by
        rw [(inner_connected hF hg (orbit_connected hg ho)).2]
        exact hw
      have hqi : inner F (p, s0) (p + vec 4) = true := by
        rw [hpi] at hne
        cases e2 : inner F (p, s0) (p + vec 4) with
        | true => rfl
        | false => exact absurd e2.symm hne
      rcases before_total x (p + vec 4) with hb | hb | hb
      · exact before_trans hb (west_before p)
      · rw [hb]; exact west_before p
      · exact absurd hqi (hmin _ hb)
    · intro z hgap hb
      have := (inner_gap hF hg hgap).2
      rw [hx] at this
      exact hmin z hb this.symm

end Verif.Ccl
