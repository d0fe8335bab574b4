import Verif.Ccl.Orbit

/-! # A contour separates the plane -/

namespace Verif.Ccl

open Classical in
/-- The side `e` of pixel `c` is on the contour. -/
noncomputable def side (F : Px → Bool) (σ : State) (c : Px) (e : Fin 8) : Bool :=
  decide (∃ s, Orbit F σ (c, s) ∧ arc (nb F c) s e = true)

theorem side_iff {F : Px → Bool} {σ : State} {c : Px} {e : Fin 8} :
    side F σ c e = true ↔ ∃ s, Orbit F σ (c, s) ∧ arc (nb F c) s e = true := by
  simp [side]

theorem l1 (b : Fin 8 → Bool) : ∀ s o, good b s = true → arc b s o = true → b (o + 1) = true →
    search b 7 s = some (o + 1) := by
  revert b; apply forall_table; decide +kernel

theorem l2 (b : Fin 8 → Bool) : ∀ s o, even o = true → good b s = true → arc b s o = true → b (o + 1) = false →
    b (o + 2) = true → search b 7 s = some (o + 2) := by
  revert b; apply forall_table; decide +kernel

theorem l3 (b : Fin 8 → Bool) : ∀ s o, good b s = true → b o = false → b (o + 1) = false → b (o + 2) = false →
    arc b s o = arc b s (o + 2) := by
  revert b; apply forall_table; decide +kernel

theorem l6 (b : Fin 8 → Bool) : ∀ s e, good b s = true → arc b s e = true → b (e - 1) = true → s = e + 1 := by
  revert b; apply forall_table; decide +kernel

theorem l7 (b : Fin 8 → Bool) : ∀ e, b e = false → arc b (e + 1) e = true := by
  revert b; apply forall_table; decide +kernel

theorem l8 (b : Fin 8 → Bool) : ∀ s e, good b s = true → arc b s e = true → b (e - 1) = false →
    b (e - 2) = true → s = e := by
  revert b; apply forall_table; decide +kernel

theorem l9 (b : Fin 8 → Bool) : ∀ e, good b e = true → even e = true → arc b e e = true := by
  revert b; apply forall_table; decide +kernel

theorem v1 (c : Px) : ∀ o, even o = true → c + vec (o + 1) + vec (o - 2) = c + vec o := by
  have : ∀ o, even o = true → vec (o + 1) + vec (o - 2) = vec o := by decide
  intro d h; rw [add_assoc, this d h]

theorem v2 (c : Px) : ∀ o, even o = true → c + vec (o + 2) + vec o = c + vec (o + 1) := by
  have : ∀ o, even o = true → vec (o + 2) + vec o = vec (o + 1) := by decide
  intro d h; rw [add_assoc, this d h]

theorem v3 (c : Px) : ∀ o, even o = true → c + vec (o + 2) + vec (o - 1) = c + vec o := by
  have : ∀ o, even o = true → vec (o + 2) + vec (o - 1) = vec o := by decide
  intro d h; rw [add_assoc, this d h]

theorem f1 : ∀ o : Fin 8, o + 1 + 6 = o - 2 + 1 := by decide
theorem f2 : ∀ o : Fin 8, o - 2 - 1 = o + 1 + 4 := by decide
theorem f3 : ∀ o : Fin 8, o + 2 + 6 = o := by decide
theorem f4 : ∀ o : Fin 8, o - 2 = o + 2 + 4 := by decide
theorem f5 : ∀ o d : Fin 8, d + 6 = o - 2 + 1 → d = o + 1 := by decide
theorem f6 : ∀ o d : Fin 8, d + 6 = o → d = o + 2 := by decide
theorem f7 : ∀ o : Fin 8, o + 1 - 1 = o := by decide
theorem f8 : ∀ o : Fin 8, o + 2 - 2 = o := by decide
theorem f9 : ∀ o : Fin 8, even (o + 2) = even o := by decide

section

variable {F : Px → Bool} {ny nx : Nat} (hF : Bounded F ny nx) {σ : State} (h : Good F σ)
include hF h

theorem rule1 {c : Px} (hc : F c = true) {o : Fin 8} (ho : even o = true) (h0 : nb F c o = false)
    (h1 : nb F c (o + 1) = true) : side F σ c o = side F σ (c + vec (o + 1)) (o - 2) := by
  rw [Bool.eq_iff_iff, side_iff, side_iff]
  constructor
  · rintro ⟨s, hs, ha⟩
    have hg := orbit_good h hs
    have e := l1 _ s o hg.2 ha h1
    refine ⟨o + 1 + 6, ?_, ?_⟩
    · have : next F (c, s) = (c + vec (o + 1), o + 1 + 6) := by simp only [next, e]
      rw [← this]
      exact orbit_next hs
    · rw [f1]
      apply l7
      rw [nb, v1 _ _ ho]
      exact h0
  · rintro ⟨s, hs, ha⟩
    have hg := orbit_good h hs
    have es : s = o - 2 + 1 := by
      apply l6 _ _ _ hg.2 ha
      rw [nb, f2, vec_opp]
      exact hc
    subst es
    obtain ⟨⟨c', s'⟩, hu, hn⟩ := orbit_prev hF h hs
    have hg' := orbit_good h hu
    obtain ⟨d, hd, e⟩ := next_some hg'
    rw [hn] at e
    have ed := f5 _ _ (congrArg Prod.snd e).symm
    subst ed
    have ec : c + vec (o + 1) = c' + vec (o + 1) := congrArg Prod.fst e
    have ec' := add_right_cancel ec
    subst ec'
    refine ⟨s', hu, ?_⟩
    have := (search_arc _ _ _ (good_pre _ _ hg'.2) hd).1
    rwa [f7] at this

theorem rule2 {c : Px} (hc : F c = true) {o : Fin 8} (ho : even o = true) (h0 : nb F c o = false)
    (h1 : nb F c (o + 1) = false) (h2 : nb F c (o + 2) = true) :
    side F σ c o = side F σ (c + vec (o + 2)) o := by
  rw [Bool.eq_iff_iff, side_iff, side_iff]
  constructor
  · rintro ⟨s, hs, ha⟩
    have hg := orbit_good h hs
    have e := l2 _ s o ho hg.2 ha h1 h2
    have hn : next F (c, s) = (c + vec (o + 2), o) := by simp only [next, e, f3]
    have hs' := orbit_next hs
    rw [hn] at hs'
    exact ⟨o, hs', l9 _ _ (orbit_good h hs').2 ho⟩
  · rintro ⟨s, hs, ha⟩
    have hg := orbit_good h hs
    have es : s = o := by
      apply l8 _ _ _ hg.2 ha
      · rw [nb, v3 _ _ ho]; exact h0
      · rw [nb, f4, vec_opp]; exact hc
    subst es
    obtain ⟨⟨c', s'⟩, hu, hn⟩ := orbit_prev hF h hs
    have hg' := orbit_good h hu
    obtain ⟨d, hd, e⟩ := next_some hg'
    rw [hn] at e
    have ed := f6 _ _ (congrArg Prod.snd e).symm
    subst ed
    have ec' := add_right_cancel (show c + vec (s + 2) = c' + vec (s + 2) from congrArg Prod.fst e)
    subst ec'
    refine ⟨s', hu, ?_⟩
    have := (search_arc _ _ _ (good_pre _ _ hg'.2) hd).2 (by rw [f9]; exact ho) hg'.2
    rwa [f8] at this

omit hF in
theorem rule3 {c : Px} {o : Fin 8} (h0 : nb F c o = false)
    (h1 : nb F c (o + 1) = false) (h2 : nb F c (o + 2) = false) :
    side F σ c o = side F σ c (o + 2) := by
  rw [Bool.eq_iff_iff, side_iff, side_iff]
  constructor
  · rintro ⟨s, hs, ha⟩
    exact ⟨s, hs, by rw [← l3 _ s o (orbit_good h hs).2 h0 h1 h2]; exact ha⟩
  · rintro ⟨s, hs, ha⟩
    exact ⟨s, hs, by rw [l3 _ s o (orbit_good h hs).2 h0 h1 h2]; exact ha⟩

end

/-- The border between a pixel and its western neighbour is on the contour. -/
noncomputable def wall (F : Px → Bool) (σ : State) (y x : Int) : Bool :=
  (F (y, x - 1) && !F (y, x) && side F σ (y, x - 1) 0) || (F (y, x) && !F (y, x - 1) && side F σ (y, x) 4)

/-- The border between a pixel and its southern neighbour is on the contour. -/
noncomputable def floor (F : Px → Bool) (σ : State) (y x : Int) : Bool :=
  (F (y, x) && !F (y + 1, x) && side F σ (y, x) 2) || (F (y + 1, x) && !F (y, x) && side F σ (y + 1, x) 6)

theorem corner_bool : ∀ A B C D a0 a2 b2 b4 d4 d6 c6 c0 : Bool,
    (A = true → B = false → D = true → a0 = d6) →
    (A = true → B = false → D = false → C = true → a0 = c0) →
    (A = true → B = false → D = false → C = false → a0 = a2) →
    (B = true → D = false → C = true → b2 = c0) →
    (B = true → D = false → C = false → A = true → b2 = a2) →
    (B = true → D = false → C = false → A = false → b2 = b4) →
    (D = true → C = false → A = true → d4 = a2) →
    (D = true → C = false → A = false → B = true → d4 = b4) →
    (D = true → C = false → A = false → B = false → d4 = d6) →
    (C = true → A = false → B = true → c6 = b4) →
    (C = true → A = false → B = false → D = true → c6 = d6) →
    (C = true → A = false → B = false → D = false → c6 = c0) →
    xor (xor (A && !B && a0 || B && !A && b4) (C && !D && c0 || D && !C && d4))
      (xor (A && !C && a2 || C && !A && c6) (B && !D && b2 || D && !B && d6)) = false := by
  intro A B C D
  cases A <;> cases B <;> cases C <;> cases D <;> intros <;> simp_all

theorem corner {F : Px → Bool} {ny nx : Nat} (hF : Bounded F ny nx) {σ : State} (h : Good F σ) (y x : Int) :
    xor (xor (wall F σ y (x + 1)) (wall F σ (y + 1) (x + 1))) (xor (floor F σ y x) (floor F σ y (x + 1))) = false := by
  have e : x + 1 - 1 = x := by omega
  simp only [wall, floor, e]
  have pA (d : Fin 8) (q : Px) (hq : (y, x) + vec d = q) : nb F (y, x) d = F q := by rw [nb, hq]
  have pB (d : Fin 8) (q : Px) (hq : (y, x + 1) + vec d = q) : nb F (y, x + 1) d = F q := by rw [nb, hq]
  have pC (d : Fin 8) (q : Px) (hq : (y + 1, x) + vec d = q) : nb F (y + 1, x) d = F q := by rw [nb, hq]
  have pD (d : Fin 8) (q : Px) (hq : (y + 1, x + 1) + vec d = q) : nb F (y + 1, x + 1) d = F q := by rw [nb, hq]
  have A0 : ((y, x) : Px) + vec 0 = (y, x + 1) := by simp [vec]
  have A1 : ((y, x) : Px) + vec 1 = (y + 1, x + 1) := by simp [vec]
  have A2 : ((y, x) : Px) + vec 2 = (y + 1, x) := by simp [vec]
  have B2 : ((y, x + 1) : Px) + vec 2 = (y + 1, x + 1) := by simp [vec]
  have B3 : ((y, x + 1) : Px) + vec 3 = (y + 1, x) := by simp [vec]
  have B4 : ((y, x + 1) : Px) + vec 4 = (y, x) := by simp [vec]
  have D4 : ((y + 1, x + 1) : Px) + vec 4 = (y + 1, x) := by simp [vec]
  have D5 : ((y + 1, x + 1) : Px) + vec 5 = (y, x) := by simp [vec]
  have D6 : ((y + 1, x + 1) : Px) + vec 6 = (y, x + 1) := by simp [vec]
  have C6 : ((y + 1, x) : Px) + vec 6 = (y, x) := by simp [vec]
  have C7 : ((y + 1, x) : Px) + vec 7 = (y, x + 1) := by simp [vec]
  have C0 : ((y + 1, x) : Px) + vec 0 = (y + 1, x + 1) := by simp [vec]
  apply corner_bool
  · intro hA hB hD
    have := rule1 hF h hA (o := 0) rfl (by rw [pA _ _ A0]; exact hB) (by rw [show (0 : Fin 8) + 1 = 1 from rfl, pA _ _ A1]; exact hD)
    rw [show (0 : Fin 8) + 1 = 1 from rfl, A1] at this
    exact this
  · intro hA hB hD hC
    have := rule2 hF h hA (o := 0) rfl (by rw [pA _ _ A0]; exact hB) (by rw [show (0 : Fin 8) + 1 = 1 from rfl, pA _ _ A1]; exact hD)
      (by rw [show (0 : Fin 8) + 2 = 2 from rfl, pA _ _ A2]; exact hC)
    rw [show (0 : Fin 8) + 2 = 2 from rfl, A2] at this
    exact this
  · intro hA hB hD hC
    exact rule3 (c := (y, x)) (o := 0) h (by rw [pA _ _ A0]; exact hB) (by rw [show (0 : Fin 8) + 1 = 1 from rfl, pA _ _ A1]; exact hD)
      (by rw [show (0 : Fin 8) + 2 = 2 from rfl, pA _ _ A2]; exact hC)
  · intro hB hD hC
    have := rule1 hF h hB (o := 2) rfl (by rw [pB _ _ B2]; exact hD) (by rw [show (2 : Fin 8) + 1 = 3 from rfl, pB _ _ B3]; exact hC)
    rw [show (2 : Fin 8) + 1 = 3 from rfl, B3] at this
    exact this
  · intro hB hD hC hA
    have := rule2 hF h hB (o := 2) rfl (by rw [pB _ _ B2]; exact hD) (by rw [show (2 : Fin 8) + 1 = 3 from rfl, pB _ _ B3]; exact hC)
      (by rw [show (2 : Fin 8) + 2 = 4 from rfl, pB _ _ B4]; exact hA)
    rw [show (2 : Fin 8) + 2 = 4 from rfl, B4] at this
    exact this
  · intro hB hD hC hA
    exact rule3 (c := (y, x + 1)) (o := 2) h (by rw [pB _ _ B2]; exact hD) (by rw [show (2 : Fin 8) + 1 = 3 from rfl, pB _ _ B3]; exact hC)
      (by rw [show (2 : Fin 8) + 2 = 4 from rfl, pB _ _ B4]; exact hA)
  · intro hD hC hA
    have := rule1 hF h hD (o := 4) rfl (by rw [pD _ _ D4]; exact hC) (by rw [show (4 : Fin 8) + 1 = 5 from rfl, pD _ _ D5]; exact hA)
    rw [show (4 : Fin 8) + 1 = 5 from rfl, D5] at this
    exact this
  · intro hD hC hA hB
    have := rule2 hF h hD (o := 4) rfl (by rw [pD _ _ D4]; exact hC) (by rw [show (4 : Fin 8) + 1 = 5 from rfl, pD _ _ D5]; exact hA)
      (by rw [show (4 : Fin 8) + 2 = 6 from rfl, pD _ _ D6]; exact hB)
    rw [show (4 : Fin 8) + 2 = 6 from rfl, D6] at this
    exact this
  · intro hD hC hA hB
    exact rule3 (c := (y + 1, x + 1)) (o := 4) h (by rw [pD _ _ D4]; exact hC) (by rw [show (4 : Fin 8) + 1 = 5 from rfl, pD _ _ D5]; exact hA)
      (by rw [show (4 : Fin 8) + 2 = 6 from rfl, pD _ _ D6]; exact hB)
  · intro hC hA hB
    have := rule1 hF h hC (o := 6) rfl (by rw [pC _ _ C6]; exact hA) (by rw [show (6 : Fin 8) + 1 = 7 from rfl, pC _ _ C7]; exact hB)
    rw [show (6 : Fin 8) + 1 = 7 from rfl, C7] at this
    exact this
  · intro hC hA hB hD
    have := rule2 hF h hC (o := 6) rfl (by rw [pC _ _ C6]; exact hA) (by rw [show (6 : Fin 8) + 1 = 7 from rfl, pC _ _ C7]; exact hB)
      (by rw [show (6 : Fin 8) + 2 = 0 from rfl, pC _ _ C0]; exact hD)
    rw [show (6 : Fin 8) + 2 = 0 from rfl, C0] at this
    exact this
  · intro hC hA hB hD
    exact rule3 (c := (y + 1, x)) (o := 6) h (by rw [pC _ _ C6]; exact hA) (by rw [show (6 : Fin 8) + 1 = 7 from rfl, pC _ _ C7]; exact hB)
      (by rw [show (6 : Fin 8) + 2 = 0 from rfl, pC _ _ C0]; exact hD)

end Verif.Ccl
