import Verif.Ccl.Trace

/-! # The invariant of the scan -/

namespace Verif.Ccl

open Spec

/-- What is known before position `P` is visited. -/
structure Inv (m : Image) (sd : Int → Px) (P : Px) (k : Int) (ccl : Px → Int) : Prop where
  kpos : 0 ≤ k
  seed : ∀ l, 1 ≤ l → l ≤ k → First (Fg m.val) (sd l) ∧ Before (sd l) P
  order : ∀ l l', 1 ≤ l → l < l' → l' ≤ k → Before (sd l) (sd l')
  all : ∀ x, First (Fg m.val) x → Before x P → ∃ l, 1 ≤ l ∧ l ≤ k ∧ sd l = x
  done : ∀ p, m.val p = true → Before p P → ccl p ≠ 0
  conn : ∀ p, m.val p = true → ccl p ≠ 0 → 1 ≤ ccl p ∧ ccl p ≤ k ∧ Connected (Fg m.val) (sd (ccl p)) p
  outer : ∀ x s τ, First (Fg m.val) x → Before x P → Good m.val (x, s) → arc (nb m.val x) s 4 = true →
    Orbit m.val (x, s) τ → ccl τ.1 ≠ 0
  hole : ∀ x s τ, m.inside x = true → m.val x = false → m.val (x + vec 4) = true → Before x P →
    (∀ z, Gap m.val x z → ¬ Before z x) → Good m.val (x + vec 4, s) → arc (nb m.val (x + vec 4)) s 0 = true →
    Orbit m.val (x + vec 4, s) τ → ccl τ.1 ≠ 0
  mark : ∀ p, m.val p = false → ccl p = 0 ∨ (ccl p = -1 ∧ m.inside p = true ∧ ∃ z, Gap m.val p z ∧ Before z P)

/-- A pixel that is alone, or has a neighbour. -/
theorem alone {F : Px → Bool} {p q : Px} (h : Connected (Fg F) p q) : q = p ∨ ∃ d, F (p + vec d) = true := by
  obtain ⟨hp, hc⟩ := h
  induction hc with
  | refl => exact Or.inl rfl
  | tail _ hbc ih =>
    rcases ih with rfl | ih
    · rcases vec_adjacent hbc.1 with rfl | ⟨d, rfl⟩
      · exact Or.inl rfl
      · exact Or.inr ⟨d, hbc.2⟩
    · exact Or.inr ih

/-- An unlabelled pixel with an unset western neighbour is the first of its segment. -/
theorem first_of_zero {m : Image} {sd : Int → Px} {P : Px} {k : Int} {ccl : Px → Int} (h : Inv m sd P k ccl)
    (hP : m.val P = true) (hw : m.val (P + vec 4) = false) (h0 : ccl P = 0) : First (Fg m.val) P := by
  refine ⟨hP, fun q hc hb => ?_⟩
  have hd : ∃ d, m.val (P + vec d) = true := by
    rcases alone hc with rfl | hd
    · exact absurd hb (before_irrefl _)
    · exact hd
  obtain ⟨d, hd⟩ := hd
  obtain ⟨s0, hg, ha⟩ := arc_exists (nb m.val P) 4 d rfl hw hd
  have hG : Good m.val (P, s0) := ⟨hP, hg⟩
  rcases first_event (val_bounded m) hG ha with ⟨x, s, hcx, hfx, ho, has⟩ | ⟨x, s, hx, hxw, hin, hbx, hmin, ho, has⟩
  · have hbx : Before x P := by
      rcases before_total x P with hb' | rfl | hb'
      · exact hb'
      · exact absurd hb (hfx.2 q hc)
      · exact absurd hb' (hfx.2 P (connected_symm hcx))
    exact h.outer x s (P, s0) hfx hbx (orbit_good hG ho) has (orbit_symm (val_bounded m) hG ho) h0
  · have hins : m.inside x = true := by
      simp only [Image.inside, Bool.and_eq_true, decide_eq_true_eq]; omega
    exact h.hole x s (P, s0) hins hx hxw hbx hmin (orbit_good hG ho) has (orbit_symm (val_bounded m) hG ho) h0

/-- The following position in the row. -/
def after (P : Px) : Px := (P.1, P.2 + 1)

theorem before_after {q P : Px} (h : Before q (after P)) : Before q P ∨ q = P := by
  obtain ⟨a, b⟩ := q
  obtain ⟨c, d⟩ := P
  simp only [Before, after, Prod.mk.injEq] at *
  omega

theorem after_before {q P : Px} (h : Before q P) : Before q (after P) := by
  simp only [Before, after] at *; omega

theorem self_after (P : Px) : Before P (after P) := by
  simp [Before, after]

theorem after_west (P : Px) : after P + vec 4 = P := by
  obtain ⟨y, x⟩ := P
  simp [after, vec]

/-- The label variable. -/
def Lab (m : Image) (P : Px) (st : Scan) : Prop :=
  st.label = if m.val (P + vec 4) then st.ccl (P + vec 4) else 0

theorem gap_refl {F : Px → Bool} {p : Px} (h : F p = false) : Gap F p p := ⟨h, Relation.ReflTransGen.refl⟩

theorem connected_refl {F : Px → Bool} {p : Px} (h : F p = true) : Connected (Fg F) p p :=
  ⟨h, Relation.ReflTransGen.refl⟩

theorem visit_spec (m : Image) (sd : Int → Px) (i j : Int) (st : Scan) (hin : m.inside (i, j) = true)
    (h : Inv m sd (i, j) st.k st.ccl) (hl : Lab m (i, j) st) :
    ∃ N st' sd', (∀ fuel, N ≤ fuel → visit m fuel i j st = some st') ∧
      Inv m sd' (after (i, j)) st'.k st'.ccl ∧ Lab m (after (i, j)) st' := by
  have hpx : m.px (i, j) = m.val (i, j) := by simp [Image.val, hin]
  obtain ⟨k, label, ccl⟩ := st
  simp only [Lab] at hl h
  cases hP : m.val (i, j) with
  | true =>
    cases hw : m.val ((i, j) + vec 4) with
    | true =>
      rw [hw, if_pos rfl] at hl
      have hw0 : ccl ((i, j) + vec 4) ≠ 0 := h.done _ hw (west_before _)
      obtain ⟨c1, c2, c3⟩ := h.conn _ hw hw0
      rw [← hl] at c1 c2 c3 hw0
      have hcon : Connected (Fg m.val) (sd label) (i, j) := by
        refine connected_trans c3 (connected_symm ⟨hP, Relation.ReflTransGen.single ⟨adjacent_vec _ 4, hw⟩⟩)
      have hnf : ¬ First (Fg m.val) (i, j) := fun hf =>
        hf.2 _ (connected_symm hcon) (h.seed _ c1 c2).2
      refine ⟨0, ⟨k, label, set ccl (i, j) label⟩, sd, ?_, ?_, ?_⟩
      · intro fuel _
        simp only [visit, hpx, hP, if_true]
        rw [if_pos hw0]
      · have hset : ∀ q, ccl q ≠ 0 → set ccl (i, j) label q ≠ 0 := by
          intro q hq; unfold set; split
          · exact hw0
          · exact hq
        constructor
        · exact h.kpos
        · exact fun l h1 h2 => ⟨(h.seed l h1 h2).1, after_before (h.seed l h1 h2).2⟩
        · exact h.order
        · intro x hx hb
          rcases before_after hb with hb | rfl
          · exact h.all x hx hb
          · exact absurd hx hnf
        · intro p hp hb
          rcases before_after hb with hb | rfl
          · exact hset _ (h.done p hp hb)
          · simp only [set, if_true]; exact hw0
        · intro p hp h0
          by_cases hpp : p = (i, j)
          · simp only [set, hpp, if_true]
            exact ⟨c1, c2, hcon⟩
          · simp only [set, if_neg hpp] at h0 ⊢
            exact h.conn p hp h0
        · intro x s τ hx hb hg ha ho
          rcases before_after hb with hb | rfl
          · exact hset _ (h.outer x s τ hx hb hg ha ho)
          · exact absurd hx hnf
        · intro x s τ hx hv hv4 hb hmin hg ha ho
          rcases before_after hb with hb | rfl
          · exact hset _ (h.hole x s τ hx hv hv4 hb hmin hg ha ho)
          · rw [hP] at hv; exact absurd hv (by decide)
        · intro p hp
          have hpp : p ≠ (i, j) := by rintro rfl; rw [hP] at hp; exact absurd hp (by decide)
          simp only [set, if_neg hpp]
          rcases h.mark p hp with e | ⟨e1, e2, z, hz, hb⟩
          · exact Or.inl e
          · exact Or.inr ⟨e1, e2, z, hz, after_before hb⟩
      · simp only [Lab, after_west, hP, if_true, set]
    | false =>
      rw [hw, if_neg (by decide)] at hl
      subst hl
      by_cases h0 : ccl (i, j) = 0
      · have hf := first_of_zero h hP hw h0
        have hnb : ∀ d, Before ((i, j) + vec d) (i, j) → m.val ((i, j) + vec d) = false := by
          intro d hb
          cases e : m.val ((i, j) + vec d) with
          | false => rfl
          | true => exact absurd hb (hf.2 _ ⟨hP, Relation.ReflTransGen.single ⟨adjacent_vec _ d, e⟩⟩)
        have h5 := hnb 5 (by simp [Before, vec])
        have h6 := hnb 6 (by simp [Before, vec])
        have h7 := hnb 7 (by simp [Before, vec])
        have hpre : pre (nb m.val (i, j)) 0 = true := by
          have e1 : (0 : Fin 8) - 1 = 7 := by decide
          have e2 : (0 : Fin 8) - 2 = 6 := by decide
          simp only [pre, e1, e2, nb, h6, h7]
          simp
        obtain ⟨N, ccl', hN, hs, hc, hu⟩ := contour_spec m (i, j) (k + 1) 0 ccl hP hpre
        have e1 : (0 : Fin 8) - 1 = 7 := by decide
        rw [e1] at hc hu
        have hk := h.kpos
        let sd' : Int → Px := fun l => if l = k + 1 then (i, j) else sd l
        have hsd : ∀ l, l ≤ k → sd' l = sd l := fun l hlk => if_neg (by omega)
        have hsd1 : sd' (k + 1) = (i, j) := if_pos rfl
        have hset : ∀ q, m.val q = true → ccl q ≠ 0 → set ccl' (i, j) (k + 1) q ≠ 0 := by
          intro q hq hq0; unfold set; split
          · omega
          · rcases hs q hq with e | e
            · rw [e]; exact hq0
            · rw [e.1]; omega
        refine ⟨N, ⟨k + 1, k + 1, set ccl' (i, j) (k + 1)⟩, sd', ?_, ?_, ?_⟩
        · intro fuel hfu
          simp only [visit, hpx, hP, if_true, ne_eq, not_true_eq_false, if_false, h0, hN fuel hfu, Option.map_some]
        · show Inv m sd' (after (i, j)) (k + 1) (set ccl' (i, j) (k + 1))
          constructor
          · omega
          · intro l h1 h2
            by_cases hlk : l = k + 1
            · subst hlk; rw [hsd1]; exact ⟨hf, self_after _⟩
            · rw [hsd l (by omega)]
              exact ⟨(h.seed l h1 (by omega)).1, after_before (h.seed l h1 (by omega)).2⟩
          · intro l l' h1 h2 h3
            by_cases hlk : l' = k + 1
            · subst hlk; rw [hsd1, hsd l (by omega)]; exact (h.seed l h1 (by omega)).2
            · rw [hsd l (by omega), hsd l' (by omega)]; exact h.order l l' h1 h2 (by omega)
          · intro x hx hb
            rcases before_after hb with hb | rfl
            · obtain ⟨l, a1, a2, a3⟩ := h.all x hx hb
              exact ⟨l, a1, by show l ≤ k + 1; omega, by rw [hsd l a2]; exact a3⟩
            · exact ⟨k + 1, by omega, le_refl _, hsd1⟩
          · intro p hp hb
            rcases before_after hb with hb | rfl
            · exact hset _ hp (h.done p hp hb)
            · simp only [set, if_true]; omega
          · intro p hp hp0
            by_cases hpp : p = (i, j)
            · simp only [set, hpp, if_true]
              refine ⟨by omega, le_refl _, ?_⟩
              rw [hsd1]; exact connected_refl hP
            · simp only [set, if_neg hpp] at hp0 ⊢
              rcases hs p hp with e | e
              · rw [e] at hp0 ⊢
                obtain ⟨a1, a2, a3⟩ := h.conn p hp hp0
                refine ⟨a1, by omega, ?_⟩
                rw [hsd _ a2]; exact a3
              · rw [e.1]
                refine ⟨by omega, le_refl _, ?_⟩
                rw [hsd1]; exact e.2
          · intro x s τ hx hb hg ha ho
            rcases before_after hb with hb | rfl
            · exact hset _ (orbit_good hg ho).1 (h.outer x s τ hx hb hg ha ho)
            · have h7' := arc_seven _ s hg.2 ha (by simp only [nb, h5, h6, h7]; rfl)
              have := hc s τ hg h7' ho
              simp only [set]
              split
              · omega
              · rw [this]; omega
          · intro x s τ hx hv hv4 hb hmin hg ha ho
            rcases before_after hb with hb | rfl
            · exact hset _ (orbit_good hg ho).1 (h.hole x s τ hx hv hv4 hb hmin hg ha ho)
            · rw [hP] at hv; exact absurd hv (by decide)
          · intro p hp
            have hpp : p ≠ (i, j) := by rintro rfl; rw [hP] at hp; exact absurd hp (by decide)
            simp only [set, if_neg hpp]
            rcases hu p hp with e | ⟨e1, e2, e3⟩
            · rw [e]
              rcases h.mark p hp with e | ⟨e1, e2, z, hz, hb⟩
              · exact Or.inl e
              · exact Or.inr ⟨e1, e2, z, hz, after_before hb⟩
            · exact Or.inr ⟨e1, e2, _, gap_symm e3, by simp [Before, after, vec]⟩
        · simp only [Lab, after_west, hP, if_true, set]
      · obtain ⟨c1, c2, c3⟩ := h.conn _ hP h0
        have hnf : ¬ First (Fg m.val) (i, j) := fun hf => hf.2 _ (connected_symm c3) (h.seed _ c1 c2).2
        refine ⟨0, ⟨k, ccl (i, j), ccl⟩, sd, ?_, ?_, ?_⟩
        · intro fuel _
          simp only [visit, hpx, hP, if_true, ne_eq, not_true_eq_false, if_false, h0]
        · constructor
          · exact h.kpos
          · exact fun l h1 h2 => ⟨(h.seed l h1 h2).1, after_before (h.seed l h1 h2).2⟩
          · exact h.order
          · intro x hx hb
            rcases before_after hb with hb | rfl
            · exact h.all x hx hb
            · exact absurd hx hnf
          · intro p hp hb
            rcases before_after hb with hb | rfl
            · exact h.done p hp hb
            · exact h0
          · exact h.conn
          · intro x s τ hx hb hg ha ho
            rcases before_after hb with hb | rfl
            · exact h.outer x s τ hx hb hg ha ho
            · exact absurd hx hnf
          · intro x s τ hx hv hv4 hb hmin hg ha ho
            rcases before_after hb with hb | rfl
            · exact h.hole x s τ hx hv hv4 hb hmin hg ha ho
            · rw [hP] at hv; exact absurd hv (by decide)
          · intro p hp
            rcases h.mark p hp with e | ⟨e1, e2, z, hz, hb⟩
            · exact Or.inl e
            · exact Or.inr ⟨e1, e2, z, hz, after_before hb⟩
        · simp only [Lab, after_west, hP, if_true]
  | false =>
    have hnF : ¬ First (Fg m.val) (i, j) := fun hf => by
      have := hf.1; simp only [Fg, hP] at this; exact absurd this (by decide)
    cases hw : m.val ((i, j) + vec 4) with
    | true =>
      rw [hw, if_pos rfl] at hl
      have hw0 : ccl ((i, j) + vec 4) ≠ 0 := h.done _ hw (west_before _)
      obtain ⟨c1, c2, c3⟩ := h.conn _ hw hw0
      rw [← hl] at c1 c2 c3 hw0
      have e0 : (i, j) + vec 4 + vec 0 = (i, j) := vec_opp (i, j) 4
      have ewest : ((i, j) : Px) + vec 4 = (i, j - 1) := by simp [vec]; rfl
      by_cases h0 : ccl (i, j) = 0
      · have hpre : pre (nb m.val (i, j - 1)) 1 = true := by
          have e1 : (1 : Fin 8) - 1 = 0 := by decide
          rw [← ewest]
          simp only [pre, e1, nb, e0, hP]
          rfl
        obtain ⟨N, ccl', hN, hs, hc, hu⟩ := contour_spec m (i, j - 1) label 1 ccl (by rw [← ewest]; exact hw) hpre
        have e1 : (1 : Fin 8) - 1 = 0 := by decide
        rw [e1, ← ewest] at hc hu
        rw [← ewest] at hs
        rw [e0] at hu
        have hset : ∀ q, m.val q = true → ccl q ≠ 0 → ccl' q ≠ 0 := by
          intro q hq hq0
          rcases hs q hq with e | e
          · rw [e]; exact hq0
          · rw [e.1]; exact hw0
        refine ⟨N, ⟨k, 0, ccl'⟩, sd, ?_, ?_, ?_⟩
        · intro fuel hfu
          simp only [visit, hpx, hP, Bool.false_eq_true, if_false]
          rw [if_pos hw0]
          simp only [h0, hN fuel hfu, Option.map_some, if_true]
        · constructor
          · exact h.kpos
          · exact fun l h1 h2 => ⟨(h.seed l h1 h2).1, after_before (h.seed l h1 h2).2⟩
          · exact h.order
          · intro x hx hb
            rcases before_after hb with hb | rfl
            · exact h.all x hx hb
            · exact absurd hx hnF
          · intro p hp hb
            rcases before_after hb with hb | rfl
            · exact hset _ hp (h.done p hp hb)
            · rw [hP] at hp; exact absurd hp (by decide)
          · intro p hp hp0
            simp only at hp0 ⊢
            rcases hs p hp with e | e
            · rw [e] at hp0 ⊢
              exact h.conn p hp hp0
            · rw [e.1]
              exact ⟨c1, c2, connected_trans c3 e.2⟩
          · intro x s τ hx hb hg ha ho
            rcases before_after hb with hb | rfl
            · exact hset _ (orbit_good hg ho).1 (h.outer x s τ hx hb hg ha ho)
            · exact absurd hx hnF
          · intro x s τ hx hv hv4 hb hmin hg ha ho
            rcases before_after hb with hb | rfl
            · exact hset _ (orbit_good hg ho).1 (h.hole x s τ hx hv hv4 hb hmin hg ha ho)
            · have := hc s τ hg ha ho
              simp only
              rw [this]; exact hw0
          · intro p hp
            rcases hu p hp with e | ⟨e1, e2, e3⟩
            · simp only
              rw [e]
              rcases h.mark p hp with e | ⟨e1, e2, z, hz, hb⟩
              · exact Or.inl e
              · exact Or.inr ⟨e1, e2, z, hz, after_before hb⟩
            · exact Or.inr ⟨e1, e2, _, gap_symm e3, self_after _⟩
        · simp only [Lab, after_west, hP, Bool.false_eq_true, if_false]
      · refine ⟨0, ⟨k, 0, ccl⟩, sd, ?_, ?_, ?_⟩
        · intro fuel _
          simp only [visit, hpx, hP, Bool.false_eq_true, if_false]
          rw [if_pos hw0]
          simp only [h0, if_false]
        · constructor
          · exact h.kpos
          · exact fun l h1 h2 => ⟨(h.seed l h1 h2).1, after_before (h.seed l h1 h2).2⟩
          · exact h.order
          · intro x hx hb
            rcases before_after hb with hb | rfl
            · exact h.all x hx hb
            · exact absurd hx hnF
          · intro p hp hb
            rcases before_after hb with hb | rfl
            · exact h.done p hp hb
            · rw [hP] at hp; exact absurd hp (by decide)
          · exact h.conn
          · intro x s τ hx hb hg ha ho
            rcases before_after hb with hb | rfl
            · exact h.outer x s τ hx hb hg ha ho
            · exact absurd hx hnF
          · intro x s τ hx hv hv4 hb hmin hg ha ho
            rcases before_after hb with hb | rfl
            · exact h.hole x s τ hx hv hv4 hb hmin hg ha ho
            · rcases h.mark _ hP with e | ⟨_, _, z, hz, hbz⟩
              · exact absurd e h0
              · exact absurd hbz (hmin z hz)
          · intro p hp
            rcases h.mark p hp with e | ⟨e1, e2, z, hz, hb⟩
            · exact Or.inl e
            · exact Or.inr ⟨e1, e2, z, hz, after_before hb⟩
        · simp only [Lab, after_west, hP, Bool.false_eq_true, if_false]
    | false =>
      rw [hw, if_neg (by decide)] at hl
      subst hl
      refine ⟨0, ⟨k, 0, ccl⟩, sd, ?_, ?_, ?_⟩
      · intro fuel _
        simp only [visit, hpx, hP, Bool.false_eq_true, if_false, ne_eq, not_true_eq_false]
      · constructor
        · exact h.kpos
        · exact fun l h1 h2 => ⟨(h.seed l h1 h2).1, after_before (h.seed l h1 h2).2⟩
        · exact h.order
        · intro x hx hb
          rcases before_after hb with hb | rfl
          · exact h.all x hx hb
          · exact absurd hx hnF
        · intro p hp hb
          rcases before_after hb with hb | rfl
          · exact h.done p hp hb
          · rw [hP] at hp; exact absurd hp (by decide)
        · exact h.conn
        · intro x s τ hx hb hg ha ho
          rcases before_after hb with hb | rfl
          · exact h.outer x s τ hx hb hg ha ho
          · exact absurd hx hnF
        · intro x s τ hx hv hv4 hb hmin hg ha ho
          rcases before_after hb with hb | rfl
          · exact h.hole x s τ hx hv hv4 hb hmin hg ha ho
          · rw [hw] at hv4; exact absurd hv4 (by decide)
        · intro p hp
          rcases h.mark p hp with e | ⟨e1, e2, z, hz, hb⟩
          · exact Or.inl e
          · exact Or.inr ⟨e1, e2, z, hz, after_before hb⟩
      · simp only [Lab, after_west, hP, Bool.false_eq_true, if_false]

theorem row_spec (m : Image) (sd : Int → Px) (i : Nat) (hi : i < m.ny) (st : Scan)
    (h : Inv m sd (i, 0) st.k st.ccl) (n : Nat) (hn : n ≤ m.nx) :
    ∃ N st' sd', (∀ fuel, N ≤ fuel →
      (List.range n).foldlM (fun st (j : Nat) => visit m fuel i j st) { st with label := 0 } = some st') ∧
      Inv m sd' (i, n) st'.k st'.ccl ∧ Lab m (i, n) st' := by
  induction n with
  | zero =>
    refine ⟨0, { st with label := 0 }, sd, fun _ _ => rfl, h, ?_⟩
    have : m.val (((i : Int), ((0 : Nat) : Int)) + vec 4) = false := by
      apply unset (val_bounded m)
      simp [vec]
    simp only [Lab, this, Bool.false_eq_true, if_false]
  | succ n ih =>
    obtain ⟨N, st1, sd1, hN, hI, hL⟩ := ih (by omega)
    have hin : m.inside ((i : Int), (n : Int)) = true := by
      simp only [Image.inside, Bool.and_eq_true, decide_eq_true_eq]; omega
    obtain ⟨N2, st2, sd2, hN2, hI2, hL2⟩ := visit_spec m sd1 i n st1 hin hI hL
    refine ⟨max N N2, st2, sd2, ?_, ?_, ?_⟩
    · intro fuel hf
      rw [List.range_succ, List.foldlM_append, hN fuel (by omega)]
      simp only [Option.bind_eq_bind, Option.bind_some, List.foldlM_cons, List.foldlM_nil, hN2 fuel (by omega)]
      rfl
    · simpa only [after, Nat.cast_add, Nat.cast_one] using hI2
    · simpa only [after, Nat.cast_add, Nat.cast_one] using hL2

theorem inv_row {m : Image} {sd : Int → Px} {i : Nat} {k : Int} {ccl : Px → Int}
    (h : Inv m sd (i, m.nx) k ccl) : Inv m sd ((i + 1 : Nat), 0) k ccl := by
  have up : ∀ q : Px, Before q (i, m.nx) → Before q ((i + 1 : Nat), 0) := by
    intro q hb; simp only [Before] at *; push_cast; omega
  have down : ∀ q : Px, 0 ≤ q.2 → q.2 < m.nx → Before q ((i + 1 : Nat), 0) → Before q (i, m.nx) := by
    intro q h1 h2 hb; simp only [Before] at *; push_cast at hb; omega
  constructor
  · exact h.kpos
  · exact fun l h1 h2 => ⟨(h.seed l h1 h2).1, up _ (h.seed l h1 h2).2⟩
  · exact h.order
  · intro x hx hb
    have := val_bounded m x hx.1
    exact h.all x hx (down x this.2.2.1 this.2.2.2 hb)
  · intro p hp hb
    have := val_bounded m p hp
    exact h.done p hp (down p this.2.2.1 this.2.2.2 hb)
  · exact h.conn
  · intro x s τ hx hb
    have := val_bounded m x hx.1
    exact h.outer x s τ hx (down x this.2.2.1 this.2.2.2 hb)
  · intro x s τ hx hv hv4 hb
    have hx' := hx
    simp only [Image.inside, Bool.and_eq_true, decide_eq_true_eq] at hx'
    exact h.hole x s τ hx hv hv4 (down x hx'.1.2 hx'.2 hb)
  · intro p hp
    rcases h.mark p hp with e | ⟨e1, e2, z, hz, hb⟩
    · exact Or.inl e
    · exact Or.inr ⟨e1, e2, z, hz, up _ hb⟩

theorem scan_spec (m : Image) (n : Nat) (hn : n ≤ m.ny) :
    ∃ N st sd, (∀ fuel, N ≤ fuel → (List.range n).foldlM (row m fuel) ⟨0, 0, fun _ => 0⟩ = some st) ∧
      Inv m sd (n, 0) st.k st.ccl := by
  induction n with
  | zero =>
    refine ⟨0, ⟨0, 0, fun _ => 0⟩, fun _ => 0, fun _ _ => rfl, ?_⟩
    have none : ∀ p : Px, m.val p = true → ¬ Before p (((0 : Nat) : Int), 0) := by
      intro p hp hb
      have := val_bounded m p hp
      simp only [Before] at hb
      push_cast at hb
      omega
    constructor
    · exact le_refl _
    · intro l h1 h2; simp only at h2; omega
    · intro l l' h1 h2 h3; simp only at h3; omega
    · intro x hx hb; exact absurd hb (none x hx.1)
    · intro x hx hb; exact absurd hb (none x hx)
    · intro p _ h0; exact absurd rfl h0
    · intro x s τ hx hb; exact absurd hb (none x hx.1)
    · intro x s τ hx hv hv4 hb
      have hx' := hx
      simp only [Image.inside, Bool.and_eq_true, decide_eq_true_eq] at hx'
      simp only [Before] at hb
      push_cast at hb
      omega
    · intro p _; exact Or.inl rfl
  | succ n ih =>
    obtain ⟨N, st1, sd1, hN, hI⟩ := ih (by omega)
    obtain ⟨N2, st2, sd2, hN2, hI2, -⟩ := row_spec m sd1 n (by omega) st1 hI m.nx (le_refl _)
    refine ⟨max N N2, st2, sd2, ?_, inv_row hI2⟩
    intro fuel hf
    rw [List.range_succ, List.foldlM_append, hN fuel (by omega)]
    simp only [Option.bind_eq_bind, Option.bind_some, List.foldlM_cons, List.foldlM_nil, row, hN2 fuel (by omega)]
    rfl

/-- All of the result of the labelling. -/
theorem components_spec (m : Image) :
    ∃ (N : Nat) (k : Int) (lab : Px → Int) (sd : Int → Px), (∀ fuel, N ≤ fuel → components m fuel (fun _ => 0) = some (k, lab)) ∧ 0 ≤ k ∧
      (∀ p, m.val p = false → lab p = 0) ∧
      (∀ p, m.val p = true → 1 ≤ lab p ∧ lab p ≤ k ∧ Connected (Fg m.val) (sd (lab p)) p) ∧
      (∀ l, 1 ≤ l → l ≤ k → First (Fg m.val) (sd l)) ∧
      (∀ l l', 1 ≤ l → l < l' → l' ≤ k → Before (sd l) (sd l')) ∧
      (∀ x, First (Fg m.val) x → ∃ l, 1 ≤ l ∧ l ≤ k ∧ sd l = x) := by
  obtain ⟨N, st, sd, hN, hI⟩ := scan_spec m m.ny (le_refl _)
  have bef : ∀ p, m.val p = true → Before p ((m.ny : Int), 0) := by
    intro p hp
    have := val_bounded m p hp
    exact Or.inl this.2.1
  refine ⟨N, st.k, fun p => if m.inside p ∧ st.ccl p < 0 then 0 else st.ccl p, sd, ?_, hI.kpos, ?_, ?_, ?_, hI.order, ?_⟩
  · intro fuel hf
    simp only [components, hN fuel hf, Option.map_some]
  · intro p hp
    rcases hI.mark p hp with e | ⟨e1, e2, _⟩
    · simp only [e]; split <;> rfl
    · simp only [e1, e2]; simp
  · intro p hp
    have := hI.conn p hp (hI.done p hp (bef p hp))
    simp only
    rw [if_neg (by rintro ⟨_, h⟩; omega)]
    exact this
  · exact fun l h1 h2 => (hI.seed l h1 h2).1
  · exact fun x hx => hI.all x hx (bef x hx.1)

end Verif.Ccl
