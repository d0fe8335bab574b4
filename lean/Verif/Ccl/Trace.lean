import Mathlib.Dynamics.PeriodicPts.Defs
import Verif.Ccl.Separate

/-! # What one call of the contour tracing does -/

namespace Verif.Ccl

open Spec

theorem search_same (b : Fin 8 → Bool) : ∀ s e, good b s = true → arc b s e = true →
    search b 7 s = search b 7 (e + 1) := by
  revert b; apply forall_table; decide +kernel

theorem arc_seven (b : Fin 8 → Bool) : ∀ s, good b s = true → arc b s 4 = true →
    (b 5 || b 6 || b 7) = false → arc b s 7 = true := by
  revert b; apply forall_table; decide +kernel

theorem ring : ∀ d : Fin 8, ∃ o, even o = true ∧ vec (d + 1) = vec d + vec o := by decide

theorem ring' : ∀ d : Fin 8, ∃ o, even o = true ∧ vec d = vec (d + 1) + vec o := by decide

theorem vec_inj : ∀ d e : Fin 8, vec d = vec e → d = e := by decide

theorem vec_ne : ∀ d : Fin 8, vec d ≠ 0 := by decide

theorem gap_unset {F : Px → Bool} {p q : Px} (h : Gap F p q) : F q = false := by
  obtain ⟨hp, hc⟩ := h
  induction hc with
  | refl => exact hp
  | tail _ hbc _ => exact hbc.2

theorem gap_symm {F : Px → Bool} {p q : Px} (h : Gap F p q) : Gap F q p := by
  obtain ⟨hp, hc⟩ := h
  suffices hs : F q = false ∧
      Relation.ReflTransGen (fun a b => (∃ o, even o = true ∧ b = a + vec o) ∧ F b = false) q p from hs
  induction hc with
  | refl => exact ⟨hp, Relation.ReflTransGen.refl⟩
  | tail _ hbc ih =>
    obtain ⟨⟨o, ho, rfl⟩, hq⟩ := hbc
    refine ⟨hq, Relation.ReflTransGen.head ⟨⟨o + 4, ?_, (vec_opp _ o).symm⟩, ih.1⟩ ih.2⟩
    have : ∀ o, even (o + 4) = even o := by decide
    rw [this]; exact ho

theorem gap_step {F : Px → Bool} {p c : Px} {d e : Fin 8} (h : Gap F p (c + vec d))
    (hv : ∃ o, even o = true ∧ vec e = vec d + vec o) (he : F (c + vec e) = false) : Gap F p (c + vec e) := by
  obtain ⟨o, ho, e1⟩ := hv
  exact ⟨h.1, h.2.tail ⟨⟨o, ho, by rw [e1, add_assoc]⟩, he⟩⟩

/-- Nothing was changed, except for marks on unset pixels that are connected to `g`. -/
def Marked (m : Image) (g : Px) (a b : Px → Int) : Prop :=
  ∀ q, b q = a q ∨ (b q = -1 ∧ m.inside q = true ∧ m.val q = false ∧ Gap m.val g q)

theorem marked_refl (m : Image) (g : Px) (a : Px → Int) : Marked m g a a := fun _ => Or.inl rfl

theorem marked_trans {m : Image} {g : Px} {a b c : Px → Int} (h : Marked m g a b) (h' : Marked m g b c) :
    Marked m g a c := by
  intro q
  rcases h' q with e | e
  · rw [e]; exact h q
  · exact Or.inr e

theorem tracer_spec (m : Image) (g : Px) (n : Nat) : ∀ (c : Px) (s : Fin 8) (ccl : Px → Int),
    Gap m.val g (c + vec (s - 1)) →
    ∃ ccl', Marked m g ccl ccl' ∧
      (∀ d, search (nb m.val c) n s = some d →
        tracer m n c s ccl = (c + vec d, d, ccl') ∧ Gap m.val g (c + vec (d - 1))) ∧
      (search (nb m.val c) n s = none → (tracer m n c s ccl).1 = c ∧ (tracer m n c s ccl).2.2 = ccl') := by
  induction n with
  | zero =>
    intro c s ccl h
    refine ⟨ccl, marked_refl _ _ _, ?_, ?_⟩
    · intro d hd; simp [search] at hd
    · intro _
      simp only [tracer, and_self]
  | succ n ih =>
    intro c s ccl h
    cases hv : m.val (c + vec s) with
    | true =>
      refine ⟨ccl, marked_refl _ _ _, ?_, ?_⟩
      · intro d hd
        simp only [search, nb, hv, if_true, Option.some.injEq] at hd
        subst hd
        simp only [tracer, hv, if_true, h, and_self]
      · intro hd
        simp [search, nb, hv] at hd
    | false =>
      have hsub : ∀ s : Fin 8, s + 1 - 1 = s := by decide
      have hg : Gap m.val g (c + vec (s + 1 - 1)) := by
        rw [hsub]
        have e : ∀ s : Fin 8, s - 1 + 1 = s := by decide
        have r := ring (s - 1)
        rw [e] at r
        exact gap_step h r hv
      obtain ⟨ccl', hm, h1, h2⟩ := ih c (s + 1) (if m.inside (c + vec s) then set ccl (c + vec s) (-1) else ccl) hg
      refine ⟨ccl', marked_trans ?_ hm, ?_, ?_⟩
      · intro q
        by_cases hi : m.inside (c + vec s) = true
        · rw [if_pos hi]
          unfold set
          by_cases hq : q = c + vec s
          · right
            rw [if_pos hq, hq]
            rw [hsub] at hg
            exact ⟨rfl, hi, hv, hg⟩
          · left; rw [if_neg hq]
        · rw [if_neg hi]; exact Or.inl rfl
      · intro d hd
        simp only [search, nb, hv] at hd
        simp only [tracer, hv]
        exact h1 d (by simpa using hd)
      · intro hd
        simp only [search, nb, hv] at hd
        simp only [tracer, hv]
        have := h2 (by simpa using hd)
        simpa only [Bool.false_eq_true, if_false] using this

/-- The gap stays the same along the contour. -/
theorem gap_next {F : Px → Bool} {g c : Px} {s d : Fin 8} (hp : pre (nb F c) s = true)
    (hs : search (nb F c) 7 s = some d) (hg : Gap F g (c + vec (d - 1))) :
    Gap F g (c + vec d + vec (d + 6 - 1)) := by
  rw [d61]
  cases he : even d with
  | true =>
    rw [vec_e5 _ _ he]
    have h3 := (search_seen _ s d hp hs).2.2 he
    have r := ring' (d - 2)
    have e : ∀ d : Fin 8, d - 2 + 1 = d - 1 := by decide
    rw [e] at r
    exact gap_step hg r h3
  | false => rw [vec_o5 _ _ he]; exact hg

/-- What the loop has changed when it ends: the pixels of the contour have the label, and no other set pixel
has been changed. -/
def Traced (m : Image) (label : Int) (g : Px) (τ σ0 : State) (a b : Px → Int) : Prop :=
  ∃ e, (next m.val)^[e + 1] τ = σ0 ∧
    (∀ q, m.val q = true → (((∃ i ≤ e, ((next m.val)^[i] τ).1 = q) ∧ b q = label) ∨
      ((∀ i ≤ e, ((next m.val)^[i] τ).1 ≠ q) ∧ b q = a q))) ∧
    ∀ q, m.val q = false → (b q = a q ∨ (b q = -1 ∧ m.inside q = true ∧ Gap m.val g q))

theorem follow_spec (m : Image) (label : Int) (s g : Px) (d0 : Fin 8) (k : Nat) :
    ∀ (c : Px) (dir : Fin 8) (stop : Bool) (ccl : Px → Int),
      Good m.val (c, dir + 6) → (stop = true ↔ c = s) → Gap m.val g (c + vec (dir + 6 - 1)) →
      ((next m.val)^[k] (c, dir + 6)).1 = s → ((next m.val)^[k + 1] (c, dir + 6)).1 = s + vec d0 →
      ∃ ccl', (∀ fuel, k + 1 ≤ fuel → follow m label s (s + vec d0) fuel c dir stop ccl = some ccl') ∧
        Traced m label g (c, dir + 6) (s + vec d0, d0 + 6) ccl ccl' := by
  induction k with
  | zero =>
    intro c dir stop ccl hgood hstop hgap hk hk1
    obtain ⟨d, hd, hn⟩ := next_some hgood
    simp only at hd hn
    obtain ⟨ccl', hm, h1, -⟩ := tracer_spec m g 7 c (dir + 6) (set ccl c label) hgap
    obtain ⟨ht, hgd⟩ := h1 d hd
    simp only [Function.iterate_zero, id_eq] at hk
    rw [Function.iterate_one, hn] at hk1
    simp only at hk1
    have hne : c + vec d ≠ s := by
      rw [hk1]; intro e; exact vec_ne d0 (by simpa using e)
    have hst : stop = true := hstop.2 hk
    have hdd : d = d0 := by
      rw [hk] at hk1
      exact vec_inj _ _ (add_left_cancel hk1)
    refine ⟨ccl', ?_, 0, ?_, ?_, ?_⟩
    · intro fuel hf
      obtain ⟨n, rfl⟩ : ∃ n, fuel = n + 1 := ⟨fuel - 1, by omega⟩
      simp only [follow, ht]
      rw [if_neg hne, hst, if_pos rfl, if_pos hk1]
    · rw [Function.iterate_one, hn, hk1, hdd]
    · intro q hq
      have hval : ccl' q = set ccl c label q := by
        rcases hm q with e | e
        · exact e
        · rw [hq] at e; exact absurd e.2.2.1 (by decide)
      rw [hval]
      unfold set
      by_cases hqc : q = c
      · left
        rw [if_pos hqc]
        exact ⟨⟨0, le_refl _, hqc.symm⟩, rfl⟩
      · right
        rw [if_neg hqc]
        refine ⟨fun i hi => ?_, rfl⟩
        obtain rfl : i = 0 := by omega
        exact fun e => hqc e.symm
    · intro q hq
      have hqc : q ≠ c := by
        rintro rfl
        have := hgood.1
        simp only at this
        rw [hq] at this
        exact absurd this (by decide)
      rcases hm q with e | e
      · left; rw [e]; unfold set; rw [if_neg hqc]
      · right; exact ⟨e.1, e.2.1, e.2.2.2⟩
  | succ k ih =>
    intro c dir stop ccl hgood hstop hgap hk hk1
    obtain ⟨d, hd, hn⟩ := next_some hgood
    simp only at hd hn
    obtain ⟨ccl1, hm, h1, -⟩ := tracer_spec m g 7 c (dir + 6) (set ccl c label) hgap
    obtain ⟨ht, hgd⟩ := h1 d hd
    have hset : ∀ q, m.val q = true → ccl1 q = if q = c then label else ccl q := by
      intro q hq
      rcases hm q with e | e
      · exact e
      · rw [hq] at e; exact absurd e.2.2.1 (by decide)
    have hunset : ∀ q, m.val q = false → (ccl1 q = ccl q ∨ (ccl1 q = -1 ∧ m.inside q = true ∧ Gap m.val g q)) := by
      intro q hq
      have hqc : q ≠ c := by
        rintro rfl
        have := hgood.1
        simp only at this
        rw [hq] at this
        exact absurd this (by decide)
      rcases hm q with e | e
      · left; rw [e]; unfold set; rw [if_neg hqc]
      · right; exact ⟨e.1, e.2.1, e.2.2.2⟩
    by_cases hend : c = s ∧ c + vec d = s + vec d0
    · obtain ⟨hcs, hf0⟩ := hend
      have hdd : d = d0 := by rw [hcs] at hf0; exact vec_inj _ _ (add_left_cancel hf0)
      have hne : c + vec d ≠ s := by
        rw [hf0]; intro e; exact vec_ne d0 (by simpa using e)
      refine ⟨ccl1, ?_, 0, ?_, ?_, hunset⟩
      · intro fuel hf
        obtain ⟨n, rfl⟩ : ∃ n, fuel = n + 1 := ⟨fuel - 1, by omega⟩
        simp only [follow, ht]
        rw [if_neg hne, hstop.2 hcs, if_pos rfl, if_pos hf0]
      · rw [Function.iterate_one, hn, hf0, hdd]
      · intro q hq
        rw [hset q hq]
        by_cases hqc : q = c
        · left
          rw [if_pos hqc]
          exact ⟨⟨0, le_refl _, hqc.symm⟩, rfl⟩
        · right
          rw [if_neg hqc]
          refine ⟨fun i hi => ?_, rfl⟩
          obtain rfl : i = 0 := by omega
          exact fun e => hqc e.symm
    · have hgood' : Good m.val (c + vec d, d + 6) := hn ▸ good_next hgood
      rw [Function.iterate_succ_apply, hn] at hk hk1
      have hgap' := gap_next (good_pre _ _ hgood.2) hd hgd
      obtain ⟨ccl', hfol, e, he1, he2, he3⟩ := ih (c + vec d) d (decide (c + vec d = s)) ccl1 hgood'
        (by simp) hgap' hk hk1
      refine ⟨ccl', ?_, e + 1, ?_, ?_, ?_⟩
      · intro fuel hf
        obtain ⟨n, rfl⟩ : ∃ n, fuel = n + 1 := ⟨fuel - 1, by omega⟩
        simp only [follow, ht]
        by_cases hs : c + vec d = s
        · rw [if_pos hs]
          have := hfol n (by omega)
          simpa [hs] using this
        · rw [if_neg hs]
          have := hfol n (by omega)
          simp only [hs, decide_false] at this
          cases hst : stop with
          | false => simpa [hst] using this
          | true =>
            have hcs := hstop.1 hst
            rw [if_pos rfl, if_neg (fun e => hend ⟨hcs, e⟩)]
            exact this
      · rw [Function.iterate_succ_apply, hn]; exact he1
      · intro q hq
        rcases he2 q hq with ⟨⟨i, hi, hiq⟩, hv⟩ | ⟨hno, hv⟩
        · left
          refine ⟨⟨i + 1, by omega, ?_⟩, hv⟩
          rw [Function.iterate_succ_apply, hn]; exact hiq
        · rw [hset q hq] at hv
          by_cases hqc : q = c
          · left
            rw [if_pos hqc] at hv
            exact ⟨⟨0, by omega, hqc.symm⟩, hv⟩
          · right
            rw [if_neg hqc] at hv
            refine ⟨fun i hi => ?_, hv⟩
            rcases Nat.eq_zero_or_pos i with rfl | hpos
            · exact fun e => hqc e.symm
            · obtain ⟨j, rfl⟩ : ∃ j, i = j + 1 := ⟨i - 1, by omega⟩
              rw [Function.iterate_succ_apply, hn]
              exact hno j (by omega)
      · intro q hq
        rcases he3 q hq with e3 | e3
        · rw [e3]; exact hunset q hq
        · exact Or.inr e3

theorem val_bounded (m : Image) : Bounded m.val m.ny m.nx := by
  intro p h
  simp only [Image.val, Image.inside, Bool.and_eq_true, decide_eq_true_eq] at h
  omega

/-- One call of the contour tracing: it ends; set pixels are unchanged or get the label; all pixels of the
contour have it; the marked pixels are in one gap. -/
theorem contour_spec (m : Image) (s : Px) (label : Int) (dir : Fin 8) (ccl : Px → Int) (hs : m.val s = true)
    (hpre : pre (nb m.val s) dir = true) :
    ∃ N ccl', (∀ fuel, N ≤ fuel → contour m fuel s label dir ccl = some ccl') ∧
      (∀ q, m.val q = true → ccl' q = ccl q ∨ (ccl' q = label ∧ Connected (Fg m.val) s q)) ∧
      (∀ u τ, Good m.val (s, u) → arc (nb m.val s) u (dir - 1) = true → Orbit m.val (s, u) τ → ccl' τ.1 = label) ∧
      (∀ q, m.val q = false → ccl' q = ccl q ∨
        (ccl' q = -1 ∧ m.inside q = true ∧ Gap m.val (s + vec (dir - 1)) q)) := by
  have hu : m.val (s + vec (dir - 1)) = false := by
    simp only [pre, Bool.and_eq_true, Bool.not_eq_true', nb] at hpre
    exact hpre.1
  have hg0 : Gap m.val (s + vec (dir - 1)) (s + vec (dir - 1)) := ⟨hu, Relation.ReflTransGen.refl⟩
  obtain ⟨ccl1, hm, h1, h2⟩ := tracer_spec m (s + vec (dir - 1)) 7 s dir ccl hg0
  have hset : ∀ q, m.val q = true → ccl1 q = ccl q := by
    intro q hq
    rcases hm q with e | e
    · exact e
    · rw [hq] at e; exact absurd e.2.2.1 (by decide)
  have hunset : ∀ q, m.val q = false → (ccl1 q = ccl q ∨
      (ccl1 q = -1 ∧ m.inside q = true ∧ Gap m.val (s + vec (dir - 1)) q)) := by
    intro q hq
    rcases hm q with e | e
    · exact Or.inl e
    · right; exact ⟨e.1, e.2.1, e.2.2.2⟩
  cases hse : search (nb m.val s) 7 dir with
  | none =>
    refine ⟨0, ccl1, ?_, fun q hq => Or.inl (hset q hq), ?_, hunset⟩
    · intro fuel _
      obtain ⟨e1, e2⟩ := h2 hse
      simp only [contour, e1, e2, ne_eq, not_true_eq_false, if_false]
    · intro u τ hgu _ _
      have := search_none _ _ hpre hse (u - 2)
      have h' := hgu.2
      simp only [good, this] at h'
      simp at h'
  | some d0 =>
    obtain ⟨ht, hgd⟩ := h1 d0 hse
    have hgood : Good m.val (s + vec d0, d0 + 6) := after_good hs hpre hse
    have hgap := gap_next hpre hse hgd
    obtain ⟨n, hn, hper⟩ := periodic (val_bounded m) hgood
    obtain ⟨k, rfl⟩ : ∃ k, n = k + 1 := ⟨n - 1, by omega⟩
    have hk : ((next m.val)^[k] (s + vec d0, d0 + 6)).1 = s := by
      rw [Function.iterate_succ_apply'] at hper
      obtain ⟨d, hd, e⟩ := next_some (good_iter hgood k)
      rw [e] at hper
      have e2 := cancel6 _ _ (congrArg Prod.snd hper)
      have e1 := congrArg Prod.fst hper
      simp only [e2] at e1
      exact add_right_cancel e1
    have hne : s + vec d0 ≠ s := by intro e; exact vec_ne d0 (by simpa using e)
    obtain ⟨ccl', hfol, e, he1, he2, he3⟩ := follow_spec m label s (s + vec (dir - 1)) d0 k (s + vec d0) d0 false ccl1
      hgood (by simp [hne]) hgap hk (by rw [hper])
    have hcov : ∀ τ, Orbit m.val (s + vec d0, d0 + 6) τ → ∃ i ≤ e, (next m.val)^[i] (s + vec d0, d0 + 6) = τ := by
      rintro τ ⟨j, rfl⟩
      refine ⟨j % (e + 1), Nat.lt_succ_iff.1 (Nat.mod_lt j (Nat.succ_pos e)), ?_⟩
      exact ((show Function.IsPeriodicPt (next m.val) (e + 1) (s + vec d0, d0 + 6) from he1).iterate_mod_apply j)
    have hcon : Connected (Fg m.val) s (s + vec d0) :=
      ⟨hs, Relation.ReflTransGen.single ⟨adjacent_vec _ _, hgood.1⟩⟩
    refine ⟨k + 1, ccl', ?_, ?_, ?_, ?_⟩
    · intro fuel hf
      simp only [contour, ht]
      rw [if_pos hne]
      exact hfol fuel hf
    · intro q hq
      rcases he2 q hq with ⟨⟨i, _, hiq⟩, hv⟩ | ⟨_, hv⟩
      · right
        refine ⟨hv, ?_⟩
        have := orbit_connected hgood ⟨i, rfl⟩
        rw [hiq] at this
        exact connected_trans hcon this
      · left; rw [hv]; exact hset q hq
    · intro u τ hgu hau ho
      have hss := search_same _ _ _ hgu.2 hau
      have hdd : ∀ d : Fin 8, d - 1 + 1 = d := by decide
      simp only [hdd] at hss
      rw [hse] at hss
      have hnx : next m.val (s, u) = (s + vec d0, d0 + 6) := by simp only [next, hss]
      have ho2 : Orbit m.val (s + vec d0, d0 + 6) τ := by
        have o1 : Orbit m.val (s, u) (s + vec d0, d0 + 6) := ⟨1, by rw [Function.iterate_one, hnx]⟩
        exact orbit_trans (orbit_symm (val_bounded m) hgu o1) ho
      obtain ⟨i, hi, hit⟩ := hcov τ ho2
      have hτ : m.val τ.1 = true := (orbit_good hgu ho).1
      rcases he2 τ.1 hτ with ⟨_, hv⟩ | ⟨hno, _⟩
      · exact hv
      · exact absurd (by rw [hit]) (hno i hi)
    · intro q hq
      rcases he3 q hq with e3 | e3
      · rw [e3]; exact hunset q hq
      · exact Or.inr e3

end Verif.Ccl
