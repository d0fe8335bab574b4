import Verif.Lsm.Metrics
import Mathlib.Order.Interval.Finset.Nat
import Mathlib.Data.Int.Interval

/-! # Many patches -/

namespace Verif.Lsm

open Verif.Ccl (Px Image Objects)
open Verif.Ccl.Spec
open Spec

/-- One row with `n` isolated pixels, in the odd columns. -/
def stripes (n : Nat) : Chunk := ⟨1, 2 * n, fun p => p.2 % 2, fun _ => true, -9999, none⟩

/-- All pixels with the value 1, radius 0. -/
def ones : Par := ⟨0, false, false, true, .eq, 1, 1⟩

theorem stripes_class (n : Nat) (p : Px) :
    InClass ones (stripes n) p ↔ p.1 = 0 ∧ 0 ≤ p.2 ∧ p.2 < 2 * n ∧ p.2 % 2 = 1 := by
  obtain ⟨x, y⟩ := p
  simp only [InClass, InGrid, Allowed, Satisfies, ones, stripes, ne_eq, Prod.mk.injEq]
  constructor
  · rintro ⟨⟨h1, _, h2⟩, _⟩
    push_cast at h1
    omega
  · rintro h
    refine ⟨⟨by push_cast; omega, ⟨by simp, by simp⟩, h.2.2.2⟩, by omega⟩

theorem stripes_same (n : Nat) (p q : Px) (h : SamePatch ones (stripes n) p q) : q = p := by
  obtain ⟨hp, h⟩ := h
  induction h with
  | refl => rfl
  | tail hab hb ih =>
    subst ih
    rename_i x y
    obtain ⟨ha, hy⟩ := hb
    rw [stripes_class] at hp hy
    unfold Adjacent at ha
    ext <;> omega

theorem stripes_patch (n : Nat) (p : Px) : InPatch ones (stripes n) p ↔ InClass ones (stripes n) p := by
  constructor
  · exact fun h => h.1
  · intro h
    refine ⟨h, ?_⟩
    have : {q | Connected (InClass ones (stripes n)) p q} = {p} := by
      ext q
      simp only [Set.mem_setOf_eq, Set.mem_singleton_iff]
      constructor
      · exact fun hq => stripes_same n p q hq
      · rintro rfl; exact ⟨h, Relation.ReflTransGen.refl⟩
    unfold segmentSize
    rw [this, Set.ncard_singleton]
    simp [ones]

theorem stripes_objects (n : Nat) (hn : 1 ≤ n) (o : Objects) (g : Good ones (stripes n) o) : (n : Int) ≤ o.nobj := by
  have hc : ∀ k ∈ Finset.range n, InPatch ones (stripes n) (0, 2 * (k : Int) + 1) := by
    intro k hk
    rw [Finset.mem_range] at hk
    rw [stripes_patch, stripes_class]
    exact ⟨rfl, by show 0 ≤ 2 * (k : Int) + 1; omega, by show 2 * (k : Int) + 1 < 2 * n; omega,
      by show (2 * (k : Int) + 1) % 2 = 1; omega⟩
  have := Finset.card_le_card_of_injOn (s := Finset.range n) (t := Finset.Icc (1 : Int) o.nobj)
    (fun k => o.obj (0, 2 * (k : Int) + 1))
    (by
      intro k hk
      simp only [Finset.coe_Icc, Set.mem_Icc]
      exact g.range _ (hc k hk))
    (by
      intro k hk k' hk' he
      have := (g.same _ _ (hc k hk) (hc k' hk')).1 he
      have := stripes_same n _ _ this
      simp only [Prod.mk.injEq, true_and] at this
      omega)
  rw [Finset.card_range, Int.card_Icc] at this
  omega

/-- C90, violated: UCI is stored in 16 bits, and a chunk can have more patches. With 65537 patches or more, two
patches have the same UCI (and identifiers from 32768 on are negative: 55537 becomes -9999, the nodata value). -/
theorem c90_identifier_violated (n : Nat) (hn : 65537 ≤ n) : ∃ (o : Objects) (p p' : Int × Int) (a a' : Acc),
    Measured ones (stripes n) o p a ∧ Measured ones (stripes n) o p' a' ∧
    InPatch ones (stripes n) p ∧ InPatch ones (stripes n) p' ∧
    ¬ SamePatch ones (stripes n) p p' ∧ uci o p = uci o p' := by
  obtain ⟨N, o, g, h⟩ := landscape_spec ones (stripes n)
  have ho := stripes_objects n (by omega) o g
  have hme : ∀ q, InPatch ones (stripes n) q → Measured ones (stripes n) o q (measure ones (stripes n) o q) := by
    intro q hq
    refine ⟨N, ?_⟩
    intro fuel hf
    obtain ⟨res, h1, h2, h3⟩ := h fuel hf [[q]]
    refine ⟨[[q]], res, h1, ?_⟩
    have : q ∈ res.map Prod.fst := by rw [h2]; simp
    rw [List.mem_map] at this
    obtain ⟨⟨q', r⟩, hm, rfl⟩ := this
    have hr := h3 _ _ hm
    rw [if_pos] at hr
    · rw [← hr]; exact hm
    · refine ⟨by omega, ?_⟩
      have := (g.px _ (inPatch_grid hq)).2 hq
      rw [Bool.and_eq_true, usable_iff]
      exact ⟨hq.1.1.2.1, by simp [this]⟩
  obtain ⟨p, hp, e⟩ := g.surj 1 le_rfl (by omega)
  obtain ⟨p', hp', e'⟩ := g.surj 65537 (by omega) (by omega)
  refine ⟨o, p, p', _, _, hme p hp, hme p' hp', hp, hp', ?_, ?_⟩
  · intro hs
    have := (g.same _ _ hp hp').2 hs
    omega
  · unfold uci
    rw [e, e']
    rfl

end Verif.Lsm
