import Verif.Lsm.Props
import Mathlib.Algebra.Order.BigOperators.Group.Finset
import Mathlib.Algebra.Order.BigOperators.Ring.Finset
import Mathlib.Algebra.BigOperators.Ring.Finset
import Mathlib.Algebra.BigOperators.Field
import Mathlib.Tactic.FieldSimp

/-! # Landscape metrics: patches -/

namespace Verif.Lsm

open Verif.Str (Out)
open Verif.Ccl (Px Image Objects)
open Verif.Index (short truncQ short_ok integerPart)
open Verif.Index.Spec (IntegerPart)
open Spec

/-! ## Edges are few -/

theorem allEdges_le (par : Par) (c : Chunk) (p : Px) : allEdges par c p ≤ 2 * (2 * par.radius + 1) ^ 2 := by
  let S : Finset (Px × Bool) := ((offsets par.radius).map fun v => p + v).toFinset ×ˢ Finset.univ
  let φ : Px × Px → Px × Bool := fun e => ((min e.1.1 e.2.1, min e.1.2 e.2.2), decide (e.1.1 = e.2.1))
  have hS : S.card = 2 * (2 * par.radius + 1) ^ 2 := by
    simp only [S, Finset.card_product, Finset.card_univ, Fintype.card_bool]
    rw [List.toFinset_card_of_nodup ((nodup_offsets _).map fun _ _ h => add_left_cancel h), List.length_map,
      length_offsets]
    ring
  unfold allEdges
  rw [← hS, ← Set.ncard_coe_finset]
  refine Set.ncard_le_ncard_of_injOn φ ?_ ?_ (Finset.finite_toSet S)
  · rintro ⟨⟨x, y⟩, ⟨x', y'⟩⟩ ⟨⟨⟨hs, _⟩, _⟩, hb, hs', _, _⟩
    unfold InSquare at hs hs'
    unfold Beside at hb
    simp only at hs hs' hb
    simp only [S, φ, Finset.coe_product, Set.mem_prod, Finset.coe_univ, Set.mem_univ, and_true, List.coe_toFinset,
      Set.mem_setOf_eq, List.mem_map]
    refine ⟨(min x x' - p.1, min y y' - p.2), ?_, ?_⟩
    · rw [mem_offsets]
      simp only
      omega
    · ext <;> simp
  · rintro ⟨⟨x, y⟩, ⟨x', y'⟩⟩ ⟨⟨_, h1⟩, hb, _, _, h2⟩ ⟨⟨u, v⟩, ⟨u', v'⟩⟩ ⟨⟨_, h1'⟩, hb', _, _, h2'⟩ he
    unfold Beside at hb hb'
    simp only [φ, Prod.mk.injEq, decide_eq_decide] at he
    simp only at hb hb' h1 h2 h1' h2'
    have hxy : (x = u ∧ y = v ∧ x' = u' ∧ y' = v') ∨ (x = u' ∧ y = v' ∧ x' = u ∧ y' = v) := by omega
    rcases hxy with ⟨rfl, rfl, rfl, rfl⟩ | ⟨rfl, rfl, rfl, rfl⟩
    · rfl
    · exact absurd h1 h2'

/-! ## One pixel per patch -/

open Classical in
/-- A pixel of the patch `l` in the view. -/
noncomputable def pick (par : Par) (c : Chunk) (o : Objects) (p : Px) (l : Int) : Px :=
  if h : ∃ v ∈ viewAt par c o p, o.obj (p + v) = l then p + h.choose else (0, 0)

theorem pick_spec {par : Par} {c : Chunk} {o : Objects} (g : Good par c o) (p : Px) (l : Int)
    (h : ∃ v ∈ viewAt par c o p, o.obj (p + v) = l) :
    InView par c p (pick par c o p l) ∧ o.obj (pick par c o p l) = l := by
  unfold pick
  rw [dif_pos h]
  exact ⟨(mem_viewAt g p _).1 h.choose_spec.1, h.choose_spec.2⟩

/-- The quantities of a pixel in terms of the patches. -/
theorem patches {par : Par} {c : Chunk} {o : Objects} (g : Good par c o) (p : Px) :
    ((measure par c o p).uniq.map (pick par c o p)).Nodup ∧
    OnePerPatch par c p ((measure par c o p).uniq.map (pick par c o p)).toFinset ∧
    (∀ l ∈ (measure par c o p).uniq, (measure par c o p).area l = patchSize par c p (pick par c o p l) ∧
      (measure par c o p).perim l = patchEdges par c p (pick par c o p l)) ∧
    (measure par c o p).edge = allEdges par c p ∧
    ((measure par c o p).uniq.map fun l => (measure par c o p).area l).sum = (measure par c o p).total ∧
    (∀ l ∈ (measure par c o p).uniq, 1 ≤ (measure par c o p).area l) ∧
    (measure par c o p).total ≤ kernelSize par := by
  have s := measure_summary g p
  generalize measure par c o p = a at s
  have hp : ∀ l ∈ a.uniq, InView par c p (pick par c o p l) ∧ o.obj (pick par c o p l) = l :=
    fun l hl => pick_spec g p l ((s.uniq l).1 hl)
  have hV : ∀ v ∈ viewAt par c o p, InView par c p (p + v) := fun v hv => (mem_viewAt g p v).1 hv
  have hmem : ∀ q, InView par c p q → ∃ v ∈ viewAt par c o p, p + v = q := by
    intro q hq
    have := (mem_map_view g p q).2 hq
    simpa using this
  refine ⟨?_, ⟨?_, ?_, ?_⟩, ?_, ?_, ?_, ?_, ?_⟩
  · refine List.Nodup.map_on ?_ s.nodup
    intro x hx y hy hxy
    rw [← (hp x hx).2, ← (hp y hy).2, hxy]
  · intro x hx
    simp only [List.mem_toFinset, List.mem_map] at hx
    obtain ⟨l, hl, rfl⟩ := hx
    exact (hp l hl).1
  · intro x hx y hy hs
    simp only [List.mem_toFinset, List.mem_map] at hx hy
    obtain ⟨l, hl, rfl⟩ := hx
    obtain ⟨l', hl', rfl⟩ := hy
    have := (g.same _ _ (hp l hl).1.2 (hp l' hl').1.2).2 hs
    rw [(hp l hl).2, (hp l' hl').2] at this
    rw [this]
  · intro q hq
    obtain ⟨v, hv, rfl⟩ := hmem q hq
    have hl := (s.uniq (o.obj (p + v))).2 ⟨v, hv, rfl⟩
    refine ⟨pick par c o p (o.obj (p + v)), ?_, ?_⟩
    · simp only [List.mem_toFinset, List.mem_map]
      exact ⟨_, hl, rfl⟩
    · exact (g.same _ _ (hp _ hl).1.2 hq.2).1 (hp _ hl).2
  · intro l hl
    have hsame : ∀ q, InView par c p q → (o.obj q = l ↔ SamePatch par c (pick par c o p l) q) := by
      intro q hq
      rw [← g.same _ _ (hp l hl).1.2 hq.2, (hp l hl).2]
      exact eq_comm
    constructor
    · rw [s.area]
      unfold patchSize
      have := Verif.Ccl.ncard_filter ((viewAt par c o p).map fun v => p + v) (nodup_map_view par c o p)
        (fun q => o.obj q = l) {q | InView par c p q ∧ SamePatch par c (pick par c o p l) q} (by
          intro q
          rw [mem_map_view g]
          simp only [Set.mem_setOf_eq, decide_eq_true_eq]
          constructor
          · rintro ⟨h, h'⟩; exact ⟨h, (hsame q h).2 h'⟩
          · rintro ⟨h, h'⟩; exact ⟨h, (hsame q h).1 h'⟩)
      rw [this, List.filter_map, List.length_map]
      rfl
    · rw [s.perim, edges_sum g p _ ((nodup_viewAt par c o p).filter _)
        fun v hv => hV v (List.mem_filter.1 hv).1]
      unfold patchEdges
      congr 1
      ext ⟨q, q'⟩
      simp only [Set.mem_setOf_eq, List.mem_filter, decide_eq_true_eq]
      constructor
      · rintro ⟨he, v, ⟨hv, ho⟩, rfl⟩
        exact ⟨he, (hsame _ he.1).1 ho⟩
      · rintro ⟨he, hs⟩
        obtain ⟨v, hv, rfl⟩ := hmem q he.1
        exact ⟨he, v, ⟨hv, (hsame _ he.1).2 hs⟩, rfl⟩
  · rw [s.edge, edges_sum g p _ (nodup_viewAt par c o p) hV]
    unfold allEdges
    congr 1
    ext ⟨q, q'⟩
    simp only [Set.mem_setOf_eq, and_iff_left_iff_imp]
    intro he
    obtain ⟨v, hv, rfl⟩ := hmem q he.1
    exact ⟨v, hv, rfl⟩
  · have hc := Finset.card_eq_sum_card_fiberwise (f := fun v => o.obj (p + v)) (s := (viewAt par c o p).toFinset)
      (t := a.uniq.toFinset) (by
        intro v hv
        simp only [List.coe_toFinset, Set.mem_setOf_eq] at hv ⊢
        exact (s.uniq _).2 ⟨v, hv, rfl⟩)
    rw [List.toFinset_card_of_nodup (nodup_viewAt par c o p), ← s.total, List.sum_toFinset _ s.nodup] at hc
    rw [hc]
    congr 1
    apply List.map_congr_left
    intro l _
    rw [s.area, ← List.toFinset_card_of_nodup ((nodup_viewAt par c o p).filter _), List.toFinset_filter]
    simp
  · intro l hl
    rw [s.area]
    obtain ⟨v, hv, he⟩ := (s.uniq l).1 hl
    have : v ∈ (viewAt par c o p).filter fun v => o.obj (p + v) = l := List.mem_filter.2 ⟨hv, by simpa using he⟩
    exact List.length_pos_of_mem this
  · rw [s.total]
    have : (viewAt par c o p).length ≤ (offsets par.radius).length := List.length_filter_le _ _
    rwa [length_offsets] at this

end Verif.Lsm
