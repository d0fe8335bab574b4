import Verif.Lsm.Lemmas

/-! # The objects and the view of a pixel -/

namespace Verif.Lsm

open Verif.Str (Out)
open Verif.Ccl (Px Image Objects)
open Spec

theorem usable_iff (par : Par) (c : Chunk) (p : Px) : usable par c p = true ↔ Allowed par c p := by
  unfold usable Allowed
  cases c.mask <;> cases par.exclude <;> cases c.msk p <;> simp

theorem matched_iff (q : Query) (x t : Int) : matched q x t = true ↔ Satisfies x q t := by
  cases q <;> simp [matched, Satisfies]

theorem clipped_eq (par : Par) (c : Chunk) : (classImage par c).clipped = InClass par c := by
  funext p
  simp only [Verif.Ccl.Image.clipped, Verif.Ccl.Image.SetAt, classImage, InClass, InGrid, Bool.and_eq_true,
    usable_iff, matched_iff]

theorem objects_size (m : Image) (nmin : Int) (fuel : Nat) (o : Objects) (h : Verif.Ccl.objects m nmin fuel = some o) :
    o.image.ny = m.ny ∧ o.image.nx = m.nx := by
  unfold Verif.Ccl.objects at h
  rw [Option.bind_eq_some_iff] at h
  obtain ⟨r, _, h⟩ := h
  split at h
  · rw [Option.bind_eq_some_iff] at h
    obtain ⟨ccs, _, h⟩ := h
    rw [Option.bind_eq_some_iff] at h
    obtain ⟨r2, _, h⟩ := h
    split at h
    · rw [Option.bind_eq_some_iff] at h
      obtain ⟨ccs2, _, h⟩ := h
      cases h
      exact ⟨rfl, rfl⟩
    · cases h
      exact ⟨rfl, rfl⟩
  · cases h
    exact ⟨rfl, rfl⟩

/-- What the loop uses about the objects. -/
structure Good (par : Par) (c : Chunk) (o : Objects) : Prop where
  ny : o.image.ny = c.ny
  nx : o.image.nx = c.nx
  px : ∀ p, InGrid c p → (o.image.px p = true ↔ InPatch par c p)
  none : ∀ p, ¬ InPatch par c p → o.obj p = 0
  range : ∀ p, InPatch par c p → 1 ≤ o.obj p ∧ o.obj p ≤ o.nobj
  same : ∀ p q, InPatch par c p → InPatch par c q → (o.obj p = o.obj q ↔ SamePatch par c p q)
  surj : ∀ l, 1 ≤ l → l ≤ o.nobj → ∃ p, InPatch par c p ∧ o.obj p = l

theorem objects_good (par : Par) (c : Chunk) : ∃ (N : Nat) (o : Objects),
    (∀ fuel, N ≤ fuel → Verif.Ccl.objects (classImage par c) par.minpatch fuel = some o) ∧ Good par c o := by
  obtain ⟨N, o, h1, h2, h3, h4, h5, h6⟩ := Verif.Ccl.c86_objects_partial (classImage par c) par.minpatch
  rw [clipped_eq] at h2 h4 h5
  obtain ⟨hy, hx⟩ := objects_size _ _ _ _ (h1 N le_rfl)
  have hs : ∀ p, o.image.SetAt p ↔ InPatch par c p := h2
  refine ⟨N, o, h1, hy, hx, ?_, ?_, ?_, ?_, ?_⟩
  · intro p hp
    rw [← hs]
    unfold Verif.Ccl.Image.SetAt
    rw [hy, hx]
    exact ⟨fun h => ⟨hp, h⟩, fun h => h.2⟩
  · intro p hp
    exact h3 p (by rwa [hs])
  · intro p hp
    have := h4 p ((hs p).2 hp)
    exact ⟨this.1, this.2.1⟩
  · intro p q hp hq
    exact h5 p q ((hs p).2 hp) ((hs q).2 hq)
  · intro l hl hl'
    obtain ⟨p, hp, he⟩ := h6 l hl hl'
    exact ⟨p, (hs p).1 hp, he⟩

theorem inPatch_grid {par : Par} {c : Chunk} {p : Px} (h : InPatch par c p) : InGrid c p := h.1.1.1

theorem Good.nobj_iff {par : Par} {c : Chunk} {o : Objects} (g : Good par c o) :
    1 ≤ o.nobj ↔ ∃ p, InPatch par c p := by
  constructor
  · intro h
    obtain ⟨p, hp, _⟩ := g.surj 1 le_rfl h
    exact ⟨p, hp⟩
  · rintro ⟨p, hp⟩
    have := g.range p hp
    omega

/-! ## The view -/

/-- The pixels of the view in the order of the loop. -/
def viewAt (par : Par) (c : Chunk) (o : Objects) (p : Px) : List Px := (offsets par.radius).filter (seenAt par c o p)

theorem mem_viewAt {par : Par} {c : Chunk} {o : Objects} (g : Good par c o) (p v : Px) :
    v ∈ viewAt par c o p ↔ InView par c p (p + v) := by
  unfold viewAt seenAt
  rw [List.mem_filter, mem_offsets]
  simp only [Bool.and_eq_true, Bool.not_eq_true', usable_iff, InView, InKernel, InSquare, Prod.fst_add, Prod.snd_add,
    Bool.or_eq_false_iff, decide_eq_false_iff_not, Bool.and_eq_false_iff]
  constructor
  · rintro ⟨h, ⟨⟨h1, h2⟩, h3⟩, h4⟩
    have hp := (g.px (p + v) (by unfold InGrid; simp only [Prod.fst_add, Prod.snd_add]; omega)).1 h4
    refine ⟨⟨by omega, ?_⟩, hp⟩
    intro hc
    rcases h1 with h1 | h1
    · rw [hc] at h1; simp at h1
    · have e1 : p.1 + v.1 - p.1 = v.1 := by ring
      have e2 : p.2 + v.2 - p.2 = v.2 := by ring
      rw [e1, e2]; nlinarith
  · rintro ⟨⟨h, h1⟩, h2⟩
    have hg := inPatch_grid h2
    unfold InGrid at hg
    simp only [Prod.fst_add, Prod.snd_add] at hg
    refine ⟨by omega, ⟨⟨?_, by omega⟩, h2.1.1.2.1⟩, (g.px _ (inPatch_grid h2)).2 h2⟩
    by_cases hc : par.circle = true
    · right
      have := h1 hc
      have e1 : p.1 + v.1 - p.1 = v.1 := by ring
      have e2 : p.2 + v.2 - p.2 = v.2 := by ring
      rw [e1, e2] at this; nlinarith
    · left; simpa using hc

theorem nodup_viewAt (par : Par) (c : Chunk) (o : Objects) (p : Px) : (viewAt par c o p).Nodup :=
  (nodup_offsets _).filter _

/-! ## Edges -/

def beside : List Px := [(1, 0), (-1, 0), (0, 1), (0, -1)]

theorem beside_iff (q q' : Px) : Beside q q' ↔ ∃ d ∈ beside, q' = q + d := by
  obtain ⟨x, y⟩ := q
  obtain ⟨x', y'⟩ := q'
  unfold Beside beside
  simp only [List.mem_cons, List.not_mem_nil, or_false, exists_eq_or_imp, Prod.mk_add_mk, Prod.mk.injEq,
    exists_eq_left]
  omega

open Classical in
theorem edges_eq {par : Par} {c : Chunk} {o : Objects} (g : Good par c o) (p v : Px) (hv : InView par c p (p + v)) :
    edges par o.image (p + v) v = (beside.filter fun d => IsEdge par c p (p + v) (p + v + d)).length := by
  have hpx := (g.px _ (inPatch_grid hv.2)).2 hv.2
  have hg := inPatch_grid hv.2
  have hsq := hv.1.1
  unfold InGrid at hg
  unfold InSquare at hsq
  have key : ∀ d : Px, InGrid c (p + v + d) →
      (o.image.px (p + v) ≠ o.image.px (p + v + d) ↔ ¬ InPatch par c (p + v + d)) := by
    intro d hd
    rw [hpx, ← g.px _ hd]
    cases o.image.px (p + v + d) <;> simp
  have h1 : (v.1 ≠ (par.radius : Int) ∧ (p + v).1 + 1 < o.image.ny ∧ o.image.px (p + v) ≠ o.image.px (p + v + (1, 0))) ↔
      IsEdge par c p (p + v) (p + v + (1, 0)) := by
    simp only [Prod.fst_add, Prod.snd_add] at hg hsq
    constructor
    · rintro ⟨a, b, e⟩
      rw [g.ny] at b
      simp only [Prod.fst_add] at b
      have hd : InGrid c (p + v + (1, 0)) := by unfold InGrid; simp only [Prod.fst_add, Prod.snd_add]; omega
      refine ⟨hv, ?_, ?_, hd, (key _ hd).1 e⟩
      · exact (beside_iff _ _).2 ⟨_, by simp [beside], rfl⟩
      · unfold InSquare; simp only [Prod.fst_add, Prod.snd_add]; omega
    · rintro ⟨_, _, s, hd, e⟩
      have e := (key _ hd).2 e
      unfold InSquare at s; unfold InGrid at hd
      simp only [Prod.fst_add, Prod.snd_add] at s hd
      refine ⟨by omega, ?_, e⟩
      rw [g.ny]; simp only [Prod.fst_add]; omega
  have h2 : (v.1 ≠ -(par.radius : Int) ∧ (p + v).1 - 1 ≥ 0 ∧ o.image.px (p + v) ≠ o.image.px (p + v + (-1, 0))) ↔
      IsEdge par c p (p + v) (p + v + (-1, 0)) := by
    simp only [Prod.fst_add, Prod.snd_add] at hg hsq
    constructor
    · rintro ⟨a, b, e⟩
      simp only [Prod.fst_add] at b
      have hd : InGrid c (p + v + (-1, 0)) := by unfold InGrid; simp only [Prod.fst_add, Prod.snd_add]; omega
      refine ⟨hv, ?_, ?_, hd, (key _ hd).1 e⟩
      · exact (beside_iff _ _).2 ⟨_, by simp [beside], rfl⟩
      · unfold InSquare; simp only [Prod.fst_add, Prod.snd_add]; omega
    · rintro ⟨_, _, s, hd, e⟩
      have e := (key _ hd).2 e
      unfold InSquare at s; unfold InGrid at hd
      simp only [Prod.fst_add, Prod.snd_add] at s hd
      refine ⟨by omega, ?_, e⟩
      simp only [Prod.fst_add]; omega
  have h3 : (v.2 ≠ (par.radius : Int) ∧ (p + v).2 + 1 < o.image.nx ∧ o.image.px (p + v) ≠ o.image.px (p + v + (0, 1))) ↔
      IsEdge par c p (p + v) (p + v + (0, 1)) := by
    simp only [Prod.fst_add, Prod.snd_add] at hg hsq
    constructor
    · rintro ⟨a, b, e⟩
      rw [g.nx] at b
      simp only [Prod.snd_add] at b
      have hd : InGrid c (p + v + (0, 1)) := by unfold InGrid; simp only [Prod.fst_add, Prod.snd_add]; omega
      refine ⟨hv, ?_, ?_, hd, (key _ hd).1 e⟩
      · exact (beside_iff _ _).2 ⟨_, by simp [beside], rfl⟩
      · unfold InSquare; simp only [Prod.fst_add, Prod.snd_add]; omega
    · rintro ⟨_, _, s, hd, e⟩
      have e := (key _ hd).2 e
      unfold InSquare at s; unfold InGrid at hd
      simp only [Prod.fst_add, Prod.snd_add] at s hd
      refine ⟨by omega, ?_, e⟩
      rw [g.nx]; simp only [Prod.snd_add]; omega
  have h4 : (v.2 ≠ -(par.radius : Int) ∧ (p + v).2 - 1 ≥ 0 ∧ o.image.px (p + v) ≠ o.image.px (p + v + (0, -1))) ↔
      IsEdge par c p (p + v) (p + v + (0, -1)) := by
    simp only [Prod.fst_add, Prod.snd_add] at hg hsq
    constructor
    · rintro ⟨a, b, e⟩
      simp only [Prod.snd_add] at b
      have hd : InGrid c (p + v + (0, -1)) := by unfold InGrid; simp only [Prod.fst_add, Prod.snd_add]; omega
      refine ⟨hv, ?_, ?_, hd, (key _ hd).1 e⟩
      · exact (beside_iff _ _).2 ⟨_, by simp [beside], rfl⟩
      · unfold InSquare; simp only [Prod.fst_add, Prod.snd_add]; omega
    · rintro ⟨_, _, s, hd, e⟩
      have e := (key _ hd).2 e
      unfold InSquare at s; unfold InGrid at hd
      simp only [Prod.fst_add, Prod.snd_add] at s hd
      refine ⟨by omega, ?_, e⟩
      simp only [Prod.snd_add]; omega
  unfold edges beside
  simp only [h1, h2, h3, h4, List.filter_cons, List.filter_nil]
  by_cases a1 : IsEdge par c p (p + v) (p + v + (1, 0)) <;> by_cases a2 : IsEdge par c p (p + v) (p + v + (-1, 0)) <;>
    by_cases a3 : IsEdge par c p (p + v) (p + v + (0, 1)) <;> by_cases a4 : IsEdge par c p (p + v) (p + v + (0, -1)) <;>
    simp [a1, a2, a3, a4]

open Classical in
theorem edges_sum {par : Par} {c : Chunk} {o : Objects} (g : Good par c o) (p : Px) (V : List Px) (hn : V.Nodup)
    (hV : ∀ v ∈ V, InView par c p (p + v)) :
    (V.map fun v => edges par o.image (p + v) v).sum =
      Set.ncard {e : Px × Px | IsEdge par c p e.1 e.2 ∧ ∃ v ∈ V, e.1 = p + v} := by
  let L : List (Px × Px) := V.flatMap fun v =>
    (beside.filter fun d => IsEdge par c p (p + v) (p + v + d)).map fun d => (p + v, p + v + d)
  have h1 : (V.map fun v => edges par o.image (p + v) v).sum = L.length := by
    simp only [L, List.length_flatMap, List.length_map]
    congr 1
    apply List.map_congr_left
    intro v hv
    exact edges_eq g p v (hV v hv)
  have h2 : L.Nodup := by
    simp only [L]
    rw [List.nodup_flatMap]
    constructor
    · intro v _
      refine List.Nodup.map ?_ (List.Nodup.filter _ (by decide))
      intro a b h
      simpa using h
    · refine List.Pairwise.imp ?_ hn
      intro a b hab
      simp only [Function.onFun, List.disjoint_left, List.mem_map]
      rintro x ⟨d, _, rfl⟩ ⟨d', _, h⟩
      simp only [Prod.mk.injEq] at h
      exact hab (add_left_cancel h.1).symm
  have h3 : {e : Px × Px | IsEdge par c p e.1 e.2 ∧ ∃ v ∈ V, e.1 = p + v} = (L.toFinset : Set (Px × Px)) := by
    ext ⟨q, q'⟩
    simp only [Set.mem_setOf_eq, L, List.coe_toFinset, List.mem_flatMap, List.mem_map, List.mem_filter,
      decide_eq_true_eq, Prod.mk.injEq]
    constructor
    · rintro ⟨he, v, hv, rfl⟩
      obtain ⟨d, hd, rfl⟩ := (beside_iff _ _).1 he.2.1
      exact ⟨v, hv, d, ⟨hd, he⟩, rfl, rfl⟩
    · rintro ⟨v, hv, d, ⟨_, he⟩, rfl, rfl⟩
      exact ⟨he, v, hv, rfl⟩
  rw [h1, h3, Set.ncard_coe_finset, List.toFinset_card_of_nodup h2]

end Verif.Lsm
