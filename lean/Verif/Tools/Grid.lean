import Verif.Tools.Props
import Mathlib.Tactic.Linarith

/-!
# C122, C123, C124: grid, tile finder, quality layers
-/

namespace Verif.Tools

open Verif.Str (Out)
open Verif.Tile (Cube tileFind findX findY findX_spec findY_spec c16_interior c16_tile_contains_point)
open Verif.Tile.Spec

/-! ## Bounding box -/

theorem box_fold (ps : List (ℚ × ℚ)) (m : Box) :
    let r := ps.foldl Box.add m
    (r.minX ≤ m.minX ∧ r.minY ≤ m.minY ∧ m.maxX ≤ r.maxX ∧ m.maxY ≤ r.maxY) ∧
    (∀ p ∈ ps, r.minX ≤ p.1 ∧ p.1 ≤ r.maxX ∧ r.minY ≤ p.2 ∧ p.2 ≤ r.maxY) ∧
    (r.minX = m.minX ∨ ∃ p ∈ ps, r.minX = p.1) ∧ (r.minY = m.minY ∨ ∃ p ∈ ps, r.minY = p.2) ∧
    (r.maxX = m.maxX ∨ ∃ p ∈ ps, r.maxX = p.1) ∧ (r.maxY = m.maxY ∨ ∃ p ∈ ps, r.maxY = p.2) := by
  induction ps generalizing m with
  | nil => simp
  | cons q ps ih =>
    intro r
    obtain ⟨⟨h1, h2, h3, h4⟩, h5, h6, h7, h8, h9⟩ := ih (m.add q)
    have er : r = ps.foldl Box.add (m.add q) := rfl
    rw [← er] at h1 h2 h3 h4 h5 h6 h7 h8 h9
    have a1 : (m.add q).minX ≤ m.minX ∧ (m.add q).minX ≤ q.1 ∧ ((m.add q).minX = m.minX ∨ (m.add q).minX = q.1) := by
      show (if q.1 < m.minX then q.1 else m.minX) ≤ m.minX ∧ (if q.1 < m.minX then q.1 else m.minX) ≤ q.1 ∧
        ((if q.1 < m.minX then q.1 else m.minX) = m.minX ∨ (if q.1 < m.minX then q.1 else m.minX) = q.1)
      split
      · exact ⟨by linarith, le_refl _, Or.inr rfl⟩
      · exact ⟨le_refl _, by linarith, Or.inl rfl⟩
    have a2 : (m.add q).minY ≤ m.minY ∧ (m.add q).minY ≤ q.2 ∧ ((m.add q).minY = m.minY ∨ (m.add q).minY = q.2) := by
      show (if q.2 < m.minY then q.2 else m.minY) ≤ m.minY ∧ (if q.2 < m.minY then q.2 else m.minY) ≤ q.2 ∧
        ((if q.2 < m.minY then q.2 else m.minY) = m.minY ∨ (if q.2 < m.minY then q.2 else m.minY) = q.2)
      split
      · exact ⟨by linarith, le_refl _, Or.inr rfl⟩
      · exact ⟨le_refl _, by linarith, Or.inl rfl⟩
    have a3 : m.maxX ≤ (m.add q).maxX ∧ q.1 ≤ (m.add q).maxX ∧ ((m.add q).maxX = m.maxX ∨ (m.add q).maxX = q.1) := by
      show m.maxX ≤ (if q.1 > m.maxX then q.1 else m.maxX) ∧ q.1 ≤ (if q.1 > m.maxX then q.1 else m.maxX) ∧
        ((if q.1 > m.maxX then q.1 else m.maxX) = m.maxX ∨ (if q.1 > m.maxX then q.1 else m.maxX) = q.1)
      split
      · exact ⟨by linarith, le_refl _, Or.inr rfl⟩
      · exact ⟨le_refl _, by linarith, Or.inl rfl⟩
    have a4 : m.maxY ≤ (m.add q).maxY ∧ q.2 ≤ (m.add q).maxY ∧ ((m.add q).maxY = m.maxY ∨ (m.add q).maxY = q.2) := by
      show m.maxY ≤ (if q.2 > m.maxY then q.2 else m.maxY) ∧ q.2 ≤ (if q.2 > m.maxY then q.2 else m.maxY) ∧
        ((if q.2 > m.maxY then q.2 else m.maxY) = m.maxY ∨ (if q.2 > m.maxY then q.2 else m.maxY) = q.2)
      split
      · exact ⟨by linarith, le_refl _, Or.inr rfl⟩
      · exact ⟨le_refl _, by linarith, Or.inl rfl⟩
    refine ⟨⟨by linarith [a1.1], by linarith [a2.1], by linarith [a3.1], by linarith [a4.1]⟩, ?_, ?_, ?_, ?_, ?_⟩
    · intro p hp
      rcases List.mem_cons.1 hp with rfl | hp
      · exact ⟨by linarith [a1.2.1], by linarith [a3.2.1], by linarith [a2.2.1], by linarith [a4.2.1]⟩
      · exact h5 p hp
    · rcases h6 with h | ⟨p, hp, h⟩
      · rcases a1.2.2 with e | e
        · exact Or.inl (h.trans e)
        · exact Or.inr ⟨q, by simp, h.trans e⟩
      · exact Or.inr ⟨p, by simp [hp], h⟩
    · rcases h7 with h | ⟨p, hp, h⟩
      · rcases a2.2.2 with e | e
        · exact Or.inl (h.trans e)
        · exact Or.inr ⟨q, by simp, h.trans e⟩
      · exact Or.inr ⟨p, by simp [hp], h⟩
    · rcases h8 with h | ⟨p, hp, h⟩
      · rcases a3.2.2 with e | e
        · exact Or.inl (h.trans e)
        · exact Or.inr ⟨q, by simp, h.trans e⟩
      · exact Or.inr ⟨p, by simp [hp], h⟩
    · rcases h9 with h | ⟨p, hp, h⟩
      · rcases a4.2.2 with e | e
        · exact Or.inl (h.trans e)
        · exact Or.inr ⟨q, by simp, h.trans e⟩
      · exact Or.inr ⟨p, by simp [hp], h⟩

/-- The box of a non-empty list of points with usual coordinates. -/
theorem box_spec (ps : List (ℚ × ℚ)) (hne : ps ≠ []) (hb : ∀ p ∈ ps, |p.1| ≤ 2147483647 ∧ |p.2| ≤ 2147483647) :
    let r := ps.foldl Box.add Box.init
    (∀ p ∈ ps, r.minX ≤ p.1 ∧ p.1 ≤ r.maxX ∧ r.minY ≤ p.2 ∧ p.2 ≤ r.maxY) ∧
    (∃ p ∈ ps, r.minX = p.1) ∧ (∃ p ∈ ps, r.minY = p.2) ∧ (∃ p ∈ ps, r.maxX = p.1) ∧ (∃ p ∈ ps, r.maxY = p.2) := by
  obtain ⟨q, hq⟩ := List.exists_mem_of_ne_nil ps hne
  intro r
  obtain ⟨_, h5, h6, h7, h8, h9⟩ := box_fold ps Box.init
  change ∀ p ∈ ps, r.minX ≤ p.1 ∧ p.1 ≤ r.maxX ∧ r.minY ≤ p.2 ∧ p.2 ≤ r.maxY at h5
  change r.minX = 2147483647 ∨ ∃ p ∈ ps, r.minX = p.1 at h6
  change r.minY = 2147483647 ∨ ∃ p ∈ ps, r.minY = p.2 at h7
  change r.maxX = -2147483648 ∨ ∃ p ∈ ps, r.maxX = p.1 at h8
  change r.maxY = -2147483648 ∨ ∃ p ∈ ps, r.maxY = p.2 at h9
  obtain ⟨q1, q2, q3, q4⟩ := h5 q hq
  obtain ⟨b1, b2⟩ := hb q hq
  rw [abs_le] at b1 b2
  refine ⟨h5, ?_, ?_, ?_, ?_⟩
  · rcases h6 with h | h
    · exact ⟨q, hq, by linarith [b1.2]⟩
    · exact h
  · rcases h7 with h | h
    · exact ⟨q, hq, by linarith [b2.2]⟩
    · exact h
  · rcases h8 with h | h
    · exfalso; linarith [b1.1]
    · exact h
  · rcases h9 with h | h
    · exfalso; linarith [b2.1]
    · exact h

/-! ## Monotonicity of the tile search -/

theorem findX_mono {o s x x' : ℚ} (hs : 0 < s) (hx : x ≤ x') {t t' : ℚ} {i i' : ℤ} (h : findX o s x = some (t, i)) (h' : findX o s x' = some (t', i')) :
    i ≤ i' := by
  obtain ⟨k, e, hk⟩ := findX_spec o s x hs
  obtain ⟨k', e', hk'⟩ := findX_spec o s x' hs
  rw [h, Option.some.injEq, Prod.mk.injEq] at e
  rw [h', Option.some.injEq, Prod.mk.injEq] at e'
  rw [e.2, e'.2]
  by_contra hc
  have hc : k' + 1 ≤ k := by omega
  have hcq : ((k' : ℚ) + 1) * s ≤ k * s := by
    have : ((k' : ℚ) + 1) ≤ k := by exact_mod_cast hc
    exact mul_le_mul_of_nonneg_right this hs.le
  have hup : x' ≤ o + (k' + 1) * s := by
    rcases hk' with ⟨_, _, b⟩ | ⟨a, _, b⟩ | ⟨_, _, b⟩
    · exact b
    · rw [a]; push_cast; linarith
    · exact b.le
  rcases hk with ⟨_, a, _⟩ | ⟨h0, a, _⟩ | ⟨h0, a, _⟩
  · linarith
  · have hneg : k' < 0 := by omega
    rcases hk' with ⟨p, _, _⟩ | ⟨p, _, _⟩ | ⟨_, _, b⟩
    · omega
    · omega
    · rw [h0] at hcq; push_cast at hcq; linarith
  · have hneg : k' < 0 := by omega
    rcases hk' with ⟨p, _, _⟩ | ⟨p, _, _⟩ | ⟨_, _, b⟩
    · omega
    · omega
    · linarith

theorem findY_mono {o s y y' : ℚ} (hs : 0 < s) (hy : y' ≤ y) {t t' : ℚ} {j j' : ℤ} (h : findY o s y = some (t, j)) (h' : findY o s y' = some (t', j')) :
    j ≤ j' := by
  obtain ⟨k, e, hk⟩ := findY_spec o s y hs
  obtain ⟨k', e', hk'⟩ := findY_spec o s y' hs
  rw [h, Option.some.injEq, Prod.mk.injEq] at e
  rw [h', Option.some.injEq, Prod.mk.injEq] at e'
  rw [e.2, e'.2]
  by_contra hc
  have hc : k' + 1 ≤ k := by omega
  have hcq : ((k' : ℚ) + 1) * s ≤ k * s := by
    have : ((k' : ℚ) + 1) ≤ k := by exact_mod_cast hc
    exact mul_le_mul_of_nonneg_right this hs.le
  have hup : o - (k' + 1) * s ≤ y' := by
    rcases hk' with ⟨_, _, b⟩ | ⟨a, _, b⟩ | ⟨_, _, b⟩
    · exact b
    · rw [a]; push_cast; linarith
    · exact b.le
  rcases hk with ⟨_, a, _⟩ | ⟨h0, a, _⟩ | ⟨h0, a, _⟩
  · linarith
  · have hneg : k' < 0 := by omega
    rcases hk' with ⟨p, _, _⟩ | ⟨p, _, _⟩ | ⟨_, _, b⟩
    · omega
    · omega
    · rw [h0] at hcq; push_cast at hcq; linarith
  · have hneg : k' < 0 := by omega
    rcases hk' with ⟨p, _, _⟩ | ⟨p, _, _⟩ | ⟨_, _, b⟩
    · omega
    · omega
    · linarith

theorem tileFind_parts {c : Cube} {x y : ℚ} {f : Tile.Found} (h : tileFind c x y = some f) :
    findX c.originX c.tileSizeX x = some (f.tilex, f.idx) ∧ findY c.originY c.tileSizeY y = some (f.tiley, f.idy) := by
  unfold tileFind at h
  cases h1 : findX c.originX c.tileSizeX x with
  | none => rw [h1] at h; cases h
  | some a =>
    cases h2 : findY c.originY c.tileSizeY y with
    | none => rw [h1, h2] at h; cases h
    | some b =>
      rw [h1, h2] at h
      obtain ⟨a1, a2⟩ := a
      obtain ⟨b1, b2⟩ := b
      have h : (⟨a1, b1, a2, b2⟩ : Tile.Found) = f := Option.some.inj h
      subst h
      exact ⟨rfl, rfl⟩

theorem mem_upTo (a b k : ℤ) : k ∈ upTo a b ↔ a ≤ k ∧ k ≤ b := by
  unfold upTo
  rw [List.mem_map]
  constructor
  · rintro ⟨n, hn, rfl⟩
    rw [List.mem_range] at hn
    omega
  · rintro ⟨h1, h2⟩
    exact ⟨(k - a).toNat, by rw [List.mem_range]; omega, by omega⟩

theorem nodup_upTo (a b : ℤ) : (upTo a b).Nodup := by
  unfold upTo
  refine List.Nodup.map ?_ List.nodup_range
  intro x y h
  have : a + (x : ℤ) = a + y := h
  omega

/-! ## C122: grid -/

/-- C122, partial: the features are the tiles, with their names and bounds, each once, that touch the bounding box of the four corners in the projection of the datacube: all tiles that contain
a point of this box, and only these. Missing: the requested area is a box in degrees, not its bounding box in the projection. -/
theorem c122_grid_partial (cube : Cube) (hX : 0 < cube.tileSizeX) (hY : 0 < cube.tileSizeY) (corners : List (ℚ × ℚ)) (hne : corners ≠ [])
    (hb : ∀ p ∈ corners, |p.1| ≤ 2147483647 ∧ |p.2| ≤ 2147483647) :
    ∃ features, grid cube corners = some features ∧
      (features.map fun f => (f.x, f.y)).Nodup ∧
      (∀ f ∈ features, f.ring = [(left cube f.x, top cube f.y), (left cube (f.x + 1), top cube f.y), (left cube (f.x + 1), top cube (f.y + 1)),
        (left cube f.x, top cube (f.y + 1)), (left cube f.x, top cube f.y)]) ∧
      (∀ x y, (∃ p ∈ corners, p.1 ≤ x) → (∃ p ∈ corners, x ≤ p.1) → (∃ p ∈ corners, p.2 ≤ y) → (∃ p ∈ corners, y ≤ p.2) →
        ∃ f ∈ features, InTile cube f.x f.y x y ∧ ∃ t, tileFind cube x y = some t ∧ t.idx = f.x ∧ t.idy = f.y) ∧
      (∀ f ∈ features, ∃ x y, InTile cube f.x f.y x y ∧ (∃ p ∈ corners, p.1 ≤ x) ∧ (∃ p ∈ corners, x ≤ p.1) ∧ (∃ p ∈ corners, p.2 ≤ y) ∧ (∃ p ∈ corners, y ≤ p.2)) := by
  obtain ⟨hall, ⟨pa, pam, pa'⟩, ⟨pb, pbm, pb'⟩, ⟨pc, pcm, pc'⟩, ⟨pd, pdm, pd'⟩⟩ := box_spec corners hne hb
  unfold grid
  simp only
  generalize corners.foldl Box.add Box.init = m at hall pa' pb' pc' pd'
  obtain ⟨ul, hul, ⟨⟨u1, u2⟩, ⟨u3, u4⟩⟩, _⟩ := c16_tile_contains_point cube hX hY m.minX m.maxY
  obtain ⟨lr, hlr, ⟨⟨l1, l2⟩, ⟨l3, l4⟩⟩, _⟩ := c16_tile_contains_point cube hX hY m.maxX m.minY
  rw [hul, hlr]
  have hmem : ∀ f, f ∈ ((upTo ul.idy lr.idy).flatMap fun py => (upTo ul.idx lr.idx).map fun px => feature cube px py) ↔
      f = feature cube f.x f.y ∧ (ul.idx ≤ f.x ∧ f.x ≤ lr.idx) ∧ (ul.idy ≤ f.y ∧ f.y ≤ lr.idy) := by
    intro f
    rw [List.mem_flatMap]
    constructor
    · rintro ⟨py, hpy, hf⟩
      rw [List.mem_map] at hf
      obtain ⟨px, hpx, rfl⟩ := hf
      exact ⟨rfl, (mem_upTo _ _ _).1 hpx, (mem_upTo _ _ _).1 hpy⟩
    · rintro ⟨h1, h2, h3⟩
      exact ⟨f.y, (mem_upTo _ _ _).2 h3, List.mem_map.2 ⟨f.x, (mem_upTo _ _ _).2 h2, h1.symm⟩⟩
  have hminmax : m.minX ≤ m.maxX ∧ m.minY ≤ m.maxY := by
    have := hall pa pam
    exact ⟨by linarith [this.1, this.2.1], by linarith [this.2.2.1, this.2.2.2]⟩
  refine ⟨_, rfl, ?_, ?_, ?_, ?_⟩
  · rw [List.map_flatMap]
    refine List.nodup_flatMap.2 ⟨?_, ?_⟩
    · intro py _
      rw [List.map_map]
      refine List.Nodup.map ?_ (nodup_upTo _ _)
      intro a b hab
      exact (Prod.mk.inj hab).1
    · refine (nodup_upTo _ _).imp fun {a b} hab => ?_
      intro z hz hz'
      simp only [List.map_map, List.mem_map] at hz hz'
      obtain ⟨_, _, rfl⟩ := hz
      obtain ⟨_, _, h⟩ := hz'
      exact hab (Prod.mk.inj h).2.symm
  · intro f hf
    obtain ⟨h1, _⟩ := (hmem f).1 hf
    have : f.ring = (feature cube f.x f.y).ring := congrArg Feature.ring h1
    rw [this]
    unfold feature left top
    simp only [List.cons.injEq, Prod.mk.injEq, and_true]
    push_cast
    refine ⟨⟨by ring, by ring⟩, ⟨by ring, by ring⟩, ⟨by ring, by ring⟩, ⟨by ring, by ring⟩, by ring, by ring⟩
  · rintro x y ⟨p1, m1, h1⟩ ⟨p2, m2, h2⟩ ⟨p3, m3, h3⟩ ⟨p4, m4, h4⟩
    have b1 := (hall p1 m1).1
    have b2 := (hall p2 m2).2.1
    have b3 := (hall p3 m3).2.2.1
    have b4 := (hall p4 m4).2.2.2
    obtain ⟨t, ht, hin, _⟩ := c16_tile_contains_point cube hX hY x y
    obtain ⟨tx, ty⟩ := tileFind_parts ht
    obtain ⟨ux, uy⟩ := tileFind_parts hul
    obtain ⟨lx, ly⟩ := tileFind_parts hlr
    refine ⟨feature cube t.idx t.idy, (hmem _).2 ⟨rfl, ⟨?_, ?_⟩, ?_, ?_⟩, hin, t, ht, rfl, rfl⟩
    · exact findX_mono hX (by linarith) ux tx
    · exact findX_mono hX (by linarith) tx lx
    · exact findY_mono hY (by linarith) uy ty
    · exact findY_mono hY (by linarith) ty ly
  · intro f hf
    obtain ⟨_, ⟨f1, f2⟩, f3, f4⟩ := (hmem f).1 hf
    have hx : ∃ x, (left cube f.x ≤ x ∧ x ≤ left cube (f.x + 1)) ∧ m.minX ≤ x ∧ x ≤ m.maxX := by
      rcases eq_or_lt_of_le f1 with e | e
      · exact ⟨m.minX, by rw [← e]; exact ⟨u1, u2⟩, le_refl _, hminmax.1⟩
      · refine ⟨left cube f.x, ⟨le_refl _, ?_⟩, ?_, ?_⟩
        · unfold left; push_cast; linarith
        · refine le_trans u2 ?_
          unfold left
          have : ((ul.idx + 1 : ℤ) : ℚ) ≤ f.x := by exact_mod_cast e
          have := mul_le_mul_of_nonneg_right this hX.le
          linarith
        · refine le_trans ?_ l1
          unfold left
          have : (f.x : ℚ) ≤ lr.idx := by exact_mod_cast f2
          have := mul_le_mul_of_nonneg_right this hX.le
          linarith
    have hy : ∃ y, (top cube (f.y + 1) ≤ y ∧ y ≤ top cube f.y) ∧ m.minY ≤ y ∧ y ≤ m.maxY := by
      rcases eq_or_lt_of_le f3 with e | e
      · exact ⟨m.maxY, by rw [← e]; exact ⟨u3, u4⟩, hminmax.2, le_refl _⟩
      · refine ⟨top cube f.y, ⟨?_, le_refl _⟩, ?_, ?_⟩
        · unfold top; push_cast; linarith
        · refine le_trans l4 ?_
          unfold top
          have : (f.y : ℚ) ≤ lr.idy := by exact_mod_cast f4
          have := mul_le_mul_of_nonneg_right this hY.le
          linarith
        · refine le_trans ?_ u3
          unfold top
          have : ((ul.idy + 1 : ℤ) : ℚ) ≤ f.y := by exact_mod_cast e
          have := mul_le_mul_of_nonneg_right this hY.le
          linarith
    obtain ⟨x, hx1, hx2, hx3⟩ := hx
    obtain ⟨y, hy1, hy2, hy3⟩ := hy
    exact ⟨x, y, ⟨hx1, hy1⟩, ⟨pa, pam, by linarith⟩, ⟨pc, pcm, by linarith⟩, ⟨pb, pbm, by linarith⟩, ⟨pd, pdm, by linarith⟩⟩

/-- C122, violated: only the corners of the box in degrees are projected. Let `project` be the projection; if a point of the box is projected more than a tile above the
corners, as it happens in every projection whose parallels are curved if the box is wide enough, no tile of the result contains it. -/
theorem c122_curved_violated (cube : Cube) (hX : 0 < cube.tileSizeX) (hY : 0 < cube.tileSizeY) (project : ℚ × ℚ → ℚ × ℚ)
    (west east south north : ℚ) (hb : ∀ lon lat, |(project (lon, lat)).1| ≤ 2147483647 ∧ |(project (lon, lat)).2| ≤ 2147483647)
    (lon lat : ℚ) (_hlon : west ≤ lon ∧ lon ≤ east) (_hlat : south ≤ lat ∧ lat ≤ north)
    (h : ∀ a b, a = west ∨ a = east → b = south ∨ b = north → (project (a, b)).2 + cube.tileSizeY < (project (lon, lat)).2) :
    ∃ features, grid cube [project (west, south), project (east, south), project (west, north), project (east, north)] = some features ∧
      ∀ f ∈ features, ¬ InTile cube f.x f.y (project (lon, lat)).1 (project (lon, lat)).2 := by
  obtain ⟨features, h1, _, _, _, h2⟩ := c122_grid_partial cube hX hY [project (west, south), project (east, south), project (west, north), project (east, north)] (by simp)
    (by intro p hp; simp only [List.mem_cons, List.not_mem_nil, or_false] at hp; rcases hp with rfl | rfl | rfl | rfl <;> exact hb _ _)
  refine ⟨features, h1, fun f hf hin => ?_⟩
  obtain ⟨x, y, ⟨_, hy1, hy2⟩, _, _, _, p, hp, hpy⟩ := h2 f hf
  have hlt : p.2 + cube.tileSizeY < (project (lon, lat)).2 := by
    simp only [List.mem_cons, List.not_mem_nil, or_false] at hp
    rcases hp with rfl | rfl | rfl | rfl
    · exact h _ _ (Or.inl rfl) (Or.inl rfl)
    · exact h _ _ (Or.inr rfl) (Or.inl rfl)
    · exact h _ _ (Or.inl rfl) (Or.inr rfl)
    · exact h _ _ (Or.inr rfl) (Or.inr rfl)
  have hz := hin.2.2
  unfold top at hz hy1
  push_cast at hy1
  linarith

/-! ## C123: tile finder -/

theorem trunc_cell {d r : ℚ} (hr : 0 < r) (hd : 0 ≤ d) : ∃ n : ℕ, Index.truncQ (d / r) = n ∧ n * r ≤ d ∧ d < (n + 1) * r := by
  have h0 : 0 ≤ d / r := div_nonneg hd hr.le
  have hf : 0 ≤ ⌊d / r⌋ := Int.floor_nonneg.2 h0
  refine ⟨⌊d / r⌋.toNat, ?_, ?_, ?_⟩
  · rw [Index.truncQ_eq, if_pos h0]
    omega
  · have := Int.floor_le (d / r)
    rw [le_div_iff₀ hr] at this
    have e : ((⌊d / r⌋.toNat : ℕ) : ℚ) = (⌊d / r⌋ : ℚ) := by exact_mod_cast Int.toNat_of_nonneg hf
    rw [e]; exact this
  · have := Int.lt_floor_add_one (d / r)
    rw [div_lt_iff₀ hr] at this
    have e : ((⌊d / r⌋.toNat : ℕ) : ℚ) = (⌊d / r⌋ : ℚ) := by exact_mod_cast Int.toNat_of_nonneg hf
    rw [e]; exact this

/-- C123, partial: the tool names the tile that contains the point, and the pixel of the tile that contains it. For a point that is not on the edge of a tile, the pixel
is one of the columns and rows of the tile. -/
theorem c123_pixel_partial (cube : Cube) (hr : 0 < cube.resolution) (nx ny : ℕ) (hnx : 0 < nx) (hny : 0 < ny)
    (hX : cube.tileSizeX = nx * cube.resolution) (hY : cube.tileSizeY = ny * cube.resolution) (x y : ℚ) :
    ∃ (i j : ℤ) (c r : ℕ), findPixel cube x y = some ((i, j), ((c : ℤ), (r : ℤ))) ∧ InTile cube i j x y ∧
      (left cube i + c * cube.resolution ≤ x ∧ x < left cube i + (c + 1) * cube.resolution) ∧
      (top cube j - (r + 1) * cube.resolution < y ∧ y ≤ top cube j - r * cube.resolution) ∧
      ∀ i' j', Inside cube i' j' x y → i = i' ∧ j = j' ∧ c < nx ∧ r < ny := by
  have hX' : 0 < cube.tileSizeX := by rw [hX]; positivity
  have hY' : 0 < cube.tileSizeY := by rw [hY]; positivity
  obtain ⟨f, hf, hin, e1, e2⟩ := c16_tile_contains_point cube hX' hY' x y
  obtain ⟨c, c1, c2, c3⟩ := trunc_cell (d := x - f.tilex) hr (by rw [e1]; linarith [hin.1.1])
  obtain ⟨r, r1, r2, r3⟩ := trunc_cell (d := f.tiley - y) hr (by rw [e2]; linarith [hin.2.2])
  refine ⟨f.idx, f.idy, c, r, ?_, hin, ?_, ?_, ?_⟩
  · unfold findPixel
    rw [hf]
    show some _ = _
    rw [c1, r1]
  · rw [← e1]; exact ⟨by linarith, by linarith⟩
  · rw [← e2]; exact ⟨by linarith, by linarith⟩
  · intro i' j' h'
    have := c16_interior cube hX' hY' x y i' j' h'
    rw [hf, Option.some.injEq] at this
    subst this
    obtain ⟨⟨_, g2⟩, g3, _⟩ := h'
    refine ⟨rfl, rfl, ?_, ?_⟩
    · have : (c : ℚ) * cube.resolution < nx * cube.resolution := by
        change c * cube.resolution ≤ x - left cube i' at c2
        unfold left at g2 c2
        push_cast at g2
        linarith
      exact_mod_cast lt_of_mul_lt_mul_right this hr.le
    · have : (r : ℚ) * cube.resolution < ny * cube.resolution := by
        change r * cube.resolution ≤ top cube j' - y at r2
        unfold top at g3 r2
        push_cast at g3
        linarith
      exact_mod_cast lt_of_mul_lt_mul_right this hr.le

/-- C123, violated: a point on the vertical edge between two tiles, right of the origin, is assigned to the left tile, and its column is the number of columns: there is no such pixel. -/
theorem c123_edge_violated (cube : Cube) (hr : 0 < cube.resolution) (nx : ℕ) (hnx : 0 < nx) (hX : cube.tileSizeX = nx * cube.resolution)
    (hY : 0 < cube.tileSizeY) (i : ℤ) (hi : 0 ≤ i) (y : ℚ) : ∃ j r, findPixel cube (left cube (i + 1)) y = some ((i, j), ((nx : ℤ), r)) := by
  have hX' : 0 < cube.tileSizeX := by rw [hX]; positivity
  obtain ⟨f, hf, he⟩ := Tile.c16_edge_convention cube hX' hY (i + 1) y
  obtain ⟨g, hg, _, e1, _⟩ := c16_tile_contains_point cube hX' hY (left cube (i + 1)) y
  rw [hf, Option.some.injEq] at hg
  subst hg
  rw [if_pos (by omega), show i + 1 - 1 = i by omega] at he
  refine ⟨f.idy, Index.truncQ ((f.tiley - y) / cube.resolution), ?_⟩
  unfold findPixel
  rw [hf]
  show some _ = _
  rw [Option.some.injEq, Prod.mk.injEq, Prod.mk.injEq]
  refine ⟨⟨he, rfl⟩, ?_⟩
  rw [Prod.mk.injEq]
  refine ⟨?_, rfl⟩
  rw [e1, he]
  have : (left cube (i + 1) - left cube i) / cube.resolution = ((nx : ℤ) : ℚ) := by
    unfold left
    rw [hX]
    push_cast
    field_simp
    ring
  rw [this, Index.truncQ_eq]
  simp

/-! ## C124: quality layers -/

/-- C124: the twelve layers of a pixel are the numbers in the documented bits, in the documented order. -/
theorem c124_layers (v : BitVec 16) :
    inflate v = [v.toNat % 2, v.toNat / 2 % 4, v.toNat / 8 % 2, v.toNat / 16 % 2, v.toNat / 32 % 2, v.toNat / 64 % 4, v.toNat / 256 % 2, v.toNat / 512 % 2,
      v.toNat / 1024 % 2, v.toNat / 2048 % 4, v.toNat / 8192 % 2, v.toNat / 16384 % 2] := by
  unfold inflate flags
  simp only [List.map_cons, List.map_nil, Qai.c07_get_documented_bits, Qai.Spec.value, Qai.Spec.layout]
  norm_num
  omega

/-- C124: nothing is lost: the fifteen bits that have a meaning can be computed from the layers, so pixels of different quality have different layers. -/
theorem c124_lossless (v w : BitVec 16) : inflate v = inflate w ↔ v.toNat % 32768 = w.toNat % 32768 := by
  rw [c124_layers, c124_layers]
  simp only [List.cons.injEq, and_true]
  constructor
  · rintro ⟨h1, h2, h3, h4, h5, h6, h7, h8, h9, h10, h11, h12⟩
    generalize v.toNat = a at *
    generalize w.toNat = b at *
    have step : ∀ m k : ℕ, a % m = b % m → a / m % k = b / m % k → a % (m * k) = b % (m * k) := by
      intro m k e1 e2
      rw [Nat.mod_mul, Nat.mod_mul, e1, e2]
    exact step 16384 2 (step 8192 2 (step 2048 4 (step 1024 2 (step 512 2 (step 256 2 (step 64 4 (step 32 2 (step 16 2 (step 8 2 (step 2 4 h1 h2) h3) h4) h5) h6) h7) h8) h9) h10) h11) h12
  · intro h
    refine ⟨?_, ?_, ?_, ?_, ?_, ?_, ?_, ?_, ?_, ?_, ?_, ?_⟩ <;> omega

/-- C124: no layer has the value 255, which is the nodata value of the file: all pixels are valid in all layers. -/
theorem c124_nodata (v : BitVec 16) : ∀ n ∈ inflate v, n < 4 := by
  intro n hn
  rw [c124_layers] at hn
  simp only [List.mem_cons, List.not_mem_nil, or_false] at hn
  omega

end Verif.Tools
