import Mathlib.Data.List.ProdSigma
import Mathlib.Tactic.FieldSimp
import Mathlib.Tactic.Linarith
import Verif.Aod.Model
import Verif.Aod.Spec
import Verif.Ccl.Props

/-! # Dark targets (C214, C215) -/

namespace Verif.Aod

open Verif.Aod.Spec
open Verif.Ccl (Px components)
open Verif.Ccl.Spec

/-! ## Segments and cells -/

theorem step_cell {n a : Int} (hn : 0 < n) (h : (a + 1) % n ≠ 0) : (a + 1) / n = a / n := by
  have h0 := Int.emod_nonneg a (by omega : n ≠ 0)
  have h1 := Int.emod_lt_of_pos a hn
  have h2 := Int.mul_ediv_add_emod a n
  by_cases hr : a % n + 1 = n
  · exfalso; apply h
    have : a + 1 = n * (a / n + 1) := by rw [mul_add, mul_one]; omega
    rw [this]; exact Int.mul_emod_right _ _
  · have e : a + 1 = (a % n + 1) + n * (a / n) := by omega
    rw [e, Int.add_mul_ediv_left _ _ (by omega : n ≠ 0), Int.ediv_eq_zero_of_lt (by omega) (by omega)]
    omega

theorem near_cell {n a b : Int} (hn : 0 < n) (ha : a % n ≠ 0) (hb : b % n ≠ 0) (h1 : a - 1 ≤ b) (h2 : b ≤ a + 1) :
    a / n = b / n := by
  rcases (by omega : b = a ∨ b = a + 1 ∨ a = b + 1) with rfl | rfl | rfl
  · rfl
  · exact (step_cell hn hb).symm
  · exact step_cell hn ha

theorem cellSize_eq (n : Nat) (res : ℚ) (hr : 0 < res) : cellSize (n * res) res = n := by
  unfold cellSize
  rw [mul_div_assoc, div_self hr.ne', mul_one, Int.floor_natCast]

theorem cell_eq (n : Nat) (hn : 1 ≤ n) (res : ℚ) (hr : 0 < res) (p : Px) : cell (n * res) res p = cellOf n p := by
  have h : ∀ a : Int, ⌊(a : ℚ) * res / (n * res)⌋ = a / (n : Int) := by
    intro a
    have hn' : (n : ℚ) ≠ 0 := by positivity
    rw [show (a : ℚ) * res / (n * res) = a / n by field_simp]
    exact Rat.floor_intCast_div_natCast a n
  unfold cell cellOf
  rw [h, h]

theorem connected_cell {F : Px → Prop} {n : Int} (hn : 0 < n) (hF : ∀ p, F p → p.1 % n ≠ 0 ∧ p.2 % n ≠ 0) {p q : Px}
    (h : Connected F p q) : cellOf n p = cellOf n q := by
  obtain ⟨hp, h⟩ := h
  have : F q ∧ cellOf n p = cellOf n q := by
    induction h with
    | refl => exact ⟨hp, rfl⟩
    | tail _ hbc ih =>
      obtain ⟨hb, e⟩ := ih
      obtain ⟨⟨a1, a2, a3, a4⟩, hc⟩ := hbc
      refine ⟨hc, e.trans ?_⟩
      unfold cellOf
      rw [near_cell hn (hF _ hb).1 (hF _ hc).1 a1 a2, near_cell hn (hF _ hb).2 (hF _ hc).2 a3 a4]
  exact this.2

/-! ## First pass -/

theorem fold_min (f : Px → Int) (l : List Px) (m : Int) :
    let r := l.foldl (fun m p => if f p < m then f p else m) m
    r ≤ m ∧ (∀ p ∈ l, r ≤ f p) ∧ (r = m ∨ ∃ p ∈ l, f p = r) := by
  induction l generalizing m with
  | nil => simp
  | cons q l ih =>
    obtain ⟨h1, h2, h3⟩ := ih (if f q < m then f q else m)
    rw [List.foldl_cons]
    refine ⟨?_, ?_, ?_⟩
    · refine h1.trans ?_; split <;> omega
    · intro p hp
      rcases List.mem_cons.1 hp with rfl | hp
      · refine h1.trans ?_; split <;> omega
      · exact h2 p hp
    · rcases h3 with h3 | ⟨p, hp, e⟩
      · by_cases hq : f q < m
        · rw [if_pos hq] at h3 ⊢
          exact .inr ⟨q, by simp, h3.symm⟩
        · rw [if_neg hq] at h3 ⊢
          exact .inl h3
      · exact .inr ⟨p, by simp [hp], e⟩

theorem fold_max (f : Px → Int) (l : List Px) (m : Int) :
    let r := l.foldl (fun m p => if f p > m then f p else m) m
    m ≤ r ∧ (∀ p ∈ l, f p ≤ r) ∧ (r = m ∨ ∃ p ∈ l, f p = r) := by
  induction l generalizing m with
  | nil => simp
  | cons q l ih =>
    obtain ⟨h1, h2, h3⟩ := ih (if f q > m then f q else m)
    rw [List.foldl_cons]
    refine ⟨?_, ?_, ?_⟩
    · refine le_trans ?_ h1; split <;> omega
    · intro p hp
      rcases List.mem_cons.1 hp with rfl | hp
      · refine le_trans ?_ h1; split <;> omega
      · exact h2 p hp
    · rcases h3 with h3 | ⟨p, hp, e⟩
      · by_cases hq : f q > m
        · rw [if_pos hq] at h3 ⊢
          exact .inr ⟨q, by simp, h3.symm⟩
        · rw [if_neg hq] at h3 ⊢
          exact .inl h3
      · exact .inr ⟨p, by simp [hp], e⟩

theorem fold_maxN (f : Px → Nat) (l : List Px) (m : Nat) :
    let r := l.foldl (fun m p => if f p > m then f p else m) m
    m ≤ r ∧ (∀ p ∈ l, f p ≤ r) ∧ (r = m ∨ ∃ p ∈ l, f p = r) := by
  induction l generalizing m with
  | nil => simp
  | cons q l ih =>
    obtain ⟨h1, h2, h3⟩ := ih (if f q > m then f q else m)
    rw [List.foldl_cons]
    refine ⟨?_, ?_, ?_⟩
    · refine le_trans ?_ h1; split <;> omega
    · intro p hp
      rcases List.mem_cons.1 hp with rfl | hp
      · refine le_trans ?_ h1; split <;> omega
      · exact h2 p hp
    · rcases h3 with h3 | ⟨p, hp, e⟩
      · by_cases hq : f q > m
        · rw [if_pos hq] at h3 ⊢
          exact .inr ⟨q, by simp, h3.symm⟩
        · rw [if_neg hq] at h3 ⊢
          exact .inl h3
      · exact .inr ⟨p, by simp [hp], e⟩

theorem grow_fold (s : Scene) (l : List Px) (o : Box) :
    (l.foldl (grow s) o).k = o.k + l.length ∧
    (l.foldl (grow s) o).r = l.foldl (fun m p => if s.dist p > m then s.dist p else m) o.r ∧
    (l.foldl (grow s) o).imin = l.foldl (fun m p => if p.1 < m then p.1 else m) o.imin ∧
    (l.foldl (grow s) o).imax = l.foldl (fun m p => if p.1 > m then p.1 else m) o.imax ∧
    (l.foldl (grow s) o).jmin = l.foldl (fun m p => if p.2 < m then p.2 else m) o.jmin ∧
    (l.foldl (grow s) o).jmax = l.foldl (fun m p => if p.2 > m then p.2 else m) o.jmax ∧
    (l.foldl (grow s) o).zsum = o.zsum + (l.map fun p => (s.px p).z).sum := by
  induction l generalizing o with
  | nil => simp
  | cons q l ih =>
    obtain ⟨h1, h2, h3, h4, h5, h6, h7⟩ := ih (grow s o q)
    simp only [List.foldl_cons, List.length_cons, List.map_cons, List.sum_cons]
    refine ⟨?_, h2, h3, h4, h5, h6, ?_⟩
    · rw [h1]; show o.k + 1 + l.length = _; omega
    · rw [h7]; show o.zsum + _ + _ = _; ring

theorem mem_pixels (s : Scene) (p : Px) : p ∈ pixels s ↔ Inside s.ny s.nx p := by
  unfold pixels Inside
  simp only [List.mem_flatMap, List.mem_map, List.mem_range]
  constructor
  · rintro ⟨i, hi, j, hj, rfl⟩
    exact ⟨by simp, by simpa using hi, by simp, by simpa using hj⟩
  · rintro ⟨h1, h2, h3, h4⟩
    refine ⟨p.1.toNat, by omega, p.2.toNat, by omega, ?_⟩
    ext <;> simp <;> omega

theorem nodup_pixels (s : Scene) : (pixels s).Nodup := by
  have : pixels s = ((List.range s.ny) ×ˢ (List.range s.nx)).map fun q => (((q.1 : Nat) : Int), ((q.2 : Nat) : Int)) := by
    show _ = List.map _ ((List.range s.ny).flatMap fun a => (List.range s.nx).map (Prod.mk a))
    unfold pixels
    rw [List.map_flatMap]
    congr 1; funext i
    rw [List.map_map]; rfl
  rw [this]
  refine List.Nodup.map ?_ (List.nodup_range.product List.nodup_range)
  rintro ⟨a, b⟩ ⟨a', b'⟩ h
  simp only [Prod.mk.injEq, Nat.cast_inj] at h
  exact Prod.ext h.1 h.2

/-- The pixels that count for an object. -/
def members (kind : Kind) (c : Conf) (s : Scene) (lab : Px → Int) (l : Int) : List Px :=
  (pixels s).filter (counts kind c s lab l)

theorem box_eq (kind : Kind) (c : Conf) (s : Scene) (lab : Px → Int) (l : Int) :
    box kind c s lab l = (members kind c s lab l).foldl (grow s) ⟨0, 0, s.ny, 0, s.nx, 0, 0⟩ := by
  unfold box members
  rw [List.foldl_filter]

theorem mem_members {kind : Kind} {c : Conf} {s : Scene} {lab : Px → Int} {l : Int} {p : Px} :
    p ∈ members kind c s lab l ↔ Inside s.ny s.nx p ∧ counts kind c s lab l p = true := by
  unfold members; rw [List.mem_filter, mem_pixels]

/-- The bounding box is attained. -/
theorem box_spec (kind : Kind) (c : Conf) (s : Scene) (lab : Px → Int) (l : Int) (hne : members kind c s lab l ≠ []) :
    let o := box kind c s lab l
    let T := members kind c s lab l
    o.k = T.length ∧ (∀ p ∈ T, o.imin ≤ p.1 ∧ p.1 ≤ o.imax ∧ o.jmin ≤ p.2 ∧ p.2 ≤ o.jmax ∧ s.dist p ≤ o.r) ∧
    (∃ p ∈ T, p.1 = o.imin) ∧ (∃ p ∈ T, p.1 = o.imax) ∧ (∃ p ∈ T, p.2 = o.jmin) ∧ (∃ p ∈ T, p.2 = o.jmax) ∧
    (o.r = 0 ∨ ∃ p ∈ T, s.dist p = o.r) ∧ o.zsum = (T.map fun p => (s.px p).z).sum := by
  intro o T
  have e : o = T.foldl (grow s) ⟨0, 0, s.ny, 0, s.nx, 0, 0⟩ := box_eq kind c s lab l
  obtain ⟨h1, h2, h3, h4, h5, h6, h7⟩ := grow_fold s T ⟨0, 0, s.ny, 0, s.nx, 0, 0⟩
  rw [← e] at h1 h2 h3 h4 h5 h6 h7
  obtain ⟨q, hq⟩ := List.exists_mem_of_ne_nil _ hne
  have hT : ∀ p ∈ T, 0 ≤ p.1 ∧ p.1 < s.ny ∧ 0 ≤ p.2 ∧ p.2 < s.nx := fun p hp => (mem_members.1 hp).1
  obtain ⟨-, a2, a3⟩ := fold_min (fun p => p.1) T s.ny
  obtain ⟨b1, b2, b3⟩ := fold_max (fun p => p.1) T 0
  obtain ⟨-, c2, c3⟩ := fold_min (fun p => p.2) T s.nx
  obtain ⟨d1, d2, d3⟩ := fold_max (fun p => p.2) T 0
  obtain ⟨-, f2, f3⟩ := fold_maxN s.dist T 0
  simp only at h2 h3 h4 h5 h6 h7
  rw [← h3] at a2 a3; rw [← h4] at b1 b2 b3; rw [← h5] at c2 c3; rw [← h6] at d1 d2 d3; rw [← h2] at f2 f3
  refine ⟨by rw [h1]; simp, fun p hp => ⟨a2 p hp, b2 p hp, c2 p hp, d2 p hp, f2 p hp⟩, ?_, ?_, ?_, ?_, ?_, ?_⟩
  · rcases a3 with a3 | a3
    · have := a2 q hq; have := hT q hq; omega
    · exact a3
  · rcases b3 with b3 | b3
    · refine ⟨q, hq, ?_⟩; have := b2 q hq; have := hT q hq; omega
    · exact b3
  · rcases c3 with c3 | c3
    · have := c2 q hq; have := hT q hq; omega
    · exact c3
  · rcases d3 with d3 | d3
    · refine ⟨q, hq, ?_⟩; have := d2 q hq; have := hT q hq; omega
    · exact d3
  · rcases f3 with f3 | f3
    · exact .inl f3
    · exact .inr f3
  · rw [h7]; simp

theorem mid_cell {n a b : Int} (hn : 0 < n) (ha : 0 ≤ a) (hab : a ≤ b) (h : a / n = b / n) :
    ((b + a).tdiv 2) / n = a / n := by
  rw [Int.tdiv_eq_ediv_of_nonneg (by omega)]
  have h1 : a / n ≤ (b + a) / 2 / n := Int.ediv_le_ediv hn (by omega)
  have h2 : (b + a) / 2 / n ≤ b / n := Int.ediv_le_ediv hn (by omega)
  omega

theorem object_members {kind : Kind} {c : Conf} {s : Scene} {lab : Px → Int} {l : Int} {o : Object}
    (h : object kind c s lab l = some o) : members kind c s lab l ≠ [] := by
  intro hn
  have : (box kind c s lab l).k = 0 := by rw [box_eq, hn]; rfl
  unfold object at h
  simp [this] at h

/-- C214, where the cells of the atmospheric grid are whole numbers of pixels: each dark target lies in a single
cell, and its AOD is attributed to this cell. What is missing: other resolutions, see `c214_straddle_violated`. -/
theorem c214_one_cell_partial (kind : Kind) (c : Conf) (s : Scene) (n : Nat) (hn : 1 ≤ n) (res : ℚ) (hr : 0 < res) :
    ∃ (N : Nat) (k : Int) (lab : Px → Int),
      (∀ fuel, N ≤ fuel → components (targets kind c (cellSize (n * res) res) s) fuel (fun _ => 0) = some (k, lab)) ∧
      ∀ l, 1 ≤ l → l ≤ k → ∃ g : Int × Int,
        (∀ p, Inside s.ny s.nx p → lab p = l → cellOf n p = g ∧ cell (n * res) res p = g) ∧
        (∀ o, object kind c s lab l = some o → cell (n * res) res o.center = g) := by
  obtain ⟨N, k, lab, hN, h0, -, h2, h3, -⟩ := Ccl.c85_segments (targets kind c (cellSize (n * res) res) s)
  refine ⟨N, k, lab, hN, fun l hl hk => ?_⟩
  obtain ⟨p0, hp0, e0⟩ := h3 l hl hk
  have hF : ∀ p, (targets kind c (cellSize (n * res) res) s).SetAt p → p.1 % (n : Int) ≠ 0 ∧ p.2 % (n : Int) ≠ 0 := by
    intro p hp
    rw [cellSize_eq n res hr] at hp
    have := hp.2
    simp only [targets, Bool.and_eq_true, decide_eq_true_eq] at this
    exact ⟨this.1.2, this.2⟩
  have hn' : (0 : Int) < n := by omega
  have key : ∀ p, lab p = l → cellOf n p = cellOf n p0 := by
    intro p e
    by_cases hp : (targets kind c (cellSize (n * res) res) s).SetAt p
    · exact connected_cell hn' hF ((h2 p p0 hp hp0.1).1 (e.trans e0.symm))
    · have := h0 p hp; omega
  refine ⟨cellOf n p0, fun p _ e => ⟨key p e, (cell_eq n hn res hr p).trans (key p e)⟩, fun o ho => ?_⟩
  have hne := object_members ho
  obtain ⟨-, hb, ⟨p1, m1, e1⟩, ⟨p2, m2, e2⟩, ⟨p3, m3, e3⟩, ⟨p4, m4, e4⟩, -⟩ := box_spec kind c s lab l hne
  have hlab : ∀ p ∈ members kind c s lab l, cellOf n p = cellOf n p0 := by
    intro p hp
    apply key
    have := (mem_members.1 hp).2
    unfold counts at this
    simp only [Bool.and_eq_true, decide_eq_true_eq] at this
    exact this.1.1.2
  have hc : o.center = (((box kind c s lab l).imax + (box kind c s lab l).imin).tdiv 2,
      ((box kind c s lab l).jmax + (box kind c s lab l).jmin).tdiv 2) := by
    unfold object at ho
    simp only at ho
    split at ho
    · cases ho
    · split at ho
      · cases ho
      · split at ho
        · cases ho
        · rw [← Option.some.inj ho]
  rw [cell_eq n hn res hr, hc]
  have g1 := hlab p1 m1; have g2 := hlab p2 m2; have g3 := hlab p3 m3; have g4 := hlab p4 m4
  unfold cellOf at g1 g2 g3 g4 ⊢
  rw [Prod.mk.injEq] at g1 g2 g3 g4
  have i1 := (mem_members.1 m1).1; have i3 := (mem_members.1 m3).1
  rw [Prod.mk.injEq]
  constructor
  · rw [mid_cell hn' (by rw [← e1]; exact i1.1) (by rw [← e2]; exact (hb p2 m2).1) (by rw [← e1, ← e2, g1.1, g2.1]), ← e1, g1.1]
  · rw [mid_cell hn' (by rw [← e3]; exact i3.2.2.1) (by rw [← e4]; exact (hb p4 m4).2.2.1) (by rw [← e3, ← e4, g3.2, g4.2]), ← e3, g3.2]

/-- C214, violated: with the resolution of Landsat (30 m, cells of 5000 m) the separating rows and columns are not
those of the grid. Any dark pixels in rows and columns 1661 to 1667 along the diagonal form one target, although they are in
two cells. -/
theorem c214_straddle_violated (kind : Kind) (c : Conf) (s : Scene) (hy : 1667 < s.ny) (hx : 1667 < s.nx)
    (hd : ∀ t : Int, 1661 ≤ t → t ≤ 1667 → candidate kind c (s.px (t, t)) = true) :
    ∃ (N : Nat) (k : Int) (lab : Px → Int),
      (∀ fuel, N ≤ fuel → components (targets kind c (cellSize 5000 30) s) fuel (fun _ => 0) = some (k, lab)) ∧
      1 ≤ lab (1661, 1661) ∧ lab (1661, 1661) = lab (1667, 1667) ∧
      cell 5000 30 (1661, 1661) = (9, 9) ∧ cell 5000 30 (1667, 1667) = (10, 10) := by
  have hcs : cellSize 5000 30 = 166 := by
    unfold cellSize; rw [Int.floor_eq_iff]; norm_num
  obtain ⟨N, k, lab, hN, -, h1, h2, -, -⟩ := Ccl.c85_segments (targets kind c (cellSize 5000 30) s)
  have hset : ∀ t : Int, 1661 ≤ t → t ≤ 1667 → (targets kind c (cellSize 5000 30) s).SetAt (t, t) := by
    intro t ht ht'
    refine ⟨?_, ?_⟩
    · simp only [targets, Ccl.Image.inside, Bool.and_eq_true, decide_eq_true_eq]; omega
    · simp only [targets, hd t ht ht', hcs, Bool.and_eq_true, decide_eq_true_eq]
      exact ⟨⟨trivial, by omega⟩, by omega⟩
  have hcon : ∀ m : Nat, m ≤ 6 → Connected (targets kind c (cellSize 5000 30) s).SetAt (1661, 1661) (1661 + m, 1661 + m) := by
    intro m
    induction m with
    | zero => intro _; exact ⟨hset 1661 (by omega) (by omega), by simpa using Relation.ReflTransGen.refl⟩
    | succ m ih =>
      intro hm
      obtain ⟨a, b⟩ := ih (by omega)
      refine ⟨a, b.tail ⟨?_, hset _ (by omega) (by omega)⟩⟩
      unfold Adjacent; push_cast; omega
  refine ⟨N, k, lab, hN, (h1 _ (hset 1661 (by omega) (by omega))).1, ?_, ?_, ?_⟩
  · exact (h2 _ _ (hset 1661 (by omega) (by omega)) (hset 1667 (by omega) (by omega))).2 (by simpa using hcon 6 (by omega))
  · unfold cell; rw [Prod.mk.injEq]; constructor <;> rw [Int.floor_eq_iff] <;> norm_num
  · unfold cell; rw [Prod.mk.injEq]; constructor <;> rw [Int.floor_eq_iff] <;> norm_num

/-! ## Reflectance -/

theorem mem_intRange {a b x : Int} : x ∈ intRange a b ↔ a ≤ x ∧ x ≤ b := by
  unfold intRange
  rw [List.mem_map]
  constructor
  · rintro ⟨n, hn, rfl⟩
    rw [List.mem_range] at hn; omega
  · rintro ⟨h1, h2⟩
    exact ⟨(x - a).toNat, by rw [List.mem_range]; omega, by omega⟩

theorem nodup_intRange (a b : Int) : (intRange a b).Nodup := by
  refine List.Nodup.map ?_ List.nodup_range
  intro x y h
  simp only at h; omega

theorem nodup_window (s : Scene) (o : Box) : (window s o).Nodup := by
  unfold window
  refine List.Nodup.filter _ ?_
  exact (nodup_intRange _ _).product (nodup_intRange _ _)

theorem mem_window {s : Scene} {o : Box} {p : Px} : p ∈ window s o ↔
    Inside s.ny s.nx p ∧ o.imin - 3 * o.r ≤ p.1 ∧ p.1 ≤ o.imax + 3 * o.r ∧ o.jmin - 3 * o.r ≤ p.2 ∧ p.2 ≤ o.jmax + 3 * o.r := by
  unfold window Inside
  simp only [List.mem_filter, List.mem_flatMap, List.mem_map, mem_intRange, Bool.not_eq_true', Bool.or_eq_false_iff, decide_eq_false_iff_not]
  constructor
  · rintro ⟨⟨i, ⟨h1, h2⟩, j, ⟨h3, h4⟩, rfl⟩, h⟩
    simp only at h
    exact ⟨by omega, h1, h2, h3, h4⟩
  · rintro ⟨h, h1, h2, h3, h4⟩
    exact ⟨⟨p.1, ⟨h1, h2⟩, p.2, ⟨h3, h4⟩, rfl⟩, by omega⟩

/-- What a pixel of the target must fulfil. -/
theorem lapse_iff (kind : Kind) (c : Conf) (toa : Nat → Int) : lapse kind c toa = true ↔
    NonIncreasing (fun a => c.use a = true) (fun b => b < c.nb ∧ c.use b = true ∧ ¬ (kind = .vegetation ∧ b = c.sw2)) toa := by
  unfold lapse NonIncreasing
  simp only [List.all_eq_true, List.mem_range, Bool.or_eq_true, beq_iff_eq, Bool.not_eq_true', Bool.and_eq_true, decide_eq_false_iff_not]
  constructor
  · intro h a b hab ha ⟨hb, hu, hv⟩
    rcases h b hb with ((h | h) | h) | h
    · omega
    · rw [hu] at h; cases h
    · exact absurd h hv
    · rcases h a hab with h | h
      · rw [ha] at h; cases h
      · omega
  · intro h b hb
    by_cases hu : c.use b = true
    · by_cases hv : kind = .vegetation ∧ b = c.sw2
      · exact .inl (.inr hv)
      · refine .inr fun a hab => ?_
        by_cases ha : c.use a = true
        · have := h a b hab ha ⟨hb, hu, hv⟩; right; omega
        · left; simpa using ha
    · left; left; right; simpa using hu

theorem counts_iff (kind : Kind) (c : Conf) (s : Scene) (lab : Px → Int) (l : Int) (hl : 1 ≤ l) (p : Px) :
    counts kind c s lab l p = true ↔ lab p = l ∧ ((s.px p).off = false ∧ (s.px p).shadow = false ∧ (s.px p).cloud = 0) ∧
      (kind = .vegetation → 2 ≤ s.dist p) ∧
      NonIncreasing (fun a => c.use a = true) (fun b => b < c.nb ∧ c.use b = true ∧ ¬ (kind = .vegetation ∧ b = c.sw2)) (s.px p).toa := by
  unfold counts lapsing
  rw [← lapse_iff]
  simp only [Bool.and_eq_true, Bool.not_eq_true', decide_eq_true_eq, Bool.or_eq_false_iff, decide_eq_false_iff_not,
    Bool.and_eq_false_iff, beq_eq_false_iff_ne, ne_eq]
  constructor
  · rintro ⟨⟨⟨h1, h2⟩, h3, h4⟩, ⟨-, h6⟩, h7⟩
    exact ⟨h2, ⟨h1, h3, by omega⟩, fun hk => h6.elim (fun h => absurd hk h) (fun h => by omega), h7⟩
  · rintro ⟨h1, ⟨h2, h3, h4⟩, h5, h6⟩
    refine ⟨⟨⟨h2, h1⟩, h3, by omega⟩, ⟨⟨⟨h2, by omega⟩, h3, by omega⟩, ?_⟩, h6⟩
    by_cases hk : kind = .vegetation
    · right; have := h5 hk; omega
    · exact .inl hk

theorem sum_perm (s : Scene) (b : Nat) {l l' : List Px} (h : l.Perm l') : total s b l = total s b l' :=
  List.Perm.sum_eq (h.map _)

theorem clear_iff (x : Pixel) : clear x = true ↔ x.off = false ∧ x.shadow = false ∧ x.cloud = 0 := by
  unfold clear
  simp only [Bool.and_eq_true, Bool.not_eq_true', Bool.or_eq_false_iff, decide_eq_false_iff_not]
  constructor
  · rintro ⟨a, b, c⟩; exact ⟨a, b, by omega⟩
  · rintro ⟨a, b, c⟩; exact ⟨a, b, by omega⟩

/-- C215: the reflectance of a dark target is the mean of its clear pixels (neither cloud, shadow nor without data) whose
spectrum does not increase with wavelength, all of them and at least ten, none from other targets. That of its environment is the
mean of all clear pixels that belong to no target, up to three radii around the target; if there are less than ten, it
is the mean of all clear pixels of the scene. -/
theorem c215_reflectance (kind : Kind) (c : Conf) (s : Scene) (lab : Px → Int) (l : Int) (hl : 1 ≤ l) (o : Object)
    (h : object kind c s lab l = some o) :
    ∃ (T E S : List Px) (r : Nat) (imin imax jmin jmax : Int),
      Lists s.ny s.nx (fun p => lab p = l ∧ ((s.px p).off = false ∧ (s.px p).shadow = false ∧ (s.px p).cloud = 0) ∧
        (kind = .vegetation → 2 ≤ s.dist p) ∧
        NonIncreasing (fun a => c.use a = true) (fun b => b < c.nb ∧ c.use b = true ∧ ¬ (kind = .vegetation ∧ b = c.sw2)) (s.px p).toa) T ∧
      10 ≤ T.length ∧ 3 ≤ r ∧ (∀ p ∈ T, s.dist p ≤ r) ∧ (∃ p ∈ T, s.dist p = r) ∧
      (∀ p ∈ T, imin ≤ p.1 ∧ p.1 ≤ imax ∧ jmin ≤ p.2 ∧ p.2 ≤ jmax) ∧
      (∃ p ∈ T, p.1 = imin) ∧ (∃ p ∈ T, p.1 = imax) ∧ (∃ p ∈ T, p.2 = jmin) ∧ (∃ p ∈ T, p.2 = jmax) ∧
      Lists s.ny s.nx (fun p => lab p = 0 ∧ ((s.px p).off = false ∧ (s.px p).shadow = false ∧ (s.px p).cloud = 0) ∧
        imin - 3 * r ≤ p.1 ∧ p.1 ≤ imax + 3 * r ∧ jmin - 3 * r ≤ p.2 ∧ p.2 ≤ jmax + 3 * r) E ∧
      Lists s.ny s.nx (fun p => (s.px p).off = false ∧ (s.px p).shadow = false ∧ (s.px p).cloud = 0) S ∧
      o.z = mean T (fun p => (s.px p).z) ∧
      ∀ b, o.target b = mean T (fun p => ((s.px p).toa b : ℚ) / 10000) ∧
        o.environment b = if 10 ≤ E.length then mean E (fun p => ((s.px p).toa b : ℚ) / 10000)
          else mean S (fun p => ((s.px p).toa b : ℚ) / 10000) := by
  have hne := object_members h
  obtain ⟨hk, hb, hi1, hi2, hj1, hj2, hr, hz⟩ := box_spec kind c s lab l hne
  have hmem : ∀ p, p ∈ members kind c s lab l ↔ Inside s.ny s.nx p ∧ _ := fun p =>
    mem_members.trans (and_congr_right fun _ => counts_iff kind c s lab l hl p)
  have hperm : (inner kind c s lab l (box kind c s lab l)).Perm (members kind c s lab l) := by
    unfold inner members
    rw [List.perm_ext_iff_of_nodup ((nodup_window s _).filter _) ((nodup_pixels s).filter _)]
    intro p
    rw [← show members kind c s lab l = (pixels s).filter (counts kind c s lab l) from rfl]
    rw [List.mem_filter, mem_window]
    constructor
    · rintro ⟨⟨hin, -⟩, hp⟩
      refine mem_members.2 ⟨hin, ?_⟩
      simp only [Bool.and_eq_true, clear, decide_eq_true_eq] at hp
      unfold counts
      simp only [Bool.and_eq_true, decide_eq_true_eq]
      exact ⟨⟨⟨hp.1.1.1.1, hp.1.2⟩, hp.1.1.1.2⟩, hp.2⟩
    · intro hp
      have hq := mem_members.1 hp
      have hbb := hb p hp
      refine ⟨⟨hq.1, by omega, by omega, by omega, by omega⟩, ?_⟩
      have hc := hq.2
      unfold counts at hc
      simp only [Bool.and_eq_true, decide_eq_true_eq] at hc
      simp only [Bool.and_eq_true, clear, decide_eq_true_eq, Bool.not_eq_true', decide_eq_false_iff_not]
      have h1 := hc.1.1.1
      have h2 := hc.1.2
      refine ⟨⟨⟨⟨by simpa using h1, by simpa using h2⟩, by omega⟩, hc.1.1.2⟩, hc.2⟩
  have hlen := hperm.length_eq
  unfold object at h
  simp only at h
  split at h
  · cases h
  · rename_i g1
    split at h
    · cases h
    · rename_i g2
      split at h
      · cases h
      · have ho := (Option.some.inj h).symm
        subst ho
        have hr' : ∃ p ∈ members kind c s lab l, s.dist p = (box kind c s lab l).r := by
          rcases hr with hr | hr
          · exact absurd hr (by omega)
          · exact hr
        refine ⟨members kind c s lab l, environ s lab (box kind c s lab l), (pixels s).filter fun p => clear (s.px p),
          (box kind c s lab l).r, (box kind c s lab l).imin, (box kind c s lab l).imax, (box kind c s lab l).jmin,
          (box kind c s lab l).jmax, ⟨(nodup_pixels s).filter _, hmem⟩, by omega, by omega, fun p hp => (hb p hp).2.2.2.2, hr',
          fun p hp => ⟨(hb p hp).1, (hb p hp).2.1, (hb p hp).2.2.1, (hb p hp).2.2.2.1⟩, hi1, hi2, hj1, hj2, ⟨(nodup_window s _).filter _, ?_⟩,
          ⟨(nodup_pixels s).filter _, ?_⟩, ?_, fun b => ⟨?_, ?_⟩⟩
        · intro p
          unfold environ
          rw [List.mem_filter, mem_window, Bool.and_eq_true, clear_iff, decide_eq_true_eq]
          constructor
          · rintro ⟨⟨a, b⟩, c, d⟩; exact ⟨a, d, c, b⟩
          · rintro ⟨a, d, c, b⟩; exact ⟨⟨a, b⟩, c, d⟩
        · intro p; rw [List.mem_filter, mem_pixels, clear_iff]
        · show _ / _ = _; rw [hz, hk]; rfl
        · show _ / _ = _; rw [sum_perm s b hperm, hlen]; rfl
        · show (if _ then _ else _) = _
          by_cases he : (environ s lab (box kind c s lab l)).length < 10
          · rw [if_pos he, if_neg (by omega)]
            unfold sceneMean
            simp only
            rw [if_pos]
            · rfl
            · obtain ⟨q, hq⟩ := List.exists_mem_of_ne_nil _ hne
              have := (hmem q).1 hq
              exact List.length_pos_of_mem (List.mem_filter.2 ⟨(mem_pixels s q).2 this.1, (clear_iff _).2 this.2.2.1⟩)
          · rw [if_neg he, if_pos (by omega)]; rfl

end Verif.Aod
