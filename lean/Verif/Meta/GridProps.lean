import Mathlib.Tactic.Linarith
import Mathlib.Tactic.NormNum
import Mathlib.Algebra.Order.Field.Basic
import Verif.Libc.Lemmas
import Verif.Meta.Grid

/-!
# C187, C188, C189: angle grids, image subset and offsets of Sentinel-2
-/

namespace Verif.Meta.Grid

open Verif.Libc Verif.Str

/-! ## C187 -/

/-- The four corners of a cell in a grid with rows of `nx` values. -/
def Spec.corners (g : List ℚ) (nx i j : Nat) : List (Option ℚ) :=
  [g[i * nx + j]?, g[i * nx + (j + 1)]?, g[(i + 1) * nx + j]?, g[(i + 1) * nx + (j + 1)]?]

theorem interpCell_eq (g : List ℚ) (n : Nat) (nodata : ℚ) (i j : Nat) (a b c d : ℚ)
    (h : Spec.corners g n i j = [some a, some b, some c, some d]) :
    interpCell g n nodata i j = some (let known := [a, b, c, d].filter fun x => x > 0
      if known = [] then nodata else known.sum / known.length) := by
  simp only [Spec.corners, List.cons.injEq, and_true] at h
  obtain ⟨h1, h2, h3, h4⟩ := h
  simp only [interpCell, List.mapM_cons, List.mapM_nil, Nat.add_zero, h1, h2, h3, h4]
  rfl

/-- C187, partial: in a square grid the angle of a cell is the mean of the angles at its four
corners if all of them are positive, and nodata if none of them is. Missing: corners of which
some are zero, directions on both sides of north, and grids that are not square. -/
theorem c187_cell_partial (g : List ℚ) (n : Nat) (nodata : ℚ) (i j : Nat) (a b c d : ℚ)
    (h : Spec.corners g n i j = [some a, some b, some c, some d]) :
    ((0 < a ∧ 0 < b ∧ 0 < c ∧ 0 < d) → interpCell g n nodata i j = some ((a + b + c + d) / 4)) ∧
    ((a ≤ 0 ∧ b ≤ 0 ∧ c ≤ 0 ∧ d ≤ 0) → interpCell g n nodata i j = some nodata) := by
  rw [interpCell_eq g n nodata i j a b c d h]
  constructor
  · rintro ⟨ha, hb, hc, hd⟩
    simp [ha, hb, hc, hd]
    ring
  · rintro ⟨ha, hb, hc, hd⟩
    simp [not_lt.2 ha, not_lt.2 hb, not_lt.2 hc, not_lt.2 hd]

theorem sum_between {l : List ℚ} {lo hi : ℚ} (h : ∀ x ∈ l, lo ≤ x ∧ x ≤ hi) (hne : l ≠ []) :
    lo ≤ l.sum / l.length ∧ l.sum / l.length ≤ hi := by
  have key : lo * l.length ≤ l.sum ∧ l.sum ≤ hi * l.length := by
    clear hne
    induction l with
    | nil => simp
    | cons a l ih =>
      obtain ⟨i1, i2⟩ := ih (fun x hx => h x (by simp [hx]))
      obtain ⟨a1, a2⟩ := h a (by simp)
      simp only [List.sum_cons, List.length_cons, Nat.cast_add, Nat.cast_one]
      constructor <;> linarith
  have hp : (0 : ℚ) < l.length := by
    have := List.length_pos_iff.2 hne
    exact_mod_cast this
  exact ⟨by rw [le_div_iff₀ hp]; exact key.1, by rw [div_le_iff₀ hp]; exact key.2⟩

/-- C187: in a square grid, the angle of a cell with an angle at some corner lies between the
smallest and the largest known angle at its corners. -/
theorem c187_between (g : List ℚ) (n : Nat) (nodata lo hi : ℚ) (i j : Nat) (a b c d : ℚ)
    (h : Spec.corners g n i j = [some a, some b, some c, some d])
    (hk : ∃ x ∈ [a, b, c, d], 0 < x) (hb : ∀ x ∈ [a, b, c, d], 0 < x → lo ≤ x ∧ x ≤ hi) :
    ∃ v, interpCell g n nodata i j = some v ∧ lo ≤ v ∧ v ≤ hi := by
  rw [interpCell_eq g n nodata i j a b c d h]
  refine ⟨_, rfl, ?_⟩
  obtain ⟨x, hx, hx0⟩ := hk
  have hne : ([a, b, c, d].filter fun x => x > 0) ≠ [] := by
    intro e
    have : x ∈ [a, b, c, d].filter fun x => x > 0 := List.mem_filter.2 ⟨hx, by simpa using hx0⟩
    rw [e] at this
    cases this
  simp only
  rw [if_neg hne]
  refine sum_between (fun y hy => ?_) hne
  obtain ⟨h1, h2⟩ := List.mem_filter.1 hy
  exact hb y h1 (by simpa using h2)

/-- C187: the view angle of a cell, collapsed over bands and detectors, is the mean of those
that are known, and nodata if none is. -/
theorem c187_collapse (vals : List ℚ) (nodata lo hi : ℚ)
    (hb : ∀ x ∈ vals, x ≠ nodata → lo ≤ x ∧ x ≤ hi) :
    ((∀ x ∈ vals, x = nodata) → collapseCell vals nodata = nodata) ∧
    ((∃ x ∈ vals, x ≠ nodata) → lo ≤ collapseCell vals nodata ∧ collapseCell vals nodata ≤ hi) ∧
    ((∀ x ∈ vals, x ≠ nodata) → vals ≠ [] → collapseCell vals nodata = vals.sum / vals.length) := by
  refine ⟨?_, ?_, ?_⟩
  · intro h
    have : (vals.filter fun a => a ≠ nodata) = [] := by
      rw [List.filter_eq_nil_iff]
      intro x hx
      simp [h x hx]
    simp only [collapseCell]
    rw [if_pos this]
  · rintro ⟨x, hx, hne⟩
    have hf : (vals.filter fun a => a ≠ nodata) ≠ [] := by
      intro e
      have : x ∈ vals.filter fun a => a ≠ nodata := List.mem_filter.2 ⟨hx, by simpa using hne⟩
      rw [e] at this
      cases this
    simp only [collapseCell]
    rw [if_neg hf]
    refine sum_between (fun y hy => ?_) hf
    obtain ⟨h1, h2⟩ := List.mem_filter.1 hy
    exact hb y h1 (by simpa using h2)
  · intro h hne
    have : (vals.filter fun a => a ≠ nodata) = vals := by
      rw [List.filter_eq_self]
      intro x hx
      simp [h x hx]
    simp only [collapseCell]
    rw [this, if_neg hne]

/-- C187, violated: directions on both sides of north are averaged to the opposite direction.
Whatever the angle `e` between 0 and 180 is: a cell whose corners see the sun `e` degrees west
and `e` degrees east of north gets the azimuth 180, south. -/
theorem c187_north_violated (g : List ℚ) (n : Nat) (nodata e : ℚ) (i j : Nat)
    (h0 : 0 < e) (h1 : e < 180)
    (h : Spec.corners g n i j = [some (360 - e), some e, some (360 - e), some e]) :
    interpCell g n nodata i j = some 180 := by
  rw [((c187_cell_partial g n nodata i j _ _ _ _ h).1 ⟨by linarith, h0, by linarith, h0⟩)]
  congr 1
  ring

/-- C187, violated: detectors that look in opposite directions, as neighbouring detectors do,
give a view azimuth at right angles to both. -/
theorem c187_detectors_violated (x nodata : ℚ) (h1 : x ≠ nodata) (h2 : x + 180 ≠ nodata) :
    collapseCell [x, x + 180] nodata = x + 90 := by
  have := (c187_collapse [x, x + 180] nodata x (x + 180) (by
    intro y hy _
    simp only [List.mem_cons, List.not_mem_nil, or_false] at hy
    rcases hy with rfl | rfl <;> constructor <;> linarith)).2.2 (by
      intro y hy
      simp only [List.mem_cons, List.not_mem_nil, or_false] at hy
      rcases hy with rfl | rfl
      · exact h1
      · exact h2) (by simp)
  rw [this]
  simp only [List.sum_cons, List.sum_nil, List.length_cons, List.length_nil]
  push_cast
  ring

/-- C187, violated: an angle of exactly zero at a corner counts as missing. -/
theorem c187_zero_violated (g : List ℚ) (n : Nat) (nodata z : ℚ) (i j : Nat) (hz : 0 < z)
    (h : Spec.corners g n i j = [some 0, some z, some z, some z]) :
    interpCell g n nodata i j = some z ∧ z ≠ (0 + z + z + z) / 4 := by
  rw [interpCell_eq g n nodata i j _ _ _ _ h]
  constructor
  · simp [hz]
    ring
  · intro e
    linarith

/-- Limit of C187: grids that are not square are not read correctly. For all numbers of columns
and rows that differ there is a grid whose first cell has the angle 10 at its four corners, and
gets another value (or none, because it reads outside of the grid). Sentinel-2 grids are
square. -/
theorem c187_square_only (nx ny : Nat) (nodata : ℚ) (hx : 2 ≤ nx) (hy : 2 ≤ ny) (hne : nx ≠ ny) :
    ∃ g : List ℚ, g.length = nx * ny ∧
      Spec.corners g nx 0 0 = [some 10, some 10, some 10, some 10] ∧
      interpCell g ny nodata 0 0 ≠ some 10 := by
  let f : Nat → ℚ := fun k => if k = 0 ∨ k = 1 ∨ k = nx ∨ k = nx + 1 then 10 else 20
  have hlen : nx + 2 ≤ nx * ny := by nlinarith
  have hget : ∀ k, k < nx * ny → ((List.range (nx * ny)).map f)[k]? = some (f k) := by
    intro k hk
    simp [hk]
  refine ⟨(List.range (nx * ny)).map f, by simp, ?_, ?_⟩
  · simp only [Spec.corners, Nat.zero_mul, Nat.zero_add, Nat.one_mul]
    rw [hget 0 (by omega), hget 1 (by omega), hget (nx + 0) (by omega), hget (nx + 1) (by omega)]
    simp [f]
  · by_cases hin : ny + 1 < nx * ny
    · have hc : Spec.corners ((List.range (nx * ny)).map f) ny 0 0
          = [some 10, some 10, some (f ny), some (f (ny + 1))] := by
        simp only [Spec.corners, Nat.zero_mul, Nat.zero_add, Nat.one_mul]
        rw [hget 0 (by omega), hget 1 (by omega), hget (ny + 0) (by omega), hget (ny + 1) (by omega)]
        simp [f]
      have hp : ∀ k, 0 < f k := by
        intro k
        simp only [f]
        split_ifs <;> norm_num
      rw [(c187_cell_partial _ ny nodata 0 0 _ _ _ _ hc).1 ⟨by norm_num, by norm_num, hp _, hp _⟩]
      have hge : ∀ k, 10 ≤ f k := by
        intro k
        simp only [f]
        split_ifs <;> norm_num
      have hex : f ny = 20 ∨ f (ny + 1) = 20 := by
        by_cases h1 : ny = nx + 1
        · right
          simp only [f]
          rw [if_neg (by omega)]
        · left
          simp only [f]
          rw [if_neg (by omega)]
      intro e
      have e' := Option.some.inj e
      have h1 := hge ny
      have h2 := hge (ny + 1)
      rcases hex with h | h <;> linarith
    · exfalso
      have : ny + 2 ≤ nx * ny := by nlinarith
      omega

/-! ## C188 -/

theorem alignDown_le (k : Nat) : alignDown k ≤ k := by
  induction k with
  | zero => exact le_refl _
  | succ k ih =>
    unfold alignDown
    split_ifs
    · omega
    · exact le_refl _

theorem alignDown_aligned (k : Nat) : alignDown k * 5000 % 60 = 0 := by
  induction k with
  | zero => rfl
  | succ k ih =>
    unfold alignDown
    split_ifs with h
    · exact ih
    · simpa [svgrid] using h

theorem alignUp_ge (limit n k : Nat) : k ≤ alignUp limit n k := by
  induction n generalizing k with
  | zero => exact le_refl _
  | succ n ih =>
    unfold alignUp
    split_ifs
    · have := ih (k + 1); omega
    · exact le_refl _

theorem alignUp_spec (limit n k : Nat) (hn : limit ≤ n + k) :
    alignUp limit n k * 5000 % 60 = 0 ∨ limit ≤ alignUp limit n k := by
  induction n generalizing k with
  | zero => right; unfold alignUp; omega
  | succ n ih =>
    unfold alignUp
    split_ifs with h
    · exact ih (k + 1) (by omega)
    · rw [not_and_or, not_not, not_lt] at h
      rcases h with h | h
      · left; simpa [svgrid] using h
      · right; exact h

theorem alignUp_le (limit n k : Nat) : alignUp limit n k ≤ max k limit := by
  induction n generalizing k with
  | zero => unfold alignUp; omega
  | succ n ih =>
    unfold alignUp
    split_ifs with h
    · have := ih (k + 1); omega
    · omega

/-- The fold of `bounds`. -/
def grow (valid : Nat → Nat → Bool) (b : Box) (c : Nat × Nat) : Box :=
  if valid c.1 c.2 then
    { left := if c.2 < b.left then c.2 else b.left
      right := if c.2 > b.right then c.2 else b.right
      top := if c.1 < b.top then c.1 else b.top
      bottom := if c.1 > b.bottom then c.1 else b.bottom }
  else b

theorem grow_spec (valid : Nat → Nat → Bool) (l : List (Nat × Nat)) (b : Box) :
    ((l.foldl (grow valid) b).left ≤ b.left ∧ b.right ≤ (l.foldl (grow valid) b).right ∧
      (l.foldl (grow valid) b).top ≤ b.top ∧ b.bottom ≤ (l.foldl (grow valid) b).bottom) ∧
    (∀ c ∈ l, valid c.1 c.2 = true →
      (l.foldl (grow valid) b).left ≤ c.2 ∧ c.2 ≤ (l.foldl (grow valid) b).right ∧
      (l.foldl (grow valid) b).top ≤ c.1 ∧ c.1 ≤ (l.foldl (grow valid) b).bottom) := by
  induction l generalizing b with
  | nil => simp
  | cons a l ih =>
    obtain ⟨⟨h1, h2, h3, h4⟩, h5⟩ := ih (grow valid b a)
    rw [List.foldl_cons]
    have hg : (grow valid b a).left ≤ b.left ∧ b.right ≤ (grow valid b a).right ∧
        (grow valid b a).top ≤ b.top ∧ b.bottom ≤ (grow valid b a).bottom := by
      unfold grow
      split
      · simp only
        split_ifs <;> omega
      · omega
    refine ⟨⟨by omega, by omega, by omega, by omega⟩, ?_⟩
    intro c hc hv
    rcases List.mem_cons.1 hc with rfl | hc
    · have : (grow valid b c).left ≤ c.2 ∧ c.2 ≤ (grow valid b c).right ∧
          (grow valid b c).top ≤ c.1 ∧ c.1 ≤ (grow valid b c).bottom := by
        unfold grow
        rw [if_pos hv]
        simp only
        split_ifs <;> omega
      omega
    · exact h5 c hc hv

theorem grow_range (valid : Nat → Nat → Bool) (nx ny : Nat) (l : List (Nat × Nat)) (b : Box)
    (hl : ∀ c ∈ l, c.1 < ny ∧ c.2 < nx) (hr : b.right < nx) (hb : b.bottom < ny) :
    (l.foldl (grow valid) b).right < nx ∧ (l.foldl (grow valid) b).bottom < ny := by
  induction l generalizing b with
  | nil => exact ⟨hr, hb⟩
  | cons a l ih =>
    obtain ⟨a1, a2⟩ := hl a (by simp)
    rw [List.foldl_cons]
    apply ih _ (fun c hc => hl c (by simp [hc]))
    · unfold grow
      split
      · simp only
        split_ifs <;> omega
      · exact hr
    · unfold grow
      split
      · simp only
        split_ifs <;> omega
      · exact hb

theorem grow_none (valid : Nat → Nat → Bool) (l : List (Nat × Nat)) (b : Box)
    (h : ∀ c ∈ l, valid c.1 c.2 = false) : l.foldl (grow valid) b = b := by
  induction l with
  | nil => rfl
  | cons a l ih =>
    have : grow valid b a = b := by
      unfold grow
      rw [if_neg (by simp [h a (by simp)])]
    rw [List.foldl_cons, this]
    exact ih (fun c hc => h c (by simp [hc]))

theorem bounds_eq (valid : Nat → Nat → Bool) (nx ny : Nat) :
    bounds valid nx ny = (((List.range ny).flatMap fun i => (List.range nx).map fun j => (i, j)).foldl
      (grow valid) { left := nx - 1, right := 0, top := ny - 1, bottom := 0 }) := rfl

theorem mem_cells {nx ny : Nat} {c : Nat × Nat} :
    c ∈ ((List.range ny).flatMap fun i => (List.range nx).map fun j => (i, j)) ↔ c.1 < ny ∧ c.2 < nx := by
  simp only [List.mem_flatMap, List.mem_range, List.mem_map]
  constructor
  · rintro ⟨i, hi, j, hj, rfl⟩; exact ⟨hi, hj⟩
  · rintro ⟨h1, h2⟩; exact ⟨c.1, h1, c.2, h2, rfl⟩

/-- C188: the part of a Sentinel-2 image that is processed contains every cell with view
angles. -/
theorem c188_covers (valid : Nat → Nat → Bool) (nx ny i j : Nat) (whole : Bool) (hi : i < ny) (hj : j < nx)
    (hv : valid i j = true) :
    (subset valid nx ny whole).left ≤ j ∧ j < (subset valid nx ny whole).right ∧
    (subset valid nx ny whole).top ≤ i ∧ i < (subset valid nx ny whole).bottom := by
  obtain ⟨h1, h2, h3, h4⟩ := (grow_spec valid _ { left := nx - 1, right := 0, top := ny - 1, bottom := 0 }).2
    (i, j) (mem_cells.2 ⟨hi, hj⟩) hv
  rw [← bounds_eq] at h1 h2 h3 h4
  simp only at h1 h2 h3 h4
  unfold subset
  cases whole with
  | true => simp only [if_true]; omega
  | false =>
    simp only [Bool.false_eq_true, if_false]
    have l1 := alignDown_le (if (bounds valid nx ny).left > 0 then (bounds valid nx ny).left - 1
      else (bounds valid nx ny).left)
    have l2 : (if (bounds valid nx ny).left > 0 then (bounds valid nx ny).left - 1
      else (bounds valid nx ny).left) ≤ (bounds valid nx ny).left := by split_ifs <;> omega
    have l3 := alignDown_le (bounds valid nx ny).top
    have l4 := alignUp_ge (nx - 1) (nx - 1) ((bounds valid nx ny).right + 1)
    have l5 := alignUp_ge (nx - 1) (nx - 1) ((bounds valid nx ny).bottom + 1)
    refine ⟨by omega, by omega, by omega, by omega⟩

theorem bounds_range (valid : Nat → Nat → Bool) (nx ny : Nat) (hx : 0 < nx) (hy : 0 < ny) :
    (bounds valid nx ny).right < nx ∧ (bounds valid nx ny).bottom < ny := by
  rw [bounds_eq]
  exact grow_range valid nx ny _ _ (fun c hc => mem_cells.1 hc) (by simpa using hx) (by simpa using hy)

/-- C188: a Sentinel-2 tile (10980 x 10980 pixels of 10 m, 22 x 22 cells of angles) is cut at
borders of the 20 m and 60 m pixels, within the image, whichever cells have view angles. -/
theorem c188_aligned (valid : Nat → Nat → Bool) (whole : Bool) (p : Box)
    (h : pixels (subset valid 22 22 whole) 10 10980 10980 = some p) :
    (p.left * 10 % 60 = 0 ∧ p.right * 10 % 60 = 0 ∧ p.top * 10 % 60 = 0 ∧ p.bottom * 10 % 60 = 0) ∧
    p.left < p.right ∧ p.right ≤ 10980 ∧ p.top < p.bottom ∧ p.bottom ≤ 10980 := by
  unfold pixels at h
  split at h
  · cases h
  · rename_i hne
    rw [not_or, not_le, not_le] at hne
    have hp := (Option.some.inj h).symm
    clear h
    subst hp
    obtain ⟨hlr, htb⟩ := hne
    have last : ∀ k : Nat, (k * 5000 % 60 = 0 ∨ 22 - 1 ≤ k) → k ≤ 22 → k * 5000 % 60 = 0 ∨ k = 22 := by
      intro k hk hle
      by_cases h : k = 22
      · exact Or.inr h
      · left
        rcases hk with hk | hk
        · exact hk
        · have : k = 21 := by omega
          subst this
          rfl
    have h3 : ∀ k : Nat, k * 5000 % 60 = 0 → k % 3 = 0 := by omega
    have key : ((subset valid 22 22 whole).left * 5000 % 60 = 0) ∧
        ((subset valid 22 22 whole).top * 5000 % 60 = 0) ∧
        ((subset valid 22 22 whole).right * 5000 % 60 = 0 ∨ (subset valid 22 22 whole).right = 22) ∧
        ((subset valid 22 22 whole).bottom * 5000 % 60 = 0 ∨ (subset valid 22 22 whole).bottom = 22) ∧
        (subset valid 22 22 whole).right ≤ 22 ∧ (subset valid 22 22 whole).bottom ≤ 22 := by
      obtain ⟨r1, r2⟩ := bounds_range valid 22 22 (by omega) (by omega)
      unfold subset
      cases whole with
      | true => simp
      | false =>
        simp only [Bool.false_eq_true, if_false]
        have u1 := alignUp_le (22 - 1) (22 - 1) ((bounds valid 22 22).right + 1)
        have u2 := alignUp_le (22 - 1) (22 - 1) ((bounds valid 22 22).bottom + 1)
        have s1 := alignUp_spec (22 - 1) (22 - 1) ((bounds valid 22 22).right + 1) (by omega)
        have s2 := alignUp_spec (22 - 1) (22 - 1) ((bounds valid 22 22).bottom + 1) (by omega)
        refine ⟨alignDown_aligned _, alignDown_aligned _, ?_, ?_, by omega, by omega⟩
        · exact last _ s1 (by omega)
        · exact last _ s2 (by omega)
    obtain ⟨k1, k2, k3, k4, k5, k6⟩ := key
    revert k1 k2 k3 k4 k5 k6 hlr htb
    generalize (subset valid 22 22 whole).left = l
    generalize (subset valid 22 22 whole).right = r
    generalize (subset valid 22 22 whole).top = t
    generalize (subset valid 22 22 whole).bottom = b
    intro hlr htb k1 k2 k3 k4 k5 k6
    have edge : ∀ k : Nat, (k * 5000 % 60 = 0 ∨ k = 22) → k ≤ 22 →
        (if k * 5000 / 10 > 10980 then 10980 else k * 5000 / 10) * 10 % 60 = 0 ∧
        (if k * 5000 / 10 > 10980 then 10980 else k * 5000 / 10) ≤ 10980 ∧
        ∀ l, l < k → l * 5000 / 10 < (if k * 5000 / 10 > 10980 then 10980 else k * 5000 / 10) := by
      intro k hk hle
      by_cases h : k = 22
      · subst h
        refine ⟨rfl, le_refl _, fun l hl => ?_⟩
        show l * 5000 / 10 < 10980
        omega
      · have h0 := h3 k (hk.resolve_right h)
        have e : k * 5000 / 10 = k * 500 := by omega
        rw [e, if_neg (by omega)]
        refine ⟨by omega, by omega, fun l hl => by omega⟩
    have low : ∀ k : Nat, k * 5000 % 60 = 0 → k * 5000 / 10 * 10 % 60 = 0 := by
      intro k hk
      have e : k * 5000 / 10 = k * 500 := by omega
      rw [e]
      have := h3 k hk
      omega
    obtain ⟨e1, e2, e3⟩ := edge r k3 k5
    obtain ⟨f1, f2, f3⟩ := edge b k4 k6
    exact ⟨⟨low l k1, e1, low t k2, f1⟩, e3 l hlr, e2, f3 t htb, f2⟩

/-- C188: if no cell has view angles, nothing is processed. -/
theorem c188_empty (valid : Nat → Nat → Bool) (h : ∀ i j, i < 22 → j < 22 → valid i j = false) :
    pixels (subset valid 22 22 false) 10 10980 10980 = none := by
  have hb : bounds valid 22 22 = { left := 21, right := 0, top := 21, bottom := 0 } := by
    rw [bounds_eq]
    exact grow_none valid _ _ (fun c hc => h c.1 c.2 (mem_cells.1 hc).1 (mem_cells.1 hc).2)
  unfold subset
  rw [hb]
  decide +kernel

/-! ## C189 -/

/-- A line with the radiometric offset of a band. -/
def Spec.offsetText (indent : Nat) (band value : List Char) : List Char :=
  List.replicate indent ' ' ++ "<RADIO_ADD_OFFSET band_id=\"".toList ++ band ++ "\">".toList ++ value
    ++ "</RADIO_ADD_OFFSET>".toList ++ ['\n']

/-- A word of the metadata. -/
def Spec.Word (w : List Char) : Prop :=
  w ≠ [] ∧ ∀ c ∈ w, c ≠ ' ' ∧ c ≠ '=' ∧ c ≠ '"' ∧ c ≠ '<' ∧ c ≠ '>' ∧ c ≠ '/'

theorem Spec.Word.sep {w : List Char} (h : Spec.Word w) : w ≠ [] ∧ ∀ c ∈ w, Grid.sep c = false := by
  refine ⟨h.1, fun c hc => ?_⟩
  obtain ⟨h1, h2, h3, h4, h5, _⟩ := h.2 c hc
  simp [Grid.sep, h1, h2, h3, h4, h5]

theorem Spec.Word.tag {w : List Char} (h : Spec.Word w) : ¬ (w = "/RADIO_ADD_OFFSET".toList) := by
  intro e
  exact (h.2 '/' (by rw [e]; decide)).2.2.2.2.2 rfl

theorem offset_tokens (n : Nat) (band value : List Char)
    (hb : band ≠ [] ∧ ∀ c ∈ band, sep c = false) (hv : value ≠ [] ∧ ∀ c ∈ value, sep c = false) :
    ∃ r1 r2 r3 r4, strtok sep (Spec.offsetText n band value) = some ("RADIO_ADD_OFFSET".toList, r1) ∧
      strtok sep r1 = some ("band_id".toList, r2) ∧ strtok sep r2 = some (band, r3) ∧
      strtok sep r3 = some (value, r4) ∧ strtok sep r4 = some ("/RADIO_ADD_OFFSET".toList, ['\n']) := by
  refine ⟨"band_id=\"".toList ++ (band ++ ("\">".toList ++ (value ++ ("</RADIO_ADD_OFFSET>".toList ++ ['\n'])))),
    '"' :: (band ++ ("\">".toList ++ (value ++ ("</RADIO_ADD_OFFSET>".toList ++ ['\n'])))),
    '>' :: (value ++ ("</RADIO_ADD_OFFSET>".toList ++ ['\n'])),
    "/RADIO_ADD_OFFSET>".toList ++ ['\n'], ?_, ?_, ?_, ?_, ?_⟩
  · have := strtok_cons sep (List.replicate n ' ' ++ ['<']) "RADIO_ADD_OFFSET".toList
      ("band_id=\"".toList ++ (band ++ ("\">".toList ++ (value ++ ("</RADIO_ADD_OFFSET>".toList ++ ['\n'])))))
      (by
        intro c hc
        rcases List.mem_append.1 hc with hc | hc
        · rw [List.eq_of_mem_replicate hc]; rfl
        · rw [List.mem_singleton.1 hc]; rfl) (by decide) (by decide) ' ' rfl
    rw [← this]
    congr 1
    simp [Spec.offsetText, List.append_assoc]
  · exact strtok_cons sep [] "band_id".toList _ (by simp) (by decide) (by decide) '=' rfl
  · exact strtok_cons sep ['"'] band _ (by decide) hb.2 hb.1 '"' rfl
  · exact strtok_cons sep ['>'] value _ (by decide) hv.2 hv.1 '<' rfl
  · exact strtok_cons sep [] "/RADIO_ADD_OFFSET".toList ['\n'] (by simp) (by decide) (by decide) '>' rfl

theorem offset_line (toInt : List Char → Option ℤ) (toFloat : List Char → Option ℚ) (radd : List ℚ)
    (n k : Nat) (band value : List Char) (x : ℚ) (hb : Spec.Word band) (hv : Spec.Word value)
    (hid : toInt "band_id".toList = none) (hbk : toInt band = some (k : ℤ)) (hx : toFloat value = some x) :
    offsetLine toInt toFloat radd (Spec.offsetText n band value)
      = if k < radd.length then .ok (radd.set k x) else .ub := by
  obtain ⟨r1, r2, r3, r4, t1, t2, t3, t4, t5⟩ := offset_tokens n band value hb.sep hv.sep
  have hlen : ∃ m, (Spec.offsetText n band value).length + 1 = m + 4 := by
    refine ⟨(Spec.offsetText n band value).length - 3, ?_⟩
    have : 3 ≤ (Spec.offsetText n band value).length := by
      have e : ("</RADIO_ADD_OFFSET>".toList).length = 19 := by decide
      simp only [Spec.offsetText, List.length_append, e]
      omega
    omega
  obtain ⟨m, hm⟩ := hlen
  have s1 : ("RADIO_ADD_OFFSET".toList = "RADIO_ADD_OFFSET".toList) = True := by simp
  have s2 : ¬ ("band_id".toList = "/RADIO_ADD_OFFSET".toList) := by decide
  have b1 : ((k : ℤ) < 0) = False := by
    simp only [eq_iff_iff, iff_false, not_lt]
    exact Int.natCast_nonneg k
  have b2 : ((-1 : ℤ) < 0) = True := by simp
  unfold offsetLine
  rw [t1]
  simp only [s1, if_true]
  rw [hm]
  simp only [offsetLoop, t2, t3, t4, t5, s2, hb.tag, hv.tag, if_false, if_true, hid, hbk, hx, b1, b2,
    Option.getD_none, Option.getD_some, Int.toNat_natCast]

/-- C189, partial: a line with the radiometric offset of a band sets the offset of that band and
of no other. Missing: see below. -/
theorem c189_offset_partial (toInt : List Char → Option ℤ) (toFloat : List Char → Option ℚ) (radd : List ℚ)
    (n k : Nat) (band value : List Char) (x : ℚ) (hb : Spec.Word band) (hv : Spec.Word value)
    (hid : toInt "band_id".toList = none) (hbk : toInt band = some (k : ℤ)) (hx : toFloat value = some x)
    (hk : k < radd.length) :
    ∃ radd', offsetLine toInt toFloat radd (Spec.offsetText n band value) = .ok radd' ∧
      radd'.length = radd.length ∧ radd'[k]? = some x ∧ ∀ j, j ≠ k → radd'[j]? = radd[j]? := by
  refine ⟨radd.set k x, ?_, by simp, by simp [hk], fun j hj => by simp [List.getElem?_set, Ne.symm hj]⟩
  rw [offset_line toInt toFloat radd n k band value x hb hv hid hbk hx, if_pos hk]

/-- C189, violated: the offset of a band the product does not have is not ignored but written
beyond the table of offsets, for every such band number. -/
theorem c189_range_violated (toInt : List Char → Option ℤ) (toFloat : List Char → Option ℚ) (radd : List ℚ)
    (n k : Nat) (band value : List Char) (x : ℚ) (hb : Spec.Word band) (hv : Spec.Word value)
    (hid : toInt "band_id".toList = none) (hbk : toInt band = some (k : ℤ)) (hx : toFloat value = some x)
    (hk : radd.length ≤ k) :
    offsetLine toInt toFloat radd (Spec.offsetText n band value) = .ub := by
  rw [offset_line toInt toFloat radd n k band value x hb hv hid hbk hx, if_neg (not_lt.2 hk)]

end Verif.Meta.Grid
