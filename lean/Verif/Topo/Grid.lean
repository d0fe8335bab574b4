import Mathlib.Algebra.Order.Field.Rat
import Mathlib.Tactic.Ring

/-!
# Borders of the exposition, and oceans

`topo-ll.c:70-144, 260-417`. A band is a function of row and column; each parallel loop writes cells that no other iteration of the loop reads.
-/

namespace Verif.Topo

/-! ## Borders -/

/-- Off flags and exposition of all pixels. -/
structure Grid (α : Type) where
  off : Nat → Nat → Bool
  val : Nat → Nat → α

/-- topo-ll.c:268-336: inner pixels; `valid i j` tells if the nine elevations are known, `f i j` is the exposition of the window. -/
def innerPass (ny nx : Nat) (valid : Nat → Nat → Bool) (f : Nat → Nat → α) (e : Grid α) : Grid α where
  off i j := if 1 ≤ i ∧ i < ny - 1 ∧ 1 ≤ j ∧ j < nx - 1 ∧ e.off i j = false ∧ valid i j = false then true else e.off i j
  val i j := if 1 ≤ i ∧ i < ny - 1 ∧ 1 ≤ j ∧ j < nx - 1 ∧ e.off i j = false ∧ valid i j = true then f i j else e.val i j

/-- topo-ll.c:339-393, 396-410: the pixels that meet `border` take over from their neighbour `src`, and are off if it is off. -/
def copyPass (border : Nat → Nat → Prop) [∀ i j, Decidable (border i j)] (src : Nat → Nat → Nat × Nat) (e : Grid α) : Grid α where
  off i j := if border i j ∧ e.off i j = false ∧ e.off (src i j).1 (src i j).2 = true then true else e.off i j
  val i j := if border i j ∧ e.off i j = false ∧ e.off (src i j).1 (src i j).2 = false then e.val (src i j).1 (src i j).2 else e.val i j

/-- topo-ll.c:241-417: inner pixels, then left, right, upper and lower border. -/
def expositionGrid (ny nx : Nat) (valid : Nat → Nat → Bool) (f : Nat → Nat → α) (e : Grid α) : Grid α :=
  copyPass (fun i _ => i = ny - 1) (fun i j => (i - 1, j))
    (copyPass (fun i _ => i = 0) (fun i j => (i + 1, j))
      (copyPass (fun _ j => j = nx - 1) (fun i j => (i, j - 1))
        (copyPass (fun _ j => j = 0) (fun i j => (i, j + 1)) (innerPass ny nx valid f e))))

/-- The inner pixel next to a pixel. -/
def clamp (n i : Nat) : Nat := max 1 (min i (n - 2))

section

variable {α : Type} (ny nx : Nat) (valid : Nat → Nat → Bool) (f : Nat → Nat → α) (e : Grid α)

theorem copy_off {border : Nat → Nat → Prop} [∀ i j, Decidable (border i j)] {src : Nat → Nat → Nat × Nat} {e : Grid α} {i j : Nat} :
    (copyPass border src e).off i j = false ↔ e.off i j = false ∧ (border i j → e.off (src i j).1 (src i j).2 = false) := by
  unfold copyPass
  simp only
  generalize e.off (src i j).1 (src i j).2 = x
  generalize e.off i j = y
  by_cases b : border i j
  · cases x <;> cases y <;> simp [b]
  · simp [b]

theorem copy_val {border : Nat → Nat → Prop} [∀ i j, Decidable (border i j)] {src : Nat → Nat → Nat × Nat} {e : Grid α} {i j : Nat}
    (h : (copyPass border src e).off i j = false) : (copyPass border src e).val i j = if border i j then e.val (src i j).1 (src i j).2 else e.val i j := by
  rw [copy_off] at h
  unfold copyPass
  simp only
  by_cases b : border i j
  · rw [if_pos ⟨b, h.1, h.2 b⟩, if_pos b]
  · rw [if_neg (fun hh => b hh.1), if_neg b]

theorem inner_off {i j : Nat} : (innerPass ny nx valid f e).off i j = false ↔
    e.off i j = false ∧ (1 ≤ i ∧ i < ny - 1 ∧ 1 ≤ j ∧ j < nx - 1 → valid i j = true) := by
  unfold innerPass
  simp only
  generalize e.off i j = x
  generalize valid i j = y
  by_cases b : 1 ≤ i ∧ i < ny - 1 ∧ 1 ≤ j ∧ j < nx - 1
  · cases x <;> cases y <;> simp [b]
  · have : ¬ (1 ≤ i ∧ i < ny - 1 ∧ 1 ≤ j ∧ j < nx - 1 ∧ x = false ∧ y = false) := fun hh => b ⟨hh.1, hh.2.1, hh.2.2.1, hh.2.2.2.1⟩
    rw [if_neg this]
    constructor
    · exact fun hh => ⟨hh, fun hb => absurd hb b⟩
    · exact fun hh => hh.1

theorem inner_val {i j : Nat} (h : (innerPass ny nx valid f e).off i j = false) (hb : 1 ≤ i ∧ i < ny - 1 ∧ 1 ≤ j ∧ j < nx - 1) :
    (innerPass ny nx valid f e).val i j = f i j := by
  rw [inner_off] at h
  unfold innerPass
  simp only
  rw [if_pos ⟨hb.1, hb.2.1, hb.2.2.1, hb.2.2.2, h.1, h.2 hb⟩]

/-- C173: every pixel that is used afterwards was used before and has the exposition of the nearest inner pixel, which is used too and whose nine elevations are
known. -/
theorem c173_exposition (h3 : 3 ≤ nx) (h4 : 3 ≤ ny) (i j : Nat) (hi : i < ny) (hj : j < nx) (h : (expositionGrid ny nx valid f e).off i j = false) :
    (expositionGrid ny nx valid f e).val i j = f (clamp ny i) (clamp nx j) ∧ valid (clamp ny i) (clamp nx j) = true ∧ e.off i j = false ∧
      e.off (clamp ny i) (clamp nx j) = false ∧ (expositionGrid ny nx valid f e).off (clamp ny i) (clamp nx j) = false := by
  -- after the two columns
  have col : ∀ i, 1 ≤ i → i < ny - 1 → ∀ j < nx,
      (copyPass (fun _ j => j = nx - 1) (fun i j => (i, j - 1)) (copyPass (fun _ j => j = 0) (fun i j => (i, j + 1)) (innerPass ny nx valid f e))).off i j = false →
      (copyPass (fun _ j => j = nx - 1) (fun i j => (i, j - 1)) (copyPass (fun _ j => j = 0) (fun i j => (i, j + 1)) (innerPass ny nx valid f e))).val i j = f i (clamp nx j) ∧
        valid i (clamp nx j) = true ∧ e.off i j = false ∧ e.off i (clamp nx j) = false := by
    intro i i1 i2 j hj h
    have hv := copy_val h
    rw [copy_off] at h
    obtain ⟨h1, h2⟩ := h
    have hv1 := copy_val h1
    have g := copy_off.1 h1
    have inn : ∀ j', 1 ≤ j' → j' < nx - 1 → (innerPass ny nx valid f e).off i j' = false →
        (innerPass ny nx valid f e).val i j' = f i j' ∧ valid i j' = true ∧ e.off i j' = false := by
      intro j' a b hh
      exact ⟨inner_val ny nx valid f e hh ⟨i1, i2, a, b⟩, (inner_off ny nx valid f e |>.1 hh).2 ⟨i1, i2, a, b⟩, (inner_off ny nx valid f e |>.1 hh).1⟩
    have e0 := (inner_off ny nx valid f e).1 g.1
    by_cases c1 : j = nx - 1
    · have k2 := h2 c1
      simp only at k2
      have k3 := copy_val k2
      have k4 := copy_off.1 k2
      have cl : clamp nx j = j - 1 := by unfold clamp; omega
      rw [if_pos c1] at hv
      simp only at hv
      rw [hv, k3, if_neg (by omega), cl]
      have := inn (j - 1) (by omega) (by omega) k4.1
      exact ⟨this.1, this.2.1, e0.1, this.2.2⟩
    · rw [hv, if_neg c1, hv1]
      by_cases c0 : j = 0
      · have k2 := g.2 c0
        simp only at k2
        have cl : clamp nx j = j + 1 := by unfold clamp; omega
        rw [if_pos c0, cl]
        have := inn (j + 1) (by omega) (by omega) k2
        exact ⟨this.1, this.2.1, e0.1, this.2.2⟩
      · have cl : clamp nx j = j := by unfold clamp; omega
        rw [if_neg c0, cl]
        have := inn j (by omega) (by omega) g.1
        exact ⟨this.1, this.2.1, e0.1, this.2.2⟩
  have offs : ∀ {i j : Nat}, (expositionGrid ny nx valid f e).off i j = false →
      (copyPass (fun _ j => j = nx - 1) (fun i j => (i, j - 1)) (copyPass (fun _ j => j = 0) (fun i j => (i, j + 1)) (innerPass ny nx valid f e))).off i j = false :=
    fun hh => (copy_off.1 (copy_off.1 hh).1).1
  have same : ∀ {i j : Nat}, 1 ≤ i → i < ny - 1 →
      (copyPass (fun _ j => j = nx - 1) (fun i j => (i, j - 1)) (copyPass (fun _ j => j = 0) (fun i j => (i, j + 1)) (innerPass ny nx valid f e))).off i j = false →
      (expositionGrid ny nx valid f e).off i j = false := by
    intro i j a b hh
    exact copy_off.2 ⟨copy_off.2 ⟨hh, fun x => by omega⟩, fun x => by omega⟩
  have e0 : e.off i j = false := (inner_off ny nx valid f e |>.1 (copy_off.1 (copy_off.1 (offs h)).1).1).1
  have down : ∀ {i j : Nat}, 1 ≤ i → i < ny - 1 → j < nx →
      (copyPass (fun _ j => j = nx - 1) (fun i j => (i, j - 1)) (copyPass (fun _ j => j = 0) (fun i j => (i, j + 1)) (innerPass ny nx valid f e))).off i j = false →
      (copyPass (fun _ j => j = nx - 1) (fun i j => (i, j - 1)) (copyPass (fun _ j => j = 0) (fun i j => (i, j + 1)) (innerPass ny nx valid f e))).off i (clamp nx j) = false := by
    intro i j a b hj hh
    have r := col i a b j hj hh
    have c1 : 1 ≤ clamp nx j := by unfold clamp; omega
    have c2 : clamp nx j < nx - 1 := by unfold clamp; omega
    exact copy_off.2 ⟨copy_off.2 ⟨(inner_off ny nx valid f e).2 ⟨r.2.2.2, fun _ => r.2.1⟩, fun x => by omega⟩, fun x => by omega⟩
  have hv := copy_val h
  have hl := (copy_off.1 h).1
  have hv2 := copy_val hl
  show (copyPass _ _ _).val i j = _ ∧ _
  rw [hv]
  by_cases c1 : i = ny - 1
  · have k := (copy_off.1 h).2 c1
    simp only at k
    have k3 := copy_val k
    have k4 := (copy_off.1 k).1
    have cl : clamp ny i = i - 1 := by unfold clamp; omega
    rw [if_pos c1, cl]
    simp only
    rw [k3, if_neg (by omega)]
    have r := col (i - 1) (by omega) (by omega) j hj k4
    exact ⟨r.1, r.2.1, e0, r.2.2.2, same (by omega) (by omega) (down (by omega) (by omega) hj k4)⟩
  · rw [if_neg c1, hv2]
    by_cases c0 : i = 0
    · have k := (copy_off.1 hl).2 c0
      simp only at k
      have cl : clamp ny i = i + 1 := by unfold clamp; omega
      rw [if_pos c0, cl]
      simp only
      have r := col (i + 1) (by omega) (by omega) j hj k
      exact ⟨r.1, r.2.1, e0, r.2.2.2, same (by omega) (by omega) (down (by omega) (by omega) hj k)⟩
    · have cl : clamp ny i = i := by unfold clamp; omega
      rw [if_neg c0, cl]
      have k := (copy_off.1 hl).1
      have r := col i (by omega) (by omega) j hj k
      exact ⟨r.1, r.2.1, e0, r.2.2.2, same (by omega) (by omega) (down (by omega) (by omega) hj k)⟩

/-- C173: pixels are switched off only if elevations are missing: an inner pixel stays if its nine elevations are known; a border pixel that is not a corner stays
if its inner neighbour stays. -/
theorem c173_kept (h3 : 3 ≤ nx) (h4 : 3 ≤ ny) (i j : Nat) (hc : (1 ≤ i ∧ i < ny - 1) ∨ (1 ≤ j ∧ j < nx - 1)) (hi : i < ny) (hj : j < nx) (h0 : e.off i j = false)
    (h1 : e.off (clamp ny i) (clamp nx j) = false) (hv : valid (clamp ny i) (clamp nx j) = true) : (expositionGrid ny nx valid f e).off i j = false := by
  have inn : ∀ i j, e.off i j = false → (1 ≤ i ∧ i < ny - 1 ∧ 1 ≤ j ∧ j < nx - 1 → valid i j = true) → (innerPass ny nx valid f e).off i j = false :=
    fun i j a b => (inner_off ny nx valid f e).2 ⟨a, b⟩
  have ci : 1 ≤ clamp ny i ∧ clamp ny i < ny - 1 := by unfold clamp; omega
  have cj : 1 ≤ clamp nx j ∧ clamp nx j < nx - 1 := by unfold clamp; omega
  have n0 := inn (clamp ny i) (clamp nx j) h1 (fun _ => hv)
  have n1 : (innerPass ny nx valid f e).off i j = false := by
    refine inn i j h0 (fun hh => ?_)
    have a : clamp ny i = i := by unfold clamp; omega
    have b : clamp nx j = j := by unfold clamp; omega
    rw [a, b] at hv; exact hv
  rcases hc with hc | hc
  · have a : clamp ny i = i := by unfold clamp; omega
    rw [a] at n0
    refine copy_off.2 ⟨copy_off.2 ⟨copy_off.2 ⟨copy_off.2 ⟨n1, ?_⟩, ?_⟩, fun x => by omega⟩, fun x => by omega⟩
    · intro x
      have b : clamp nx j = j + 1 := by unfold clamp; omega
      rw [b] at n0; exact n0
    · intro x
      have b : clamp nx j = j - 1 := by unfold clamp; omega
      rw [b] at n0
      exact copy_off.2 ⟨n0, fun y => by simp only at y; omega⟩
  · have b : clamp nx j = j := by unfold clamp; omega
    rw [b] at n0
    have st : ∀ i, (innerPass ny nx valid f e).off i j = false → (copyPass (fun _ j => j = nx - 1) (fun i j => (i, j - 1)) (copyPass (fun _ j => j = 0) (fun i j => (i, j + 1))
        (innerPass ny nx valid f e))).off i j = false :=
      fun i hh => copy_off.2 ⟨copy_off.2 ⟨hh, fun x => by omega⟩, fun x => by omega⟩
    refine copy_off.2 ⟨copy_off.2 ⟨st i n1, ?_⟩, ?_⟩
    · intro x
      have a : clamp ny i = i + 1 := by unfold clamp; omega
      rw [a] at n0; exact st _ n0
    · intro x
      have a : clamp ny i = i - 1 := by unfold clamp; omega
      rw [a] at n0
      exact copy_off.2 ⟨st _ n0, fun y => by simp only at y; omega⟩

end

/-! ## Oceans -/

/-- topo-ll.c:98: one step of a sweep; comparisons of floats as equality. -/
def flood (nd prev cur : ℚ) : ℚ := if prev = 0 ∧ cur = nd then 0 else cur

/-- topo-ll.c:92-100: the sweep from row 0 on. -/
def sweep (nd : ℚ) (d : Nat → Nat → ℚ) : Nat → Nat → ℚ
  | 0, j => d 0 j
  | i + 1, j => flood nd (sweep nd d i j) (d (i + 1) j)

/-- Upside down. -/
def flip (ny : Nat) (d : Nat → Nat → ℚ) (i j : Nat) : ℚ := d (ny - 1 - i) j

/-- Rows and columns exchanged. -/
def swap (d : Nat → Nat → ℚ) (i j : Nat) : ℚ := d j i

/-- topo-ll.c:75-152 `ocean_topography`: downwards, upwards, to the right, to the left. -/
def ocean (nd : ℚ) (ny nx : Nat) (d : Nat → Nat → ℚ) : Nat → Nat → ℚ :=
  let d := sweep nd d
  let d := flip ny (sweep nd (flip ny d))
  let d := swap (sweep nd (swap d))
  swap (flip nx (sweep nd (flip nx (swap d))))

/-- Specification: sea is where the elevation is 0, and what is connected to it by pixels without elevation. -/
inductive Sea (nd : ℚ) (ny nx : Nat) (d : Nat → Nat → ℚ) : Nat → Nat → Prop
  | zero {i j : Nat} : i < ny → j < nx → d i j = 0 → Sea nd ny nx d i j
  | next {i j i' j' : Nat} : Sea nd ny nx d i j → (i = i' ∧ (j + 1 = j' ∨ j' + 1 = j) ∨ j = j' ∧ (i + 1 = i' ∨ i' + 1 = i)) → i' < ny → j' < nx → d i' j' = nd →
      Sea nd ny nx d i' j'

theorem flood_cases (nd prev cur : ℚ) : flood nd prev cur = cur ∨ prev = 0 ∧ cur = nd ∧ flood nd prev cur = 0 := by
  unfold flood
  split
  · rename_i h; exact .inr ⟨h.1, h.2, rfl⟩
  · exact .inl rfl

/-- A grid that has been flooded in part. -/
def Part (nd : ℚ) (ny nx : Nat) (d g : Nat → Nat → ℚ) : Prop :=
  ∀ i j, i < ny → j < nx → (g i j = d i j ∨ d i j = nd ∧ g i j = 0) ∧ (g i j = 0 → Sea nd ny nx d i j)

theorem part_mono_zero {nd : ℚ} {g : Nat → Nat → ℚ} (i j : Nat) (h : g i j = 0) : sweep nd g i j = 0 := by
  cases i with
  | zero => exact h
  | succ i =>
    show flood nd _ (g (i + 1) j) = 0
    rcases flood_cases nd (sweep nd g i j) (g (i + 1) j) with e | e
    · rw [e]; exact h
    · exact e.2.2

theorem sweep_part {nd : ℚ} {ny nx : Nat} {d g : Nat → Nat → ℚ} (h : Part nd ny nx d g) : Part nd ny nx d (sweep nd g) := by
  intro i
  induction i with
  | zero => intro j hi hj; exact h 0 j hi hj
  | succ i ih =>
    intro j hi hj
    show (flood nd (sweep nd g i j) (g (i + 1) j) = _ ∨ _ ∧ flood nd (sweep nd g i j) (g (i + 1) j) = _) ∧ (flood nd (sweep nd g i j) (g (i + 1) j) = 0 → _)
    rcases flood_cases nd (sweep nd g i j) (g (i + 1) j) with e | ⟨e1, e2, e3⟩
    · rw [e]; exact h (i + 1) j hi hj
    · rw [e3]
      have hd : d (i + 1) j = nd := by
        rcases (h (i + 1) j hi hj).1 with x | x
        · rw [← x]; exact e2
        · exact x.1
      exact ⟨.inr ⟨hd, rfl⟩, fun _ => .next ((ih j (by omega) hj).2 e1) (.inr ⟨rfl, .inl rfl⟩) hi hj hd⟩

theorem sea_in {nd : ℚ} {ny nx : Nat} {d : Nat → Nat → ℚ} {i j : Nat} (h : Sea nd ny nx d i j) : i < ny ∧ j < nx := by
  cases h with
  | zero a b _ => exact ⟨a, b⟩
  | next _ _ a b _ => exact ⟨a, b⟩

theorem flip_flip {ny : Nat} (d : Nat → Nat → ℚ) {i : Nat} (j : Nat) (hi : i < ny) : flip ny (flip ny d) i j = d i j := by
  unfold flip; congr 1; omega

theorem sea_flip {nd : ℚ} {ny nx : Nat} {d g : Nat → Nat → ℚ} (hg : ∀ i j, i < ny → j < nx → g i j = d (ny - 1 - i) j) {i j : Nat} (h : Sea nd ny nx g i j) :
    Sea nd ny nx d (ny - 1 - i) j := by
  induction h with
  | zero a b h => exact .zero (by omega) b (by rw [← hg _ _ a b]; exact h)
  | @next i j i' j' hs ha a b hd ih =>
    have := (sea_in hs).1
    refine .next ih ?_ (by omega) b (by rw [← hg _ _ a b]; exact hd)
    rcases ha with ha | ha
    · exact .inl ⟨by omega, ha.2⟩
    · exact .inr ⟨ha.1, by omega⟩

theorem sea_swap {nd : ℚ} {ny nx : Nat} {d : Nat → Nat → ℚ} {i j : Nat} (h : Sea nd ny nx (swap d) i j) : Sea nd nx ny d j i := by
  induction h with
  | zero a b h => exact .zero b a h
  | @next i j i' j' _ ha a b hd ih =>
    refine .next ih ?_ b a hd
    rcases ha with ha | ha
    · exact .inr ⟨ha.1, ha.2⟩
    · exact .inl ⟨ha.1, ha.2⟩

theorem flip_part {nd : ℚ} {ny nx : Nat} {d g : Nat → Nat → ℚ} (h : Part nd ny nx d g) : Part nd ny nx (flip ny d) (flip ny g) := by
  intro i j hi hj
  have := h (ny - 1 - i) j (by omega) hj
  refine ⟨this.1, fun hz => ?_⟩
  have := sea_flip (d := flip ny d) (fun i j a b => (flip_flip d j a).symm) (this.2 hz)
  rwa [show ny - 1 - (ny - 1 - i) = i by omega] at this

theorem swap_part {nd : ℚ} {ny nx : Nat} {d g : Nat → Nat → ℚ} (h : Part nd ny nx d g) : Part nd nx ny (swap d) (swap g) := by
  intro i j hi hj
  have := h j i hj hi
  exact ⟨this.1, fun hz => sea_swap (d := swap d) (this.2 hz)⟩

theorem part_flip_flip {nd : ℚ} {ny nx : Nat} {d g : Nat → Nat → ℚ} (h : Part nd ny nx (flip ny d) g) : Part nd ny nx d (flip ny g) := by
  intro i j hi hj
  have := h (ny - 1 - i) j (by omega) hj
  have e : flip ny d (ny - 1 - i) j = d i j := flip_flip d j hi
  rw [e] at this
  refine ⟨this.1, fun hz => ?_⟩
  have := sea_flip (d := d) (fun _ _ _ _ => rfl) (this.2 hz)
  rwa [show ny - 1 - (ny - 1 - i) = i by omega] at this

theorem ocean_part {nd : ℚ} {ny nx : Nat} {d : Nat → Nat → ℚ} : Part nd ny nx d (ocean nd ny nx d) := by
  have h0 : Part nd ny nx d d := fun i j hi hj => ⟨.inl rfl, fun h => .zero hi hj h⟩
  have h1 := sweep_part h0
  have h2 := part_flip_flip (sweep_part (flip_part h1))
  have h3 : Part nd ny nx d _ := swap_part (sweep_part (swap_part h2))
  exact swap_part (d := swap d) (part_flip_flip (sweep_part (flip_part (swap_part h3))))

/-- C174: known elevations are kept; only pixels without elevation become sea, and only where they are connected to a pixel of elevation 0. -/
theorem c174_sea (nd : ℚ) (ny nx : Nat) (d : Nat → Nat → ℚ) (i j : Nat) (hi : i < ny) (hj : j < nx) :
    (d i j ≠ nd → ocean nd ny nx d i j = d i j) ∧ (ocean nd ny nx d i j ≠ d i j → d i j = nd ∧ ocean nd ny nx d i j = 0 ∧ Sea nd ny nx d i j) := by
  obtain ⟨h1, h2⟩ := ocean_part (nd := nd) (d := d) i j hi hj
  constructor
  · intro h
    rcases h1 with h1 | h1
    · exact h1
    · exact absurd h1.1 h
  · intro h
    rcases h1 with h1 | h1
    · exact absurd h1 h
    · exact ⟨h1.1, h1.2, h2 h1.2⟩

/-- A sweep reaches all that is straight ahead. -/
theorem sweep_line {nd : ℚ} {g : Nat → Nat → ℚ} {j i0 : Nat} (h0 : g i0 j = 0) : ∀ k, (∀ i, i0 < i → i ≤ i0 + k → g i j = nd ∨ g i j = 0) → sweep nd g (i0 + k) j = 0
  | 0, _ => part_mono_zero i0 j h0
  | k + 1, h => by
    have ih := sweep_line h0 k fun i a b => h i a (by omega)
    show flood nd (sweep nd g (i0 + k) j) (g (i0 + k + 1) j) = 0
    rcases h (i0 + k + 1) (by omega) (by omega) with e | e
    · unfold flood; rw [if_pos ⟨ih, e⟩]
    · rcases flood_cases nd (sweep nd g (i0 + k) j) (g (i0 + k + 1) j) with x | x
      · rw [x]; exact e
      · exact x.2.2

/-- Zero stays zero. -/
theorem flip_zero {nd : ℚ} {ny : Nat} {g : Nat → Nat → ℚ} {i j : Nat} (hi : i < ny) (h : g i j = 0) : flip ny (sweep nd (flip ny g)) i j = 0 := by
  unfold flip
  refine part_mono_zero (nd := nd) (g := flip ny g) (ny - 1 - i) j ?_
  unfold flip
  rw [show ny - 1 - (ny - 1 - i) = i by omega]
  exact h

/-- The grid before the horizontal sweeps. -/
def vertical (nd : ℚ) (ny : Nat) (d : Nat → Nat → ℚ) : Nat → Nat → ℚ := flip ny (sweep nd (flip ny (sweep nd d)))

theorem ocean_eq (nd : ℚ) (ny nx : Nat) (d : Nat → Nat → ℚ) (i j : Nat) : ocean nd ny nx d i j = vertical nd nx (swap (vertical nd ny d)) j i := rfl

theorem vertical_zero {nd : ℚ} {ny : Nat} {d : Nat → Nat → ℚ} {i j : Nat} (hi : i < ny) (h : d i j = 0) : vertical nd ny d i j = 0 :=
  flip_zero hi (part_mono_zero i j h)

theorem vertical_kind {nd : ℚ} {ny : Nat} {d : Nat → Nat → ℚ} {i j : Nat} (hi : i < ny) (h : d i j = nd ∨ d i j = 0) : vertical nd ny d i j = nd ∨ vertical nd ny d i j = 0 := by
  have hs : ∀ (g : Nat → Nat → ℚ) i, g i j = nd ∨ g i j = 0 → sweep nd g i j = nd ∨ sweep nd g i j = 0 := by
    intro g i hh
    cases i with
    | zero => exact hh
    | succ i =>
      show flood nd _ _ = _ ∨ flood nd _ _ = _
      rcases flood_cases nd (sweep nd g i j) (g (i + 1) j) with e | e
      · rw [e]; exact hh
      · exact .inr e.2.2
  unfold vertical flip
  refine hs (flip ny (sweep nd d)) (ny - 1 - i) ?_
  unfold flip
  rw [show ny - 1 - (ny - 1 - i) = i by omega]
  exact hs d i h

/-- Straight lines are filled in both directions. -/
theorem vertical_line {nd : ℚ} {ny : Nat} {d : Nat → Nat → ℚ} {j i0 i : Nat} (hi : i < ny) (h0 : i0 < ny) (hz : d i0 j = 0)
    (h : ∀ k, (i0 < k ∧ k ≤ i ∨ i ≤ k ∧ k < i0) → d k j = nd ∨ d k j = 0) : vertical nd ny d i j = 0 := by
  by_cases hle : i0 ≤ i
  · obtain ⟨k, rfl⟩ : ∃ k, i = i0 + k := ⟨i - i0, by omega⟩
    exact flip_zero hi (sweep_line hz k fun i a b => h i (.inl ⟨a, b⟩))
  · have hz' : flip ny (sweep nd d) (ny - 1 - i0) j = 0 := by
      unfold flip; rw [show ny - 1 - (ny - 1 - i0) = i0 by omega]; exact part_mono_zero i0 j hz
    have := sweep_line (nd := nd) hz' (i0 - i) (by
      intro k a b
      unfold flip
      have hk := h (ny - 1 - k) (.inr ⟨by omega, by omega⟩)
      generalize ny - 1 - k = m at hk
      cases m with
      | zero => exact hk
      | succ m =>
        show flood nd _ _ = _ ∨ flood nd _ _ = _
        rcases flood_cases nd (sweep nd d m j) (d (m + 1) j) with e | e
        · rw [e]; exact hk
        · exact .inr e.2.2)
    unfold vertical
    show sweep nd (flip ny (sweep nd d)) (ny - 1 - i) j = 0
    rw [show ny - 1 - i = ny - 1 - i0 + (i0 - i) by omega]
    exact this

/-- C174: every pixel that is connected to elevation 0 by pixels without elevation, first along the column and then along the row, becomes sea. Missing: other
connections, see `c174_coast_violated`. -/
theorem c174_found_partial (nd : ℚ) (ny nx : Nat) (d : Nat → Nat → ℚ) (i j i0 j0 : Nat) (hi : i < ny) (hj : j < nx) (hi0 : i0 < ny) (hj0 : j0 < nx) (hz : d i0 j0 = 0)
    (hc : ∀ k, (i0 < k ∧ k ≤ i ∨ i ≤ k ∧ k < i0) → d k j0 = nd) (hr : ∀ k, (j0 < k ∧ k ≤ j ∨ j ≤ k ∧ k < j0) → d i k = nd) :
    ocean nd ny nx d i j = 0 := by
  rw [ocean_eq]
  have h1 : vertical nd ny d i j0 = 0 := vertical_line hi hi0 hz fun k hk => .inl (hc k hk)
  exact vertical_line (d := swap (vertical nd ny d)) hj hj0 h1 fun k hk => vertical_kind hi (.inl (hr k hk))

/-- C174, violated: sea that is connected along the row first and then along the column is not found: next to land, it stays without elevation. -/
theorem c174_coast_violated (nd land : ℚ) (h0 : nd ≠ 0) (h1 : land ≠ 0) (h2 : land ≠ nd) : ∃ d : Nat → Nat → ℚ, Sea nd 2 2 d 1 1 ∧ ocean nd 2 2 d 1 1 = nd := by
  refine ⟨fun i j => if j = 1 then nd else if i = 0 then 0 else land, ?_, ?_⟩
  · have a : Sea nd 2 2 (fun i j => if j = 1 then nd else if i = 0 then 0 else land) 0 0 := .zero (by omega) (by omega) (by simp)
    exact .next (.next a (i' := 0) (j' := 1) (.inl ⟨rfl, .inl rfl⟩) (by omega) (by omega) (by simp)) (.inr ⟨rfl, .inl rfl⟩) (by omega) (by omega) (by simp)
  · simp [ocean, swap, flip, sweep, flood, h0, h1, h2]

end Verif.Topo
