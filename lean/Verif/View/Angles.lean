import Verif.View.Model
import Verif.View.Spec

/-! # View angles -/

namespace Verif.View

open Spec Real

/-! ## Distance and zenith -/

theorem ab_sq (n : Nadir) : n.ab ^ 2 = n.a ^ 2 + n.b ^ 2 := by
  unfold Nadir.ab
  rw [sq_sqrt (by nlinarith [mul_self_nonneg n.a, mul_self_nonneg n.b])]
  ring

theorem ab_pos (n : Nadir) (h : ¬ (n.ux = n.lx ∧ n.uy = n.ly)) : 0 < n.ab := by
  unfold Nadir.ab
  apply sqrt_pos.2
  have : n.a ≠ 0 ∨ n.b ≠ 0 := by
    by_contra hc
    push Not at hc
    apply h
    unfold Nadir.a Nadir.b at hc
    constructor
    · have : (n.lx : ℝ) = n.ux := by linarith [hc.2]
      exact_mod_cast this.symm
    · have : (n.uy : ℝ) = n.ly := by linarith [hc.1]
      exact_mod_cast this
  rcases this with h | h
  · have := mul_self_pos.2 h; nlinarith [mul_self_nonneg n.b]
  · have := mul_self_pos.2 h; nlinarith [mul_self_nonneg n.a]

/-- C112: the distance of a pixel from the nadir line is the shortest distance to it. -/
theorem c112_distance (n : Nadir) (h : ¬ (n.ux = n.lx ∧ n.uy = n.ly)) (x y : ℝ) :
    Distance n.ux n.uy n.lx n.ly x y |n.dist x y| := by
  have hp := ab_pos n h
  have hs := ab_sq n
  have ha : n.a = n.uy - n.ly := rfl
  have hb : n.b = n.lx - n.ux := rfl
  have hc : n.c = n.ly * n.ux - n.lx * n.uy := rfl
  have hd : n.dist x y * n.ab = n.a * x + n.b * y + n.c := by
    unfold Nadir.dist; rw [div_mul_cancel₀ _ hp.ne']
  -- the point of the line with parameter `t`: its squared distance
  have key : ∀ t : ℝ, ((x - (n.ux + t * (n.lx - n.ux))) ^ 2 + (y - (n.uy + t * (n.ly - n.uy))) ^ 2) * n.ab ^ 2 =
      (n.dist x y * n.ab) ^ 2 + (n.b * (x - n.ux) - n.a * (y - n.uy) - t * n.ab ^ 2) ^ 2 := by
    intro t
    rw [hd, hs, ha, hb, hc]
    ring
  have hp2 : 0 < n.ab ^ 2 := by positivity
  refine ⟨abs_nonneg _, fun t => ?_, (n.b * (x - n.ux) - n.a * (y - n.uy)) / n.ab ^ 2, ?_⟩
  · rw [sq_abs]
    have := key t
    have h2 := sq_nonneg (n.b * (x - n.ux) - n.a * (y - n.uy) - t * n.ab ^ 2)
    rw [mul_pow] at this
    by_contra hlt
    push Not at hlt
    have := mul_lt_mul_of_pos_right hlt hp2
    linarith
  · rw [sq_abs]
    have := key ((n.b * (x - n.ux) - n.a * (y - n.uy)) / n.ab ^ 2)
    rw [div_mul_cancel₀ _ hp2.ne', sub_self, mul_pow] at this
    rw [zero_pow two_ne_zero, add_zero] at this
    exact (mul_right_cancel₀ hp2.ne' this).symm

/-- C112: the view zenith is the angle of the right triangle of satellite height and distance from the nadir line. -/
theorem c112_zenith (H res d : ℝ) (hH : 0 < H) (hr : 0 < res) :
    0 ≤ viewZenith H res d ∧ viewZenith H res d < π / 2 ∧ tan (viewZenith H res d) = res * |d| / H := by
  have h1 : (0 : ℝ) < H * H + res * d * res * d := by nlinarith [mul_self_nonneg (res * d), mul_pos hH hH]
  have hs : 0 < √(H * H + res * d * res * d) := sqrt_pos.2 h1
  refine ⟨arccos_nonneg _, ?_, ?_⟩
  · unfold viewZenith
    rw [arccos_lt_pi_div_two]
    positivity
  · unfold viewZenith
    rw [tan_arccos, div_pow, sq_sqrt h1.le]
    have e : 1 - H ^ 2 / (H * H + res * d * res * d) = (res * |d|) ^ 2 / (H * H + res * d * res * d) := by
      rw [mul_pow, sq_abs]
      field_simp
      ring
    rw [e, sqrt_div (by positivity), sqrt_sq (by positivity)]
    field_simp

/-- C112: view zenith of the program for Landsat: the height is 705 km, and the distance is the one to the nadir line. -/
theorem c112_landsat (warp : ℝ × ℝ → ℝ × ℝ) (g : Geo) (hr : 0 < g.res) (n : Nadir) (h : ¬ (n.ux = n.lx ∧ n.uy = n.ly)) (x y : ℝ) :
    ∃ d, Distance n.ux n.uy n.lx n.ly x y d ∧ 0 ≤ (viewAngle warp g n x y).1 ∧ (viewAngle warp g n x y).1 < π / 2 ∧
      tan (viewAngle warp g n x y).1 = g.res * d / 705000 := by
  obtain ⟨h1, h2, h3⟩ := c112_zenith 705000 g.res (n.dist x y) (by norm_num) hr
  exact ⟨_, c112_distance n h x y, h1, h2, h3⟩

/-- C112: if the valid pixels are in one place (top and bottom have the same middle), the view zenith is zero. -/
theorem c112_single (warp : ℝ × ℝ → ℝ × ℝ) (g : Geo) (n : Nadir) (h : n.ux = n.lx ∧ n.uy = n.ly) (x y : ℝ) :
    (viewAngle warp g n x y).1 = 0 := by
  have : n.dist x y = 0 := by
    unfold Nadir.dist Nadir.ab Nadir.a Nadir.b
    rw [h.1, h.2]
    simp
  show viewZenith 705000 g.res (n.dist x y) = 0
  rw [this]
  unfold viewZenith
  rw [mul_zero, add_zero, sqrt_mul_self (by norm_num), div_self (by norm_num), arccos_one]

/-! ## Azimuth -/

theorem up_once (x : ℝ) (h : -(2 * π) ≤ x) : up ⌈-x / (2 * π)⌉₊ x = if x < 0 then x + 2 * π else x := by
  have hp : 0 < 2 * π := by positivity
  by_cases h0 : x < 0
  · have e : ⌈-x / (2 * π)⌉₊ = 1 := by
      rw [Nat.ceil_eq_iff (by norm_num)]
      constructor
      · simp only [Nat.sub_self, Nat.cast_zero]
        have : 0 < -x := by linarith
        positivity
      · rw [div_le_iff₀ hp]; push_cast; linarith
    rw [e]
    rfl
  · have e : ⌈-x / (2 * π)⌉₊ = 0 := by
      rw [Nat.ceil_eq_zero]
      exact div_nonpos_of_nonpos_of_nonneg (by linarith) hp.le
    rw [e, if_neg h0]
    rfl

theorem azimuth_eq (dx dy d : ℝ) : viewAzimuth (nadirAngle dx dy) d =
    if d > 0 then Complex.arg ⟨dx, dy⟩ + π else
      if Complex.arg ⟨dx, dy⟩ < 0 then Complex.arg ⟨dx, dy⟩ + 2 * π else Complex.arg ⟨dx, dy⟩ := by
  unfold viewAzimuth nadirAngle
  have hl := Complex.neg_pi_lt_arg ⟨dx, dy⟩
  have hp := pi_pos
  rw [show Complex.arg ⟨dx, dy⟩ + π / 2 - π / 2 = Complex.arg ⟨dx, dy⟩ by ring, up_once _ (by linarith),
    show Complex.arg ⟨dx, dy⟩ + π / 2 + π / 2 = Complex.arg ⟨dx, dy⟩ + π by ring]

theorem azimuth_vec (dx dy d : ℝ) (h : ¬ (dx = 0 ∧ dy = 0)) :
    (0 < d → sin (viewAzimuth (nadirAngle dx dy) d) * √(dx ^ 2 + dy ^ 2) = - dy ∧
      cos (viewAzimuth (nadirAngle dx dy) d) * √(dx ^ 2 + dy ^ 2) = - dx) ∧
    (d ≤ 0 → sin (viewAzimuth (nadirAngle dx dy) d) * √(dx ^ 2 + dy ^ 2) = dy ∧
      cos (viewAzimuth (nadirAngle dx dy) d) * √(dx ^ 2 + dy ^ 2) = dx) := by
  have hn : ‖(⟨dx, dy⟩ : ℂ)‖ = √(dx ^ 2 + dy ^ 2) := by
    rw [Complex.norm_def, Complex.normSq_mk]; congr 1; ring
  have hs : sin (Complex.arg ⟨dx, dy⟩) * √(dx ^ 2 + dy ^ 2) = dy := by
    have := Complex.norm_mul_sin_arg (⟨dx, dy⟩ : ℂ)
    rw [hn] at this
    rw [mul_comm]; exact this
  have hc : cos (Complex.arg ⟨dx, dy⟩) * √(dx ^ 2 + dy ^ 2) = dx := by
    have := Complex.norm_mul_cos_arg (⟨dx, dy⟩ : ℂ)
    rw [hn] at this
    rw [mul_comm]; exact this
  rw [azimuth_eq]
  constructor
  · intro hd
    rw [if_pos hd, sin_add_pi, cos_add_pi]
    constructor <;> linarith
  · intro hd
    rw [if_neg (not_lt.2 hd)]
    split
    · rw [sin_add_two_pi, cos_add_two_pi]
      exact ⟨hs, hc⟩
    · exact ⟨hs, hc⟩

/-- C113: azimuth angles are between zero and a full turn; pixels on one side of the nadir line have the same azimuth, and pixels on
the other side the opposite one. -/
theorem c113_sides_partial (warp : ℝ × ℝ → ℝ × ℝ) (g : Geo) (n : Nadir) (x y x' y' : ℝ) :
    (0 ≤ (viewAngle warp g n x y).2 ∧ (viewAngle warp g n x y).2 ≤ 2 * π) ∧
    (0 < n.dist x y → 0 < n.dist x' y' → (viewAngle warp g n x y).2 = (viewAngle warp g n x' y').2) ∧
    (0 < n.dist x y → n.dist x' y' < 0 → sin (viewAngle warp g n x' y').2 = - sin (viewAngle warp g n x y).2 ∧
      cos (viewAngle warp g n x' y').2 = - cos (viewAngle warp g n x y).2) := by
  have e : ∀ x y, ∃ dx dy, (viewAngle warp g n x y).2 = viewAzimuth (nadirAngle dx dy) (n.dist x y) ∧
      dx = (brickGeo warp g n.ux n.uy).1 - (brickGeo warp g n.lx n.ly).1 ∧
      dy = (brickGeo warp g n.lx n.ly).2 - (brickGeo warp g n.ux n.uy).2 := fun x y => ⟨_, _, rfl, rfl, rfl⟩
  obtain ⟨dx, dy, e1, hx, hy⟩ := e x y
  obtain ⟨dx', dy', e2, hx', hy'⟩ := e x' y'
  obtain rfl : dx' = dx := hx'.trans hx.symm
  obtain rfl : dy' = dy := hy'.trans hy.symm
  rw [e1, e2, azimuth_eq, azimuth_eq]
  have hl := Complex.neg_pi_lt_arg ⟨dx', dy'⟩
  have hu := Complex.arg_le_pi ⟨dx', dy'⟩
  have hp := pi_pos
  refine ⟨?_, ?_, ?_⟩
  · split
    · constructor <;> linarith
    · split
      · constructor <;> linarith
      · constructor <;> linarith
  · intro h1 h2
    rw [if_pos h1, if_pos h2]
  · intro h1 h2
    rw [if_pos h1, if_neg (not_lt.2 h2.le), sin_add_pi, cos_add_pi]
    split
    · rw [sin_add_two_pi, cos_add_two_pi]; simp
    · simp

/-- The equation of the nadir line. -/
theorem onLine_iff (n : Nadir) (x y : ℝ) : OnLine n.ux n.uy n.lx n.ly x y ↔ n.a * x + n.b * y + n.c = 0 := by
  unfold OnLine Nadir.a Nadir.b Nadir.c
  constructor <;> intro h <;> linarith

theorem dist_mul (n : Nadir) (h : ¬ (n.ux = n.lx ∧ n.uy = n.ly)) (x y : ℝ) :
    n.dist x y * n.ab = n.a * x + n.b * y + n.c := by
  unfold Nadir.dist; rw [div_mul_cancel₀ _ (ab_pos n h).ne']

/-- Where one arrives after the distance in the direction of the azimuth. -/
theorem walk (n : Nadir) (h : ¬ (n.ux = n.lx ∧ n.uy = n.ly)) (x y dx dy : ℝ) (hne : ¬ (dx = 0 ∧ dy = 0)) :
    let z := viewAzimuth (nadirAngle dx dy) (n.dist x y)
    (n.a * (x + |n.dist x y| * sin z) + n.b * (y - |n.dist x y| * cos z) + n.c) * √(dx ^ 2 + dy ^ 2) =
      n.dist x y * (n.ab * √(dx ^ 2 + dy ^ 2) - n.a * dy + n.b * dx) := by
  intro z
  have hd := dist_mul n h x y
  obtain ⟨v1, v2⟩ := azimuth_vec dx dy (n.dist x y) hne
  rcases lt_or_ge 0 (n.dist x y) with h0 | h0
  · obtain ⟨w1, w2⟩ := v1 h0
    change sin z * _ = _ at w1
    change cos z * _ = _ at w2
    rw [abs_of_pos h0]
    have : (n.a * (x + n.dist x y * sin z) + n.b * (y - n.dist x y * cos z) + n.c) * √(dx ^ 2 + dy ^ 2) =
        (n.a * x + n.b * y + n.c) * √(dx ^ 2 + dy ^ 2) + n.dist x y * (n.a * (sin z * √(dx ^ 2 + dy ^ 2)) -
          n.b * (cos z * √(dx ^ 2 + dy ^ 2))) := by ring
    rw [this, w1, w2, ← hd]
    ring
  · obtain ⟨w1, w2⟩ := v2 h0
    change sin z * _ = _ at w1
    change cos z * _ = _ at w2
    rw [abs_of_nonpos h0]
    have : (n.a * (x + -n.dist x y * sin z) + n.b * (y - -n.dist x y * cos z) + n.c) * √(dx ^ 2 + dy ^ 2) =
        (n.a * x + n.b * y + n.c) * √(dx ^ 2 + dy ^ 2) + n.dist x y * (- n.a * (sin z * √(dx ^ 2 + dy ^ 2)) +
          n.b * (cos z * √(dx ^ 2 + dy ^ 2))) := by ring
    rw [this, w1, w2, ← hd]
    ring

/-- C113: if `dx` and `dy` are the differences of longitude and latitude of the ends of the nadir line (rows going from north to south), and a
degree of longitude is as long as a degree of latitude, then the azimuth points to the nadir line: going the
distance in this direction (clockwise from north), one arrives at the nadir line. -/
theorem c113_direction_partial (n : Nadir) (h : ¬ (n.ux = n.lx ∧ n.uy = n.ly)) (k : ℝ) (hk : 0 < k) (x y : ℝ) :
    let z := viewAzimuth (nadirAngle (k * (n.ux - n.lx)) (k * (n.uy - n.ly))) (n.dist x y)
    OnLine n.ux n.uy n.lx n.ly (x + |n.dist x y| * sin z) (y - |n.dist x y| * cos z) := by
  intro z
  rw [onLine_iff]
  have hp := ab_pos n h
  have ex : k * ((n.ux : ℝ) - n.lx) = - (k * n.b) := by unfold Nadir.b; ring
  have ey : k * ((n.uy : ℝ) - n.ly) = k * n.a := by unfold Nadir.a; ring
  have hr : √((- (k * n.b)) ^ 2 + (k * n.a) ^ 2) = k * n.ab := by
    rw [show (- (k * n.b)) ^ 2 + (k * n.a) ^ 2 = (k * n.ab) ^ 2 by rw [mul_pow k n.ab, ab_sq]; ring]
    exact sqrt_sq (by positivity)
  have hpos : 0 < k * n.ab := by positivity
  have hne : ¬ (- (k * n.b) = 0 ∧ k * n.a = 0) := by
    rintro ⟨h1, h2⟩
    rw [h1, h2] at hr
    simp at hr
    rcases hr with h | h <;> linarith
  have := walk n h x y (- (k * n.b)) (k * n.a) hne
  simp only [hr] at this
  rw [show n.ab * (k * n.ab) - n.a * (k * n.a) + n.b * (- (k * n.b)) = k * (n.ab ^ 2 - (n.a ^ 2 + n.b ^ 2)) by ring,
    ab_sq, sub_self, mul_zero, mul_zero] at this
  have h2 := (mul_eq_zero.1 this).resolve_right hpos.ne'
  show n.a * (x + |n.dist x y| * sin z) + n.b * (y - |n.dist x y| * cos z) + n.c = 0
  have hz : z = viewAzimuth (nadirAngle (- (k * n.b)) (k * n.a)) (n.dist x y) := by
    show viewAzimuth (nadirAngle (k * (n.ux - n.lx)) (k * (n.uy - n.ly))) (n.dist x y) = _
    rw [ex, ey]
  rw [hz]
  exact h2

/-- C113, violated: the rows of the image are taken to go from south to north, so that the view azimuth is mirrored: going
the distance in this direction, one never arrives at the nadir line (whatever the lengths of a degree of
longitude and latitude are). -/
theorem c113_mirrored_violated (g : Geo) (hr : 0 < g.res) (n : Nadir) (h : n.uy < n.ly) (p s k t : ℝ) (hs : 0 < s) (hk : 0 < k)
    (x y : ℝ) (hd : n.dist x y ≠ 0) :
    let z := (viewAngle (fun q => (p + s * q.1, t + k * q.2)) g n x y).2
    ¬ OnLine n.ux n.uy n.lx n.ly (x + |n.dist x y| * sin z) (y - |n.dist x y| * cos z) := by
  intro z
  rw [onLine_iff]
  have hne : ¬ (n.ux = n.lx ∧ n.uy = n.ly) := by rintro ⟨_, h2⟩; omega
  have ha : n.a < 0 := by
    have : (n.uy : ℝ) < n.ly := by exact_mod_cast h
    unfold Nadir.a; linarith
  have hz : z = viewAzimuth (nadirAngle (- (s * g.res * n.b)) (- (k * g.res * n.a))) (n.dist x y) := by
    show viewAzimuth (nadirAngle (p + s * (g.ulx + n.ux * g.res) - (p + s * (g.ulx + n.lx * g.res)))
      (t + k * (g.uly + n.ly * g.res) - (t + k * (g.uly + n.uy * g.res)))) _ = _
    congr 2
    · unfold Nadir.b; ring
    · unfold Nadir.a; ring
  have hy : 0 < - (k * g.res * n.a) := by
    have := mul_pos (mul_pos hk hr) (neg_pos.2 ha); linarith
  have hxy : ¬ (- (s * g.res * n.b) = 0 ∧ - (k * g.res * n.a) = 0) := fun h => by linarith [h.2]
  have hw := walk n hne x y _ _ hxy
  simp only at hw
  rw [← hz] at hw
  intro h0
  rw [h0, zero_mul] at hw
  have h1 := (mul_eq_zero.1 hw.symm).resolve_left hd
  -- `ab * r = s b² - k a²` times the resolution, which is too small
  set r := √((- (s * g.res * n.b)) ^ 2 + (- (k * g.res * n.a)) ^ 2) with hrdef
  have hr2 : r ^ 2 = (s * g.res * n.b) ^ 2 + (k * g.res * n.a) ^ 2 := by
    rw [hrdef, sq_sqrt (by positivity)]; ring
  have h2 : n.ab * r = g.res * (s * n.b ^ 2 - k * n.a ^ 2) := by linear_combination h1
  have h3 : (n.ab * r) ^ 2 = (g.res * (s * n.b ^ 2 - k * n.a ^ 2)) ^ 2 := by rw [h2]
  rw [mul_pow, ab_sq, hr2] at h3
  have h4 : g.res ^ 2 * (n.a ^ 2 * n.b ^ 2 * (s + k) ^ 2) = 0 := by linear_combination h3
  have h5 : n.b = 0 := by
    have q1 : g.res ^ 2 ≠ 0 := by positivity
    have q2 : n.a ^ 2 ≠ 0 := pow_ne_zero _ ha.ne
    have q3 : (s + k) ^ 2 ≠ 0 := by positivity
    have := (mul_eq_zero.1 h4).resolve_left q1
    have := (mul_eq_zero.1 this).resolve_right q3
    have := (mul_eq_zero.1 this).resolve_left q2
    exact pow_eq_zero_iff (two_ne_zero) |>.1 this
  rw [h5] at h2
  have h6 : 0 ≤ n.ab * r := mul_nonneg (sqrt_nonneg _) (sqrt_nonneg _)
  have h7 : 0 < k * n.a ^ 2 := mul_pos hk (pow_pos (neg_pos.2 ha) 2 |>.trans_eq (by ring))
  rw [h2] at h6
  have h8 : g.res * (s * 0 ^ 2 - k * n.a ^ 2) < 0 := by
    have := mul_pos hr h7
    linarith
  linarith

/-- C113, violated: also with rows from north to south, the azimuth would not be the direction to the nadir line where a degree of
longitude is shorter than a degree of latitude (away from the equator), unless the line goes north: differences
of degrees are used as if they were lengths. -/
theorem c113_degrees_violated (n : Nadir) (hx : n.ux ≠ n.lx) (hy : n.uy ≠ n.ly) (k s : ℝ) (hk : 0 < k) (hs : k < s) (x y : ℝ)
    (hd : n.dist x y ≠ 0) :
    let z := viewAzimuth (nadirAngle (s * (n.ux - n.lx)) (k * (n.uy - n.ly))) (n.dist x y)
    ¬ OnLine n.ux n.uy n.lx n.ly (x + |n.dist x y| * sin z) (y - |n.dist x y| * cos z) := by
  intro z
  rw [onLine_iff]
  have hne : ¬ (n.ux = n.lx ∧ n.uy = n.ly) := fun h => hx h.1
  have ha : n.a ≠ 0 := by
    unfold Nadir.a; rw [sub_ne_zero]; exact_mod_cast hy
  have hb : n.b ≠ 0 := by
    unfold Nadir.b; rw [sub_ne_zero]; exact_mod_cast hx.symm
  have hz : z = viewAzimuth (nadirAngle (- (s * n.b)) (k * n.a)) (n.dist x y) := by
    show viewAzimuth _ _ = _
    congr 2
    unfold Nadir.b; ring
  have hxy : ¬ (- (s * n.b) = 0 ∧ k * n.a = 0) := fun h => (mul_ne_zero hk.ne' ha) h.2
  have hw := walk n hne x y _ _ hxy
  simp only at hw
  rw [← hz] at hw
  intro h0
  rw [h0, zero_mul] at hw
  have h1 := (mul_eq_zero.1 hw.symm).resolve_left hd
  set r := √((- (s * n.b)) ^ 2 + (k * n.a) ^ 2) with hrdef
  have hr2 : r ^ 2 = (s * n.b) ^ 2 + (k * n.a) ^ 2 := by
    rw [hrdef, sq_sqrt (by positivity)]; ring
  have h2 : n.ab * r = s * n.b ^ 2 + k * n.a ^ 2 := by linear_combination h1
  have h3 : (n.ab * r) ^ 2 = (s * n.b ^ 2 + k * n.a ^ 2) ^ 2 := by rw [h2]
  rw [mul_pow, ab_sq, hr2] at h3
  have h4 : n.a ^ 2 * n.b ^ 2 * (s - k) ^ 2 = 0 := by linear_combination h3
  have q1 : n.a ^ 2 ≠ 0 := pow_ne_zero _ ha
  have q2 : n.b ^ 2 ≠ 0 := pow_ne_zero _ hb
  have q3 : (s - k) ^ 2 ≠ 0 := pow_ne_zero _ (sub_ne_zero.2 hs.ne')
  exact mul_ne_zero (mul_ne_zero q1 q2) q3 h4

end Verif.View
