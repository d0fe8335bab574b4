import Verif.Prod.Overview
import Verif.Prod.OverviewSpec
import Verif.Prod.BoaProps
import Verif.Dist.Props
import Mathlib.Tactic.FieldSimp

/-!
# C152: the quicklook of a scene; C153: the cloud distance
-/

namespace Verif.Prod

open Verif.Str (Out)
open Verif.Index (truncQ truncQ_eq)
open Verif.Prod.Spec
open Verif.Qai.Spec (value)

theorem overviewRes_pos (res : ℚ) : 0 < overviewRes res := by
  unfold overviewRes; split <;> norm_num

theorem trunc_pos {x : ℚ} (h : 0 ≤ x) : 0 ≤ truncQ x ∧ (truncQ x : ℚ) ≤ x ∧ x < truncQ x + 1 := by
  rw [truncQ_eq, if_pos h]
  exact ⟨Int.floor_nonneg.2 h, Int.floor_le x, Int.lt_floor_add_one x⟩

/-- C152: every row and column of the quicklook shows a row and column of the image, the one that contains its upper (left)
edge. -/
theorem c152_inside (n : Nat) (res : ℚ) (hr : 0 < res) (i : Nat) (hi : (i : Int) < overviewSize n res) :
    0 ≤ overviewSource i res ∧ overviewSource i res < n ∧
      (overviewSource i res : ℚ) * res ≤ i * overviewRes res ∧ i * overviewRes res < (overviewSource i res + 1) * res := by
  have ho := overviewRes_pos res
  have hi0 : (0 : ℚ) ≤ i := by positivity
  have h1 := trunc_pos (x := i * (overviewRes res / res)) (by positivity)
  have h2 := trunc_pos (x := n * (res / overviewRes res)) (by positivity)
  unfold overviewSize at hi
  unfold overviewSource
  obtain ⟨a1, a2, a3⟩ := h1
  have e : (i : ℚ) * (overviewRes res / res) * res = i * overviewRes res := by field_simp
  have hin : ((i : ℚ) + 1) ≤ truncQ (n * (res / overviewRes res)) := by exact_mod_cast hi
  have hin2 : (i : ℚ) < n * (res / overviewRes res) := by linarith [h2.2.1]
  have hlt : (i : ℚ) * (overviewRes res / res) < n := by
    rw [← mul_div_assoc, div_lt_iff₀ hr]
    rw [← mul_div_assoc, lt_div_iff₀ ho] at hin2
    exact hin2
  refine ⟨a1, ?_, ?_, ?_⟩
  · have : ((truncQ (i * (overviewRes res / res)) : Int) : ℚ) < (n : Int) := by push_cast; linarith
    exact_mod_cast this
  · rw [← e]
    exact mul_le_mul_of_nonneg_right a2 hr.le
  · rw [← e]
    exact mul_lt_mul_of_pos_right a3 hr

/-- C152: the resolution of the quicklook is 150 m, or 0.0015° in geographic coordinates; the quicklook covers the image up to
less than one of its own pixels. -/
theorem c152_size (n : Nat) (res : ℚ) (hr : 0 < res) :
    (res < 1 → overviewRes res = 15 / 10000) ∧ (1 ≤ res → overviewRes res = 150) ∧
      (overviewSize n res : ℚ) * overviewRes res ≤ n * res ∧ n * res < (overviewSize n res + 1) * overviewRes res := by
  have ho := overviewRes_pos res
  obtain ⟨-, h2, h3⟩ := trunc_pos (x := n * (res / overviewRes res)) (by positivity)
  have e : (n : ℚ) * (res / overviewRes res) * overviewRes res = n * res := by field_simp
  refine ⟨fun h => if_pos h, fun h => if_neg (not_lt.2 h), ?_, ?_⟩
  · rw [← e]; exact mul_le_mul_of_nonneg_right h2 ho.le
  · rw [← e]; exact mul_lt_mul_of_pos_right h3 ho

/-- C152: the fixed stretch: 0 for reflectances up to 0, 255 from 0.25, linear in between. -/
theorem c152_stretch (v : Int) : (v ≤ 0 → stretch v = 0) ∧ (2500 ≤ v → stretch v = 255) ∧
    (0 ≤ v → v ≤ 2500 → (stretch v : ℚ) ≤ v * 255 / 2500 ∧ (v : ℚ) * 255 / 2500 < stretch v + 1) := by
  have mid : 0 ≤ v → v ≤ 2500 → stretch v = truncQ ((v : ℚ) / 2500 * 255) := by
    intro h0 h1
    unfold stretch
    rw [if_neg (by omega), if_neg (by omega)]
  refine ⟨?_, ?_, ?_⟩
  · intro h
    rcases h.lt_or_eq with h | h
    · exact if_pos h
    · subst h; decide +kernel
  · intro h
    rcases h.lt_or_eq with h | h
    · unfold stretch
      rw [if_neg (by omega), if_pos h]
    · subst h; decide +kernel
  · intro h0 h1
    have hq : (0 : ℚ) ≤ v := by exact_mod_cast h0
    obtain ⟨-, h2, h3⟩ := trunc_pos (x := (v : ℚ) / 2500 * 255) (by positivity)
    rw [mid h0 h1]
    constructor <;> linarith

/-- C152: the colours: each pixel has the colour of the legend, or the stretched reflectance if no indicator applies. -/
theorem c152_colours (q : BitVec 16) (red green blue : Int) :
    colour q red green blue = (legend q).getD (stretch red, stretch green, stretch blue) := by
  have lo : value .off q < 2 := Nat.mod_lt _ (by decide)
  have lc : value .cld q < 4 := Nat.mod_lt _ (by decide)
  have lsh : value .shd q < 2 := Nat.mod_lt _ (by decide)
  have lsn : value .snw q < 2 := Nat.mod_lt _ (by decide)
  have lsa : value .sat q < 2 := Nat.mod_lt _ (by decide)
  have lsu : value .sub q < 2 := Nat.mod_lt _ (by decide)
  unfold colour legend isOff
  simp only [Qai.get_eq_value, decide_eq_true_eq]
  generalize value .off q = a at *
  generalize value .cld q = b at *
  generalize value .shd q = c at *
  generalize value .snw q = d at *
  generalize value .sat q = e at *
  generalize value .sub q = f at *
  have ha : a = 0 ∨ a = 1 := by omega
  have hb : b = 0 ∨ b = 1 ∨ b = 2 ∨ b = 3 := by omega
  have hc : c = 0 ∨ c = 1 := by omega
  have hd : d = 0 ∨ d = 1 := by omega
  have he : e = 0 ∨ e = 1 := by omega
  have hf : f = 0 ∨ f = 1 := by omega
  rcases ha with rfl | rfl
  · rcases hb with rfl | rfl | rfl | rfl
    · rcases hc with rfl | rfl
      · rcases hd with rfl | rfl
        · rcases he with rfl | rfl
          · rcases hf with rfl | rfl <;> simp
          · simp
        · simp
      · simp
    · simp
    · simp
    · simp
  · simp

/-- C152: a pixel of the quicklook is coloured after the pixel of the image that contains its upper left corner; all accesses
are inside of the image. -/
theorem c152_pixel (nx ny : Nat) (res : ℚ) (hr : 0 < res) (qai : Nat → BitVec 16) (red green blue : Nat → Int) (i j : Nat)
    (hi : (i : Int) < overviewSize ny res) (hj : (j : Int) < overviewSize nx res) :
    ∃ y x : Nat, y < ny ∧ x < nx ∧ (y * res ≤ i * overviewRes res ∧ i * overviewRes res < (y + 1) * res) ∧
      (x * res ≤ j * overviewRes res ∧ j * overviewRes res < (x + 1) * res) ∧
      overview nx res qai red green blue i j =
        (legend (qai (y * nx + x))).getD (stretch (red (y * nx + x)), stretch (green (y * nx + x)), stretch (blue (y * nx + x))) := by
  obtain ⟨y0, y1, y2, y3⟩ := c152_inside ny res hr i hi
  obtain ⟨x0, x1, x2, x3⟩ := c152_inside nx res hr j hj
  unfold overview
  generalize overviewSource i res = sy at *
  generalize overviewSource j res = sx at *
  obtain ⟨y, rfl⟩ := Int.eq_ofNat_of_zero_le y0
  obtain ⟨x, rfl⟩ := Int.eq_ofNat_of_zero_le x0
  refine ⟨y, x, by omega, by omega, ⟨by exact_mod_cast y2, by exact_mod_cast y3⟩, ⟨by exact_mod_cast x2, by exact_mod_cast x3⟩, ?_⟩
  have e : ((y : Int) * nx + x).toNat = y * nx + x := by
    have : ((y : Int) * nx + x) = ((y * nx + x : Nat) : Int) := by push_cast; ring
    rw [this, Int.toNat_natCast]
  rw [e]
  exact c152_colours _ _ _ _

/-! ## The cloud distance -/

theorem busy_iff (q : BitVec 16) : busy q = true ↔ value .cld q ≠ 0 ∨ value .shd q = 1 ∨ value .snw q = 1 := by
  unfold busy
  simp only [Qai.get_eq_value, Bool.or_eq_true, decide_eq_true_eq]
  have lsh : value .shd q < 2 := Nat.mod_lt _ (by decide)
  have lsn : value .snw q < 2 := Nat.mod_lt _ (by decide)
  omega

theorem any_iff (nx ny : Nat) (P : Nat → Bool) :
    (List.range (nx * ny)).any P = true ↔ ∃ b a, b < ny ∧ a < nx ∧ P (b * nx + a) = true := by
  rw [List.any_eq_true]
  constructor
  · rintro ⟨p, hp, h⟩
    rw [List.mem_range] at hp
    have hnx : 0 < nx := by
      rcases Nat.eq_zero_or_pos nx with h0 | h0
      · subst h0; simp at hp
      · exact h0
    refine ⟨p / nx, p % nx, Nat.div_lt_of_lt_mul hp, Nat.mod_lt _ hnx, ?_⟩
    have : p / nx * nx + p % nx = p := by rw [Nat.mul_comm]; exact Nat.div_add_mod p nx
    rw [this]; exact h
  · rintro ⟨b, a, hb, ha, h⟩
    refine ⟨b * nx + a, ?_, h⟩
    rw [List.mem_range]
    have : (b + 1) * nx ≤ ny * nx := Nat.mul_le_mul_right _ hb
    nlinarith

/-- The pixels with a cloud, a cloud shadow or snow. -/
def Busy (nx : Nat) (qai : Nat → BitVec 16) (y x : Nat) : Prop :=
  value .cld (qai (y * nx + x)) ≠ 0 ∨ value .shd (qai (y * nx + x)) = 1 ∨ value .snw (qai (y * nx + x)) = 1

theorem value_of {d : Nat} {res : ℚ} (hr : 0 < res) :
    (if d * res < 32767 then (Out.ok (truncQ (d * res)) : Out Int) else .ok 32767) = .ok (min 32767 ⌊d * res⌋) := by
  have h0 : (0 : ℚ) ≤ d * res := by positivity
  rw [truncQ_eq, if_pos h0]
  by_cases h : (d : ℚ) * res < 32767
  · rw [if_pos h]
    have : ⌊(d : ℚ) * res⌋ < 32767 := Int.floor_lt.2 (by exact_mod_cast h)
    rw [min_eq_right this.le]
  · rw [if_neg h]
    have : 32767 ≤ ⌊(d : ℚ) * res⌋ := Int.le_floor.2 (by exact_mod_cast not_lt.1 h)
    rw [min_eq_left this]

/-- C153: at every pixel with data, the product is the distance to the nearest cloud, cloud shadow or snow pixel: the integer
part of the Euclidean distance in pixels, times the resolution, as an integer without the fractional part, at most 32767.
Nodata pixels are −9999. Missing: the fractional part in geographic coordinates, see `c153_degrees_violated`. -/
theorem c153_distance_partial (nx ny : Nat) (res : ℚ) (hr : 0 < res) (qai : Nat → BitVec 16)
    (hsize : (nx + 2 * ny) ^ 2 + nx ^ 2 ≤ 2147483647) (y x : Nat) (hy : y < ny) (hx : x < nx)
    (hbusy : ∃ b a, b < ny ∧ a < nx ∧ Busy nx qai b a) :
    (value .off (qai (y * nx + x)) = 1 → cloudDistance nx ny res qai y x = .ok (-9999)) ∧
    (value .off (qai (y * nx + x)) = 0 → ∃ d : Nat, cloudDistance nx ny res qai y x = .ok (min 32767 ⌊d * res⌋) ∧
      (∀ b a : Nat, b < ny → a < nx → Busy nx qai b a → (d : Int) ^ 2 ≤ ((x : Int) - a) ^ 2 + ((y : Int) - b) ^ 2) ∧
      ∃ b a : Nat, b < ny ∧ a < nx ∧ Busy nx qai b a ∧ ((x : Int) - a) ^ 2 + ((y : Int) - b) ^ 2 < ((d : Int) + 1) ^ 2) := by
  have hany : ((List.range (nx * ny)).any fun p => busy (qai p)) = true := by
    rw [any_iff]
    obtain ⟨b, a, hb, ha, h⟩ := hbusy
    exact ⟨b, a, hb, ha, (busy_iff _).2 h⟩
  obtain ⟨r, hok, -, hd⟩ := Dist.c13_distance nx ny (fun b a => busy (qai (b * nx + a))) (by omega) hsize
    (by obtain ⟨b, a, hb, ha, h⟩ := hbusy
        exact ⟨b, a, hb, ha, (busy_iff _).2 h⟩) y hy
  obtain ⟨d, hd1, hd2, b, a, hb, ha, hd3, hd4⟩ := hd x hx
  have hp : distPix nx ny qai y x = .ok d := by
    unfold distPix
    rw [if_pos hany, hok]
    simp only [Out.bind, hd1]
  unfold cloudDistance
  rw [hp]
  simp only [Out.bind]
  constructor
  · intro ho
    rw [(isOff_iff _).2 ho]; rfl
  · intro ho
    rw [(isOff_false _).2 ho]
    refine ⟨d, ?_, ?_, b, a, hb, ha, (busy_iff _).1 hd3, hd4⟩
    · simp only [Bool.false_eq_true, if_false]
      exact value_of hr
    · intro b a hb ha h
      exact hd2 b a hb ha ((busy_iff _).2 h)

/-- C153: in an image without cloud, shadow and snow, the distance is larger than any distance in the image (or 32767). -/
theorem c153_clear (nx ny : Nat) (res : ℚ) (hr : 0 < res) (qai : Nat → BitVec 16) (hsize : nx + ny < 65536) (y x : Nat)
    (hbusy : ∀ b a, b < ny → a < nx → ¬ Busy nx qai b a) (ho : value .off (qai (y * nx + x)) = 0) :
    cloudDistance nx ny res qai y x = .ok (min 32767 ⌊((ny + nx : Nat) : ℚ) * res⌋) := by
  have hany : ((List.range (nx * ny)).any fun p => busy (qai p)) = false := by
    rw [← Bool.not_eq_true, any_iff]
    rintro ⟨b, a, hb, ha, h⟩
    exact hbusy b a hb ha ((busy_iff _).1 h)
  unfold cloudDistance distPix
  rw [hany, (isOff_false _).2 ho]
  simp only [Bool.false_eq_true, if_false, Out.bind]
  rw [Nat.mod_eq_of_lt (by omega)]
  exact value_of hr

/-- C153, violated: the unit is the projection unit, and the number has no decimal places. In geographic coordinates (for
instance with a resolution of 0.0003°), the product is 0 at all pixels that are closer to a cloud than one degree: as if
they were inside of the cloud. -/
theorem c153_degrees_violated (nx ny : Nat) (res : ℚ) (hr : 0 < res) (qai : Nat → BitVec 16)
    (hsize : (nx + 2 * ny) ^ 2 + nx ^ 2 ≤ 2147483647) (y x : Nat) (hy : y < ny) (hx : x < nx)
    (ho : value .off (qai (y * nx + x)) = 0) (b a k : Nat) (hb : b < ny) (ha : a < nx) (h : Busy nx qai b a)
    (hk : ((x : Int) - a) ^ 2 + ((y : Int) - b) ^ 2 ≤ (k : Int) ^ 2) (hres : k * res < 1) :
    cloudDistance nx ny res qai y x = .ok 0 := by
  obtain ⟨-, h2⟩ := c153_distance_partial nx ny res hr qai hsize y x hy hx ⟨b, a, hb, ha, h⟩
  obtain ⟨d, hd, h3, -⟩ := h2 ho
  have h4 := h3 b a hb ha h
  have hdk : d ≤ k := by
    by_contra hc
    have : (k : Int) < d := by omega
    nlinarith
  have hdq : (d : ℚ) ≤ k := by exact_mod_cast hdk
  have h0 : (0 : ℚ) ≤ d * res := by positivity
  have : ⌊(d : ℚ) * res⌋ = 0 := by
    rw [Int.floor_eq_iff]
    constructor
    · simpa using h0
    · have := mul_le_mul_of_nonneg_right hdq hr.le
      push_cast; linarith
  rw [hd, this]
  rfl

end Verif.Prod
