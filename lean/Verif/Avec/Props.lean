import Mathlib.Tactic.Linarith
import Mathlib.Tactic.Ring
import Mathlib.Tactic.FieldSimp
import Mathlib.Tactic.Positivity
import Mathlib.Tactic.LinearCombination
import Mathlib.Algebra.Order.BigOperators.Group.List
import Mathlib.Analysis.SpecialFunctions.Trigonometric.Bounds
import Verif.Avec.Model

/-!
# Averaged vectors of polarmetrics (C258, C259) -/

namespace Verif.Avec
open Real Verif.Date

theorem angle_range (x y : ℝ) : 0 < angle x y ∧ angle x y ≤ 2 * π := by
  have h1 := Complex.neg_pi_lt_arg ⟨x, y⟩
  have h2 := Complex.arg_le_pi ⟨x, y⟩
  have h3 := pi_pos
  unfold angle
  simp only
  split
  · constructor <;> linarith
  · constructor <;> linarith

theorem size_eq (x y : ℝ) : size x y = ‖(⟨x, y⟩ : ℂ)‖ := by
  rw [Complex.norm_def, Complex.normSq_mk]
  rfl

theorem angle_cos (x y : ℝ) : size x y * cos (angle x y) = x := by
  have h := Complex.norm_mul_cos_arg ⟨x, y⟩
  rw [size_eq]
  unfold angle
  simp only at h ⊢
  split
  · rw [cos_add_two_pi]; exact h
  · exact h

theorem angle_sin (x y : ℝ) : size x y * sin (angle x y) = y := by
  have h := Complex.norm_mul_sin_arg ⟨x, y⟩
  rw [size_eq]
  unfold angle
  simp only at h ⊢
  split
  · rw [sin_add_two_pi]; exact h
  · exact h

theorem size_nonneg (x y : ℝ) : 0 ≤ size x y := sqrt_nonneg _

theorem opposite_range (a : ℝ) (h0 : 0 < a) (h1 : a ≤ 2 * π) : 0 ≤ opposite a ∧ opposite a < 2 * π := by
  have h3 := pi_pos
  unfold opposite
  split <;> constructor <;> linarith

theorem opposite_cos (a x : ℝ) : cos (x - opposite a) = -cos (x - a) := by
  unfold opposite
  split
  · rw [show x - (a + π) = (x - a) - π by ring, cos_sub_pi]
  · rw [show x - (a - π) = (x - a) + π by ring, cos_add_pi]

/-- How much of the values is in the direction of `phi`. -/
noncomputable def along (l : List Step) (phi : ℝ) : ℝ := (l.map fun p => p.val * cos (p.rad - phi)).sum

theorem along_xy (l : List Step) (phi : ℝ) :
    along l phi = (l.map Step.pcx).sum * cos phi + (l.map Step.pcy).sum * sin phi := by
  unfold along
  induction l with
  | nil => simp
  | cons p l ih =>
    simp only [List.map_cons, List.sum_cons]
    rw [ih, cos_sub, Step.pcx, Step.pcy]
    ring

theorem along_eq (l : List Step) (hl : l ≠ []) (phi : ℝ) : along l phi = l.length * meanSize l * cos (mean l - phi) := by
  have hn : (l.length : ℝ) ≠ 0 := by
    have : l.length ≠ 0 := by simpa using hl
    exact_mod_cast this
  rw [along_xy, cos_sub]
  have h1 : (l.map Step.pcx).sum = l.length * (meanSize l * cos (mean l)) := by
    unfold meanSize mean
    rw [angle_cos, meanX]
    field_simp
  have h2 : (l.map Step.pcy).sum = l.length * (meanSize l * sin (mean l)) := by
    unfold meanSize mean
    rw [angle_sin, meanY]
    field_simp
  rw [h1, h2]
  ring

/-- C258: the averaged vector of a time series points to the time of the year around which the values are concentrated, the
start of the phenological year is the time around which they are least: in no other direction the values add up to more
or less. -/
theorem c258_start (l : List Step) (hl : l ≠ []) :
    (0 < mean l ∧ mean l ≤ 2 * π) ∧ (0 ≤ start l ∧ start l < 2 * π) ∧
    ∀ phi, (l.map fun p => p.val * cos ((p.doy : ℝ) / 365 * 2 * π - phi)).sum ≤
        (l.map fun p => p.val * cos ((p.doy : ℝ) / 365 * 2 * π - mean l)).sum ∧
      (l.map fun p => p.val * cos ((p.doy : ℝ) / 365 * 2 * π - start l)).sum ≤
        (l.map fun p => p.val * cos ((p.doy : ℝ) / 365 * 2 * π - phi)).sum := by
  have hr := angle_range (meanX l) (meanY l)
  refine ⟨hr, opposite_range _ hr.1 hr.2, fun phi => ?_⟩
  show along l phi ≤ along l (mean l) ∧ along l (start l) ≤ along l phi
  have hs : 0 ≤ l.length * meanSize l := mul_nonneg (by positivity) (size_nonneg _ _)
  rw [along_eq l hl phi, along_eq l hl (mean l), along_eq l hl (start l), start, opposite_cos, sub_self, cos_zero]
  have h1 := cos_le_one (mean l - phi)
  have h2 := neg_one_le_cos (mean l - phi)
  constructor <;> nlinarith

theorem cos_neg_one_unique {x : ℝ} (h1 : -(2 * π) < x) (h2 : x < 2 * π) (h : cos x = 1) : x = 0 :=
  (cos_eq_one_iff_of_lt_of_lt h1 h2).1 h

/-- C258: unless the values are balanced over the year, there is no other such time. -/
theorem c258_unique (l : List Step) (hl : l ≠ [])
    (hb : ∃ phi, (l.map fun p => p.val * cos ((p.doy : ℝ) / 365 * 2 * π - phi)).sum ≠ 0) (phi : ℝ) (h0 : 0 ≤ phi)
    (h1 : phi < 2 * π) (hne : phi ≠ start l) :
    (l.map fun p => p.val * cos ((p.doy : ℝ) / 365 * 2 * π - start l)).sum <
      (l.map fun p => p.val * cos ((p.doy : ℝ) / 365 * 2 * π - phi)).sum := by
  have hr := angle_range (meanX l) (meanY l)
  have ho := opposite_range _ hr.1 hr.2
  show along l (start l) < along l phi
  obtain ⟨psi, hpsi⟩ := hb
  change along l psi ≠ 0 at hpsi
  have hs : 0 < l.length * meanSize l := by
    apply lt_of_le_of_ne (mul_nonneg (by positivity) (size_nonneg _ _))
    intro h
    change 0 = ↑l.length * meanSize l at h
    rw [along_eq l hl, ← h, zero_mul] at hpsi
    exact hpsi rfl
  rw [along_eq l hl phi, along_eq l hl (start l), start, opposite_cos, sub_self, cos_zero]
  have h2 : cos (mean l - phi) ≠ -1 := by
    intro h
    have h4 : cos (phi - start l) = 1 := by
      rw [start, opposite_cos, ← cos_neg, neg_sub, h, neg_neg]
    have := cos_neg_one_unique (by have := ho.2; change start l < _ at this; linarith) (by have := ho.1; change 0 ≤ start l at this; linarith) h4
    exact hne (by linarith)
  have h3 : -1 < cos (mean l - phi) := lt_of_le_of_ne (neg_one_le_cos _) (Ne.symm h2)
  nlinarith

/-- C258: the start of the phenological year does not depend on the unit of the values. -/
theorem c258_scale (l : List Step) (hl : l ≠ []) (c : ℝ) (hc : 0 < c)
    (hb : ∃ phi, (l.map fun p => p.val * cos ((p.doy : ℝ) / 365 * 2 * π - phi)).sum ≠ 0) :
    start (l.map fun p => { p with val := c * p.val }) = start l := by
  generalize hl' : (l.map fun p => { p with val := c * p.val }) = l'
  have hne : l' ≠ [] := by subst hl'; simpa using hl
  have hal : ∀ phi, along l' phi = c * along l phi := by
    intro phi
    subst hl'
    unfold along
    rw [List.map_map, ← List.sum_map_mul_left]
    congr 1
    apply List.map_congr_left
    intro p _
    show c * p.val * _ = _
    rw [mul_assoc]
    rfl
  by_contra hcon
  have h1 := c258_start l' hne
  have h2 := c258_unique l hl hb (start l') h1.2.1.1 h1.2.1.2 hcon
  have h3 := (h1.2.2 (start l)).2
  change along l (start l) < along l (start l') at h2
  change along l' (start l') ≤ along l' (start l) at h3
  rw [hal, hal] at h3
  nlinarith

/-- C258: the averaged vector is at most as long as the largest value. -/
theorem c258_length (l : List Step) (hl : l ≠ []) (m : ℝ) (hm : ∀ p ∈ l, 0 ≤ p.val ∧ p.val ≤ m) :
    0 ≤ meanSize l ∧ meanSize l ≤ m := by
  refine ⟨size_nonneg _ _, ?_⟩
  have hn : (0 : ℝ) < l.length := by exact_mod_cast List.length_pos_iff.2 hl
  have h1 := along_eq l hl (mean l)
  rw [sub_self, cos_zero, mul_one] at h1
  have h2 : along l (mean l) ≤ l.length * m := by
    unfold along
    have h3 : ∀ l' : List Step, (∀ p ∈ l', 0 ≤ p.val ∧ p.val ≤ m) →
        (l'.map fun p => p.val * cos (p.rad - mean l)).sum ≤ l'.length * m := by
      intro l'
      induction l' with
      | nil => simp
      | cons p l' ih =>
        intro h
        have h5 := ih fun q hq => h q (List.mem_cons_of_mem _ hq)
        have h6 := h p List.mem_cons_self
        have h7 := cos_le_one (p.rad - mean l)
        rw [List.map_cons, List.sum_cons, List.length_cons]
        push_cast
        nlinarith
    exact h3 l hm
  rw [h1] at h2
  exact le_of_mul_le_mul_left h2 hn

/-! ## C259 -/

/-- C259: the date of an averaged vector is within the phenological year of its season. -/
theorem c259_year (thetaDoy s : Int) (w : List Step) (d : Int) (h0 : 0 ≤ thetaDoy) (h1 : thetaDoy < 365)
    (h : windowDate thetaDoy s w = some d) : 365 * s + thetaDoy < d ∧ d ≤ 365 * (s + 1) + thetaDoy := by
  unfold windowDate at h
  split at h
  · cases h
  · rw [Option.some.injEq] at h
    have hr := angle_range (meanX w) (meanY w)
    have hd0 : 0 ≤ day (mean w) := by
      unfold day
      exact Int.floor_nonneg.2 (div_nonneg (mul_nonneg hr.1.le (by norm_num)) (by positivity))
    have hd1 : day (mean w) ≤ 365 := by
      unfold day
      have : mean w * 365 / (2 * π) ≤ (365 : ℤ) := by
        rw [div_le_iff₀ (by positivity)]
        have := hr.2
        change mean w ≤ _ at this
        push_cast
        linarith
      exact_mod_cast (Int.floor_le _).trans this
    unfold dateOf doy2ce at h
    split at h <;> omega

theorem sum_nonneg_of (l : List Step) (f : Step → ℝ) (h : ∀ p ∈ l, 0 ≤ f p) : 0 ≤ (l.map f).sum := by
  apply List.sum_nonneg
  intro x hx
  obtain ⟨p, hp, rfl⟩ := List.mem_map.1 hx
  exact h p hp

theorem sum_pos_of (l : List Step) (f : Step → ℝ) (h : ∀ p ∈ l, 0 ≤ f p) (q : Step) (hq : q ∈ l) (hp : 0 < f q) :
    0 < (l.map f).sum := by
  induction l with
  | nil => cases hq
  | cons p l ih =>
    rw [List.map_cons, List.sum_cons]
    have h1 := h p List.mem_cons_self
    have h2 := sum_nonneg_of l f fun r hr => h r (List.mem_cons_of_mem _ hr)
    rcases List.mem_cons.1 hq with rfl | hq
    · linarith
    · have := ih (fun r hr => h r (List.mem_cons_of_mem _ hr)) hq
      linarith

/-- The angle of a date, counted from the beginning of the first year. -/
noncomputable def arc (t : ℝ) : ℝ := t / 365 * 2 * π

theorem arc_mono {a b : ℝ} (h : a ≤ b) : arc a ≤ arc b := by
  unfold arc
  have := pi_pos
  gcongr

theorem arc_sub (a b : ℝ) : arc a - arc b = arc (a - b) := by unfold arc; ring

theorem arc_day (t : ℝ) : arc t * 365 / (2 * π) = t := by
  unfold arc
  have := pi_ne_zero
  field_simp

theorem arc_half {t : ℝ} (h : 2 * t < 365) : arc t < π := by
  unfold arc
  have := pi_pos
  nlinarith

theorem rad_ce (p : Step) (x : ℝ) : sin (p.rad - x) = sin (arc p.ce - x) ∧ cos (p.rad - x) = cos (arc p.ce - x) := by
  have : arc p.ce - x = (p.rad - x) + p.year * (2 * π) := by
    unfold arc Step.ce Step.rad doy2ce
    push_cast
    ring
  rw [this, sin_add_int_mul_two_pi, cos_add_int_mul_two_pi]
  exact ⟨rfl, rfl⟩

/-- Sums in the direction perpendicular to `along`. -/
theorem across_eq (l : List Step) (hl : l ≠ []) (phi : ℝ) :
    (l.map fun p => p.val * sin (p.rad - phi)).sum = l.length * meanSize l * sin (mean l - phi) := by
  have h := along_eq l hl (phi + π / 2)
  rw [show mean l - (phi + π / 2) = (mean l - phi) - π / 2 by ring, cos_sub_pi_div_two] at h
  rw [← h]
  unfold along
  congr 1
  apply List.map_congr_left
  intro p _
  rw [show p.rad - (phi + π / 2) = (p.rad - phi) - π / 2 by ring, cos_sub_pi_div_two]

/-- The averaged direction of steps within half a year is among them. -/
theorem mean_between (w : List Step) (a b : Int) (hw : ∀ p ∈ w, a ≤ p.ce ∧ p.ce ≤ b) (hab : 2 * (b - a) < 365)
    (hv : ∀ p ∈ w, 0 ≤ p.val) (hp : ∃ p ∈ w, 0 < p.val) : ∃ k : ℤ, arc a ≤ mean w + k * (2 * π) ∧ mean w + k * (2 * π) ≤ arc b := by
  obtain ⟨q, hq, hqv⟩ := hp
  have hl : w ≠ [] := List.ne_nil_of_mem hq
  have hpi := pi_pos
  have habr : 2 * ((b : ℝ) - a) < 365 := by exact_mod_cast hab
  have hspan : arc b - arc a < π := by rw [arc_sub]; exact arc_half habr
  have harc : ∀ p ∈ w, arc a ≤ arc p.ce ∧ arc p.ce ≤ arc b := fun p hp =>
    ⟨arc_mono (by exact_mod_cast (hw p hp).1), arc_mono (by exact_mod_cast (hw p hp).2)⟩
  have hn : (0 : ℝ) < w.length := by exact_mod_cast List.length_pos_iff.2 hl
  -- the averaged vector is not zero
  have hsize : 0 < w.length * meanSize w := by
    have h1 : 0 < along w ((arc a + arc b) / 2) := by
      unfold along
      have hc : ∀ p ∈ w, 0 < cos (p.rad - (arc a + arc b) / 2) := by
        intro p hp
        rw [(rad_ce p _).2]
        obtain ⟨h1, h2⟩ := harc p hp
        exact cos_pos_of_mem_Ioo ⟨by linarith, by linarith⟩
      exact sum_pos_of w _ (fun p hp => mul_nonneg (hv p hp) (hc p hp).le) q hq (mul_pos hqv (hc q hq))
    rw [along_eq w hl] at h1
    have h2 := size_nonneg (meanX w) (meanY w)
    change 0 ≤ meanSize w at h2
    rcases h2.lt_or_eq with h | h
    · exact mul_pos hn h
    · rw [← h] at h1; simp at h1
  have hA : 0 ≤ sin (mean w - arc a) := by
    have h1 : 0 ≤ (w.map fun p => p.val * sin (p.rad - arc a)).sum := by
      apply sum_nonneg_of
      intro p hp
      rw [(rad_ce p _).1]
      obtain ⟨h1, h2⟩ := harc p hp
      exact mul_nonneg (hv p hp) (sin_nonneg_of_nonneg_of_le_pi (by linarith) (by linarith))
    rw [across_eq w hl] at h1
    exact nonneg_of_mul_nonneg_right h1 hsize
  have hB : sin (mean w - arc b) ≤ 0 := by
    have h1 : 0 ≤ (w.map fun p => -(p.val * sin (p.rad - arc b))).sum := by
      apply sum_nonneg_of
      intro p hp
      rw [(rad_ce p _).1]
      obtain ⟨h1, h2⟩ := harc p hp
      have := sin_nonpos_of_nonpos_of_neg_pi_le (x := arc p.ce - arc b) (by linarith) (by linarith)
      have := hv p hp
      nlinarith
    have h2 : (w.map fun p => -(p.val * sin (p.rad - arc b))).sum = -(w.map fun p => p.val * sin (p.rad - arc b)).sum := by
      generalize w = w'
      induction w' with
      | nil => simp
      | cons p w' ih => rw [List.map_cons, List.sum_cons, ih, List.map_cons, List.sum_cons]; ring
    rw [h2, across_eq w hl] at h1
    by_contra hcon
    have := mul_pos hsize (not_le.1 hcon)
    linarith
  -- the angle from `a` on
  let k : ℤ := -⌊(mean w - arc a) / (2 * π)⌋
  have hk1 : 0 ≤ mean w + k * (2 * π) - arc a := by
    have := Int.floor_le ((mean w - arc a) / (2 * π))
    rw [le_div_iff₀ (by positivity)] at this
    simp only [k]
    push_cast
    linarith
  have hk2 : mean w + k * (2 * π) - arc a < 2 * π := by
    have := Int.lt_floor_add_one ((mean w - arc a) / (2 * π))
    rw [div_lt_iff₀ (by positivity)] at this
    simp only [k]
    push_cast
    linarith
  have hA' : 0 ≤ sin (mean w + k * (2 * π) - arc a) := by
    rw [show mean w + k * (2 * π) - arc a = (mean w - arc a) + k * (2 * π) by ring, sin_add_int_mul_two_pi]; exact hA
  have hB' : sin (mean w + k * (2 * π) - arc b) ≤ 0 := by
    rw [show mean w + k * (2 * π) - arc b = (mean w - arc b) + k * (2 * π) by ring, sin_add_int_mul_two_pi]; exact hB
  refine ⟨k, by linarith, ?_⟩
  have hle : mean w + k * (2 * π) - arc a ≤ π := by
    by_contra hcon
    have := sin_neg_of_neg_of_neg_pi_lt (x := mean w + k * (2 * π) - arc a - 2 * π) (by linarith) (by linarith)
    rw [sin_sub_two_pi] at this
    linarith
  by_contra hcon
  have : 0 < sin (mean w + k * (2 * π) - arc b) := by
    have hab' : a ≤ b := (hw q hq).1.trans (hw q hq).2
    have : arc a ≤ arc b := arc_mono (by exact_mod_cast hab')
    rcases this.lt_or_eq with h | h
    · exact sin_pos_of_pos_of_lt_pi (by linarith) (by linarith)
    · -- a = b: the angle is that of `a` or its opposite
      have hz : sin (mean w + k * (2 * π) - arc a) = 0 := le_antisymm (by rw [h]; exact hB') hA'
      have hcos : 0 < cos (mean w + k * (2 * π) - arc a) := by
        have h1 : 0 < along w (arc a) := by
          unfold along
          have hc : ∀ p ∈ w, cos (p.rad - arc a) = 1 := by
            intro p hp
            rw [(rad_ce p _).2]
            obtain ⟨h1, h2⟩ := harc p hp
            rw [show arc p.ce - arc a = 0 by linarith, cos_zero]
          exact sum_pos_of w _ (fun p hp => by rw [hc p hp, mul_one]; exact hv p hp) q hq (by rw [hc q hq, mul_one]; exact hqv)
        rw [along_eq w hl] at h1
        rw [show mean w + k * (2 * π) - arc a = (mean w - arc a) + k * (2 * π) by ring, cos_add_int_mul_two_pi]
        exact (pos_iff_pos_of_mul_pos h1).1 hsize
      rcases hle.lt_or_eq with h5 | h5
      · exfalso
        have := sin_pos_of_pos_of_lt_pi (x := mean w + k * (2 * π) - arc a) (by linarith) h5
        linarith
      · rw [h5, cos_pi] at hcos; linarith
  linarith

/-- C259: if the steps of a window are within half a year (and in the phenological year), the date of their averaged vector
is between their first and their last date. -/
theorem c259_between (thetaDoy s a b : Int) (w : List Step) (ha : 365 * s + thetaDoy < a)
    (hb : b ≤ 365 * (s + 1) + thetaDoy) (h0 : 0 ≤ thetaDoy) (h1 : thetaDoy < 365)
    (hw : ∀ p ∈ w, a ≤ 365 * p.year + p.doy ∧ 365 * p.year + p.doy ≤ b) (hab : 2 * (b - a) < 365)
    (hv : ∀ p ∈ w, 0 ≤ p.val) (hp : ∃ p ∈ w, 0 < p.val) :
    ∃ d, windowDate thetaDoy s w = some d ∧ a ≤ d ∧ d ≤ b := by
  have hl : w ≠ [] := by obtain ⟨q, hq, -⟩ := hp; exact List.ne_nil_of_mem hq
  obtain ⟨k, k1, k2⟩ := mean_between w a b (fun p hp => by
    have := hw p hp; unfold Step.ce doy2ce; omega) hab hv hp
  refine ⟨dateOf thetaDoy s (day (mean w)), by unfold windowDate; rw [if_neg (by simpa using hl)], ?_⟩
  have hday : day (mean w + k * (2 * π)) = day (mean w) + 365 * k := by
    unfold day
    have : (mean w + k * (2 * π)) * 365 / (2 * π) = mean w * 365 / (2 * π) + ((365 * k : ℤ) : ℝ) := by
      have := pi_ne_zero
      push_cast
      field_simp
    rw [this, Int.floor_add_intCast]
  have hpi := pi_pos
  have hmono : ∀ x y : ℝ, x ≤ y → day x ≤ day y := by
    intro x y h
    unfold day
    apply Int.floor_le_floor
    gcongr
  have harc : ∀ t : ℤ, day (arc t) = t := by
    intro t
    unfold day
    rw [arc_day, Int.floor_intCast]
  have e1 := hmono _ _ k1
  have e2 := hmono _ _ k2
  rw [harc, hday] at e1
  rw [harc, hday] at e2
  have hr := angle_range (meanX w) (meanY w)
  have hd0 : 0 ≤ day (mean w) := by
    unfold day
    exact Int.floor_nonneg.2 (div_nonneg (mul_nonneg hr.1.le (by norm_num)) (by positivity))
  have hd1 : day (mean w) ≤ 365 := by
    have h := hmono (mean w) (2 * π) hr.2
    have : day (2 * π) = 365 := by
      unfold day
      rw [show 2 * π * 365 / (2 * π) = ((365 : ℤ) : ℝ) by push_cast; field_simp, Int.floor_intCast]
    omega
  unfold dateOf doy2ce
  split <;> omega

/-- C259: the averaged dates of the early and of the late part of the growing season are in this order, so that the length
between them is not negative. -/
theorem c259_order (thetaDoy s a b c : Int) (l : List Step) (x y z : ℝ) (ha : 365 * s + thetaDoy < a)
    (hc : c ≤ 365 * (s + 1) + thetaDoy) (h0 : 0 ≤ thetaDoy) (h1 : thetaDoy < 365) (hab : 2 * (b - a) < 365)
    (hbc : 2 * (c - b) < 365) (h2 : a ≤ b) (h3 : b ≤ c)
    (hearly : ∀ p ∈ l, p.season = s → x ≤ p.cum → p.cum < y → a ≤ 365 * p.year + p.doy ∧ 365 * p.year + p.doy ≤ b)
    (hlate : ∀ p ∈ l, p.season = s → y ≤ p.cum → p.cum < z → b ≤ 365 * p.year + p.doy ∧ 365 * p.year + p.doy ≤ c)
    (hv : ∀ p ∈ l, 0 ≤ p.val) (he : ∃ p ∈ l, p.season = s ∧ x ≤ p.cum ∧ p.cum < y ∧ 0 < p.val)
    (hle : ∃ p ∈ l, p.season = s ∧ y ≤ p.cum ∧ p.cum < z ∧ 0 < p.val) :
    ∃ d d', windowDate thetaDoy s (window s x y l) = some d ∧ windowDate thetaDoy s (window s y z l) = some d' ∧
      a ≤ d ∧ d ≤ b ∧ b ≤ d' ∧ d' ≤ c ∧ 0 ≤ d' - d := by
  classical
  have hmem : ∀ (u v : ℝ) p, p ∈ window s u v l ↔ p ∈ l ∧ p.season = s ∧ u ≤ p.cum ∧ p.cum < v := by
    intro u v p
    unfold window
    rw [List.mem_filter, decide_eq_true_eq]
  obtain ⟨p, p1, p2, p3, p4, p5⟩ := he
  obtain ⟨q, q1, q2, q3, q4, q5⟩ := hle
  obtain ⟨d, d1, d2, d3⟩ := c259_between thetaDoy s a b (window s x y l) ha (by omega) h0 h1
    (fun r hr => by obtain ⟨r1, r2, r3, r4⟩ := (hmem x y r).1 hr; exact hearly r r1 r2 r3 r4) hab
    (fun r hr => hv r ((hmem x y r).1 hr).1) ⟨p, (hmem x y p).2 ⟨p1, p2, p3, p4⟩, p5⟩
  obtain ⟨e, e1, e2, e3⟩ := c259_between thetaDoy s b c (window s y z l) (by omega) hc h0 h1
    (fun r hr => by obtain ⟨r1, r2, r3, r4⟩ := (hmem y z r).1 hr; exact hlate r r1 r2 r3 r4) hbc
    (fun r hr => hv r ((hmem y z r).1 hr).1) ⟨q, (hmem y z q).2 ⟨q1, q2, q3, q4⟩, q5⟩
  exact ⟨d, e, d1, e1, d2, d3, e2, e3, by omega⟩

/-- C259, violated: a part of the growing season without any step has the average 0/0, whose day is undefined. -/
theorem c259_empty_violated (thetaDoy s : Int) (l : List Step) (x y : ℝ)
    (h : ∀ p ∈ l, p.season = s → ¬ (x ≤ p.cum ∧ p.cum < y)) : windowDate thetaDoy s (window s x y l) = none := by
  classical
  unfold windowDate
  rw [if_pos]
  rw [List.length_eq_zero_iff]
  unfold window
  rw [List.filter_eq_nil_iff]
  intro p hp
  rw [decide_eq_true_eq]
  rintro ⟨h1, h2⟩
  exact h p hp h1 h2

/-- Spring to autumn of a year: the hypotheses can be met. -/
noncomputable def exSteps : List Step := [⟨100, 0, 10, 0, 1 / 10⟩, ⟨150, 0, 50, 0, 3 / 10⟩, ⟨200, 0, 40, 0, 6 / 10⟩, ⟨250, 0, 5, 0, 1⟩]

example : ∃ d d', windowDate 15 0 (window 0 (2 / 10) (5 / 10) exSteps) = some d ∧
    windowDate 15 0 (window 0 (5 / 10) (8 / 10) exSteps) = some d' ∧ 100 ≤ d ∧ d ≤ 160 ∧ 160 ≤ d' ∧ d' ≤ 250 ∧ 0 ≤ d' - d := by
  refine c259_order 15 0 100 160 250 exSteps _ _ _ (by decide) (by decide) (by decide) (by decide) (by decide) (by decide)
    (by decide) (by decide) ?_ ?_ ?_ ⟨⟨150, 0, 50, 0, 3 / 10⟩, by simp [exSteps], rfl, by norm_num, by norm_num, by norm_num⟩
    ⟨⟨200, 0, 40, 0, 6 / 10⟩, by simp [exSteps], rfl, by norm_num, by norm_num, by norm_num⟩
  · intro p hp _ h1 h2
    simp only [exSteps, List.mem_cons, List.not_mem_nil, or_false] at hp
    rcases hp with rfl | rfl | rfl | rfl <;> dsimp only at h1 h2 ⊢
    · exact absurd h1 (by norm_num)
    · norm_num
    · exact absurd h2 (by norm_num)
    · exact absurd h2 (by norm_num)
  · intro p hp _ h1 h2
    simp only [exSteps, List.mem_cons, List.not_mem_nil, or_false] at hp
    rcases hp with rfl | rfl | rfl | rfl <;> dsimp only at h1 h2 ⊢
    · exact absurd h1 (by norm_num)
    · exact absurd h1 (by norm_num)
    · norm_num
    · exact absurd h2 (by norm_num)
  · intro p hp
    simp only [exSteps, List.mem_cons, List.not_mem_nil, or_false] at hp
    rcases hp with rfl | rfl | rfl | rfl <;> norm_num

end Verif.Avec
