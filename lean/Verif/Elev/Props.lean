import Verif.Elev.Model
import Mathlib.Algebra.BigOperators.Group.List.Basic
import Mathlib.Tactic.Linarith
import Mathlib.Tactic.LinearCombination
import Mathlib.Tactic.FieldSimp
import Mathlib.Tactic.Ring
import Mathlib.Tactic.Positivity

/-! Properties C316 and C317. -/

namespace Verif.Elev

open Verif.Str (Out)

/-! ## C316: data of the search for the scale height, and its result -/

/-- Elevation and AOD of the targets with an estimate of AOD. -/
def successful (fit : Target → Option ℝ) (ts : List Target) : List (ℝ × ℝ) :=
  ts.filterMap fun t => if t.valid then (fit t).map fun a => (t.z, a) else none

theorem gather_ok (n : Nat) (ts : List Target) (acc : List (ℝ × ℝ))
    (h : acc.length + (ts.filter (·.valid)).length ≤ n) :
    gather n ts acc = .ok (acc ++ (ts.filter (·.valid)).map fun t => (t.z, t.aod)) := by
  induction ts generalizing acc with
  | nil => simp [gather]
  | cons t ts ih =>
    rw [gather]
    cases hv : t.valid with
    | false =>
      rw [List.filter_cons_of_neg (by simp [hv])] at h ⊢
      exact ih acc h
    | true =>
      rw [List.filter_cons_of_pos (by simp [hv]), List.length_cons] at h
      rw [List.filter_cons_of_pos (by simp [hv]), if_neg (by simp), if_pos (by omega), ih _ (by
        simp only [List.length_append, List.length_cons, List.length_nil]; omega)]
      simp

theorem estimate_eq (fit : Target → Option ℝ) (ts : List Target) :
    ((estimate fit ts).1.filter (·.valid)).map (fun t => (t.z, t.aod)) = successful fit ts ∧
    ((estimate fit ts).1.filter (·.valid)).length = (estimate fit ts).2 := by
  induction ts with
  | nil => exact ⟨rfl, rfl⟩
  | cons t ts ih =>
    rw [estimate]
    unfold successful
    rw [List.filterMap_cons]
    cases hv : t.valid with
    | false =>
      rw [if_pos (by rfl)]
      dsimp only
      rw [List.filter_cons_of_neg (by simp [hv])]
      exact ih
    | true =>
      rw [if_neg (by simp)]
      cases hf : fit t with
      | none =>
        dsimp only
        rw [List.filter_cons_of_neg (by simp)]
        exact ih
      | some a =>
        dsimp only
        rw [List.filter_cons_of_pos (by simp [hv]), List.map_cons, List.length_cons, ih.1, ih.2]
        exact ⟨rfl, rfl⟩

theorem run_eq (search : List (ℝ × ℝ) → Option ℝ) (fitW fitV : Target → Option ℝ) (demMin demMax : ℝ)
    (wat veg : List Target) :
    run search fitW fitV demMin demMax wat veg =
      (if (successful fitW wat ++ successful fitV veg).length > 3 ∧ demMax - demMin > 1 / 10 then
        (if highest (successful fitW wat ++ successful fitV veg) - lowest (successful fitW wat ++ successful fitV veg) > 1 / 10 then
          match search (successful fitW wat ++ successful fitV veg) with
          | none => .ok 1000
          | some m => .ok (if m < 6 / 5 then 6 / 5 else m)
        else .ok 1000)
      else .ok 1000) := by
  obtain ⟨w1, w2⟩ := estimate_eq fitW wat
  obtain ⟨v1, v2⟩ := estimate_eq fitV veg
  unfold run scaleHeight
  dsimp only
  have lw : (estimate fitW wat).2 = (successful fitW wat).length := by rw [← w2, ← w1, List.length_map]
  have lv : (estimate fitV veg).2 = (successful fitV veg).length := by rw [← v2, ← v1, List.length_map]
  have g : gather ((estimate fitW wat).2 + 0 + (estimate fitV veg).2) ((estimate fitW wat).1 ++ [] ++ (estimate fitV veg).1) [] =
      .ok (successful fitW wat ++ successful fitV veg) := by
    rw [gather_ok _ _ _ (by
      rw [List.append_nil, List.filter_append, List.length_append, w2, v2]; simp), List.append_nil, List.filter_append,
      List.map_append, w1, v1]; rfl
  rw [g, lw, lv, List.length_append, Nat.add_zero]
  rfl

/-- The range of elevations of the targets. -/
theorem low_le (d : List (ℝ × ℝ)) (m : ℝ) :
    d.foldl (fun m t => if t.1 < m then t.1 else m) m ≤ m ∧
    (∀ t ∈ d, d.foldl (fun m t => if t.1 < m then t.1 else m) m ≤ t.1) ∧
    (d.foldl (fun m t => if t.1 < m then t.1 else m) m = m ∨
      ∃ t ∈ d, d.foldl (fun m t => if t.1 < m then t.1 else m) m = t.1) := by
  induction d generalizing m with
  | nil => exact ⟨le_refl _, by simp, Or.inl rfl⟩
  | cons a d ih =>
    rw [List.foldl_cons]
    by_cases h : a.1 < m
    · rw [if_pos h]
      obtain ⟨h1, h2, h3⟩ := ih a.1
      refine ⟨h1.trans h.le, ?_, ?_⟩
      · intro t ht
        rcases List.mem_cons.1 ht with rfl | ht
        · exact h1
        · exact h2 t ht
      · rcases h3 with h3 | ⟨t, ht, h3⟩
        · exact Or.inr ⟨a, List.mem_cons_self, h3⟩
        · exact Or.inr ⟨t, List.mem_cons_of_mem _ ht, h3⟩
    · rw [if_neg h]
      obtain ⟨h1, h2, h3⟩ := ih m
      refine ⟨h1, ?_, ?_⟩
      · intro t ht
        rcases List.mem_cons.1 ht with rfl | ht
        · exact h1.trans (not_lt.1 h)
        · exact h2 t ht
      · rcases h3 with h3 | ⟨t, ht, h3⟩
        · exact Or.inl h3
        · exact Or.inr ⟨t, List.mem_cons_of_mem _ ht, h3⟩

theorem high_neg (d : List (ℝ × ℝ)) (m : ℝ) :
    d.foldl (fun m t => if t.1 > m then t.1 else m) m =
      -((d.map fun t => (-t.1, t.2)).foldl (fun m t => if t.1 < m then t.1 else m) (-m)) := by
  induction d generalizing m with
  | nil => simp
  | cons a d ih =>
    rw [List.foldl_cons, List.map_cons, List.foldl_cons, ih]
    congr 1
    by_cases h : a.1 > m
    · rw [if_pos h, if_pos (neg_lt_neg h)]
    · rw [if_neg h, if_neg (fun hc => h (neg_lt_neg_iff.1 hc))]

theorem range_iff (d : List (ℝ × ℝ)) (hz : ∀ t ∈ d, -1000 ≤ t.1 ∧ t.1 ≤ 1000) (h0 : d ≠ []) :
    highest d - lowest d > 1 / 10 ↔ ∃ s ∈ d, ∃ t ∈ d, t.1 - s.1 > 1 / 10 := by
  obtain ⟨a, ha⟩ := List.exists_mem_of_ne_nil d h0
  have L := low_le d 2147483648
  have H := low_le (d.map fun t => (-t.1, t.2)) (-(-2147483648))
  have hh : highest d = _ := high_neg d (-2147483648)
  have hl : lowest d = _ := rfl
  obtain ⟨-, l2, l3⟩ := L
  obtain ⟨-, h2, h3⟩ := H
  have l4 : ∃ t ∈ d, lowest d = t.1 := by
    rcases l3 with l3 | l3
    · exfalso
      have := l2 a ha
      rw [l3] at this
      linarith [(hz a ha).2]
    · exact l3
  have e : highest d = -((d.map fun t => (-t.1, t.2)).foldl (fun m t => if t.1 < m then t.1 else m) (-(-2147483648))) := hh
  have h4 : ∃ t ∈ d, highest d = t.1 := by
    rcases h3 with h3 | ⟨t, ht, h3⟩
    · exfalso
      have := h2 (-a.1, a.2) (List.mem_map.2 ⟨a, ha, rfl⟩)
      have hb := (hz a ha).1
      dsimp only at this
      linarith
    · obtain ⟨s, hs, rfl⟩ := List.mem_map.1 ht
      refine ⟨s, hs, ?_⟩
      dsimp only at h3
      linarith
  have hmax : ∀ t ∈ d, t.1 ≤ highest d := by
    intro t ht
    have := h2 (-t.1, t.2) (List.mem_map.2 ⟨t, ht, rfl⟩)
    rw [e]
    dsimp only at this
    linarith
  constructor
  · intro h
    obtain ⟨s, hs, es⟩ := l4
    obtain ⟨t, ht, et⟩ := h4
    exact ⟨s, hs, t, ht, by rw [← es, ← et]; exact h⟩
  · rintro ⟨s, hs, t, ht, h⟩
    have := hmax t ht
    have : lowest d ≤ s.1 := l2 s hs
    linarith

open Classical in
/-- C316: the search gets elevation and AOD of exactly the targets of both kinds for which AOD was estimated, nothing is written
outside of the arrays, and its result, but at least 1.2 km, is the scale height. There is no dependency on elevation (1000 km) if
there are less than four such targets, if the elevation of the image or that of the targets does not vary by more than
0.1 km, or if the search fails. -/
theorem c316_height (search : List (ℝ × ℝ) → Option ℝ) (fitW fitV : Target → Option ℝ) (demMin demMax : ℝ)
    (wat veg : List Target) (hz : ∀ t ∈ wat ++ veg, -1000 ≤ t.z ∧ t.z ≤ 1000) (d : List (ℝ × ℝ))
    (hd : d = successful fitW wat ++ successful fitV veg) :
    run search fitW fitV demMin demMax wat veg =
      .ok (if 4 ≤ d.length ∧ 1 / 10 < demMax - demMin ∧ ∃ s ∈ d, ∃ t ∈ d, 1 / 10 < t.1 - s.1 then
        ((search d).map fun m => max m (6 / 5)).getD 1000 else 1000) := by
  rw [run_eq, ← hd]
  have mem : ∀ (fit : Target → Option ℝ) (ts : List Target) (t : ℝ × ℝ), t ∈ successful fit ts → ∃ s ∈ ts, t.1 = s.z := by
    intro fit ts t ht
    obtain ⟨s, hs, h⟩ := List.mem_filterMap.1 ht
    refine ⟨s, hs, ?_⟩
    split at h
    · cases hf : fit s with
      | none => rw [hf] at h; cases h
      | some a => rw [hf] at h; rw [← Option.some.inj h]
    · cases h
  have hzd : ∀ t ∈ d, -1000 ≤ t.1 ∧ t.1 ≤ 1000 := by
    intro t ht
    rw [hd] at ht
    rcases List.mem_append.1 ht with ht | ht
    · obtain ⟨s, hs, e⟩ := mem _ _ _ ht
      rw [e]; exact hz s (List.mem_append_left _ hs)
    · obtain ⟨s, hs, e⟩ := mem _ _ _ ht
      rw [e]; exact hz s (List.mem_append_right _ hs)
  by_cases h1 : d.length > 3 ∧ demMax - demMin > 1 / 10
  · rw [if_pos h1]
    have r := range_iff d hzd (by intro e; rw [e] at h1; simp at h1)
    by_cases h2 : highest d - lowest d > 1 / 10
    · rw [if_pos h2, if_pos ⟨h1.1, h1.2, r.1 h2⟩]
      cases search d with
      | none => rfl
      | some m =>
        show Out.ok _ = Out.ok (max m (6 / 5))
        congr 1
        by_cases hm : m < 6 / 5
        · rw [if_pos hm, max_eq_right hm.le]
        · rw [if_neg hm, max_eq_left (not_lt.1 hm)]
    · rw [if_neg h2, if_neg (fun hc => h2 (r.2 hc.2.2))]
  · rw [if_neg h1, if_neg (fun hc => h1 ⟨hc.1, hc.2.1⟩)]

/-- C316: the scale height is between 1.2 and 1000 km in every case, if the result of the search is in the interval that it
was given (0.1 to 1000 km). -/
theorem c316_bounds (search : List (ℝ × ℝ) → Option ℝ) (hs : ∀ d m, search d = some m → 1 / 10 ≤ m ∧ m ≤ 1000)
    (fitW fitV : Target → Option ℝ) (demMin demMax : ℝ) (wat veg : List Target) :
    ∃ h : ℝ, run search fitW fitV demMin demMax wat veg = .ok h ∧ 6 / 5 ≤ h ∧ h ≤ 1000 := by
  rw [run_eq]
  split
  · split
    · cases e : search (successful fitW wat ++ successful fitV veg) with
      | none => exact ⟨1000, rfl, by norm_num, le_refl _⟩
      | some m =>
        refine ⟨if m < 6 / 5 then 6 / 5 else m, rfl, ?_, ?_⟩
        · split
          · exact le_refl _
          · rename_i h; exact not_lt.1 h
        · split
          · norm_num
          · exact (hs _ m e).2
    · exact ⟨1000, rfl, by norm_num, le_refl _⟩
  · exact ⟨1000, rfl, by norm_num, le_refl _⟩

/-- Four targets on a slope, with an AOD each. -/
example : run (fun _ => some 2) (fun t => some t.aod) (fun _ => none) 0 1
    [⟨true, 0, 0.2⟩, ⟨true, 0.3, 0.18⟩, ⟨true, 0.6, 0.15⟩, ⟨true, 0.9, 0.12⟩, ⟨false, 1, 0⟩] [⟨true, 0.5, 0⟩] = .ok 2 := by
  rw [c316_height _ _ _ _ _ _ _ (by
    intro t ht
    simp only [List.cons_append, List.nil_append, List.mem_cons, List.not_mem_nil, or_false] at ht
    rcases ht with rfl | rfl | rfl | rfl | rfl | rfl <;> norm_num) [(0, 0.2), (0.3, 0.18), (0.6, 0.15), (0.9, 0.12)] (by
    simp [successful])]
  rw [if_pos]
  · show Out.ok (max (2 : ℝ) (6 / 5)) = _
    rw [max_eq_left (by norm_num)]
  · exact ⟨by simp, by norm_num, (0, 0.2), by simp, (0.9, 0.12), by simp, by norm_num⟩

/-! ## C317: what is minimized -/

/-- Sum of the squared distances to a line. -/
noncomputable def residual (d : List (ℝ × ℝ)) (a b : ℝ) : ℝ := (d.map fun t => (t.2 - (a + b * t.1)) ^ 2).sum

/-- AOD brought to sea level with the scale height `x`. -/
noncomputable def seaLevel (x : ℝ) (d : List (ℝ × ℝ)) : List (ℝ × ℝ) := d.map fun t => (t.1, t.2 * Real.exp (t.1 / x))

theorem seaLevel_div (z x a : ℝ) : a / Real.exp (-z / x) = a * Real.exp (z / x) := by
  rw [neg_div, Real.exp_neg, div_inv_eq_mul]

theorem residual_eq (d : List (ℝ × ℝ)) (a b : ℝ) :
    residual d a b = (d.map fun t => t.2 ^ 2).sum - 2 * a * (d.map fun t => t.2).sum - 2 * b * (d.map fun t => t.1 * t.2).sum +
      a ^ 2 * d.length + 2 * a * b * (d.map fun t => t.1).sum + b ^ 2 * (d.map fun t => t.1 ^ 2).sum := by
  unfold residual
  induction d with
  | nil => simp
  | cons t d ih =>
    simp only [List.map_cons, List.sum_cons, List.length_cons]
    rw [ih]; push_cast; ring

theorem cov_eq (d : List (ℝ × ℝ)) (u v : ℝ) :
    (d.map fun t => (t.1 - u) * (t.2 - v)).sum =
      (d.map fun t => t.1 * t.2).sum - v * (d.map fun t => t.1).sum - u * (d.map fun t => t.2).sum + u * v * d.length := by
  induction d with
  | nil => simp
  | cons t d ih =>
    simp only [List.map_cons, List.sum_cons, List.length_cons]
    rw [ih]; push_cast; ring

theorem var_eq (d : List (ℝ × ℝ)) (u : ℝ) :
    (d.map fun t => (t.1 - u) * (t.1 - u)).sum =
      (d.map fun t => t.1 ^ 2).sum - 2 * u * (d.map fun t => t.1).sum + u ^ 2 * d.length := by
  induction d with
  | nil => simp
  | cons t d ih =>
    simp only [List.map_cons, List.sum_cons, List.length_cons]
    rw [ih]; push_cast; ring

theorem sum_pos_of {l : List ℝ} (h : ∀ x ∈ l, 0 ≤ x) (x : ℝ) (hx : x ∈ l) (hp : 0 < x) : 0 < l.sum := by
  induction l with
  | nil => cases hx
  | cons y l ih =>
    rw [List.sum_cons]
    have hy := h y List.mem_cons_self
    have hl : 0 ≤ l.sum := List.sum_nonneg (fun z hz => h z (List.mem_cons_of_mem _ hz))
    rcases List.mem_cons.1 hx with rfl | hx
    · linarith
    · have := ih (fun z hz => h z (List.mem_cons_of_mem _ hz)) hx
      linarith

theorem var_pos (d : List (ℝ × ℝ)) (u : ℝ) (h : ∃ s ∈ d, ∃ t ∈ d, s.1 ≠ t.1) :
    0 < (d.map fun t => (t.1 - u) * (t.1 - u)).sum := by
  obtain ⟨s, hs, t, ht, hne⟩ := h
  have : s.1 ≠ u ∨ t.1 ≠ u := by
    by_contra hc
    push Not at hc
    exact hne (hc.1.trans hc.2.symm)
  have nn : ∀ x ∈ d.map (fun t => (t.1 - u) * (t.1 - u)), 0 ≤ x := by
    intro x hx
    obtain ⟨t, -, rfl⟩ := List.mem_map.1 hx
    exact mul_self_nonneg _
  rcases this with h | h
  · exact sum_pos_of nn _ (List.mem_map.2 ⟨s, hs, rfl⟩) (mul_self_pos.2 (sub_ne_zero.2 h))
  · exact sum_pos_of nn _ (List.mem_map.2 ⟨t, ht, rfl⟩) (mul_self_pos.2 (sub_ne_zero.2 h))

theorem objective_eq (d : List (ℝ × ℝ)) (x : ℝ) :
    objective d x =
      |((seaLevel x d).map fun t => (t.1 - ((seaLevel x d).map fun t => t.1).sum / (seaLevel x d).length) *
          (t.2 - ((seaLevel x d).map fun t => t.2).sum / (seaLevel x d).length)).sum / (seaLevel x d).length /
        (((seaLevel x d).map fun t => (t.1 - ((seaLevel x d).map fun t => t.1).sum / (seaLevel x d).length) *
          (t.1 - ((seaLevel x d).map fun t => t.1).sum / (seaLevel x d).length)).sum / (seaLevel x d).length)| := by
  unfold objective seaLevel
  simp only [List.map_map, List.length_map, Function.comp_def, seaLevel_div]

/-- C317: for targets at different elevations, the function that is minimized is the absolute slope of the line that fits AOD at
sea level against elevation with the least sum of squares. -/
theorem c317_slope (d : List (ℝ × ℝ)) (x : ℝ) (h : ∃ s ∈ d, ∃ t ∈ d, s.1 ≠ t.1) :
    ∃ a b : ℝ, objective d x = |b| ∧ ∀ a' b' : ℝ, residual (seaLevel x d) a b ≤ residual (seaLevel x d) a' b' := by
  rw [objective_eq]
  have hs : ∃ s ∈ seaLevel x d, ∃ t ∈ seaLevel x d, s.1 ≠ t.1 := by
    obtain ⟨s, hs, t, ht, hne⟩ := h
    exact ⟨_, List.mem_map.2 ⟨s, hs, rfl⟩, _, List.mem_map.2 ⟨t, ht, rfl⟩, hne⟩
  generalize seaLevel x d = e at hs
  have hn : (0 : ℝ) < e.length := by
    obtain ⟨s, hs, _⟩ := hs
    exact_mod_cast List.length_pos_of_mem hs
  obtain ⟨u, hu⟩ : ∃ u, u = (e.map fun t => t.1).sum / (e.length : ℝ) := ⟨_, rfl⟩
  obtain ⟨v, hv⟩ : ∃ v, v = (e.map fun t => t.2).sum / (e.length : ℝ) := ⟨_, rfl⟩
  rw [← hu, ← hv]
  have su : (e.map fun t => t.1).sum = u * e.length := by rw [hu]; field_simp
  have sv : (e.map fun t => t.2).sum = v * e.length := by rw [hv]; field_simp
  have vp := var_pos e u hs
  have c := cov_eq e u v
  have w := var_eq e u
  obtain ⟨C, hC⟩ : ∃ C, C = (e.map fun t => (t.1 - u) * (t.2 - v)).sum := ⟨_, rfl⟩
  obtain ⟨V, hV⟩ : ∃ V, V = (e.map fun t => (t.1 - u) * (t.1 - u)).sum := ⟨_, rfl⟩
  rw [← hC, ← hV]
  rw [← hC, su, sv] at c
  rw [← hV, su] at w
  rw [← hV] at vp
  refine ⟨v - C / V * u, C / V, by rw [div_div_div_cancel_right₀ hn.ne'], ?_⟩
  intro a' b'
  rw [residual_eq, residual_eq, su, sv,
    show (e.map fun t => t.1 * t.2).sum = C + u * v * e.length from by linarith,
    show (e.map fun t => t.1 ^ 2).sum = V + u ^ 2 * e.length from by linarith]
  obtain ⟨b, hb⟩ : ∃ b, b = C / V := ⟨_, rfl⟩
  have hCb : C = b * V := by rw [hb]; field_simp
  rw [← hb, hCb]
  have p1 : 0 ≤ (e.length : ℝ) * (a' + b' * u - v) ^ 2 := by positivity
  have p2 : 0 ≤ V * (b' - b) ^ 2 := by positivity
  nlinarith [p1, p2]

/-- C317: if AOD decreases exponentially with elevation, with scale height `H`, the function has its minimum, 0, at `H`. -/
theorem c317_recovers (d : List (ℝ × ℝ)) (A H : ℝ) (h : ∀ t ∈ d, t.2 = A * Real.exp (-t.1 / H)) :
    objective d H = 0 ∧ ∀ x, objective d H ≤ objective d x := by
  have z : objective d H = 0 := by
    have e1 : ∀ t ∈ d, t.2 / Real.exp (-t.1 / H) = A := by
      intro t ht
      rw [h t ht, mul_div_assoc, div_self (Real.exp_pos _).ne', mul_one]
    unfold objective
    dsimp only
    have m : (d.map fun t => t.2 / Real.exp (-t.1 / H)).sum = d.length * A := by
      rw [List.map_congr_left (g := fun _ => A) e1]; simp
    rw [m]
    have c : (d.map fun t => (t.1 - (d.map fun t => t.1).sum / (d.length : ℝ)) *
        (t.2 / Real.exp (-t.1 / H) - d.length * A / (d.length : ℝ))).sum = 0 := by
      rw [List.map_congr_left (g := fun _ => (0 : ℝ))]
      · simp
      · intro t ht
        have hn : (d.length : ℝ) ≠ 0 := by
          have := List.length_pos_of_mem ht
          exact_mod_cast this.ne'
        rw [e1 t ht, mul_div_cancel_left₀ _ hn, sub_self, mul_zero]
    rw [c]; simp
  refine ⟨z, fun x => ?_⟩
  rw [z]
  exact abs_nonneg _

/-- Two targets at different elevations. -/
example : ∃ s ∈ [((0 : ℝ), (0.3 : ℝ)), (1, 0.2)], ∃ t ∈ [((0 : ℝ), (0.3 : ℝ)), (1, 0.2)], s.1 ≠ t.1 :=
  ⟨(0, 0.3), by simp, (1, 0.2), by simp, by norm_num⟩

/-- Targets with a scale height of 2 km. -/
example : ∀ t ∈ [((0 : ℝ), 0.3 * Real.exp (-0 / 2)), (1, 0.3 * Real.exp (-1 / 2))], t.2 = 0.3 * Real.exp (-t.1 / 2) := by
  simp

end Verif.Elev
