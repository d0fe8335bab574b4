import Verif.Aod.Fit

/-! # The fit of a target (C217, C218) -/

namespace Verif.Aod

open Verif.Aod.Spec

/-! ## Best spectrum -/

theorem best_fold (fits : Nat → Option (Coef × Bool × ℝ)) (m : Nat) :
    let r := (List.range m).foldl (bestStep fits) none
    (∀ b, r = some b → b.w < m ∧ fits b.w = some (b.coef, b.linear, b.rsq) ∧ 0 < b.rsq ∧
      ∀ w, w < m → ∀ k lin q, fits w = some (k, lin, q) → q ≤ b.rsq) ∧
    (r = none → ∀ w, w < m → ∀ k lin q, fits w = some (k, lin, q) → q ≤ 0) := by
  induction m with
  | zero => simp
  | succ m ih =>
    simp only [List.range_succ, List.foldl_append, List.foldl_cons, List.foldl_nil] at ih ⊢
    generalize (List.range m).foldl (bestStep fits) none = st at ih ⊢
    obtain ⟨h1, h2⟩ := ih
    unfold bestStep
    cases hf : fits m with
    | none =>
      simp only
      refine ⟨fun b hb => ?_, fun hn w hw k lin q hq => ?_⟩
      · obtain ⟨g1, g2, g3, g4⟩ := h1 b hb
        refine ⟨by omega, g2, g3, fun w hw k lin q hq => ?_⟩
        rcases Nat.lt_succ_iff_lt_or_eq.1 hw with h | rfl
        · exact g4 w h k lin q hq
        · rw [hf] at hq; cases hq
      · rcases Nat.lt_succ_iff_lt_or_eq.1 hw with h | rfl
        · exact h2 hn w h k lin q hq
        · rw [hf] at hq; cases hq
    | some x =>
      obtain ⟨k0, l0, q0⟩ := x
      simp only
      cases hst : st with
      | none =>
        simp only
        by_cases hq0 : q0 > 0
        · rw [if_pos hq0]
          refine ⟨fun b hb => ?_, fun h => by cases h⟩
          have := Option.some.inj hb; subst this
          refine ⟨by simp, hf, hq0, fun w hw k lin q hq => ?_⟩
          rcases Nat.lt_succ_iff_lt_or_eq.1 hw with h | rfl
          · exact (h2 hst w h k lin q hq).trans hq0.le
          · rw [hf] at hq; rw [Option.some.injEq, Prod.mk.injEq, Prod.mk.injEq] at hq
            exact hq.2.2 ▸ le_refl _
        · rw [if_neg hq0]
          refine ⟨fun b hb => (by cases hb), fun _ w hw k lin q hq => ?_⟩
          rcases Nat.lt_succ_iff_lt_or_eq.1 hw with h | rfl
          · exact h2 hst w h k lin q hq
          · rw [hf] at hq; rw [Option.some.injEq, Prod.mk.injEq, Prod.mk.injEq] at hq
            rw [← hq.2.2]; exact not_lt.1 hq0
      | some b0 =>
        simp only
        obtain ⟨g1, g2, g3, g4⟩ := h1 b0 hst
        by_cases hq0 : q0 > b0.rsq
        · rw [if_pos hq0]
          refine ⟨fun b hb => ?_, fun h => by cases h⟩
          have := Option.some.inj hb; subst this
          refine ⟨by simp, hf, g3.trans hq0, fun w hw k lin q hq => ?_⟩
          rcases Nat.lt_succ_iff_lt_or_eq.1 hw with h | rfl
          · exact (g4 w h k lin q hq).trans hq0.le
          · rw [hf] at hq; rw [Option.some.injEq, Prod.mk.injEq, Prod.mk.injEq] at hq
            exact hq.2.2 ▸ le_refl _
        · rw [if_neg hq0]
          refine ⟨fun b hb => ?_, fun h => by cases h⟩
          have := Option.some.inj hb; subst this
          refine ⟨by omega, g2, g3, fun w hw k lin q hq => ?_⟩
          rcases Nat.lt_succ_iff_lt_or_eq.1 hw with h | rfl
          · exact g4 w h k lin q hq
          · rw [hf] at hq; rw [Option.some.injEq, Prod.mk.injEq, Prod.mk.injEq] at hq
            rw [← hq.2.2]; exact not_lt.1 hq0

theorem linearFit_pos (pts : List (ℝ × ℝ)) : 0 < (linearFit pts).1 := Real.exp_pos _

/-- C217: the AOD of a valid target is a curve `a0 * wvl ^ (a1 + a2 * log wvl)` that fits the estimates of one
spectrum of the library with a coefficient of determination of at least 0.1, the largest of all spectra that were not
rejected. It is positive, its turbidity is at most 0.3, its exponent between -3 and 0, it is not curved upwards (not at all
for vegetation), and it does not increase from one band to the next where both are above 0.01. The estimates are those of
the bands, or 0.0172, which is always taken for SWIR2. -/
theorem c217_accepted (kind : Kind) (c : Conf) (hs : c.sw2 < c.nb) (wvl : Nat → ℝ) (hw : ∀ b, 0 < wvl b) (poly : List (ℝ × ℝ) → Coef)
    (n : Nat) (est : Nat → Nat → ℝ) (r : Best) (h : fromTarget kind c wvl poly n est = some r) :
    let f := fun b => r.coef.a0 * wvl b ^ (r.coef.a1 + r.coef.a2 * Real.log (wvl b))
    let used := (List.range c.nb).filter c.use
    r.w < n ∧ 0.1 ≤ r.rsq ∧ r.rsq ≤ 1 ∧
    (0 < r.coef.a0 ∧ r.coef.a0 ≤ 0.3) ∧ (-3 ≤ r.coef.a1 ∧ r.coef.a1 ≤ 0) ∧ r.coef.a2 ≤ 0 ∧
    (kind = .vegetation → r.coef.a2 = 0) ∧ (∀ b, 0 < f b) ∧
    (∀ b, b + 1 < c.nb → 0.01 < f b → 0.01 < f (b + 1) → f (b + 1) ≤ f b) ∧
    (∃ e : Nat → ℝ, e c.sw2 = 0.0172 ∧ (∀ b ∈ used, e b = 0.0172 ∨ e b = est r.w b) ∧
      (∀ b ∈ used, 0 ≤ est r.w b) ∧ 0.0172 < (if c.blue = c.sw2 then 0.0172 else est r.w c.blue) ∧
      r.rsq = 1 - (used.map fun b => (e b - f b) ^ 2).sum /
        (used.map fun b => (e b - (used.map e).sum / used.length) ^ 2).sum) ∧
    ∀ w, w < n → ∀ k lin q, tryFit kind c wvl poly (est w) = some (k, lin, q) → q ≤ r.rsq := by
  intro f used
  unfold fromTarget at h
  have hb := best_fold (fun w => tryFit kind c wvl poly (est w)) n
  simp only at hb
  generalize (List.range n).foldl (bestStep fun w => tryFit kind c wvl poly (est w)) none = st at hb h
  cases st with
  | none => cases h
  | some b =>
    simp only at h
    split at h
    · cases h
    · rename_i hr
      have e := Option.some.inj h; subst e
      obtain ⟨g1, g2, g3, g4⟩ := hb.1 b rfl
      unfold tryFit at g2
      rcases prepare_eq kind c (est b.w) with ⟨-, p⟩ | ⟨s, p⟩
      · rw [p] at g2; cases g2
      · rw [p] at g2
        simp only at g2
        cases hf : fitCurve kind c wvl poly ((List.range c.nb).foldl (clampStep c) (fixSwir c (est b.w))) with
        | none => rw [hf] at g2; cases g2
        | some kl =>
          obtain ⟨k, lin⟩ := kl
          rw [hf] at g2
          simp only [Option.some.injEq, Prod.mk.injEq] at g2
          obtain ⟨rfl, rfl, hrsq⟩ := g2
          -- the fit
          have hfit : 0 < b.coef.a0 ∧ limitsOk b.coef ∧ b.coef.a2 ≤ 0 ∧ (kind = .vegetation → b.coef.a2 = 0) ∧
              shapeOk c.nb (curve wvl b.coef) := by
            unfold fitCurve at hf
            simp only at hf
            split at hf
            · rename_i hc
              rw [Option.some.injEq, Prod.mk.injEq] at hf
              rw [← hf.1]
              exact ⟨Real.exp_pos _, hc.2.2.1, not_lt.1 hc.2.2.2, fun hk => absurd hk hc.1, hc.2.1⟩
            · split at hf
              · rename_i hc
                rw [Option.some.injEq, Prod.mk.injEq] at hf
                rw [← hf.1]
                exact ⟨linearFit_pos _, hc.2, le_refl _, fun _ => rfl, hc.1⟩
              · cases hf
          obtain ⟨q1, q2, q3, q4, q5⟩ := hfit
          unfold limitsOk at q2
          simp only [not_or, not_lt] at q2
          have hcl := clamp_fold c (fixSwir c (est b.w)) c.nb (le_refl _)
          generalize (List.range c.nb).foldl (clampStep c) (fixSwir c (est b.w)) = e at hcl hrsq
          have hsw : fixSwir c (est b.w) c.sw2 = 0.0172 := by unfold fixSwir swirAod; rw [if_pos rfl]
          have hfc : ∀ x, curve wvl b.coef x = f x := fun x => rfl
          refine ⟨g1, not_lt.1 hr, ?_, ⟨q1, q2.1.2⟩, ⟨q2.2.2, q2.2.1⟩, q3, q4, fun x => mul_pos q1 (Real.rpow_pos_of_pos (hw x) _), ?_, ?_, g4⟩
          · rw [← hrsq]
            unfold rsquare
            have a1 : 0 ≤ ((usedBands c).map fun x => (e x - curve wvl b.coef x) * (e x - curve wvl b.coef x)).sum :=
              List.sum_nonneg (by simp only [List.mem_map]; rintro _ ⟨x, -, rfl⟩; exact mul_self_nonneg _)
            have a2 : 0 ≤ ((usedBands c).map fun x => (e x - avg ((usedBands c).map e)) * (e x - avg ((usedBands c).map e))).sum :=
              List.sum_nonneg (by simp only [List.mem_map]; rintro _ ⟨x, -, rfl⟩; exact mul_self_nonneg _)
            have := div_nonneg a1 a2
            linarith
          · intro x hx h1 h2
            have := (q5 (x + 1) (by omega) hx).1
            rw [Nat.add_sub_cancel, hfc, hfc] at this
            by_contra hlt
            exact this ⟨not_le.1 hlt, h2, h1⟩
          · unfold Skip at s
            simp only [not_or, not_exists, not_and, not_lt, not_le] at s
            refine ⟨e, ?_, ?_, ?_, ?_, ?_⟩
            · rw [hcl, hsw]; split <;> rfl
            · intro x _
              rw [hcl, hsw]
              split
              · exact .inl rfl
              · unfold fixSwir swirAod
                split
                · exact .inl rfl
                · exact .inr rfl
            · intro x hx
              rw [List.mem_filter, List.mem_range] at hx
              exact s.1 x hx.1 hx.2
            · have := s.2.2.1
              rw [hsw] at this
              unfold fixSwir swirAod at this
              exact this
            · rw [← hrsq]
              unfold rsquare avg
              simp only [sq, List.length_map]
              rfl

/-! ## Linear fit -/

theorem sum_lin (pts : List (ℝ × ℝ)) (A B C D E F : ℝ) :
    (pts.map fun p => A + B * p.1 + C * p.2 + D * (p.1 * p.1) + E * (p.1 * p.2) + F * (p.2 * p.2)).sum =
      A * pts.length + B * (pts.map fun p => p.1).sum + C * (pts.map fun p => p.2).sum + D * (pts.map fun p => p.1 * p.1).sum +
        E * (pts.map fun p => p.1 * p.2).sum + F * (pts.map fun p => p.2 * p.2).sum := by
  induction pts with
  | nil => simp
  | cons p pts ih =>
    simp only [List.map_cons, List.sum_cons, ih, List.length_cons, Nat.cast_add, Nat.cast_one]
    ring

theorem sse_eq (pts : List (ℝ × ℝ)) (a s : ℝ) : sse pts a s =
    a * a * pts.length + 2 * a * s * (pts.map fun p => p.1).sum - 2 * a * (pts.map fun p => p.2).sum +
      s * s * (pts.map fun p => p.1 * p.1).sum - 2 * s * (pts.map fun p => p.1 * p.2).sum + (pts.map fun p => p.2 * p.2).sum := by
  unfold sse
  have : (fun p : ℝ × ℝ => (p.2 - (a + s * p.1)) ^ 2) = fun p => a * a + (2 * a * s) * p.1 + (-2 * a) * p.2 +
      (s * s) * (p.1 * p.1) + (-2 * s) * (p.1 * p.2) + 1 * (p.2 * p.2) := by
    funext p; ring
  rw [this, sum_lin]; ring

/-- The sum of squares of a line, by its difference to the fitted one. -/
theorem sse_gap (pts : List (ℝ × ℝ)) (hne : pts ≠ []) (V : ℝ)
    (hV : V = (pts.map fun p => (p.1 - avg (pts.map (·.1))) * (p.1 - avg (pts.map (·.1)))).sum) (hpos : V ≠ 0) (a s : ℝ) :
    let t := (linearFit pts).2
    let i := Real.log (linearFit pts).1
    sse pts a s = sse pts i t + pts.length * ((a - i) + (s - t) * avg (pts.map (·.1))) ^ 2 + (s - t) ^ 2 * V := by
  intro t i
  have hn : (pts.length : ℝ) ≠ 0 := by
    rw [Nat.cast_ne_zero]; exact fun h => hne (List.length_eq_zero_iff.1 h)
  have ex : (fun p : ℝ × ℝ => (p.1 - avg (pts.map (·.1))) * (p.1 - avg (pts.map (·.1)))) = fun p =>
      avg (pts.map (·.1)) * avg (pts.map (·.1)) + (-2 * avg (pts.map (·.1))) * p.1 + 0 * p.2 + 1 * (p.1 * p.1) + 0 * (p.1 * p.2) + 0 * (p.2 * p.2) := by
    funext p; ring
  have ey : (fun p : ℝ × ℝ => (p.1 - avg (pts.map (·.1))) * (p.2 - avg (pts.map (·.2)))) = fun p =>
      avg (pts.map (·.1)) * avg (pts.map (·.2)) + (-avg (pts.map (·.2))) * p.1 + (-avg (pts.map (·.1))) * p.2 + 0 * (p.1 * p.1) + 1 * (p.1 * p.2) + 0 * (p.2 * p.2) := by
    funext p; ring
  have ht : t = (pts.map fun p => (p.1 - avg (pts.map (·.1))) * (p.2 - avg (pts.map (·.2)))).sum / V := by
    show (linearFit pts).2 = _
    unfold linearFit
    simp only
    rw [← hV]
    field_simp
  have hi : i = avg (pts.map (·.2)) - t * avg (pts.map (·.1)) := by
    show Real.log (linearFit pts).1 = _
    unfold linearFit
    simp only
    rw [Real.log_exp]
    rfl
  rw [ey, sum_lin] at ht
  rw [ex, sum_lin] at hV
  rw [sse_eq, sse_eq]
  have hxm : avg (pts.map (·.1)) * pts.length = (pts.map fun p => p.1).sum := by
    unfold avg; rw [List.length_map]; field_simp
  have hym : avg (pts.map (·.2)) * pts.length = (pts.map fun p => p.2).sum := by
    unfold avg; rw [List.length_map]; field_simp
  have htV := (eq_div_iff hpos).1 ht
  generalize avg (pts.map (·.1)) = xm at *
  generalize avg (pts.map (·.2)) = ym at *
  rw [← hxm, ← hym]
  rw [← hxm, ← hym] at htV hV
  generalize (pts.map fun p => p.1 * p.1).sum = XX at *
  generalize (pts.map fun p => p.1 * p.2).sum = XY at *
  generalize (pts.map fun p => p.2 * p.2).sum = YY at *
  generalize (pts.length : ℝ) = N at *
  clear ex ey ht
  rw [hi]
  clear_value t i
  have hXX : XX = V + xm * xm * N := by linarith
  have hXY : XY = t * V + xm * ym * N := by linarith
  rw [hXX, hXY]
  ring

theorem var_pos (pts : List (ℝ × ℝ)) (m : ℝ) (p q : ℝ × ℝ) (hp : p ∈ pts) (hq : q ∈ pts) (h : p.1 ≠ q.1) :
    0 < (pts.map fun p => (p.1 - m) * (p.1 - m)).sum := by
  have h0 : ∀ x ∈ pts.map fun p => (p.1 - m) * (p.1 - m), 0 ≤ x := by
    simp only [List.mem_map]; rintro _ ⟨x, -, rfl⟩; exact mul_self_nonneg _
  rcases lt_or_eq_of_le (List.sum_nonneg h0) with h1 | h1
  · exact h1
  · exfalso
    have each : ∀ x ∈ pts, x.1 = m := by
      intro x hx
      have := List.single_le_sum h0 _ (List.mem_map.2 ⟨x, hx, rfl⟩)
      rw [← h1] at this
      have : x.1 - m = 0 := mul_self_eq_zero.1 (le_antisymm this (mul_self_nonneg _))
      linarith
    exact h ((each p hp).trans (each q hq).symm)

/-- C218: of all curves `a0 * wvl ^ a1`, the linear fit has the smallest sum of squared differences to the
estimates, on logarithmic scales, if there are two bands with different wavelengths. -/
theorem c218_least_squares (c : Conf) (wvl e : Nat → ℝ) (b b' : Nat) (hb : b < c.nb ∧ c.use b = true)
    (hb' : b' < c.nb ∧ c.use b' = true) (h0 : 0 < wvl b) (h1 : wvl b < wvl b') (a s : ℝ) :
    let pts := ((List.range c.nb).filter c.use).map fun b => (Real.log (wvl b), Real.log (e b))
    sse pts (Real.log (linearFit pts).1) (linearFit pts).2 ≤ sse pts a s := by
  intro pts
  have m : ∀ x, x < c.nb ∧ c.use x = true → (Real.log (wvl x), Real.log (e x)) ∈ pts := fun x hx =>
    List.mem_map.2 ⟨x, List.mem_filter.2 ⟨List.mem_range.2 hx.1, hx.2⟩, rfl⟩
  have hV := var_pos pts (avg (pts.map (·.1))) _ _ (m b hb) (m b' hb') (Real.log_lt_log h0 h1).ne
  have := sse_gap pts (List.ne_nil_of_mem (m b hb)) _ rfl hV.ne' a s
  simp only at this
  rw [this]
  have := mul_nonneg (sq_nonneg (s - (linearFit pts).2)) hV.le
  have : (0 : ℝ) ≤ pts.length * ((a - Real.log (linearFit pts).1) + (s - (linearFit pts).2) * avg (pts.map (·.1))) ^ 2 := by positivity
  linarith

/-- C218: if the estimates follow a curve `a0 * wvl ^ (-alpha)` (Angstrom), the linear fit returns its turbidity and exponent,
and the fitted AOD is that of the curve in every band, also in those that were not used. -/
theorem c218_angstrom (c : Conf) (wvl e : Nat → ℝ) (hw : ∀ b, 0 < wvl b) (b b' : Nat) (hb : b < c.nb ∧ c.use b = true)
    (hb' : b' < c.nb ∧ c.use b' = true) (h1 : wvl b < wvl b') (a α : ℝ) (ha : 0 < a)
    (he : ∀ x, x < c.nb → c.use x = true → e x = a * wvl x ^ (-α)) :
    linearFit (logPoints c wvl e) = (a, -α) ∧
    ∀ x, curve wvl ⟨(linearFit (logPoints c wvl e)).1, (linearFit (logPoints c wvl e)).2, 0⟩ x = a * wvl x ^ (-α) := by
  have m : ∀ x, x < c.nb ∧ c.use x = true → (Real.log (wvl x), Real.log (e x)) ∈ logPoints c wvl e := fun x hx =>
    List.mem_map.2 ⟨x, List.mem_filter.2 ⟨List.mem_range.2 hx.1, hx.2⟩, rfl⟩
  have hV := var_pos (logPoints c wvl e) (avg ((logPoints c wvl e).map (·.1))) _ _ (m b hb) (m b' hb') (Real.log_lt_log (hw b) h1).ne
  have gap := sse_gap (logPoints c wvl e) (List.ne_nil_of_mem (m b hb)) _ rfl hV.ne' (Real.log a) (-α)
  simp only at gap
  have hz : sse (logPoints c wvl e) (Real.log a) (-α) = 0 := by
    unfold sse
    apply List.sum_eq_zero
    simp only [List.mem_map]
    rintro _ ⟨p, hp, rfl⟩
    unfold logPoints usedBands at hp
    simp only [List.mem_map, List.mem_filter, List.mem_range] at hp
    obtain ⟨x, hx, rfl⟩ := hp
    simp only
    rw [he x hx.1 hx.2, Real.log_mul ha.ne' (Real.rpow_pos_of_pos (hw x) _).ne', Real.log_rpow (hw x)]
    ring
  have hs : 0 ≤ sse (logPoints c wvl e) (Real.log (linearFit (logPoints c wvl e)).1) (linearFit (logPoints c wvl e)).2 := by
    unfold sse
    refine List.sum_nonneg ?_
    simp only [List.mem_map]; rintro _ ⟨x, -, rfl⟩; exact sq_nonneg _
  have hlen : (0 : ℝ) < (logPoints c wvl e).length := by
    rw [Nat.cast_pos]; exact List.length_pos_of_mem (m b hb)
  rw [hz] at gap
  have k1 := mul_nonneg (sq_nonneg (-α - (linearFit (logPoints c wvl e)).2)) hV.le
  have k2 := mul_nonneg hlen.le (sq_nonneg ((Real.log a - Real.log (linearFit (logPoints c wvl e)).1) +
    (-α - (linearFit (logPoints c wvl e)).2) * avg ((logPoints c wvl e).map (·.1))))
  have j1 : (-α - (linearFit (logPoints c wvl e)).2) ^ 2 = 0 := by
    have : (-α - (linearFit (logPoints c wvl e)).2) ^ 2 * _ = 0 := le_antisymm (by linarith) k1
    exact (mul_eq_zero.1 this).resolve_right hV.ne'
  have j2 := pow_eq_zero_iff (two_ne_zero) |>.1 j1
  have j3 : ((Real.log a - Real.log (linearFit (logPoints c wvl e)).1) +
    (-α - (linearFit (logPoints c wvl e)).2) * avg ((logPoints c wvl e).map (·.1))) ^ 2 = 0 := by
    have : (logPoints c wvl e).length * ((Real.log a - Real.log (linearFit (logPoints c wvl e)).1) +
      (-α - (linearFit (logPoints c wvl e)).2) * avg ((logPoints c wvl e).map (·.1))) ^ 2 = 0 := le_antisymm (by linarith) k2
    exact (mul_eq_zero.1 this).resolve_left hlen.ne'
  have j4 := pow_eq_zero_iff (two_ne_zero) |>.1 j3
  rw [j2, zero_mul, add_zero] at j4
  have e1 : (linearFit (logPoints c wvl e)).1 = a := by
    apply Real.log_injOn_pos (linearFit_pos _) ha; linarith
  have e2 : (linearFit (logPoints c wvl e)).2 = -α := by linarith
  refine ⟨Prod.ext e1 e2, fun x => ?_⟩
  unfold curve
  rw [e1, e2]
  simp

end Verif.Aod
