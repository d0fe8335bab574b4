import Verif.Prod.BoaProps

/-!
# C151: nodata and scale of the Level 2 products
-/

namespace Verif.Prod

open Verif.Str (Out)
open Verif.Index (truncQ short truncQ_abs short_ok short_ub)
open Verif.Prod.Spec
open Verif.Qai.Spec (value states)

theorem qaiValue_spec (q : BitVec 16) : (value .off q = 1 → qaiValue q = 1) ∧ (value .off q = 0 → qaiValue q = q) ∧
    value .off (qaiValue q) = value .off q := by
  unfold qaiValue
  have h2 : value .off q < 2 := Nat.mod_lt _ (by decide)
  refine ⟨fun h => if_pos ((isOff_iff q).2 h), fun h => by rw [(isOff_false q).2 h]; rfl, ?_⟩
  by_cases h : value .off q = 1
  · rw [if_pos ((isOff_iff q).2 h), h]; rfl
  · rw [(isOff_false q).2 (by omega)]; rfl

theorem waterVapor_off (est : Nat → Option ℚ) (avg : Option ℚ) (q : Nat → BitVec 16) (p : Nat) :
    value .off (waterVapor est avg q p).2 = value .off (q p) := by
  unfold waterVapor
  cases avg with
  | none => rfl
  | some a =>
    simp only
    generalize (if isOff (q p) = true then (0 : Int) else match est p with
      | some w => truncQ (w * 1000)
      | none => 0) = v
    by_cases h : (isOff (q p) || decide (v > 0)) = true
    · rw [if_pos h]
    · rw [if_neg h]
      simp only
      rw [vset _ _ _ _ (one_lt _), if_neg (by decide)]

/-- A pixel is off before the products are compiled if it was off or is outside of the area of interest. -/
theorem masked_off (c : Setup) (s : Scene) (p : Nat) :
    value .off ((maskedScene c s).qai p) = 1 ↔ value .off (s.qai p) = 1 ∨ ∃ a, c.aoi = some a ∧ a p = 0 := by
  have hq : ∀ q : Nat → BitVec 16, value .off (q p) = value .off (s.qai p) →
      (value .off (applyAoi c.aoi q p) = 1 ↔ value .off (s.qai p) = 1 ∨ ∃ a, c.aoi = some a ∧ a p = 0) := by
    intro q hq
    unfold applyAoi
    cases c.aoi with
    | none => simp [hq]
    | some a =>
      simp only [Option.some.injEq, exists_eq_left']
      split
      · rename_i h; rw [vset _ _ _ _ (one_lt _)]; simp [h]
      · rename_i h; rw [hq]; simp [h]
  unfold maskedScene
  simp only
  split
  · exact hq _ (waterVapor_off c.est c.avg s.qai p)
  · exact hq _ rfl

/-- C151: for every scene, area of interest and radiative transfer: in the quality product, a nodata pixel has the value 1,
no other flag is set. Nodata pixels of the quality product are −9999 in all bands of the reflectance, in the view zenith and,
for Landsat, in the water vapour. Pixels that were nodata in the input and pixels outside of the area of interest are nodata
in the quality product, and in the products HOT and AOD as well. Missing: HOT and AOD of pixels whose reflectance is below
−1, and the water vapour of Sentinel-2; see `c151_late_violated` and `c151_vapour_violated`. -/
theorem c151_nodata_partial (c : Setup) (s : Scene) (p : Nat) (h : InOrder c.dom) :
    let o := level2 c s
    (value .off (o.qai p) = 1 → o.qai p = 1 ∧ (∀ j < (sources c.dom).length, o.boa j p = -9999) ∧ o.vzn p = .ok (-9999) ∧
      (c.sentinel2 = false → o.wvp p = .ok (-9999))) ∧
    ((value .off (s.qai p) = 1 ∨ ∃ a, c.aoi = some a ∧ a p = 0) →
      value .off (o.qai p) = 1 ∧ o.hot p = .ok (-9999) ∧ o.aod p = .ok (-9999)) := by
  simp only
  obtain ⟨h1, h2, -, -⟩ := c150_reflectance_partial c.erase c.rad c.dom (maskedScene c s) p h
  simp only at h1 h2
  obtain ⟨q1, q2, q3⟩ := qaiValue_spec ((compileBoa c.erase c.rad c.dom (maskedScene c s)).qai p)
  have eq : (level2 c s).qai p = qaiValue ((compileBoa c.erase c.rad c.dom (maskedScene c s)).qai p) := rfl
  constructor
  · intro ho
    rw [eq, q3] at ho
    refine ⟨by rw [eq, q1 ho], h2 ho, ?_, ?_⟩
    · show vznValue _ _ _ = _
      unfold vznValue
      rw [(isOff_iff _).2 (q3.trans ho)]; rfl
    · intro hs
      simp only [level2, hs, Bool.and_false]
      unfold wvpValue
      rw [(isOff_iff _).2 ho]; rfl
  · intro hb
    have hm := (masked_off c s p).2 hb
    have hi := (isOff_iff _).2 hm
    refine ⟨by rw [eq, q3]; exact h1.2 (Or.inl hm), ?_, ?_⟩
    · show hotValue _ _ _ _ = _
      unfold hotValue
      rw [hi]; rfl
    · show aodValue _ _ _ _ = _
      unfold aodValue
      rw [hi]; rfl

/-- C151: at pixels with data, the products hold the documented multiples of the quantities, without the fractional part:
haze 10000 times blue − 0.5·red − 0.08 (in top-of-atmosphere reflectance, scaled by 10000 already), aerosol optical depth
times 1000, water vapour times 1000 (one value for Landsat), view zenith as interpolated. -/
theorem c151_values (c : Setup) (s : Scene) (p : Nat) (h : InOrder c.dom) (hd : value .off ((level2 c s).qai p) = 0)
    (hatmo : c.doatmo = true) (haod : 0 ≤ c.aod p ∧ c.aod p ≤ 32) (hvzn : 0 ≤ c.vzn p ∧ c.vzn p ≤ 9000)
    (hblue : 0 ≤ s.band c.blue p ∧ s.band c.blue p ≤ 32767) (hred : 0 ≤ s.band c.red p ∧ s.band c.red p ≤ 32767) :
    (∃ v, (level2 c s).aod p = .ok v ∧ 0 ≤ v ∧ (v : ℚ) ≤ c.aod p * 1000 ∧ c.aod p * 1000 < v + 1) ∧
    (∃ v, (level2 c s).vzn p = .ok v ∧ 0 ≤ v ∧ (v : ℚ) ≤ c.vzn p ∧ c.vzn p < v + 1) ∧
    (∃ v, (level2 c s).hot p = .ok v ∧ |(v : ℚ) - (s.band c.blue p - s.band c.red p / 2 - 800)| < 1) ∧
    (c.sentinel2 = false → 0 ≤ c.wvp ∧ c.wvp ≤ 32 →
      ∃ v, (level2 c s).wvp p = .ok v ∧ 0 ≤ v ∧ (v : ℚ) ≤ c.wvp * 1000 ∧ c.wvp * 1000 < v + 1) := by
  obtain ⟨h1, -, -, -⟩ := c150_reflectance_partial c.erase c.rad c.dom (maskedScene c s) p h
  simp only at h1
  obtain ⟨q1, q2, q3⟩ := qaiValue_spec ((compileBoa c.erase c.rad c.dom (maskedScene c s)).qai p)
  have eq : (level2 c s).qai p = qaiValue ((compileBoa c.erase c.rad c.dom (maskedScene c s)).qai p) := rfl
  rw [eq, q3] at hd
  have hm : value .off ((maskedScene c s).qai p) = 0 := by
    have : value .off ((maskedScene c s).qai p) < 2 := Nat.mod_lt _ (by decide)
    by_contra hne
    have := h1.2 (Or.inl (by omega))
    omega
  have hi := (isOff_false _).2 hm
  have pos : ∀ x : ℚ, 0 ≤ x → x < 32768 → ∃ v, short x = .ok v ∧ 0 ≤ v ∧ (v : ℚ) ≤ x ∧ x < v + 1 := by
    intro x h0 hx
    obtain ⟨a, b, d⟩ := truncQ_abs x
    rw [abs_of_nonneg h0] at a b
    have hv : (0 : ℚ) ≤ (truncQ x : ℚ) := by
      by_contra hneg
      have h3 := not_le.1 hneg
      by_cases hx0 : x = 0
      · subst hx0
        rw [abs_of_neg h3] at a
        linarith
      · have := mul_neg_of_neg_of_pos h3 (lt_of_le_of_ne h0 (Ne.symm hx0))
        linarith
    rw [abs_of_nonneg hv] at a b
    exact ⟨_, short_ok (by linarith) hx, by exact_mod_cast hv, a, b⟩
  refine ⟨?_, ?_, ?_, ?_⟩
  · obtain ⟨v, hv, h3⟩ := pos (c.aod p * 1000) (by linarith [haod.1]) (by linarith [haod.2])
    refine ⟨v, ?_, h3⟩
    show aodValue _ _ _ _ = _
    unfold aodValue
    rw [hi, hatmo]
    exact hv
  · obtain ⟨v, hv, h3⟩ := pos (c.vzn p) hvzn.1 (by linarith [hvzn.2])
    refine ⟨v, ?_, h3⟩
    show vznValue _ _ _ = _
    unfold vznValue
    rw [(isOff_false _).2 (q3.trans hd)]
    exact hv
  · have b0 : (0 : ℚ) ≤ s.band c.blue p := by exact_mod_cast hblue.1
    have b1 : (s.band c.blue p : ℚ) ≤ 32767 := by exact_mod_cast hblue.2
    have r0 : (0 : ℚ) ≤ s.band c.red p := by exact_mod_cast hred.1
    have r1 : (s.band c.red p : ℚ) ≤ 32767 := by exact_mod_cast hred.2
    have ok := short_ok (x := s.band c.blue p - (1 / 2 : ℚ) * s.band c.red p - 800) (by linarith) (by linarith)
    refine ⟨truncQ (s.band c.blue p - (1 / 2 : ℚ) * s.band c.red p - 800), ?_, ?_⟩
    · show hotValue _ _ _ _ = _
      unfold hotValue
      rw [hi]
      exact ok
    · have e : (s.band c.blue p : ℚ) - s.band c.red p / 2 - 800 = s.band c.blue p - (1 / 2 : ℚ) * s.band c.red p - 800 := by ring
      rw [e]
      generalize (s.band c.blue p : ℚ) - (1 / 2 : ℚ) * s.band c.red p - 800 = x
      obtain ⟨a, b, d⟩ := truncQ_abs x
      rw [abs_lt]
      rcases le_or_gt 0 x with hx | hx
      · rw [abs_of_nonneg hx] at a b
        rcases le_or_gt 0 (truncQ x : ℚ) with ht | ht
        · rw [abs_of_nonneg ht] at a b
          constructor <;> linarith
        · rw [abs_of_neg ht] at a b
          rcases hx.eq_or_lt with h0 | h0
          · linarith
          · have := mul_neg_of_neg_of_pos ht h0
            linarith
      · rw [abs_of_neg hx] at a b
        rcases le_or_gt (truncQ x : ℚ) 0 with ht | ht
        · rw [abs_of_nonpos ht] at a b
          constructor <;> linarith
        · have := mul_neg_of_pos_of_neg ht hx
          linarith
  · intro hs hw
    obtain ⟨v, hv, h3⟩ := pos (c.wvp * 1000) (by linarith [hw.1]) (by linarith [hw.2])
    refine ⟨v, ?_, h3⟩
    simp only [level2, hs, Bool.and_false]
    unfold wvpValue
    rw [(isOff_false _).2 hd, hatmo]
    exact hv

/-- C151, violated: HOT and AOD are compiled before the reflectance. A pixel that becomes nodata because its reflectance is
below −1 is nodata in the quality product and in the reflectance, but keeps its values in HOT and AOD. -/
theorem c151_late_violated (c : Setup) (s : Scene) (p : Nat) (h : InOrder c.dom) (hoff : value .off (s.qai p) = 0)
    (haoi : c.aoi = none) (hatmo : c.doatmo = true) (her : c.erase = false) (hn : 0 < (sources c.dom).length)
    (hrad : ∀ b img q, c.rad b img q p < -1) :
    (level2 c s).qai p = 1 ∧ (∀ j < (sources c.dom).length, (level2 c s).boa j p = -9999) ∧
      (level2 c s).hot p = short (s.band c.blue p - (1 / 2 : ℚ) * s.band c.red p - 800) ∧
      (level2 c s).aod p = short (c.aod p * 1000) := by
  obtain ⟨h1, h2, -, -⟩ := c150_reflectance_partial c.erase c.rad c.dom (maskedScene c s) p h
  simp only at h1 h2
  have ho : value .off ((compileBoa c.erase c.rad c.dom (maskedScene c s)).qai p) = 1 :=
    h1.2 (Or.inr ⟨by rw [her]; simp, 0, hn, hrad _ _ _⟩)
  have hm : value .off ((maskedScene c s).qai p) = 0 := by
    have : value .off ((maskedScene c s).qai p) < 2 := Nat.mod_lt _ (by decide)
    by_contra hne
    rcases (masked_off c s p).1 (by omega) with h3 | ⟨a, h3, -⟩
    · omega
    · rw [haoi] at h3; cases h3
  have hi := (isOff_false _).2 hm
  refine ⟨(qaiValue_spec _).1 ho, h2 ho, ?_, ?_⟩
  · show hotValue _ _ _ _ = _
    unfold hotValue
    rw [hi]; rfl
  · show aodValue _ _ _ _ = _
    unfold aodValue
    rw [hi, hatmo]; rfl

/-- C151, violated: the water vapour image of Sentinel-2 is 0 instead of −9999 where the input is nodata; and outside of the
area of interest it holds the estimated water vapour, although these pixels are nodata in the quality product. -/
theorem c151_vapour_violated (c : Setup) (s : Scene) (p : Nat) (h : InOrder c.dom) (hatmo : c.doatmo = true)
    (hs : c.sentinel2 = true) :
    (value .off (s.qai p) = 1 → (level2 c s).qai p = 1 ∧ (level2 c s).wvp p = .ok 0) ∧
    (∀ a w, value .off (s.qai p) = 0 → c.aoi = some a → a p = 0 → c.est p = some w → 1 / 1000 ≤ w →
      (level2 c s).qai p = 1 ∧ ∃ v, (level2 c s).wvp p = .ok v ∧ 1 ≤ v) := by
  have ew : (level2 c s).wvp p = .ok (waterVapor c.est c.avg s.qai p).1 := by
    simp only [level2, hatmo, hs, Bool.and_self, if_true]
  have hq : (value .off (s.qai p) = 1 ∨ ∃ a, c.aoi = some a ∧ a p = 0) → (level2 c s).qai p = 1 := by
    intro hb
    obtain ⟨h1, h2⟩ := c151_nodata_partial c s p h
    exact (h1 (h2 hb).1).1
  constructor
  · intro ho
    refine ⟨hq (Or.inl ho), ?_⟩
    rw [ew]
    unfold waterVapor
    rw [(isOff_iff _).2 ho]
    cases c.avg <;> rfl
  · intro a w ho ha hp he hw
    refine ⟨hq (Or.inr ⟨a, ha, hp⟩), ?_⟩
    rw [ew]
    have ht : 1 ≤ truncQ (w * 1000) := by
      obtain ⟨x1, x2, x3⟩ := truncQ_abs (w * 1000)
      rw [abs_of_pos (by linarith : (0 : ℚ) < w * 1000)] at x1 x2
      have h0 : (0 : ℚ) < |(truncQ (w * 1000) : ℚ)| := by linarith
      have hne : (truncQ (w * 1000) : ℚ) ≠ 0 := abs_pos.1 h0
      have hnn : (0 : ℚ) ≤ (truncQ (w * 1000) : ℚ) := by
        by_contra hneg
        have := mul_neg_of_neg_of_pos (not_le.1 hneg) (by linarith : (0 : ℚ) < w * 1000)
        linarith
      have : (0 : ℚ) < (truncQ (w * 1000) : ℚ) := lt_of_le_of_ne hnn (Ne.symm hne)
      have : 0 < truncQ (w * 1000) := by exact_mod_cast this
      omega
    unfold waterVapor
    rw [(isOff_false _).2 ho]
    simp only [he]
    cases c.avg with
    | none => exact ⟨_, rfl, ht⟩
    | some b =>
      simp only [Bool.false_or]
      rw [if_pos (by simpa using (by omega : 0 < truncQ (w * 1000)))]
      exact ⟨_, rfl, ht⟩

/-- C151, violated: a water vapour value of a Landsat scene that does not fit (the database of C146 contains 9999 for missing
days) makes the conversion undefined. -/
theorem c151_overflow_violated (c : Setup) (s : Scene) (p : Nat) (h : InOrder c.dom) (hd : value .off ((level2 c s).qai p) = 0)
    (hatmo : c.doatmo = true) (hs : c.sentinel2 = false) (hw : 32768 / 1000 ≤ c.wvp) : (level2 c s).wvp p = .ub := by
  obtain ⟨q1, q2, q3⟩ := qaiValue_spec ((compileBoa c.erase c.rad c.dom (maskedScene c s)).qai p)
  have eq : (level2 c s).qai p = qaiValue ((compileBoa c.erase c.rad c.dom (maskedScene c s)).qai p) := rfl
  rw [eq, q3] at hd
  simp only [level2, hs, Bool.and_false]
  unfold wvpValue
  rw [(isOff_false _).2 hd, hatmo]
  exact short_ub (Or.inl (by linarith))

end Verif.Prod
