import Verif.Topo.Model
import Mathlib.Tactic.FieldSimp
import Mathlib.Tactic.LinearCombination
import Mathlib.Algebra.Order.BigOperators.Group.List

/-!
# Elevation classes and topographic correction
-/

namespace Verif.Topo

open Real Verif.Str

theorem foldl_min (l : List ℝ) (m : ℝ) : (∀ x ∈ l, l.foldl (fun m x => if x < m then x else m) m ≤ x) ∧ l.foldl (fun m x => if x < m then x else m) m ≤ m ∧
    (l.foldl (fun m x => if x < m then x else m) m ∈ l ∨ l.foldl (fun m x => if x < m then x else m) m = m) := by
  induction l generalizing m with
  | nil => simp
  | cons a l ih =>
    rw [List.foldl_cons]
    obtain ⟨h1, h2, h3⟩ := ih (if a < m then a else m)
    have ha : (if a < m then a else m) ≤ a ∧ (if a < m then a else m) ≤ m ∧ ((if a < m then a else m) = a ∨ (if a < m then a else m) = m) := by
      split
      · exact ⟨le_rfl, by linarith, .inl rfl⟩
      · exact ⟨by linarith, le_rfl, .inr rfl⟩
    refine ⟨?_, h2.trans ha.2.1, ?_⟩
    · intro x hx
      rcases List.mem_cons.1 hx with rfl | hx
      · exact h2.trans ha.1
      · exact h1 x hx
    · rcases h3 with h3 | h3
      · exact .inl (List.mem_cons_of_mem _ h3)
      · rw [h3]
        rcases ha.2.2 with e | e
        · exact .inl (by rw [e]; exact List.mem_cons_self)
        · exact .inr e

theorem foldl_max (l : List ℝ) (m : ℝ) : (∀ x ∈ l, x ≤ l.foldl (fun m x => if x > m then x else m) m) ∧ m ≤ l.foldl (fun m x => if x > m then x else m) m ∧
    (l.foldl (fun m x => if x > m then x else m) m ∈ l ∨ l.foldl (fun m x => if x > m then x else m) m = m) := by
  induction l generalizing m with
  | nil => simp
  | cons a l ih =>
    rw [List.foldl_cons]
    obtain ⟨h1, h2, h3⟩ := ih (if a > m then a else m)
    have ha : a ≤ (if a > m then a else m) ∧ m ≤ (if a > m then a else m) ∧ ((if a > m then a else m) = a ∨ (if a > m then a else m) = m) := by
      split
      · exact ⟨le_rfl, by linarith, .inl rfl⟩
      · exact ⟨by linarith, le_rfl, .inr rfl⟩
    refine ⟨?_, ha.2.1.trans h2, ?_⟩
    · intro x hx
      rcases List.mem_cons.1 hx with rfl | hx
      · exact ha.1.trans h2
      · exact h1 x hx
    · rcases h3 with h3 | h3
      · exact .inl (List.mem_cons_of_mem _ h3)
      · rw [h3]
        rcases ha.2.2 with e | e
        · exact .inl (by rw [e]; exact List.mem_cons_self)
        · exact .inr e

/-- C171: the step of the elevation classes is 1/255 of the range of the elevations and one metre; elevations are accepted exactly
if all are between 500 m below and 8999 m above sea level. -/
theorem c171_step (d : List ℝ) (hd : ∀ x ∈ d, -32 ≤ x ∧ x ≤ 32) (lo hi : ℝ) (h1 : lo ∈ d) (h2 : hi ∈ d) (h3 : ∀ x ∈ d, lo ≤ x ∧ x ≤ hi) :
    (levels d).step = (hi - lo + 1 / 1000) / 255 ∧ (levels d).min = lo ∧ (accepted (levels d) ↔ -1 / 2 ≤ lo ∧ hi ≤ 8999 / 1000) := by
  obtain ⟨a1, -, a3⟩ := foldl_min d 32767
  obtain ⟨b1, -, b3⟩ := foldl_max d (-32768)
  have e1 : d.foldl (fun m x => if x < m then x else m) 32767 = lo := by
    rcases a3 with h | h
    · exact le_antisymm (a1 lo h1) (h3 _ h).1
    · have := a1 lo h1; rw [h] at this; linarith [(hd lo h1).2]
  have e2 : d.foldl (fun m x => if x > m then x else m) (-32768) = hi := by
    rcases b3 with h | h
    · exact le_antisymm (h3 _ h).2 (b1 hi h2)
    · have := b1 hi h2; rw [h] at this; linarith [(hd hi h2).1]
  unfold levels accepted
  simp only
  rw [e1, e2]
  refine ⟨by ring, rfl, ?_⟩
  rw [not_or, not_lt, not_lt]
  constructor
  · rintro ⟨x, y⟩; exact ⟨x, by linarith⟩
  · rintro ⟨x, y⟩; exact ⟨x, by linarith⟩

/-- C171: an image without any usable pixel is accepted too. -/
theorem c171_empty : accepted (levels []) := by
  unfold accepted levels
  simp only [List.foldl_nil]
  rw [not_or]
  constructor <;> norm_num

/-- C171: the class of an elevation is one of 255, and the elevation for which the atmosphere is computed differs from the true one by at most half a step. -/
theorem c171_class (d : List ℝ) (hd : ∀ x ∈ d, -32 ≤ x ∧ x ≤ 32) (x : ℝ) (hx : x ∈ d) :
    0 ≤ elevationClass (levels d) x ∧ elevationClass (levels d) x ≤ 254 ∧
      |classElevation (levels d) (elevationClass (levels d) x).toNat - x| ≤ (levels d).step / 2 := by
  have hlo : (levels d).min ≤ x := (foldl_min d 32767).1 x hx
  have hhi : x + 1 / 1000 ≤ (levels d).max := by
    have := (foldl_max d (-32768)).1 x hx
    unfold levels
    simp only
    linarith
  have hst : (levels d).step = ((levels d).max - (levels d).min) / 255 := rfl
  have hpos : 0 < (levels d).step := by rw [hst]; apply div_pos <;> linarith
  generalize levels d = l at *
  have h0 : 0 ≤ (x - l.min) / l.step := div_nonneg (by linarith) hpos.le
  have h1 : (x - l.min) / l.step < 255 := by
    rw [div_lt_iff₀ hpos, hst]
    linarith
  have f0 : 0 ≤ ⌊(x - l.min) / l.step⌋ := Int.floor_nonneg.2 h0
  have f1 : ⌊(x - l.min) / l.step⌋ < 255 := Int.floor_lt.2 (by push_cast; exact h1)
  unfold elevationClass classElevation
  refine ⟨f0, by omega, ?_⟩
  have a1 := Int.floor_le ((x - l.min) / l.step)
  have a2 := Int.lt_floor_add_one ((x - l.min) / l.step)
  rw [le_div_iff₀ hpos] at a1
  rw [div_lt_iff₀ hpos] at a2
  have e : (((⌊(x - l.min) / l.step⌋).toNat : ℕ) : ℝ) = ((⌊(x - l.min) / l.step⌋ : ℤ) : ℝ) := by
    exact_mod_cast congrArg (Int.cast (R := ℝ)) (Int.toNat_of_nonneg f0)
  rw [e, abs_le]
  constructor <;> linarith

/-! ## Topographic correction -/

theorem factor_eq (band sw2 : Light) (E szen ill sky cf : ℝ) (hE : E ≠ 0) (hd : 0 < band.direct) (hs : 0 < band.diffuse) (hi : 0 < ill) :
    factor band sw2 E szen ill sky cf =
      if (cos szen + cf / flatSky szen) / (ill + sky * cf / flatSky szen) < 0 then -10000 else (cos szen + cf / flatSky szen) / (ill + sky * cf / flatSky szen) := by
  unfold factor
  simp only
  rw [if_pos hi]
  have hf : E * band.diffuse / (E * band.direct) ≠ 0 := div_ne_zero (mul_ne_zero hE hs.ne') (mul_ne_zero hE hd.ne')
  have e1 : cf / (E * band.diffuse / (E * band.direct)) * (E * band.diffuse / (E * band.direct)) / flatSky szen = cf / flatSky szen := by
    rw [div_mul_cancel₀ _ hf]
  have e2 : sky * cf / (E * band.diffuse / (E * band.direct)) * (E * band.diffuse / (E * band.direct)) / flatSky szen = sky * cf / flatSky szen := by
    rw [div_mul_cancel₀ _ hf]
  rw [e1, e2]

theorem flatSky_pos {szen : ℝ} (h : 0 ≤ szen) : 0 < flatSky szen := by
  unfold flatSky
  have := pi_pos
  positivity

/-- C172: the topographic correction is positive, and it leaves flat terrain and terrain without direct light alone. -/
theorem c172_flat (band sw2 : Light) (E szen cf : ℝ) (hE : E ≠ 0) (hd : 0 < band.direct) (hs : 0 < band.diffuse) (h0 : 0 ≤ szen) (h1 : szen < π / 2) (hc : 0 ≤ cf) :
    factor band sw2 E szen (cos szen) 1 cf = 1 ∧ (∀ ill sky, ill ≤ 0 → factor band sw2 E szen ill sky cf = 1) ∧
      ∀ ill sky, 0 ≤ sky → 0 < factor band sw2 E szen ill sky cf := by
  have hp := flatSky_pos h0
  have hcos : 0 < cos szen := cos_pos_of_mem_Ioo ⟨by linarith [pi_pos], h1⟩
  have hn : 0 < cos szen + cf / flatSky szen := by positivity
  refine ⟨?_, fun ill sky hi => ?_, fun ill sky hsky => ?_⟩
  · rw [factor_eq band sw2 E szen _ 1 cf hE hd hs hcos, one_mul, div_self hn.ne', if_neg (by norm_num)]
  · unfold factor; simp only; rw [if_neg (not_lt.2 hi)]
  · by_cases hi : 0 < ill
    · have : 0 < (cos szen + cf / flatSky szen) / (ill + sky * cf / flatSky szen) := by positivity
      rw [factor_eq band sw2 E szen ill sky cf hE hd hs hi, if_neg (by linarith)]
      exact this
    · unfold factor; simp only; rw [if_neg hi]; norm_num

/-- C172: slopes that face away from the sun become brighter, slopes that face the sun darker, never beyond the ratio of the cosines (for a full sky). -/
theorem c172_direction (band sw2 : Light) (E szen ill cf : ℝ) (hE : E ≠ 0) (hd : 0 < band.direct) (hs : 0 < band.diffuse) (h0 : 0 ≤ szen) (h1 : szen < π / 2) (hc : 0 ≤ cf)
    (hi : 0 < ill) :
    (ill ≤ cos szen → 1 ≤ factor band sw2 E szen ill 1 cf ∧ factor band sw2 E szen ill 1 cf ≤ cos szen / ill) ∧
      (cos szen ≤ ill → factor band sw2 E szen ill 1 cf ≤ 1 ∧ cos szen / ill ≤ factor band sw2 E szen ill 1 cf) := by
  have hp := flatSky_pos h0
  have hcos : 0 < cos szen := cos_pos_of_mem_Ioo ⟨by linarith [pi_pos], h1⟩
  have hk : 0 ≤ cf / flatSky szen := by positivity
  have hpos : 0 < (cos szen + cf / flatSky szen) / (ill + 1 * cf / flatSky szen) := by positivity
  rw [factor_eq band sw2 E szen ill 1 cf hE hd hs hi, if_neg (by linarith), one_mul]
  generalize cf / flatSky szen = k at *
  generalize cos szen = m at *
  constructor
  · intro h
    constructor
    · rw [le_div_iff₀ (by linarith)]; linarith
    · rw [div_le_div_iff₀ (by linarith) hi]; nlinarith
  · intro h
    constructor
    · rw [div_le_iff₀ (by linarith)]; linarith
    · rw [div_le_div_iff₀ hi (by linarith)]; nlinarith

/-- The correction that is documented: the C-factor, derived for SWIR2, is propagated through the spectrum by the ratio of diffuse and direct light of the band
and of SWIR2. -/
noncomputable def documented (band sw2 : Light) (szen ill sky cf : ℝ) : ℝ :=
  let c := cf * (band.diffuse / band.direct) / (sw2.diffuse / sw2.direct) / flatSky szen
  (cos szen + c) / (ill + sky * c)

/-- C172, for the band the C-factor was derived for. Missing: the other bands, see `c172_spectrum_violated`. -/
theorem c172_documented_partial (band : Light) (E szen ill sky cf : ℝ) (hE : E ≠ 0) (hd : 0 < band.direct) (hs : 0 < band.diffuse) (h0 : 0 ≤ szen) (h1 : szen < π / 2)
    (hc : 0 ≤ cf) (hi : 0 < ill) (hsky : 0 ≤ sky) : factor band band E szen ill sky cf = documented band band szen ill sky cf := by
  have hp := flatSky_pos h0
  have hcos : 0 < cos szen := cos_pos_of_mem_Ioo ⟨by linarith [pi_pos], h1⟩
  have hpos : 0 < (cos szen + cf / flatSky szen) / (ill + sky * cf / flatSky szen) := by positivity
  rw [factor_eq band band E szen ill sky cf hE hd hs hi, if_neg (by linarith)]
  unfold documented
  simp only
  rw [mul_div_assoc cf, div_self (div_ne_zero hs.ne' hd.ne'), mul_one]
  congr 2
  ring

/-- C172, violated: the factor is the same for all bands; wherever a slope is not as bright as flat terrain, a band whose share of diffuse light differs from
SWIR2 gets a wrong factor. -/
theorem c172_spectrum_violated (band sw2 : Light) (E szen ill cf : ℝ) (hE : E ≠ 0) (hd : 0 < band.direct) (hs : 0 < band.diffuse) (hd2 : 0 < sw2.direct)
    (hs2 : 0 < sw2.diffuse) (h0 : 0 ≤ szen) (h1 : szen < π / 2) (hc : 0 < cf) (hi : 0 < ill) (hne : ill ≠ cos szen)
    (hf : band.diffuse / band.direct ≠ sw2.diffuse / sw2.direct) : factor band sw2 E szen ill 1 cf ≠ documented band sw2 szen ill 1 cf := by
  have hp := flatSky_pos h0
  have hcos : 0 < cos szen := cos_pos_of_mem_Ioo ⟨by linarith [pi_pos], h1⟩
  have hpos : 0 < (cos szen + cf / flatSky szen) / (ill + 1 * cf / flatSky szen) := by positivity
  rw [factor_eq band sw2 E szen ill 1 cf hE hd hs hi, if_neg (by linarith)]
  unfold documented
  simp only
  have r1 : 0 < band.diffuse / band.direct := by positivity
  have r2 : 0 < sw2.diffuse / sw2.direct := by positivity
  generalize band.diffuse / band.direct = f at *
  generalize sw2.diffuse / sw2.direct = g at *
  rw [one_mul, one_mul, show cf * f / g / flatSky szen = cf / flatSky szen * (f / g) by ring]
  have hk : 0 < cf / flatSky szen := by positivity
  generalize cf / flatSky szen = k at *
  have hr : f / g ≠ 1 := by rw [ne_eq, div_eq_one_iff_eq r2.ne']; exact hf
  have hr0 : 0 < f / g := by positivity
  generalize f / g = r at *
  generalize cos szen = m at *
  intro e
  rw [div_eq_div_iff (by positivity) (by positivity)] at e
  have : k * (r - 1) * (m - ill) = 0 := by linear_combination e
  rcases mul_eq_zero.1 this with h | h
  · rcases mul_eq_zero.1 h with h | h
    · exact hk.ne' h
    · exact hr (by linarith)
  · exact hne (by linarith)

/-- C172: the C-factor of a pixel is at least the theoretical one, up to the largest number that can be stored, and at most that. -/
theorem c172_cfactor (cTheory rhoP : ℝ) (fit : Option (ℝ × ℝ × ℝ × ℝ)) (h : 0 ≤ cTheory) :
    0 ≤ cFactor cTheory rhoP fit ∧ cFactor cTheory rhoP fit ≤ 65535 / 10000 ∧ (cTheory ≤ 65535 / 10000 → cTheory ≤ cFactor cTheory rhoP fit) := by
  unfold cFactor
  simp only
  generalize (match fit with
    | none => (0 : ℝ)
    | some (offset, gain, mx, my) =>
      let (offset, gain) := if offset < rhoP then (rhoP, (my - rhoP) / mx) else (offset, gain)
      if offset < 10 * gain then cEmpirical offset gain else 10) = c
  split_ifs with a b b
  · exact ⟨by norm_num, le_rfl, id⟩
  · exact ⟨h, not_lt.1 b, fun _ => le_rfl⟩
  · exact ⟨by norm_num, le_rfl, id⟩
  · rw [not_or] at a
    exact ⟨not_lt.1 a.1, not_lt.1 b, fun _ => not_lt.1 a.2⟩

/-- C172: without a regression the C-factor is the theoretical one. A regression with an intercept of at least the path reflectance, and of less than ten times
the slope, gives the C-factor intercept / slope. A smaller intercept is replaced by the path reflectance, with the line through the means. An intercept of at least
ten times the slope gives the largest C-factor. The theoretical C-factor is the lower, the largest number that can be stored the upper limit. -/
theorem c172_regression (cTheory rhoP b m mx my : ℝ) (h0 : 0 ≤ rhoP) (h1 : 0 ≤ cTheory) (h2 : cTheory ≤ 65535 / 10000) :
    cFactor cTheory rhoP none = cTheory ∧
    (rhoP ≤ b → b < 10 * m → cFactor cTheory rhoP (some (b, m, mx, my)) = min (max cTheory (b / m)) (65535 / 10000)) ∧
    (rhoP ≤ b → 10 * m ≤ b → cFactor cTheory rhoP (some (b, m, mx, my)) = 65535 / 10000) ∧
    (b < rhoP → rhoP < 10 * ((my - rhoP) / mx) →
      cFactor cTheory rhoP (some (b, m, mx, my)) = min (max cTheory (rhoP / ((my - rhoP) / mx))) (65535 / 10000)) ∧
    (b < rhoP → 10 * ((my - rhoP) / mx) ≤ rhoP → cFactor cTheory rhoP (some (b, m, mx, my)) = 65535 / 10000) := by
  have clip : ∀ c : ℝ, 0 ≤ c → (if (if c < 0 ∨ c < cTheory then cTheory else c) > 65535 / 10000 then (65535 / 10000 : ℝ)
      else (if c < 0 ∨ c < cTheory then cTheory else c)) = min (max cTheory c) (65535 / 10000) := by
    intro c hc
    have e : (if c < 0 ∨ c < cTheory then cTheory else c) = max cTheory c := by
      split_ifs with h
      · rcases h with h | h
        · exact absurd h (not_lt.2 hc)
        · rw [max_eq_left h.le]
      · rw [not_or, not_lt, not_lt] at h
        rw [max_eq_right h.2]
    rw [e]
    split_ifs with h
    · rw [min_eq_right (le_of_lt h)]
    · rw [min_eq_left (not_lt.1 h)]
  have emp : ∀ b m : ℝ, rhoP ≤ b → b < 10 * m → cEmpirical b m = b / m ∧ 0 ≤ b / m := by
    intro b m hb hm
    have hb0 : 0 ≤ b := h0.trans hb
    have hm0 : 0 < m := by linarith
    refine ⟨?_, by positivity⟩
    unfold cEmpirical
    rw [if_neg]
    rw [not_or, not_lt, not_le]
    exact ⟨hb0, hm0⟩
  have ten : min (max cTheory 10) (65535 / 10000) = (65535 / 10000 : ℝ) :=
    min_eq_right (le_trans (by norm_num) (le_max_right _ _))
  refine ⟨?_, fun hb hm => ?_, fun hb hm => ?_, fun hb hm => ?_, fun hb hm => ?_⟩
  · have := clip 0 le_rfl
    rw [max_eq_left h1, min_eq_left h2] at this
    exact this
  · have e := emp b m hb hm
    unfold cFactor
    simp only [if_neg (not_lt.2 hb)]
    rw [if_pos hm, e.1]
    exact clip _ e.2
  · unfold cFactor
    simp only [if_neg (not_lt.2 hb)]
    rw [if_neg (not_lt.2 hm)]
    exact (clip 10 (by norm_num)).trans ten
  · have e := emp rhoP ((my - rhoP) / mx) le_rfl hm
    unfold cFactor
    simp only [if_pos hb]
    rw [if_pos hm, e.1]
    exact clip _ e.2
  · unfold cFactor
    simp only [if_pos hb]
    rw [if_neg (not_lt.2 hm)]
    exact (clip 10 (by norm_num)).trans ten

/-- C172: the smoothed C-factor is stored without overflow, and is the mean of the neighbourhood up to 1/10000. -/
theorem c172_stored (l : List ℝ) (hl : l ≠ []) (h : ∀ c ∈ l, 0 ≤ c ∧ c ≤ 65535 / 10000) :
    ∃ n : Nat, cStored l = .ok n ∧ |(n : ℝ) / 10000 - l.sum / l.length| ≤ 1 / 10000 := by
  have hn : (0 : ℝ) < l.length := by exact_mod_cast List.length_pos_iff.2 hl
  have h0 : 0 ≤ l.sum := List.sum_nonneg fun c hc => (h c hc).1
  have h1 : l.sum ≤ l.length * (65535 / 10000) := by
    clear hl hn h0
    induction l with
    | nil => simp
    | cons a l ih =>
      have := ih fun c hc => h c (List.mem_cons_of_mem _ hc)
      have ha := (h a List.mem_cons_self).2
      rw [List.sum_cons, List.length_cons]
      push_cast
      linarith
  have hm : 0 ≤ l.sum / l.length := div_nonneg h0 hn.le
  have hM : l.sum / l.length ≤ 65535 / 10000 := by rw [div_le_iff₀ hn]; linarith
  unfold cStored
  simp only
  rw [if_neg (by linarith), toUshort, if_pos ⟨by linarith, by linarith⟩]
  refine ⟨_, rfl, ?_⟩
  have f1 := Nat.floor_le (a := l.sum / l.length * 10000) (by positivity)
  have f2 := Nat.lt_floor_add_one (l.sum / l.length * 10000)
  rw [abs_le]
  constructor <;> linarith

end Verif.Topo
