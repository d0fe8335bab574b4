import Verif.Imp.Predict

/-! # The products -/

namespace Verif.Imp

open Verif.Str (Out)
open Verif.Float (Nearest)
open Spec (InImage Within difference cutoff)

/-- The pixels whose data a prediction may use: in the image, at most `h` pixels away, not masked and valid. -/
def Source (ch : Chunk) (msk : Int → Int → Bool) (i j : Int) (q : Int × Int) : Prop :=
  InImage ch.nx ch.ny q.1 q.2 ∧ Within ch.ksize i j q.1 q.2 ∧ ch.masked q.1 q.2 = false ∧ msk q.1 q.2 = true

/-- Invalid pixels of the fine resolution image are far from all valid ones (nodata is far outside of the range of standardised data). -/
def Far (ch : Chunk) : Prop := 0 < ch.nbHr ∧ ∀ i j i' j', ch.hr 0 i j = ch.nodataHr → ch.hr 0 i' j' ≠ ch.nodataHr →
  ∀ b < ch.nbHr, 2 / 5 ≤ |ch.hr b i j - ch.hr b i' j'|

theorem difference_far (d : Nat → Int → Int → ℚ) (n : Nat) (hn : 0 < n) (i j i' j' : Int)
    (h : ∀ b < n, 2 / 5 ≤ |d b i j - d b i' j'|) : 2 / 5 ≤ difference d n i j i' j' := by
  unfold difference
  have hp : (0 : ℚ) < n := by exact_mod_cast hn
  rw [le_div_iff₀ hp]
  have key : ∀ m ≤ n, 2 / 5 * (m : ℚ) ≤ ((List.range m).map fun b => |d b i j - d b i' j'|).sum := by
    intro m
    induction m with
    | zero => simp
    | succ m ih =>
      intro hm
      rw [List.range_succ, List.map_append, List.sum_append]
      have h1 := ih (by omega)
      have h2 := h m (by omega)
      simp only [List.map_cons, List.map_nil, List.sum_cons, List.sum_nil]
      push_cast
      linarith
  exact key n le_rfl

theorem predict_between (ex sq dbl flt : ℚ → ℚ) (hex : ∀ x, 0 < ex x) (hdbl : ∀ x, |dbl x - x| ≤ |x| / 2 ^ 40)
    (hflt : ∀ x, Nearest 24 x (flt x)) (ch : Chunk) (hfar : Far ch) (mr : Nat → Int → Int → Int) (i j : Int) (b : Nat)
    (hi : InImage ch.nx ch.ny i j) (hmr : ∀ b < ch.nbMr, mr b i j ≠ ch.nodata)
    (hs : ∀ i j, -32768 ≤ mr b i j ∧ mr b i j ≤ 32767) :
    ∃ v, improphe ex dbl flt (input sq ch mr) i j b = some (.ok v) ∧
      ∀ lo hi : Int, (∀ q : Int × Int, InImage ch.nx ch.ny q.1 q.2 → Within ch.ksize i j q.1 q.2 →
        (∀ b < ch.nbMr, mr b q.1 q.2 ≠ ch.nodata) → lo ≤ mr b q.1 q.2 ∧ mr b q.1 q.2 ≤ hi) → lo ≤ v ∧ v ≤ hi := by
  by_cases hhr : ch.hr 0 i j = ch.nodataHr
  · refine ⟨mr b i j, c98_alone ex dbl flt (input sq ch mr) i j b hmr ?_, ?_⟩
    · rintro q ⟨_, _, h3, _, h5⟩
      have := difference_far ch.hr ch.nbHr hfar.1 i j q.1 q.2 (hfar.2 i j q.1 q.2 hhr h3)
      have h5' : difference ch.hr ch.nbHr i j q.1 q.2 < 2 / 5 := h5
      linarith
    · intro lo hi' h
      exact h (i, j) hi (by unfold Within; simp) hmr
  · obtain ⟨c, _, _, _, v, hv, hb⟩ := c98_between ex dbl flt hex hdbl hflt (input sq ch mr) i j b hi hhr hmr hs
    refine ⟨v, hv, fun lo hi' h => hb lo hi' ?_⟩
    rintro q ⟨h1, h2, _, h4, _⟩
    exact h q h1 h2 h4

/-- C99: Level 2 data, if there are fine resolution data: masked pixels are nodata, invalid pixels keep the data, and at valid
pixels (no band is nodata) the product is between the smallest and the largest value of the valid, unmasked pixels of the same band and acquisition
within the radius. -/
theorem c99_level2_partial (ex sq dbl flt : ℚ → ℚ) (hex : ∀ x, 0 < ex x) (hdbl : ∀ x, |dbl x - x| ≤ |x| / 2 ^ 40)
    (hflt : ∀ x, Nearest 24 x (flt x)) (ch : Chunk) (hfar : Far ch) (msk : Int → Int → Bool) (b : Nat) (hb : b < ch.nbMr)
    (hs : ∀ i j, -32768 ≤ ch.dat b i j ∧ ch.dat b i j ≤ 32767) (hnd : -32768 ≤ ch.nodata ∧ ch.nodata ≤ 32767)
    (i j : Int) (hi : InImage ch.nx ch.ny i j) :
    (ch.masked i j = true → l2 ex sq dbl flt false ch msk b i j = .ok ch.nodata) ∧
    (ch.masked i j = false → msk i j = false → l2 ex sq dbl flt false ch msk b i j = .ok (ch.dat b i j)) ∧
    (ch.masked i j = false → msk i j = true → (∀ b < ch.nbMr, ch.dat b i j ≠ ch.nodata) →
      ∃ v, l2 ex sq dbl flt false ch msk b i j = .ok v ∧
        ∀ lo hi : Int, (∀ q, Source ch msk i j q → lo ≤ ch.dat b q.1 q.2 ∧ ch.dat b q.1 q.2 ≤ hi) → lo ≤ v ∧ v ≤ hi) := by
  refine ⟨fun h => ?_, fun h h' => ?_, fun h h' hd => ?_⟩
  · unfold l2
    simp [h]
  · unfold l2
    simp [h, h']
  · have hmr0 : ∀ b i j, ch.masked i j = false → msk i j = true →
        (if ch.masked i j then ch.nodata else if !msk i j then ch.nodata else ch.dat b i j) = ch.dat b i j := by
      intro b i j h1 h2
      simp [h1, h2]
    obtain ⟨v, hv, hbd⟩ := predict_between ex sq dbl flt hex hdbl hflt ch hfar
      (fun b i j => if ch.masked i j then ch.nodata else if !msk i j then ch.nodata else ch.dat b i j) i j b hi
      (by intro b hb; show (if ch.masked i j then ch.nodata else if !msk i j then ch.nodata else ch.dat b i j) ≠ _
          rw [hmr0 b i j h h']; exact hd b hb)
      (by
        intro i j
        show _ ≤ (if ch.masked i j then ch.nodata else if !msk i j then ch.nodata else ch.dat b i j) ∧
          (if ch.masked i j then ch.nodata else if !msk i j then ch.nodata else ch.dat b i j) ≤ _
        split
        · exact hnd
        split
        · exact hnd
        · exact hs i j)
    refine ⟨v, ?_, fun lo hi' hq => hbd lo hi' fun q h1 h2 h3 => ?_⟩
    · unfold l2
      simp only [Bool.false_eq_true, if_false]
      refine (if_neg ?_).trans ?_
      · exact fun hc => hd 0 (by omega) ((hmr0 0 i j h h').symm.trans hc)
      · rw [hv]; rfl
    · have h4 : ch.masked q.1 q.2 = false ∧ msk q.1 q.2 = true := by
        have h3' : (if ch.masked q.1 q.2 then ch.nodata else if !msk q.1 q.2 then ch.nodata else ch.dat b q.1 q.2) ≠ ch.nodata := h3 b hb
        constructor
        · by_contra hc
          simp [hc] at h3'
        · by_contra hc
          simp [hc] at h3'
      show _ ≤ (if ch.masked q.1 q.2 then ch.nodata else if !msk q.1 q.2 then ch.nodata else ch.dat b q.1 q.2) ∧
          (if ch.masked q.1 q.2 then ch.nodata else if !msk q.1 q.2 then ch.nodata else ch.dat b q.1 q.2) ≤ _
      rw [hmr0 b _ _ h4.1 h4.2]
      exact hq q ⟨h1, h2, h4.1, h4.2⟩

/-- C99, violated: without fine resolution data in the whole chunk, the coarse data are copied even for the
pixels that are excluded by the processing mask. -/
theorem c99_mask_violated (ex sq dbl flt : ℚ → ℚ) (ch : Chunk) (msk : Int → Int → Bool) (b : Nat) (i j : Int)
    (_ : ch.masked i j = true) : l2 ex sq dbl flt true ch msk b i j = .ok (ch.dat b i j) := rfl

/-- C99, violated: if one band of a valid pixel is nodata, all bands of the product are zero there (neither nodata nor the
data). -/
theorem c99_band_violated (ex sq dbl flt : ℚ → ℚ) (ch : Chunk) (msk : Int → Int → Bool) (b b' : Nat) (hb' : b' < ch.nbMr)
    (i j : Int) (hm : ch.masked i j = false) (hv : msk i j = true) (hd : ch.dat b' i j = ch.nodata) :
    l2 ex sq dbl flt false ch msk b i j = .ok 0 := by
  unfold l2
  simp only [Bool.false_eq_true, if_false, hm, hv, Bool.not_true]
  split
  · rfl
  · rw [c98_nodata ex dbl flt _ i j b b' hb' (by
      show (if ch.masked i j then ch.nodata else if !msk i j then ch.nodata else ch.dat b' i j) = ch.nodata
      simp [hm, hv, hd])]
    rfl

/-- One year of the continuous fields at an unmasked pixel where all features are valid. -/
theorem year_between (ex sq dbl flt : ℚ → ℚ) (hex : ∀ x, 0 < ex x) (hdbl : ∀ x, |dbl x - x| ≤ |x| / 2 ^ 40)
    (hflt : ∀ x, Nearest 24 x (flt x)) (ch : Chunk) (hfar : Far ch) (msk : Nat → Int → Int → Bool) (f : Nat) (hf : f < ch.nbMr)
    (hs : ∀ i j, -32768 ≤ ch.dat f i j ∧ ch.dat f i j ≤ 32767) (hnd : -32768 ≤ ch.nodata ∧ ch.nodata ≤ 32767)
    (i j : Int) (hi : InImage ch.nx ch.ny i j) (hm : ch.masked i j = false)
    (hv : ∀ f < ch.nbMr, msk f i j = true ∧ ch.dat f i j ≠ ch.nodata) :
    ∃ v, year ex sq dbl flt ch msk f i j = .ok v ∧
        ∀ lo hi : Int, (∀ q, Source ch (msk f) i j q → lo ≤ ch.dat f q.1 q.2 ∧ ch.dat f q.1 q.2 ≤ hi) → lo ≤ v ∧ v ≤ hi := by
  have hmr0 : ∀ f i j, ch.masked i j = false → msk f i j = true →
      (if ch.masked i j then ch.nodata else if !msk f i j then ch.nodata else ch.dat f i j) = ch.dat f i j := by
    intro b i j h1 h2
    simp [h1, h2]
  obtain ⟨v, hv', hbd⟩ := predict_between ex sq dbl flt hex hdbl hflt ch hfar
    (fun f i j => if ch.masked i j then ch.nodata else if !msk f i j then ch.nodata else ch.dat f i j) i j f hi
    (by intro b hb; show (if ch.masked i j then ch.nodata else if !msk b i j then ch.nodata else ch.dat b i j) ≠ _
        rw [hmr0 b i j hm (hv b hb).1]; exact (hv b hb).2)
    (by
      intro i j
      show _ ≤ (if ch.masked i j then ch.nodata else if !msk f i j then ch.nodata else ch.dat f i j) ∧
        (if ch.masked i j then ch.nodata else if !msk f i j then ch.nodata else ch.dat f i j) ≤ _
      split
      · exact hnd
      split
      · exact hnd
      · exact hs i j)
  refine ⟨v, ?_, fun lo hi' hq => hbd lo hi' fun q h1 h2 h3 => ?_⟩
  · unfold year
    have h0 := hv 0 (by omega)
    refine (if_neg ?_).trans ?_
    · exact fun hc => h0.2 ((hmr0 0 i j hm h0.1).symm.trans hc)
    · rw [hv']; rfl
  · have h4 : ch.masked q.1 q.2 = false ∧ msk f q.1 q.2 = true := by
      have h3' : (if ch.masked q.1 q.2 then ch.nodata else if !msk f q.1 q.2 then ch.nodata else ch.dat f q.1 q.2) ≠ ch.nodata := h3 f hf
      constructor
      · by_contra hc
        simp [hc] at h3'
      · by_contra hc
        simp [hc] at h3'
    show _ ≤ (if ch.masked q.1 q.2 then ch.nodata else if !msk f q.1 q.2 then ch.nodata else ch.dat f q.1 q.2) ∧
        (if ch.masked q.1 q.2 then ch.nodata else if !msk f q.1 q.2 then ch.nodata else ch.dat f q.1 q.2) ≤ _
    rw [hmr0 f _ _ h4.1 h4.2]
    exact hq q ⟨h1, h2, h4.1, h4.2⟩

theorem years_all (empty : Int → Bool) (copy predict : Int → Plane) (ys : List Int) (h : ∀ y ∈ ys, empty y = false) :
    years empty copy predict ys = ys.map predict := by
  induction ys with
  | nil => rfl
  | cons y t ih =>
    unfold years
    rw [h y List.mem_cons_self, ih fun x hx => h x (List.mem_cons_of_mem _ hx)]
    rfl

/-- C101: continuous fields, if all requested years are in the file (`n` bands from year `y0` on) and have fine resolution data: there
is one band for each requested year, and at unmasked pixels where all features are valid it is between the smallest and the largest
value of the valid, unmasked pixels of the feature in the band of this year within the radius. -/
theorem c101_fields_partial (ex sq dbl flt : ℚ → ℚ) (hex : ∀ x, 0 < ex x) (hdbl : ∀ x, |dbl x - x| ≤ |x| / 2 ^ 40)
    (hflt : ∀ x, Nearest 24 x (flt x)) (empty : Int → Bool) (chunk : Int → Nat → Chunk) (msk : Nat → Int → Int → Bool)
    (y0 n : Int) (ys : List Int) (hy : ∀ y ∈ ys, y0 ≤ y ∧ y < y0 + n ∧ empty y = false) :
    ∃ planes, confield ex sq dbl flt empty chunk msk y0 n ys = some planes ∧ planes.length = ys.length ∧
      ∀ k (hk : k < ys.length) (hk' : k < planes.length), ∀ ch, ch = chunk ys[k] (ys[k] - y0).toNat → Far ch → ∀ f < ch.nbMr,
        (∀ i j, -32768 ≤ ch.dat f i j ∧ ch.dat f i j ≤ 32767) → -32768 ≤ ch.nodata ∧ ch.nodata ≤ 32767 →
        ∀ i j, InImage ch.nx ch.ny i j → ch.masked i j = false →
          (∀ f < ch.nbMr, msk f i j = true ∧ ch.dat f i j ≠ ch.nodata) →
          ∃ v, planes[k] f i j = .ok v ∧
            ∀ lo hi : Int, (∀ q, Source ch (msk f) i j q → lo ≤ ch.dat f q.1 q.2 ∧ ch.dat f q.1 q.2 ≤ hi) → lo ≤ v ∧ v ≤ hi := by
  refine ⟨ys.map fun y f i j => if y - y0 < 0 then .ub else year ex sq dbl flt (chunk y (y - y0).toNat) msk f i j, ?_, by simp, ?_⟩
  · unfold confield
    rw [if_neg, years_all _ _ _ _ fun y h => (hy y h).2.2]
    rw [Bool.not_eq_true, List.any_eq_false]
    intro y h
    have := hy y h
    simp only [decide_eq_true_eq]
    omega
  · rintro k hk hk' ch rfl hfar f hf hs hnd i j hi hm hv
    have hyk := hy ys[k] (List.getElem_mem hk)
    rw [List.getElem_map, if_neg (by omega)]
    exact year_between ex sq dbl flt hex hdbl hflt _ hfar msk f hf hs hnd i j hi hm hv

/-- C101, violated: pixels that are excluded by the processing mask are zero in the product, not nodata. -/
theorem c101_mask_violated (ex sq dbl flt : ℚ → ℚ) (ch : Chunk) (msk : Nat → Int → Int → Bool) (f : Nat) (i j : Int)
    (hm : ch.masked i j = true) : year ex sq dbl flt ch msk f i j = .ok 0 := by
  unfold year
  simp [hm]

/-- C101, violated: where the first feature is not valid, all features are zero in the product (valid features
are not predicted, invalid features do not keep the data). -/
theorem c101_feature_violated (ex sq dbl flt : ℚ → ℚ) (ch : Chunk) (msk : Nat → Int → Int → Bool) (f : Nat) (i j : Int)
    (hm : ch.masked i j = false) (hv : msk 0 i j = false) : year ex sq dbl flt ch msk f i j = .ok 0 := by
  unfold year
  simp [hm, hv]

theorem years_after (empty : Int → Bool) (copy predict : Int → Plane) (y : Int) (before after : List Int)
    (hb : ∀ y' ∈ before, empty y' = false) (he : empty y = true) :
    (years empty copy predict (before ++ y :: after)).drop (before.length + 1) =
      List.replicate after.length fun _ _ _ => .ok 0 := by
  induction before with
  | nil =>
    show (years empty copy predict (y :: after)).drop 1 = _
    unfold years
    rw [he]
    simp
  | cons x t ih =>
    show (years empty copy predict (x :: (t ++ y :: after))).drop _ = _
    unfold years
    rw [hb x List.mem_cons_self]
    exact ih fun z hz => hb z (List.mem_cons_of_mem _ hz)

/-- C101, violated: after the first requested year without fine resolution data, the bands of all further years are zero, whatever data
there are. -/
theorem c101_years_violated (ex sq dbl flt : ℚ → ℚ) (empty : Int → Bool) (chunk : Int → Nat → Chunk)
    (msk : Nat → Int → Int → Bool) (y0 n y : Int) (before after : List Int)
    (hy : ∀ y' ∈ before ++ y :: after, y' < y0 + n) (hb : ∀ y' ∈ before, empty y' = false) (he : empty y = true) :
    ∃ planes, confield ex sq dbl flt empty chunk msk y0 n (before ++ y :: after) = some planes ∧
      planes.drop (before.length + 1) = List.replicate after.length fun _ _ _ => .ok 0 := by
  unfold confield
  rw [if_neg]
  · exact ⟨_, rfl, years_after empty _ _ y before after hb he⟩
  · rw [Bool.not_eq_true, List.any_eq_false]
    intro y h
    have := hy y h
    simp only [decide_eq_true_eq]
    omega

/-- C101: a requested year after the last band of the file is rejected. -/
theorem c101_rejected (ex sq dbl flt : ℚ → ℚ) (empty : Int → Bool) (chunk : Int → Nat → Chunk)
    (msk : Nat → Int → Int → Bool) (y0 n : Int) (ys : List Int) (y : Int) (hm : y ∈ ys) (hy : y0 + n ≤ y) :
    confield ex sq dbl flt empty chunk msk y0 n ys = none := by
  unfold confield
  rw [if_pos]
  rw [List.any_eq_true]
  exact ⟨y, hm, by simp only [decide_eq_true_eq]; omega⟩

/-- C101, violated: a requested year before the first year of the file is not rejected; data before the first band
are read. -/
theorem c101_before_violated (ex sq dbl flt : ℚ → ℚ) (empty : Int → Bool) (chunk : Int → Nat → Chunk)
    (msk : Nat → Int → Int → Bool) (y0 n y : Int) (hn : 0 < n) (hy : y < y0) (f : Nat) (i j : Int) :
    ∃ plane, confield ex sq dbl flt empty chunk msk y0 n [y] = some [plane] ∧ plane f i j = .ub := by
  unfold confield
  rw [if_neg (by simp; omega)]
  unfold years
  cases empty y
  · refine ⟨_, rfl, ?_⟩
    exact if_pos (by omega)
  · refine ⟨_, rfl, ?_⟩
    exact if_pos (by omega)

end Verif.Imp
