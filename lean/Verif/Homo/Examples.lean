import Verif.Homo.Props
import Verif.Homo.Cosine

/-!
# Examples for the spectral adjustment
-/

namespace Verif.Homo

open Verif.Str Verif.Homo.Spec Verif.Float

/-- Angles with one value for a cluster, one for the global cluster, and one for the rest. -/
noncomputable def angles (c : Nat) (a g r : ℝ) : Nat → ℝ := fun s => if s = c then a else if s = 50 then g else r

/-- `c196_nearest_partial`: cluster 3 is similar. -/
example : ((selected fun s => weight (angles 3 0.05 0.5 1 s)).map Prod.fst).Nodup ∧
    3 ∈ (selected fun s => weight (angles 3 0.05 0.5 1 s)).map Prod.fst := by
  have h := c196_nearest_partial (angles 3 0.05 0.5 1)
    (fun h => by rcases h with h | h <;> norm_num [angles] at h) (Or.inl (by norm_num [angles]))
  simp only at h
  refine ⟨h.1, ?_⟩
  by_contra hc
  obtain ⟨k1, k2, k3⟩ := h.2.2.2.1 3 (by norm_num) (Or.inl (by norm_num [angles])) hc
  -- all ten would be at least as near as cluster 3, and different from it
  have h3 := h.2.2.1
  generalize (selected fun s => weight (angles 3 0.05 0.5 1 s)).map Prod.fst = used at *
  cases used with
  | nil => simp at k2
  | cons u us =>
    have m := k3 u (by simp)
    have : u ≠ 3 := fun e => hc (by simp [e])
    have : u ≠ 50 := fun e => k1 (by simp [e])
    unfold angles at m
    rw [if_neg (by assumption), if_neg (by assumption), if_pos rfl] at m
    norm_num at m

/-- `c196_nine_violated`: the pixel is the centre of cluster 9. -/
example : (selected fun s => weight (angles 9 0 0.5 1 s)).map Prod.fst = [50] :=
  (c196_nine_violated (angles 9 0 0.5 1) (by norm_num [angles]) (by norm_num [angles])
    (fun s hs hn => by unfold angles; rw [if_neg hn, if_neg (by omega)]; norm_num)).2

/-- `c196_global_violated`: cluster 7 is at 0.2 rad, the global one at 0.01 rad. -/
example : (selected fun s => weight (angles 7 0.2 0.01 1 s)).map Prod.fst = [50, 7, 50] :=
  (c196_global_violated (angles 7 0.2 0.01 1) 7 (by norm_num) (by norm_num [angles]) (by norm_num [angles])
    (by norm_num [angles]) (fun s hs hn => by unfold angles; rw [if_neg hn, if_neg (by omega)]; norm_num)).2

/-- `c196_close`: no cluster at 1 rad is used. -/
example : 4 ∉ (selected fun s => weight (angles 3 0.05 0.5 1 s)).map Prod.fst := by
  intro h
  rcases (c196_close (angles 3 0.05 0.5 1)).1 4 h with h | h
  · omega
  · have := h.2
    norm_num [angles] at this

/-- Tables: all centres are equal, all regressions give the red band. -/
def flat : Tables := { center := fun _ => [300, 500, 400, 3000, 2000, 1000], coef := fun _ _ => [0, 0, 1, 0, 0, 0, 0] }

theorem regress_flat (x : List ℤ) (hx : x = [300, 500, 400, 3000, 2000, 1000]) (b s : Nat) :
    regress (flat.coef b s) x = 400 := by
  subst hx
  norm_num [regress, flat]

theorem sam_flat (s : Nat) : sam [300, 500, 400, 3000, 2000, 1000] (flat.center s) = 0 := by
  unfold sam flat
  have e : dot [300, 500, 400, 3000, 2000, 1000] [300, 500, 400, 3000, 2000, 1000] = 14500000 := by decide
  simp only [e]
  rw [if_pos (by norm_num)]
  rw [Real.sqrt_mul_self (by norm_num)]
  norm_num

/-- `c195_range`: one value for all. -/
example : (adjustPixel flat 10 [300, 500, 400, 3000, 2000, 1000])[6]? = some 400 := by
  obtain ⟨v, h1, h2, h3⟩ := c195_range flat 10 [300, 500, 400, 3000, 2000, 1000] 6 (by norm_num) 400 400
    (by rw [sam_flat]; norm_num) (fun s _ => by rw [← regress_eq, regress_flat _ rfl]; norm_num)
  have : v = 400 := by omega
  rw [h1, this]

/-- `c196_brightness`: a spectrum and its double. -/
example (center : Nat → List ℤ) : (selected fun s => weight (sam [600, 1000, 800, 6000, 4000, 2000] (center s)))
    = selected fun s => weight (sam [300, 500, 400, 3000, 2000, 1000] (center s)) :=
  c196_brightness center [300, 500, 400, 3000, 2000, 1000] 2 (by norm_num)

/-- A Landsat image with ten bands. -/
def landsat : Image :=
  { sensor := "LND08", domain := ["BLUE", "GREEN", "RED", "REDEDGE1", "REDEDGE2", "REDEDGE3", "BROADNIR", "NIR", "SWIR1", "SWIR2"],
    msk := fun p => p != 1, dat := fun b _ => [300, 500, 400, -9999, -9999, -9999, -9999, 3000, 2000, 1000].getD b 0 }

/-- The same for Sentinel-2. -/
def sentinel : Image := { landsat with sensor := "SEN2A" }

/-- No bands. -/
def noBands : Image := { landsat with domain := [] }

/-- `c197_stop`: these images can be adjusted, an image without bands cannot. -/
example : (∃ r, adjust (fun _ => flat) (fun _ => true) [landsat, sentinel] = .ok r) ∧
    ¬ ∃ r, adjust (fun _ => flat) (fun _ => true) [noBands] = .ok r := by
  refine ⟨(c197_stop _ _ _).1.2 ?_, fun h => ?_⟩
  · intro im him
    simp only [List.mem_cons, List.not_mem_nil, or_false] at him
    rcases him with rfl | rfl
    · exact ⟨by decide, by decide⟩
    · exact ⟨by decide, by decide⟩
  · have := ((c197_stop _ _ _).1.1 h noBands (by simp)).1 "BLUE" (by simp)
    simp [noBands] at this

/-- `c197_only`, `c197_written`: the second pixel of the Landsat image is kept, in the first the broad
near infrared band is predicted. -/
example (r : List Image) (h : adjust (fun _ => flat) (fun _ => true) [landsat, sentinel] = .ok r) :
    ∃ im, r[0]? = some im ∧ r[1]? = some sentinel ∧ im.dat 6 1 = -9999 ∧ im.dat 6 0 = 400 := by
  obtain ⟨-, h2⟩ := c197_only _ _ _ _ h
  obtain ⟨im, k1, k2⟩ := h2 0 landsat rfl
  obtain ⟨im2, l1, l2⟩ := h2 1 sentinel rfl
  refine ⟨im, k1, by rw [l1, l2.2.2.2.1 (by simp [sentinel])], ?_, ?_⟩
  · rw [k2.2.2.2.2.1 6 1 (Or.inr (by simp [landsat]))]
    rfl
  · have := c197_written _ _ _ _ h 0 landsat im rfl k1 3 rfl (by decide) 0 rfl rfl
      [300, 500, 400, 3000, 2000, 1000] rfl (by
        intro j d b hj hb
        have hj6 : j < 6 := (List.getElem?_eq_some_iff.1 hj).1
        have hb10 : b < landsat.domain.length := (List.getElem?_eq_some_iff.1 hb).1
        have at_ : ∀ k, landsat.domain[k]? = some d → b = k := fun k hk =>
          (List.getElem?_inj hb10 (by decide)).1 (hb.trans hk.symm)
        have : b = [0, 1, 2, 7, 8, 9].getD j 0 := by
          apply at_
          rw [← hj]
          interval_cases j <;> rfl
        subst this
        interval_cases j <;> rfl) 6 6 "BROADNIR" rfl rfl
    obtain ⟨v, h1, h2, h3⟩ := c195_range flat 10 [300, 500, 400, 3000, 2000, 1000] 6 (by norm_num) 400 400
      (by rw [sam_flat]; norm_num) (fun s _ => by rw [← regress_eq, regress_flat _ rfl]; norm_num)
    rw [this] at h1
    have := Option.some.inj h1
    omega

/-- `c195_cosine`: the roundings exist for a spectrum and itself. -/
example : ∃ r s q : ℚ, Nearest 53 ((dot [1, 2, 3, 4, 5, 6] [1, 2, 3, 4, 5, 6] : ℚ) * dot [1, 2, 3, 4, 5, 6] [1, 2, 3, 4, 5, 6]) r ∧
    NearestR (Real.sqrt r) s ∧ Nearest 53 ((dot [1, 2, 3, 4, 5, 6] [1, 2, 3, 4, 5, 6] : ℚ) / s) q ∧ q = 1 := by
  have e : dot [1, 2, 3, 4, 5, 6] [1, 2, 3, 4, 5, 6] = 91 := by decide
  have h91 : Rep 53 91 := by have := rep_int (p := 53) (k := 91) (by norm_num); simpa using this
  have h8281 : Rep 53 8281 := by have := rep_int (p := 53) (k := 8281) (by norm_num); simpa using this
  have h1 : Rep 53 1 := by have := rep_int (p := 53) (k := 1) (by norm_num); simpa using this
  refine ⟨8281, 91, 1, ?_, ⟨h91, ?_⟩, ?_, rfl⟩
  · rw [e]
    norm_num
    exact nearest_of_rep h8281
  · intro f _
    have : Real.sqrt ((8281 : ℚ) : ℝ) = 91 := by
      rw [show (((8281 : ℚ) : ℝ)) = 91 ^ 2 by norm_num]
      exact Real.sqrt_sq (by norm_num)
    rw [this]
    norm_num
  · rw [e]
    norm_num
    exact nearest_of_rep h1

end Verif.Homo
