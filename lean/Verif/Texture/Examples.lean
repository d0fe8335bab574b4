import Verif.Texture.Props

/-!
# The hypotheses of the theorems about texture can be met
-/

namespace Verif.Texture

open Spec

/-- The ellipse of radius 1. -/
def cross : List (ℤ × ℤ) := [(-1, 0), (0, -1), (0, 0), (0, 1), (1, 0)]

theorem cross_element : Element cross := by unfold Element; decide

theorem cross_reach : Reach cross 1 := by unfold Reach; decide

/-- A feature with a pixel without data. -/
def feature : Feature := ⟨fun i j => if i = 3 ∧ j = 3 then -9999 else 100, fun i j => !decide (i = 3 ∧ j = 3)⟩

theorem feature_short : Short feature.dat := by
  intro i j
  unfold feature
  simp only
  split <;> norm_num

/-- An image of 10 x 10 pixels. -/
def rect : Rect := ⟨0, 10, 0, 10⟩

example : texture rect cross 2 true (-9999) (fun _ _ => true) feature .opn 5 5 ≤ 100 :=
  (c193_order rect cross 2 (-9999) (fun _ _ => true) feature 5 5 cross_element feature_short (by unfold In; decide) true
    (by decide)).2.1

example : morph rect cross 2 (morph rect cross 2 feature.dat .opn) .opn 5 5 = morph rect cross 2 feature.dat .opn 5 5 :=
  (c193_idempotent rect cross 2 feature.dat 5 5 cross_element feature_short (by unfold In; decide)).1

example : texture rect cross 2 true (-9999) (fun _ _ => true) feature .dil 3 3 = -9999 :=
  c193_excluded _ _ _ _ _ _ _ _ _ (Or.inr (by decide))

example : texture rect cross 1 true (-9999) (fun _ _ => true) feature .ero 3 4 = -9999 :=
  (c193_nodata_violated rect cross true (-9999) (fun _ _ => true) feature 3 4 (0, -1) (by decide) (by unfold In; decide)
    (by decide) (by intro i j; unfold feature; simp only; split <;> norm_num) (by norm_num) rfl (by decide)).1

example : texture rect cross 1 false (-9999) (fun _ _ => false) feature .dil 5 5 = 100 := by
  rw [c193_mask_violated]
  decide

/-- Two blocks of five rows. -/
def upper : Rect := ⟨0, 5, 0, 10⟩

example : morph (readRect rect upper 4) cross 2 feature.dat .opn 4 4 = morph rect cross 2 feature.dat .opn 4 4 :=
  c194_wide rect upper cross 1 2 _ _ 4 4 4 cross_reach (by norm_num) (by unfold In; decide) (by unfold In; decide)
    (by norm_num)

example : morph (readRect rect upper (halo 1 2)) cross 2 feature.dat .ero 4 4 = morph rect cross 2 feature.dat .ero 4 4 :=
  c194_halo_partial rect upper cross 1 2 _ _ 4 4 cross_reach (by unfold In; decide) (by unfold In; decide) (Or.inl rfl)

example : ∃ f : ℤ → ℤ → ℤ, Short f ∧
    morph (readRect ⟨-100, 100, 0, 50⟩ ⟨0, 50, 0, 50⟩ (halo 1 2)) cross 2 f .opn 0 20 = 10 ∧
    morph ⟨-100, 100, 0, 50⟩ cross 2 f .opn 0 20 = 0 :=
  c194_halo_violated _ _ cross 1 2 20 (by norm_num) (by norm_num) cross_element cross_reach (by decide)
    ⟨by norm_num, by norm_num, by norm_num, by norm_num⟩ ⟨rfl, by norm_num, by norm_num, by norm_num⟩

end Verif.Texture
