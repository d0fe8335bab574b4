import Verif.Date.Model
import Verif.Date.Spec

namespace Verif.Date
open Spec

theorem month_cases {m : Int} (h1 : 1 ≤ m) (h2 : m ≤ 12) :
    m = 1 ∨ m = 2 ∨ m = 3 ∨ m = 4 ∨ m = 5 ∨ m = 6 ∨ m = 7 ∨ m = 8 ∨ m = 9 ∨ m = 10 ∨
      m = 11 ∨ m = 12 := by omega

theorem md2doy_eq {m d : Int} (h1 : 1 ≤ m) (h2 : m ≤ 12) : md2doy m d = dayOfYear m d := by
  rcases month_cases h1 h2 with h | h | h | h | h | h | h | h | h | h | h | h <;> subst h <;>
    simp [md2doy, dayOfYear, monthLengths]

theorem doy2m_eq (doy : Int) : doy2m doy = (doy2md doy).1 := by
  unfold doy2m doy2md; simp only [apply_ite Prod.fst]

theorem doy2d_eq (doy : Int) : doy2d doy = (doy2md doy).2 := by
  unfold doy2d doy2md; simp only [apply_ite Prod.snd]

theorem doy2md_valid {doy : Int} (h1 : 1 ≤ doy) (h2 : doy ≤ 365) :
    ValidMD (doy2md doy).1 (doy2md doy).2 := by
  unfold doy2md ValidMD
  repeat' split
  all_goals simp [monthLength, monthLengths]; omega

theorem dayOfYear_doy2md {doy : Int} (_h1 : 1 ≤ doy) :
    dayOfYear (doy2md doy).1 (doy2md doy).2 = doy := by
  unfold doy2md
  repeat' split
  all_goals simp [dayOfYear, monthLengths]
  all_goals omega

theorem doy2md_dayOfYear {m d : Int} (h : ValidMD m d) : doy2md (dayOfYear m d) = (m, d) := by
  obtain ⟨h1, h2, h3, h4⟩ := h
  rcases month_cases h1 h2 with h | h | h | h | h | h | h | h | h | h | h | h <;> subst h <;>
    simp [monthLength, monthLengths, dayOfYear] at h4 ⊢ <;> grind [doy2md]

theorem dayOfYear_range {m d : Int} (h : ValidMD m d) :
    1 ≤ dayOfYear m d ∧ dayOfYear m d ≤ 365 := by
  obtain ⟨h1, h2, h3, h4⟩ := h
  rcases month_cases h1 h2 with h | h | h | h | h | h | h | h | h | h | h | h <;> subst h <;>
    simp [monthLength, monthLengths, dayOfYear] at h4 ⊢ <;> omega

theorem doy2week_eq (doy : Int) : doy2week doy = week doy := by
  unfold doy2week week
  split <;> omega

theorem m2quarter_eq (m : Int) : m2quarter m = quarter m := by
  unfold m2quarter quarter; omega

theorem ce2date_valid (ce : Int) :
    ValidMD (ce2date ce).2.1 (ce2date ce).2.2 ∧
      (ce2date ce).1 * 365 + dayOfYear (ce2date ce).2.1 (ce2date ce).2.2 = ce := by
  unfold ce2date
  dsimp only
  split
  · constructor
    · simp [ValidMD, monthLength, monthLengths]
    · simp [dayOfYear, monthLengths]; omega
  · have h1 : 1 ≤ ce - ce / 365 * 365 := by omega
    have h2 : ce - ce / 365 * 365 ≤ 365 := by omega
    refine ⟨doy2md_valid h1 h2, ?_⟩
    rw [dayOfYear_doy2md h1]; omega

end Verif.Date
