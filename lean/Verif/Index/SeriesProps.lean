import Verif.Index.ResProps

/-! # C77: the index time series of a pixel -/

namespace Verif.Index

open Verif.Float Verif.Str Spec

theorem bindOk {α β : Type} {x : Out α} {g : α → Out β} {b : β} (h : x.bind g = .ok b) :
    ∃ a, x = .ok a ∧ g a = .ok b := by
  cases x with
  | ok a => exact ⟨a, rfl, h⟩
  | exit => cases h
  | ub => cases h

/-- C77: the series has one value per date; outside of the processing mask, and where the observation is
masked, it is the nodata value; everywhere else it is the value computed from the observation of this
date, whatever the other dates hold. -/
theorem c77_series {α : Type} (mask : Option Bool) (nodata : Int) (px : α → Out Int)
    (obs : List (Bool × α)) (l : List Int) (h : series mask nodata px obs = .ok l) :
    l.length = obs.length ∧ ∀ (t : Nat) (ok : Bool) (x : α), obs[t]? = some (ok, x) →
      ((mask = some false ∨ ok = false) → l[t]? = some nodata) ∧
      (mask ≠ some false → ok = true → ∃ v, px x = .ok v ∧ l[t]? = some v) := by
  induction obs generalizing l with
  | nil => simp [series] at h; subst h; simp
  | cons o rest ih =>
    obtain ⟨ok, x⟩ := o
    rw [series] at h
    obtain ⟨v, hv, h⟩ := bindOk h
    obtain ⟨l', hl', h⟩ := bindOk h
    injection h with h
    subst h
    obtain ⟨i1, i2⟩ := ih l' hl'
    refine ⟨by simp [i1], ?_⟩
    intro t ok' x' ht
    cases t with
    | zero =>
      simp only [List.getElem?_cons_zero, Option.some.injEq, Prod.mk.injEq] at ht
      obtain ⟨rfl, rfl⟩ := ht
      constructor
      · intro hm
        by_cases hmask : mask = some false
        · rw [if_pos hmask] at hv; injection hv with hv; simp [hv]
        · rw [if_neg hmask] at hv
          have : ok = false := by tauto
          subst this
          simp at hv
          simp [hv]
      · intro h1 h2
        rw [if_neg h1, h2] at hv
        simp at hv
        exact ⟨v, hv, by simp⟩
    | succ t =>
      simp only [List.getElem?_cons_succ] at ht ⊢
      exact i2 t ok' x' ht

/-- C77: masked observations are not evaluated: the series can be computed if the value of every unmasked
observation can. -/
theorem c77_masked {α : Type} (mask : Option Bool) (nodata : Int) (px : α → Out Int)
    (obs : List (Bool × α)) (h : mask = some false ∨ ∀ x, (true, x) ∈ obs → ∃ v, px x = .ok v) :
    ∃ l, series mask nodata px obs = .ok l := by
  induction obs with
  | nil => exact ⟨[], rfl⟩
  | cons o rest ih =>
    obtain ⟨ok, x⟩ := o
    obtain ⟨l, hl⟩ := ih (by
      rcases h with h | h
      · exact Or.inl h
      · exact Or.inr fun y hy => h y (by simp [hy]))
    have : ∃ v, (if mask = some false then Out.ok nodata else if !ok then .ok nodata else px x) = .ok v := by
      by_cases hm : mask = some false
      · rw [if_pos hm]; exact ⟨_, rfl⟩
      · rw [if_neg hm]
        cases ok with
        | false => exact ⟨nodata, rfl⟩
        | true =>
          rcases h with h | h
          · exact absurd h hm
          · obtain ⟨v, hv⟩ := h x (by simp)
            exact ⟨v, by simpa using hv⟩
    obtain ⟨v, hv⟩ := this
    refine ⟨v :: l, ?_⟩
    rw [series, hv]
    simp only [Out.bind, hl]

/-- C77: a band that is requested as an index is copied. -/
theorem c77_band (mask : Option Bool) (nodata : Int) (obs : List (Bool × Int)) :
    series mask nodata bandValue obs =
      .ok (obs.map fun o => if mask = some false ∨ o.1 = false then nodata else o.2) := by
  induction obs with
  | nil => rfl
  | cons o rest ih =>
    obtain ⟨ok, x⟩ := o
    rw [series, ih]
    cases ok <;> by_cases hm : mask = some false <;> simp [hm, bandValue, Out.bind]

/-- C77, violated: a valid value can be the nodata value -9999, after which the observation counts as
missing; e.g. for EVI and these reflectances, all in 0 to 1, where the formula gives -0.99995. -/
theorem c77_collision_violated (f d ex sq : ℚ → ℚ) (hf : ∀ x, Nearest 24 x (f x)) (j : Int) (h0 : 0 ≤ j)
    (h1 : j ≤ 399) :
    equation f d ex sq (-9999) "EVI" [14 + 15 * j, 4014 + 15 * j, 3213 + 14 * j] = .ok (-9999) := by
  have hden : ((14 + 15 * j : Int) : ℝ) / 10000 + 6 * (((4014 + 15 * j : Int) : ℝ) / 10000) -
      7.5 * (((3213 + 14 * j : Int) : ℝ) / 10000) + 1 = 10000.5 / 10000 := by push_cast; ring
  have hx : 10000 * (2.5 * (((14 + 15 * j : Int) : ℝ) / 10000 - ((4014 + 15 * j : Int) : ℝ) / 10000) /
      (((14 + 15 * j : Int) : ℝ) / 10000 + 6 * (((4014 + 15 * j : Int) : ℝ) / 10000) -
      7.5 * (((3213 + 14 * j : Int) : ℝ) / 10000) + 1)) = -10000 / 1.00005 := by
    rw [hden]; push_cast; ring
  have hval := (c73_value_partial f d ex sq hf (-9999) .evi (14 + 15 * j) (4014 + 15 * j) (3213 + 14 * j)
    ⟨by omega, by omega⟩ ⟨by omega, by omega⟩ ⟨by omega, by omega⟩ _ rfl).2
  rw [hx] at hval
  obtain ⟨v, hv, y, hy, hp⟩ := hval (by rw [hden]; norm_num) (by norm_num) (by norm_num)
  have hy' := abs_le.1 hy
  norm_num at hy'
  have hyneg : y < 0 := by linarith
  unfold IntegerPart at hp
  rw [abs_of_neg hyneg] at hp
  have hvn : (v : ℝ) ≤ 0 := by
    by_contra hc
    have := mul_neg_of_pos_of_neg (not_le.1 hc) hyneg
    linarith [hp.2.2]
  rw [abs_of_nonpos hvn] at hp
  have a : (-10000 : ℝ) < v := by linarith
  have b : (v : ℝ) < -9998 := by linarith
  have a' : -10000 < v := by exact_mod_cast a
  have b' : v < -9998 := by exact_mod_cast b
  rw [hv]
  congr 1
  omega

end Verif.Index
