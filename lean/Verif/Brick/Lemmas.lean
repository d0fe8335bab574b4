import Mathlib.Data.List.Nodup
import Mathlib.Tactic.Linarith
import Mathlib.Tactic.Ring
import Mathlib.Tactic.FieldSimp
import Verif.Brick.Spec
import Verif.Float

namespace Verif.Brick

theorem copyPairs_some {V : Type} (src : List V) (ps : List (Nat × Nat)) (out : List V)
    (hb : ∀ q ∈ ps, q.1 < out.length ∧ q.2 < src.length) (hn : (ps.map Prod.fst).Nodup) :
    ∃ out', copyPairs src ps out = some out' ∧ out'.length = out.length ∧
      (∀ k, k ∉ ps.map Prod.fst → out'[k]? = out[k]?) ∧ ∀ q ∈ ps, out'[q.1]? = src[q.2]? := by
  induction ps generalizing out with
  | nil => exact ⟨out, rfl, rfl, by simp, by simp⟩
  | cons q ps ih =>
    obtain ⟨d, s⟩ := q
    have hq := hb (d, s) (by simp)
    simp only [List.map_cons, List.nodup_cons] at hn
    obtain ⟨out', e, l, h1, h2⟩ := ih (out.set d src[s]) (by
      intro q hq'; have := hb q (by simp [hq']); simpa using this) hn.2
    refine ⟨out', ?_, by simpa using l, ?_, ?_⟩
    · simp only at hq
      simp [copyPairs, hq.1, hq.2, e]
    · intro k hk
      simp only [List.map_cons, List.mem_cons, not_or] at hk
      rw [h1 k hk.2, List.getElem?_set_ne (Ne.symm hk.1)]
    · intro q hq'
      rcases List.mem_cons.1 hq' with rfl | hq'
      · simp only at hq
        rw [h1 d hn.1, List.getElem?_set_self hq.1, List.getElem?_eq_getElem hq.2]
      · exact h2 q hq'

theorem copyPairs_none {V : Type} (src : List V) (ps : List (Nat × Nat)) (out : List V)
    (h : ∃ q ∈ ps, out.length ≤ q.1) : copyPairs src ps out = none := by
  induction ps generalizing out with
  | nil => simp at h
  | cons q ps ih =>
    obtain ⟨d, s⟩ := q
    simp only [copyPairs]
    split
    · rfl
    · split
      · rename_i hd
        apply ih
        obtain ⟨q, hq, hl⟩ := h
        rcases List.mem_cons.1 hq with rfl | hq
        · simp only at hl; omega
        · exact ⟨q, hq, by simpa using hl⟩
      · rfl

theorem mem_cells {ny nx i j : Nat} : (i, j) ∈ cells ny nx ↔ i < ny ∧ j < nx := by
  simp [cells]

theorem row_major_inj {n i j i' j' : Nat} (hj : j < n) (hj' : j' < n)
    (h : i * n + j = i' * n + j') : i = i' ∧ j = j' := by
  have e1 : (i * n + j) / n = i := by
    rw [Nat.mul_comm, Nat.mul_add_div (by omega), Nat.div_eq_of_lt hj, Nat.add_zero]
  have e2 : (i' * n + j') / n = i' := by
    rw [Nat.mul_comm, Nat.mul_add_div (by omega), Nat.div_eq_of_lt hj', Nat.add_zero]
  have : i = i' := by rw [← e1, ← e2, h]
  subst this
  exact ⟨rfl, by omega⟩

theorem cells_nodup (ny nx : Nat) : (cells ny nx).Nodup := by
  unfold cells
  rw [List.nodup_flatMap]
  refine ⟨?_, ?_⟩
  · intro i _
    exact List.Nodup.map (fun a b h => by simpa using h) List.nodup_range
  · refine List.Pairwise.imp_of_mem ?_ List.nodup_range
    intro a b _ _ hab
    simp only [Function.onFun, List.disjoint_left, List.mem_map]
    rintro x ⟨j, -, rfl⟩ ⟨j', -, h⟩
    simp only [Prod.mk.injEq] at h
    exact hab h.1.symm

theorem row_major_lt {n m i j : Nat} (hi : i < m) (hj : j < n) : i * n + j < n * m := by
  have : (i + 1) * n ≤ m * n := Nat.mul_le_mul_right n hi
  rw [Nat.add_mul] at this
  rw [Nat.mul_comm n m]
  omega

/-! ## Rounding -/

open Verif.Float in
/-- If `x` is closer than half a unit of the last place to a `p`-bit number (not a power of two),
then this is the only nearest number. -/
theorem nearest_unique {p : Nat} {x s : ℚ} {m e : ℤ} (hp : 0 < p)
    (hm : 2 ^ (p - 1) < m) (hx : |x - m * (2 : ℚ) ^ e| < (2 : ℚ) ^ (e - 1)) (hr : Rep p (m * (2 : ℚ) ^ e))
    (h : Nearest p x s) : s = m * (2 : ℚ) ^ e := by
  obtain ⟨⟨m', e', hm', rfl⟩, hn⟩ := h
  have h1 := hn _ hr
  have two : (2 : ℚ) ^ e = 2 * (2 : ℚ) ^ (e - 1) := by
    rw [zpow_sub₀ (by norm_num : (2 : ℚ) ≠ 0)]; simp; ring
  have pos : (0 : ℚ) < (2 : ℚ) ^ (e - 1) := by positivity
  have h2 : |x - m' * (2 : ℚ) ^ e'| < (2 : ℚ) ^ (e - 1) := lt_of_le_of_lt h1 hx
  rw [abs_lt] at hx h2
  rcases le_or_gt e e' with he | he
  · obtain ⟨k, hk⟩ : ∃ k : ℤ, m' * (2 : ℚ) ^ e' = k * (2 : ℚ) ^ e := by
      refine ⟨m' * 2 ^ (e' - e).toNat, ?_⟩
      have : e' = e + ((e' - e).toNat : ℤ) := by omega
      conv_lhs => rw [this]
      rw [zpow_add₀ (by norm_num : (2 : ℚ) ≠ 0), zpow_natCast]
      push_cast
      ring
    rw [hk] at h2 ⊢
    have a1 : ((k - m : ℤ) : ℚ) * (2 : ℚ) ^ e < (2 : ℚ) ^ e := by
      push_cast; linarith
    have a2 : -(2 : ℚ) ^ e < ((k - m : ℤ) : ℚ) * (2 : ℚ) ^ e := by
      push_cast; linarith
    have pe : (0 : ℚ) < (2 : ℚ) ^ e := by positivity
    have b1 : ((k - m : ℤ) : ℚ) < 1 := by
      by_contra hc
      have := mul_le_mul_of_nonneg_right (not_lt.1 hc) pe.le
      linarith
    have b2 : (-1 : ℚ) < ((k - m : ℤ) : ℚ) := by
      by_contra hc
      have := mul_le_mul_of_nonneg_right (not_lt.1 hc) pe.le
      linarith
    have b1' : k - m < 1 := by exact_mod_cast b1
    have b2' : -1 < k - m := by exact_mod_cast b2
    have : k = m := by omega
    rw [this]
  · exfalso
    have c1 : (m' : ℚ) ≤ 2 ^ p := by
      have := (abs_le.1 hm').2
      exact_mod_cast this
    have c2 : (2 : ℚ) ^ e' ≤ (2 : ℚ) ^ (e - 1) := zpow_le_zpow_right₀ (by norm_num) (by omega)
    have c3 : (m' : ℚ) * (2 : ℚ) ^ e' ≤ 2 ^ p * (2 : ℚ) ^ (e - 1) := by
      rcases le_or_gt 0 m' with hs | hs
      · exact mul_le_mul c1 c2 (by positivity) (by positivity)
      · have : (m' : ℚ) * (2 : ℚ) ^ e' ≤ 0 :=
          mul_nonpos_of_nonpos_of_nonneg (by exact_mod_cast hs.le) (by positivity)
        have : (0 : ℚ) ≤ 2 ^ p * (2 : ℚ) ^ (e - 1) := by positivity
        linarith
    have c4 : ((2 ^ (p - 1) + 1 : ℤ) : ℚ) ≤ m := by exact_mod_cast hm
    have c5 : ((2 ^ (p - 1) + 1 : ℤ) : ℚ) * (2 : ℚ) ^ e ≤ m * (2 : ℚ) ^ e :=
      mul_le_mul_of_nonneg_right c4 (by positivity)
    have c6 : (2 : ℚ) ^ p = 2 * 2 ^ (p - 1) := by
      rw [← pow_succ']; congr 1; omega
    push_cast at c5
    rw [two] at c5
    rw [c6] at c3
    have : (m : ℚ) * (2 : ℚ) ^ e - 2 ^ (e - 1) < x := by linarith [hx.1]
    rw [two] at this
    linarith [h2.2]

end Verif.Brick
