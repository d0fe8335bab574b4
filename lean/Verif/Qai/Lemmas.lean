import Verif.Qai.Spec

namespace Verif.Qai
open Spec

theorem readMask_getLsbD (n k : Nat) (hn : n ≤ 16) : (readMask n).getLsbD k = decide (k < n) := by
  induction n with
  | zero => simp [readMask]
  | succ n ih =>
    rw [readMask, BitVec.getLsbD_or, ih (by omega)]
    simp only [BitVec.getLsbD_shiftLeft, BitVec.getLsbD_one]
    by_cases h : k < n
    · simp [h]; omega
    · by_cases h' : k = n
      · subst h'; simp; omega
      · have h1 : ¬ k < n + 1 := by omega
        have h2 : ¬ k - n = 0 := by omega
        simp [h, h1, h2]

theorem getQai_getLsbD (v : BitVec 16) (i b k : Nat) (h : i + b ≤ 16) :
    (getQai v i b).getLsbD k = (decide (k < b) && v.getLsbD (i + k)) := by
  unfold getQai
  rw [BitVec.getLsbD_and, readMask_getLsbD _ _ (by omega), BitVec.getLsbD_sshiftRight]
  by_cases hk : k < b
  · have h1 : i + k < 16 := by omega
    have h2 : k < 16 := by omega
    simp [hk, h1]; omega
  · simp [hk]

theorem mask_getLsbD (b k : Nat) (hb : b ≤ 15) :
    ((1#16 <<< b) - 1#16 : BitVec 16).getLsbD k = decide (k < b) := by
  have key : ∀ b ≤ 15, ∀ k < 16, ((1#16 <<< b) - 1#16 : BitVec 16).getLsbD k = decide (k < b) := by
    decide
  by_cases hk : k < 16
  · exact key b hb k hk
  · rw [BitVec.getLsbD_of_ge _ _ (by omega)]
    simp; omega

theorem setQai_getLsbD (v : BitVec 16) (i b k : Nat) (x : BitVec 16) (hb : b ≤ 15)
    (hx : x.toNat < 2 ^ b) (hk : k < 16) :
    (setQai v i x b).getLsbD k =
      if i ≤ k ∧ k < i + b then x.getLsbD (k - i) else v.getLsbD k := by
  unfold setQai
  simp only [BitVec.getLsbD_or, BitVec.getLsbD_and, BitVec.getLsbD_not, BitVec.getLsbD_shiftLeft,
    mask_getLsbD _ _ hb, hk, decide_true, Bool.true_and]
  have hxb : ∀ j, b ≤ j → x.getLsbD j = false := by
    intro j hj
    rw [BitVec.getLsbD, Nat.testBit_lt_two_pow]
    exact Nat.lt_of_lt_of_le hx (Nat.pow_le_pow_right (by omega) hj)
  by_cases h1 : i ≤ k
  · by_cases h2 : k < i + b
    · have : k - i < b := by omega
      have h3 : ¬ k < i := by omega
      simp [h1, h2, h3, this]
    · have h3 : ¬ k < i := by omega
      have : ¬ k - i < b := by omega
      simp [h1, h2, h3, this, hxb (k - i) (by omega)]
  · have h3 : k < i := by omega
    simp [h1, h3]

theorem get_eq_value (f : Flag) (v : BitVec 16) : get f v = value f v := by
  have key : ∀ i b, i + b ≤ 16 → (getQai v i b).toNat = v.toNat / 2 ^ i % 2 ^ b := by
    intro i b h
    apply Nat.eq_of_testBit_eq
    intro k
    have := getQai_getLsbD v i b k h
    rw [BitVec.getLsbD, BitVec.getLsbD] at this
    rw [this, Nat.testBit_mod_two_pow, Nat.testBit_div_two_pow, Nat.add_comm]
  unfold get value
  cases f <;> exact key _ _ (by decide)

theorem get_set (f g : Flag) (v : BitVec 16) (x : Nat) (hx : x < states f) :
    get g (set f v x) = if g = f then x else get g v := by
  have hx' : (BitVec.ofNat 16 x).toNat < 2 ^ f.bits := by
    rw [BitVec.toNat_ofNat]
    refine Nat.lt_of_le_of_lt (Nat.mod_le _ _) ?_
    revert hx; cases f <;> exact id
  have hf : f.index + f.bits ≤ 16 ∧ f.bits ≤ 15 := by cases f <;> decide
  have hg : g.index + g.bits ≤ 16 := by cases g <;> decide
  by_cases hfg : g = f
  · subst hfg
    simp only [if_true]
    have hx16 : x < 2 ^ 16 := Nat.lt_of_lt_of_le hx (by cases g <;> decide)
    have : getQai (set g v x) g.index g.bits = BitVec.ofNat 16 x := by
      apply BitVec.eq_of_getLsbD_eq
      intro k hk
      rw [getQai_getLsbD _ _ _ _ hg]
      by_cases hkb : k < g.bits
      · unfold set
        rw [setQai_getLsbD _ _ _ _ _ hf.2 hx' (by omega)]
        simp [hkb]
      · simp only [hkb, decide_false, Bool.false_and]
        rw [BitVec.getLsbD, Nat.testBit_lt_two_pow]
        exact Nat.lt_of_lt_of_le hx' (Nat.pow_le_pow_right (by omega) (by omega))
    unfold get
    rw [this, BitVec.toNat_ofNat, Nat.mod_eq_of_lt hx16]
  · rw [if_neg hfg]
    unfold get
    congr 1
    apply BitVec.eq_of_getLsbD_eq
    intro k hk
    rw [getQai_getLsbD _ _ _ _ hg, getQai_getLsbD _ _ _ _ hg]
    by_cases hkb : k < g.bits
    · unfold set
      rw [setQai_getLsbD _ _ _ _ _ hf.2 hx' (by omega)]
      rw [if_neg]
      revert hkb hfg
      cases f <;> cases g <;> simp [Flag.index, Flag.bits] <;> omega
    · simp [hkb]

/-- The unused top bit is never touched. -/
theorem set_msb (f : Flag) (v : BitVec 16) (x : Nat) (hx : x < states f) :
    (set f v x).getLsbD 15 = v.getLsbD 15 := by
  have hx' : (BitVec.ofNat 16 x).toNat < 2 ^ f.bits := by
    rw [BitVec.toNat_ofNat]
    refine Nat.lt_of_le_of_lt (Nat.mod_le _ _) ?_
    revert hx; cases f <;> exact id
  have hf : f.index + f.bits ≤ 16 ∧ f.bits ≤ 15 := by cases f <;> decide
  unfold set
  rw [setQai_getLsbD _ _ _ _ _ hf.2 hx' (by omega), if_neg]
  cases f <;> simp [Flag.index, Flag.bits]

/-- A value is determined by its flags and its top bit. -/
theorem eq_of_flags (v w : BitVec 16) (h : ∀ f, get f v = get f w)
    (h15 : v.getLsbD 15 = w.getLsbD 15) : v = w := by
  have hb : ∀ (f : Flag) (k : Nat), k < f.bits → v.getLsbD (f.index + k) = w.getLsbD (f.index + k) := by
    intro f k hk
    have hi : f.index + f.bits ≤ 16 := by cases f <;> decide
    have e : getQai v f.index f.bits = getQai w f.index f.bits := BitVec.eq_of_toNat_eq (h f)
    have e' := congrArg (fun z => z.getLsbD k) e
    simp only [getQai_getLsbD _ _ _ _ hi, hk, decide_true, Bool.true_and] at e'
    exact e'
  apply BitVec.eq_of_getLsbD_eq
  intro k hk
  have : k = 0 ∨ k = 1 ∨ k = 2 ∨ k = 3 ∨ k = 4 ∨ k = 5 ∨ k = 6 ∨ k = 7 ∨ k = 8 ∨ k = 9 ∨ k = 10 ∨
    k = 11 ∨ k = 12 ∨ k = 13 ∨ k = 14 ∨ k = 15 := by omega
  rcases this with h | h | h | h | h | h | h | h | h | h | h | h | h | h | h | h <;> subst h
  · exact hb .off 0 (by decide)
  · exact hb .cld 0 (by decide)
  · exact hb .cld 1 (by decide)
  · exact hb .shd 0 (by decide)
  · exact hb .snw 0 (by decide)
  · exact hb .wtr 0 (by decide)
  · exact hb .aod 0 (by decide)
  · exact hb .aod 1 (by decide)
  · exact hb .sub 0 (by decide)
  · exact hb .sat 0 (by decide)
  · exact hb .sun 0 (by decide)
  · exact hb .ill 0 (by decide)
  · exact hb .ill 1 (by decide)
  · exact hb .slp 0 (by decide)
  · exact hb .wvp 0 (by decide)
  · exact h15

theorem get_lt (f : Flag) (v : BitVec 16) : get f v < states f := by
  rw [get_eq_value]
  exact Nat.mod_lt _ (Nat.pow_pos (by decide))

end Verif.Qai
