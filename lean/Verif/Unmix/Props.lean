import Verif.Index.Lemmas
import Verif.Unmix.Opt

/-! # What is written, and examples -/

namespace Verif.Unmix

open Verif.Str Spec Verif.Index.Spec

variable {L M : Nat}

/-! ## C81: the retained fraction -/

/-- C81: an endmember in 1..M, a fraction that fits into 16 bit. With shade normalization the fraction is
divided by one minus the last fraction; the last fraction itself becomes zero.

Missing: endmembers out of range, completely shaded pixels and fractions that do not fit. -/
theorem c81_retain_partial (d : Fin M → ℚ) (i last : Fin M) (hl : (last : Nat) = M - 1) :
    (-3.2769 < d i → d i < 3.2768 →
      ∃ v, retain false ((i : Nat) + 1) d = .ok v ∧ IntegerPart v ((10000 * d i : ℚ) : ℝ)) ∧
    (i = last → retain true ((i : Nat) + 1) d = .ok 0) ∧
    (i ≠ last → d last ≠ 1 → -3.2769 < d i / (1 - d last) → d i / (1 - d last) < 3.2768 →
      ∃ v, retain true ((i : Nat) + 1) d = .ok v ∧ IntegerPart v ((10000 * (d i / (1 - d last)) : ℚ) : ℝ)) := by
  have hi : (1 : Int) ≤ (i : Nat) + 1 ∧ ((i : Nat) : Int) + 1 ≤ M := by have := i.2; omega
  have e1 : ∀ h, (⟨(((i : Nat) : Int) + 1 - 1).toNat, h⟩ : Fin M) = i := by
    intro h
    apply Fin.ext
    show (((i : Nat) : Int) + 1 - 1).toNat = i
    omega
  have e2 : ∀ h, (⟨M - 1, h⟩ : Fin M) = last := fun h => Fin.ext hl.symm
  unfold retain
  rw [dif_pos hi]
  simp only [e1, e2]
  refine ⟨fun h1 h2 => ?_, fun h => ?_, fun h h0 h1 h2 => ?_⟩
  · simp only [Bool.false_eq_true, if_false]
    refine ⟨_, Verif.Index.short_ok (by linarith) (by linarith), ?_⟩
    rw [mul_comm (10000 : ℚ)]
    exact Verif.Index.integerPart _
  · rw [dif_pos hi]
    simp only [if_true, h]
    rw [Verif.Index.short_ok (by norm_num) (by norm_num)]
    rfl
  · rw [dif_pos hi]
    simp only [if_true, if_neg h, if_neg h0]
    have e : d i * (1 / (1 - d last)) * 10000 = 10000 * (d i / (1 - d last)) := by ring
    rw [e]
    exact ⟨_, Verif.Index.short_ok (by linarith) (by linarith), Verif.Index.integerPart _⟩

/-- C81, violated: an endmember number outside the columns of the endmember file is not refused by the
parameter parser and ends the program when the first pixel is processed. -/
theorem c81_endmember_violated (shn : Bool) (emb : Int) (d : Fin M → ℚ) (h : emb < 1 ∨ M < emb) :
    retain shn emb d = .exit := by
  unfold retain
  rw [dif_neg (by omega)]

/-- C81, violated: shade normalization of a completely shaded pixel divides by zero and converts the result
to an integer. -/
theorem c81_shaded_violated (d : Fin M → ℚ) (i last : Fin M) (hl : (last : Nat) = M - 1) (hi : i ≠ last)
    (h : d last = 1) : retain true ((i : Nat) + 1) d = .ub := by
  have hi' : (1 : Int) ≤ (i : Nat) + 1 ∧ ((i : Nat) : Int) + 1 ≤ M := by have := i.2; omega
  have e1 : ∀ h, (⟨(((i : Nat) : Int) + 1 - 1).toNat, h⟩ : Fin M) = i := by
    intro h
    apply Fin.ext
    show (((i : Nat) : Int) + 1 - 1).toNat = i
    omega
  have e2 : ∀ h, (⟨M - 1, h⟩ : Fin M) = last := fun h => Fin.ext hl.symm
  unfold retain
  rw [dif_pos hi']
  simp only [e1, e2, if_true, if_neg hi, h]

/-- C81, violated: a normalized fraction that does not fit into 16 bit is converted without a check (the
other fractions of a strongly shaded pixel need not be small if they do not sum to one). -/
theorem c81_overflow_violated (d : Fin M → ℚ) (i last : Fin M) (hl : (last : Nat) = M - 1) (hi : i ≠ last)
    (h1 : d last ≠ 1) (h : 3.2768 ≤ d i / (1 - d last) ∨ d i / (1 - d last) ≤ -3.2769) :
    retain true ((i : Nat) + 1) d = .ub := by
  have hi' : (1 : Int) ≤ (i : Nat) + 1 ∧ ((i : Nat) : Int) + 1 ≤ M := by have := i.2; omega
  have e1 : ∀ h, (⟨(((i : Nat) : Int) + 1 - 1).toNat, h⟩ : Fin M) = i := by
    intro h
    apply Fin.ext
    show (((i : Nat) : Int) + 1 - 1).toNat = i
    omega
  have e2 : ∀ h, (⟨M - 1, h⟩ : Fin M) = last := fun h => Fin.ext hl.symm
  unfold retain
  rw [dif_pos hi']
  simp only [e1, e2, if_true, if_neg hi, if_neg h1]
  have e : d i * (1 / (1 - d last)) * 10000 = 10000 * (d i / (1 - d last)) := by ring
  rw [e]
  apply Verif.Index.short_ub
  rcases h with h | h
  · left; linarith
  · right; linarith

/-- C81: if the fractions sum to one, the shade normalized fractions of the other endmembers do, too. -/
theorem c81_normalized (d : Fin M → ℚ) (last : Fin M) (h : ∑ i, d i = 1) (h1 : d last ≠ 1) :
    ∑ i ∈ Finset.univ.erase last, d i / (1 - d last) = 1 := by
  simp only [div_eq_mul_inv]
  rw [← Finset.sum_mul]
  have := Finset.add_sum_erase Finset.univ d (Finset.mem_univ last)
  rw [h] at this
  have e : ∑ i ∈ Finset.univ.erase last, d i = 1 - d last := by linarith
  rw [e]
  exact mul_inv_cancel₀ (fun h0 => h1 (by linarith))

/-! ## C82: masks and RMSE -/

theorem meanSquare_eq (sto : Bool) (Z : Fin L → Fin M → ℚ) (x : Fin L → ℚ) (d : Fin M → ℚ) :
    meanSquare (rows sto Z) (spectrum sto x) d = cost sto Z x d / (L + if sto then 1 else 0 : Nat) := by
  unfold meanSquare
  congr 1
  · unfold rows spectrum cost
    rw [List.zip_append (by simp), zip_ofFn, List.map_append, List.sum_append, List.map_ofFn, List.sum_ofFn]
    have e : ∀ b, ∑ j, d j * Z b j = ∑ j, Z b j * d j := fun b =>
      Finset.sum_congr rfl fun j _ => mul_comm _ _
    cases sto <;> simp [e, ← pow_two]
  · unfold rows
    cases sto <;> simp

/-- C82: a date that is masked in the quality mask is missing in both products; otherwise the fraction is
written, and the RMSE if it is requested. -/
theorem c82_dates (mask : Option Bool) (hm : mask ≠ some false) (orms : Bool) (nodata : Int)
    (fraction rms : Out Int) (v r : Int) (hv : fraction = .ok v) (hr : rms = .ok r) :
    write mask false orms nodata fraction rms = .ok (nodata, if orms then some nodata else none) ∧
    write mask true orms nodata fraction rms = .ok (v, if orms then some r else none) := by
  subst hv hr
  cases orms <;> simp [write, hm, Out.bind]

/-- C82: the RMSE without the sum-to-one option is the root of the mean squared residual of the bands. -/
theorem c82_rmse (sq : ℚ → ℚ) (hsq : ∀ x, 0 ≤ x → |((sq x : ℚ) : ℝ) - Real.sqrt x| ≤ Real.sqrt x / 1000000000000)
    (Z : Fin L → Fin M → ℚ) (x : Fin L → ℚ) (d : Fin M → ℚ)
    (h : (∑ b, (x b - ∑ j, Z b j * d j) ^ 2) / L ≤ 9) :
    ∃ v, rmse sq (rows false Z) (spectrum false x) d = .ok v ∧
      Stored (1 / 10000000) v (10000 * Real.sqrt (((∑ b, (x b - ∑ j, Z b j * d j) ^ 2) / L : ℚ) : ℝ)) := by
  unfold rmse
  rw [meanSquare_eq]
  have e : cost false Z x d / (L + if false = true then 1 else 0 : Nat) =
      (∑ b, (x b - ∑ j, Z b j * d j) ^ 2) / L := by simp [cost]
  rw [e]
  have h0 : 0 ≤ (∑ b, (x b - ∑ j, Z b j * d j) ^ 2) / (L : ℚ) :=
    div_nonneg (Finset.sum_nonneg fun k _ => sq_nonneg _) (Nat.cast_nonneg _)
  generalize (∑ b, (x b - ∑ j, Z b j * d j) ^ 2) / (L : ℚ) = q at h h0
  have hs := hsq q h0
  have h3 : Real.sqrt q ≤ 3 := by
    rw [Real.sqrt_le_left (by norm_num)]
    have : (q : ℝ) ≤ 9 := by exact_mod_cast h
    linarith
  have h4 := Real.sqrt_nonneg (q : ℝ)
  refine Verif.Index.short_stored ?_ (by linarith) (by linarith)
  have : |((sq q * 10000 : ℚ) : ℝ) - 10000 * Real.sqrt q| = 10000 * |((sq q : ℚ) : ℝ) - Real.sqrt q| := by
    rw [← abs_of_pos (show (0 : ℝ) < 10000 by norm_num), ← abs_mul, abs_of_pos (show (0 : ℝ) < 10000 by norm_num)]
    congr 1
    push_cast
    ring
  rw [this]
  linarith

/-- C82, violated: with the sum-to-one option the number under the root is not the mean squared residual of
the bands; the deviation of the sum from one counts as a band. -/
theorem c82_rmse_violated (Z : Fin L → Fin M → ℚ) (x : Fin L → ℚ) (d : Fin M → ℚ) :
    meanSquare (rows true Z) (spectrum true x) d =
      ((∑ b, (x b - ∑ j, Z b j * d j) ^ 2) + (1 - ∑ j, d j) ^ 2) / (L + 1) := by
  rw [meanSquare_eq]
  simp [cost]

/-- C82, violated: the RMSE of a pixel outside the processing mask is zero instead of nodata. -/
theorem c82_masked_violated (msk : Bool) (nodata : Int) (fraction rms : Out Int) :
    write (some false) msk true nodata fraction rms = .ok (nodata, some 0) := by
  simp [write]

/-! ## The hypotheses can be met -/

/-- Two endmembers in two bands. -/
def exZ : Fin 2 → Fin 2 → ℚ := ![![1, 0], ![1, 1 / 2]]

/-- The second endmember. -/
def exX : Fin 2 → ℚ := ![0, 1 / 2]

/-- Its fits. -/
def exSolve (P : Fin 2 → Bool) : Fin 2 → ℚ :=
  if P 0 && P 1 then ![0, 1] else if P 0 then ![1 / 4, 0] else ![0, 1]

instance (sto : Bool) (Z : Fin L → Fin M → ℚ) (x : Fin L → ℚ) (P : Fin M → Bool) (s : Fin M → ℚ) :
    Decidable (Fits sto Z x P s) := by unfold Fits; infer_instance

/-- C79: the solver meets the hypothesis. -/
example : ∀ P, Fits false exZ exX P (exSolve P) := by decide +kernel

/-- C78, C79: the first endmember enters, the second one too, and the first leaves again: one inner
iteration. -/
example : (match nonNeg (exact (1 / 100)) exSolve (gradient (rows false exZ) (spectrum false exX)) 122 with
    | some (.ok st) => decide (st.it = 1 ∧ st.d 0 = 0 ∧ st.d 1 = 1)
    | _ => false) = true := by decide +kernel

/-- C79: a step from (1/4, 0) towards (-1/4, 1), half of the way. -/
example : let st : St ℚ 2 := ⟨fun _ => true, fun _ => false, ![1 / 4, 0], ![-1 / 4, 1], ![0, 0], 0⟩
    (∀ i, 0 ≤ st.d i) ∧ (∀ i, st.P i = true → st.s i ≤ 1 / 100 → st.s i ≤ 0 ∧ st.s i < st.d i) ∧
    (shrink (exact (1 / 100)) st).d 0 = 0 ∧ (shrink (exact (1 / 100)) st).d 1 = 1 / 2 := by decide +kernel

/-- C80: one endmember of 50 % and a spectrum of 25 %: the fraction is 0.9. -/
example : ∀ P : Fin 1 → Bool, Fits true (fun _ _ : Fin 1 => 1 / 2) (fun _ : Fin 1 => 1 / 4) P
    (fun _ => 9 / 10) := by decide +kernel

/-- C81: normalization of vegetation 30 %, soil 20 % and shade 50 %. -/
example : retain true 1 (![3 / 10, 2 / 10, 5 / 10] : Fin 3 → ℚ) = .ok 6000 := by decide +kernel

/-- The fits of a black pixel with an endmember of 50 % and black shade, with the sum-to-one row. -/
def exShade (P : Fin 2 → Bool) : Fin 2 → ℚ :=
  if P 0 && P 1 then ![0, 1] else if P 0 then ![4 / 5, 0] else ![0, 1]

/-- C81: a black pixel is completely shaded. -/
example : (∀ P, Fits true (fun _ : Fin 1 => ![1 / 2, 0]) (fun _ => 0) P (exShade P)) ∧
    (match nonNeg (exact (1 / 100)) exShade (gradient (rows true fun _ : Fin 1 => ![1 / 2, 0])
        (spectrum true fun _ : Fin 1 => 0)) 122 with
    | some (.ok st) => decide (st.d 0 = 0 ∧ st.d 1 = 1)
    | _ => false) = true := by decide +kernel

/-- C81: shade normalization of the completely shaded pixel. -/
example : retain true 1 (![0, 1] : Fin 2 → ℚ) = .ub := by decide +kernel

/-- C81: shade 0.95 and vegetation 0.2. -/
example : retain true 1 (![2 / 10, 95 / 100] : Fin 2 → ℚ) = .ub := by decide +kernel

/-- C81: the default of the parser accepts 0. -/
example : retain false 0 (![0, 1] : Fin 2 → ℚ) = .exit := by decide +kernel

/-- C82: written values. -/
example : write none true true (-9999) (.ok 5000) (.ok 120) = .ok (5000, some 120) := by decide

end Verif.Unmix
