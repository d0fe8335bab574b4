import Mathlib.Tactic.Ring
import Mathlib.Tactic.Linarith
import Mathlib.Tactic.NormNum
import Mathlib.Tactic.FieldSimp
import Mathlib.Data.List.TakeWhile
import Verif.Libc.Model

/-! # Lemmas about the C library functions of the model -/

namespace Verif.Libc
open Verif.Date (digitsVal isSpace)

/-! ## Digits -/

theorem toNat_digit (n : Nat) : (digit n).toNat = 48 + n % 10 := by
  have h : n % 10 < 10 := Nat.mod_lt _ (by omega)
  unfold digit
  generalize n % 10 = k at h ⊢
  match k, h with
  | 0, _ => decide | 1, _ => decide | 2, _ => decide | 3, _ => decide | 4, _ => decide
  | 5, _ => decide | 6, _ => decide | 7, _ => decide | 8, _ => decide | 9, _ => decide

theorem isDigit_digit (n : Nat) : (digit n).isDigit = true := by
  have h : n % 10 < 10 := Nat.mod_lt _ (by omega)
  unfold digit
  generalize n % 10 = k at h ⊢
  match k, h with
  | 0, _ => decide | 1, _ => decide | 2, _ => decide | 3, _ => decide | 4, _ => decide
  | 5, _ => decide | 6, _ => decide | 7, _ => decide | 8, _ => decide | 9, _ => decide

theorem decDigits_isDigit (n : Nat) : ∀ c ∈ decDigits n, c.isDigit = true := by
  induction n using Nat.strongRecOn with
  | _ n ih =>
    intro c hc
    rw [decDigits] at hc
    split at hc
    · simp only [List.mem_singleton] at hc; subst hc; exact isDigit_digit n
    · rw [List.mem_append] at hc
      rcases hc with hc | hc
      · exact ih _ (Nat.div_lt_self (by omega) (by omega)) c hc
      · simp only [List.mem_singleton] at hc; subst hc; exact isDigit_digit n

theorem padDigits_isDigit (k n : Nat) : ∀ c ∈ padDigits k n, c.isDigit = true := by
  induction k generalizing n with
  | zero => simp [padDigits]
  | succ k ih =>
    intro c hc
    rw [padDigits, List.mem_append] at hc
    rcases hc with hc | hc
    · exact ih _ c hc
    · simp only [List.mem_singleton] at hc; subst hc; exact isDigit_digit n

theorem padDigits_length (k n : Nat) : (padDigits k n).length = k := by
  induction k generalizing n with
  | zero => rfl
  | succ k ih => simp [padDigits, ih]

theorem decDigits_ne_nil (n : Nat) : decDigits n ≠ [] := by
  rw [decDigits]; split <;> simp

theorem natVal_append_digit (s : List Char) (n : Nat) :
    natVal (s ++ [digit n]) = natVal s * 10 + n % 10 := by
  simp [natVal, List.foldl_append, toNat_digit]

theorem natVal_decDigits (n : Nat) : natVal (decDigits n) = n := by
  induction n using Nat.strongRecOn with
  | _ n ih =>
    rw [decDigits]
    split
    · have := natVal_append_digit [] n
      simp only [List.nil_append] at this
      rw [this]; simp [natVal]; omega
    · rw [natVal_append_digit, ih _ (Nat.div_lt_self (by omega) (by omega))]; omega

theorem natVal_padDigits (k n : Nat) : natVal (padDigits k n) = n % 10 ^ k := by
  induction k generalizing n with
  | zero => simp [padDigits, natVal, Nat.mod_one]
  | succ k ih =>
    rw [padDigits, natVal_append_digit, ih, Nat.pow_succ, Nat.mul_comm (10 ^ k) 10, Nat.mod_mul]
    omega

theorem isDigit_toNat {c : Char} (h : c.isDigit = true) : 48 ≤ c.toNat ∧ c.toNat ≤ 57 := by
  simp only [Char.isDigit, Bool.and_eq_true, decide_eq_true_eq] at h
  exact ⟨h.1, h.2⟩

theorem digitsVal_append (s t : List Char) (hs : ∀ c ∈ s, c.isDigit = true)
    (ht : ∀ c, t.head? = some c → c.isDigit = false) (acc : Nat) :
    digitsVal (acc : ℤ) (s ++ t) =
      ((s.foldl (fun a c => a * 10 + (c.toNat - 48)) acc : Nat) : ℤ) := by
  induction s generalizing acc with
  | nil =>
    cases t with
    | nil => rfl
    | cons c t => simp [digitsVal, ht c rfl]
  | cons c s ih =>
    have hc := hs c (by simp)
    have hd := isDigit_toNat hc
    rw [List.cons_append, digitsVal, if_pos hc, List.foldl_cons,
      ← ih (fun d hd => hs d (by simp [hd]))]
    congr 1
    push_cast
    omega

theorem digit_not_space {c : Char} (h : c.isDigit = true) : isSpace c = false := by
  have hd := isDigit_toNat h
  simp only [isSpace, Bool.or_eq_false_iff, decide_eq_false_iff_not]
  refine ⟨⟨⟨⟨⟨?_, ?_⟩, ?_⟩, ?_⟩, ?_⟩, ?_⟩ <;> (rintro rfl; revert hd; decide)

theorem atoi_digits (s : List Char) (hs : ∀ c ∈ s, c.isDigit = true) (hn : s ≠ []) (t : List Char)
    (ht : ∀ c, t.head? = some c → c.isDigit = false) : atoi (s ++ t) = natVal s := by
  obtain ⟨c, s', rfl⟩ := List.exists_cons_of_ne_nil hn
  have hc := hs c (by simp)
  have hd := isDigit_toNat hc
  show Verif.Date.atoi _ = _
  unfold Verif.Date.atoi
  have hdrop : ((c :: s') ++ t).dropWhile isSpace = (c :: s') ++ t := by
    rw [List.cons_append, List.dropWhile_cons]
    simp [digit_not_space hc]
  rw [hdrop]
  have key := digitsVal_append (c :: s') t hs ht 0
  split
  · rename_i cs heq
    simp only [List.cons_append, List.cons.injEq] at heq
    exfalso; rw [heq.1] at hc; revert hc; decide
  · rename_i cs heq
    simp only [List.cons_append, List.cons.injEq] at heq
    exfalso; rw [heq.1] at hc; revert hc; decide
  · simpa [natVal] using key

theorem atoi_neg_digits (s : List Char) (hs : ∀ c ∈ s, c.isDigit = true) (t : List Char)
    (ht : ∀ c, t.head? = some c → c.isDigit = false) : atoi ('-' :: (s ++ t)) = -(natVal s : ℤ) := by
  show Verif.Date.atoi _ = _
  unfold Verif.Date.atoi
  have hdrop : ('-' :: (s ++ t)).dropWhile isSpace = '-' :: (s ++ t) := by
    rw [List.dropWhile_cons]; simp [isSpace]
  rw [hdrop]
  have key := digitsVal_append s t hs ht 0
  simpa [natVal] using key

/-- A number that fits into the field is printed with exactly that many characters. -/
theorem fmtInt0_length (v : ℤ) (h1 : -1000 < v) (h2 : v < 10000) : (fmtInt0 4 v).length = 4 := by
  unfold fmtInt0
  split
  · rw [fmtNat0, if_pos (by norm_num; omega)]; simp [padDigits_length]
  · rw [fmtNat0, if_pos (by norm_num; omega)]; simp [padDigits_length]

theorem atoi_fmtInt0 (v : ℤ) (h1 : -1000 < v) (h2 : v < 10000) : atoi (fmtInt0 4 v) = v := by
  unfold fmtInt0
  split
  · rw [fmtNat0, if_pos (by norm_num; omega)]
    have := atoi_neg_digits (padDigits (4 - 1) v.natAbs) (padDigits_isDigit _ _) [] (by simp)
    rw [List.append_nil] at this
    rw [this, natVal_padDigits, Nat.mod_eq_of_lt (by norm_num; omega)]; omega
  · rw [fmtNat0, if_pos (by norm_num; omega)]
    have := atoi_digits (padDigits 4 v.natAbs) (padDigits_isDigit _ _)
      (by intro h; have := congrArg List.length h; simp [padDigits_length] at this) [] (by simp)
    rw [List.append_nil] at this
    rw [this, natVal_padDigits, Nat.mod_eq_of_lt (by norm_num; omega)]; omega

theorem fmtInt0_chars (w : Nat) (v : ℤ) : ∀ c ∈ fmtInt0 w v, c.isDigit = true ∨ c = '-' := by
  intro c hc
  have aux : ∀ w n, ∀ c ∈ fmtNat0 w n, c.isDigit = true := by
    intro w n c hc
    unfold fmtNat0 at hc
    split at hc
    · exact padDigits_isDigit _ _ c hc
    · exact decDigits_isDigit _ c hc
  unfold fmtInt0 at hc
  split at hc
  · rcases List.mem_cons.1 hc with h | h
    · exact Or.inr h
    · exact Or.inl (aux _ _ c h)
  · exact Or.inl (aux _ _ c hc)

/-! ## Lines -/

theorem fgetsGo_line (size : Nat) (l rest acc : List Char) (hl : '\n' ∉ l)
    (hlen : acc.length + l.length + 1 < size) :
    fgetsGo size acc (l ++ '\n' :: rest) = (acc ++ l ++ ['\n']) :: fgetsGo size [] rest := by
  induction l generalizing acc with
  | nil => simp [fgetsGo]
  | cons c l ih =>
    simp only [List.mem_cons, not_or] at hl
    simp only [List.length_cons] at hlen
    rw [List.cons_append, fgetsGo, if_neg (by
      rintro (h | h)
      · exact hl.1 h.symm
      · omega), ih (acc ++ [c]) hl.2 (by simp; omega)]
    simp

theorem fgetsAll_line (size : Nat) (l rest : List Char) (hl : '\n' ∉ l) (hlen : l.length + 1 < size) :
    fgetsAll size (l ++ '\n' :: rest) = (l ++ ['\n']) :: fgetsAll size rest := by
  have := fgetsGo_line size l rest [] hl (by simpa using hlen)
  simpa [fgetsAll] using this

theorem fgetsAll_lines (size : Nat) (ls : List (List Char)) (h : ∀ l ∈ ls, '\n' ∉ l ∧ l.length + 1 < size) :
    fgetsAll size (ls.flatMap fun l => l ++ ['\n']) = ls.map fun l => l ++ ['\n'] := by
  induction ls with
  | nil => simp [fgetsAll, fgetsGo]
  | cons l ls ih =>
    have h1 := h l (by simp)
    have := fgetsAll_line size l (ls.flatMap fun l => l ++ ['\n']) h1.1 h1.2
    simp only [List.flatMap_cons, List.map_cons, List.append_assoc, List.singleton_append]
    rw [this, ih (fun l hl => h l (by simp [hl]))]

/-! ## Tokens -/

theorem strtok_cons (sep : Char → Bool) (pre tok rest : List Char) (hpre : ∀ c ∈ pre, sep c = true)
    (htok : ∀ c ∈ tok, sep c = false) (hne : tok ≠ []) (d : Char) (hd : sep d = true) :
    strtok sep (pre ++ (tok ++ d :: rest)) = some (tok, rest) := by
  obtain ⟨c, s, rfl⟩ := List.exists_cons_of_ne_nil hne
  have hc := htok c (by simp)
  unfold strtok
  have h1 : (pre ++ ((c :: s) ++ d :: rest)).dropWhile sep = (c :: s) ++ d :: rest := by
    rw [List.dropWhile_append]
    have : pre.dropWhile sep = [] := by
      rw [List.dropWhile_eq_nil_iff]; exact hpre
    simp [this, hc]
  rw [h1]
  simp only [List.cons_append]
  have hs : ∀ x ∈ (c :: s), (fun c => !sep c) x = true := by
    intro x hx; simp [htok x hx]
  have h2 : (c :: (s ++ d :: rest)).takeWhile (fun c => !sep c) = c :: s := by
    rw [← List.cons_append, List.takeWhile_append_of_pos hs]
    simp [hd]
  have h3 : (c :: (s ++ d :: rest)).dropWhile (fun c => !sep c) = d :: rest := by
    rw [← List.cons_append, List.dropWhile_append_of_pos hs]
    simp [hd]
  rw [h2, h3]; rfl

theorem strtok_end (sep : Char → Bool) (pre tok : List Char) (hpre : ∀ c ∈ pre, sep c = true)
    (htok : ∀ c ∈ tok, sep c = false) (hne : tok ≠ []) :
    strtok sep (pre ++ tok) = some (tok, []) := by
  obtain ⟨c, s, rfl⟩ := List.exists_cons_of_ne_nil hne
  have hc := htok c (by simp)
  unfold strtok
  have h1 : (pre ++ (c :: s)).dropWhile sep = c :: s := by
    rw [List.dropWhile_append]
    have : pre.dropWhile sep = [] := by
      rw [List.dropWhile_eq_nil_iff]; exact hpre
    simp [this, hc]
  rw [h1]
  have hs : ∀ x ∈ (c :: s), (fun c => !sep c) x = true := by
    intro x hx; simp [htok x hx]
  have h2 : (c :: s).takeWhile (fun c => !sep c) = c :: s := by
    rw [List.takeWhile_eq_self_iff]; exact hs
  have h3 : (c :: s).dropWhile (fun c => !sep c) = [] := by
    rw [List.dropWhile_eq_nil_iff]; exact hs
  simp only []
  rw [h2, h3]; rfl

theorem cutAt_line (set : Char → Bool) (l : List Char) (d : Char) (rest : List Char)
    (hl : ∀ c ∈ l, set c = false) (hd : set d = true) : cutAt set (l ++ d :: rest) = l := by
  unfold cutAt
  rw [List.takeWhile_append_of_pos (by intro c hc; simp [hl c hc])]
  simp [hd]

/-! ## Decimal numbers -/

theorem takeWhile_digits (s t : List Char) (hs : ∀ c ∈ s, c.isDigit = true)
    (ht : ∀ c, t.head? = some c → c.isDigit = false) : (s ++ t).takeWhile Char.isDigit = s := by
  rw [List.takeWhile_append_of_pos hs]
  cases t with
  | nil => simp
  | cons c t => simp [ht c rfl]

theorem dropWhile_digits (s t : List Char) (hs : ∀ c ∈ s, c.isDigit = true)
    (ht : ∀ c, t.head? = some c → c.isDigit = false) : (s ++ t).dropWhile Char.isDigit = t := by
  rw [List.dropWhile_append_of_pos hs]
  cases t with
  | nil => simp
  | cons c t => simp [ht c rfl]

theorem decVal_fixed (n : Nat) :
    decVal (decDigits (n / 1000000) ++ '.' :: padDigits 6 n) = (n : ℚ) / 1000000 := by
  unfold decVal
  have h1 := takeWhile_digits (decDigits (n / 1000000)) ('.' :: padDigits 6 n) (decDigits_isDigit _)
    (by intro c hc; simp at hc; subst hc; decide)
  have h2 := dropWhile_digits (decDigits (n / 1000000)) ('.' :: padDigits 6 n) (decDigits_isDigit _)
    (by intro c hc; simp at hc; subst hc; decide)
  have h3 := takeWhile_digits (padDigits 6 n) [] (padDigits_isDigit _ _) (by simp)
  rw [List.append_nil] at h3
  rw [h1, h2]
  simp only [h3, natVal_decDigits, natVal_padDigits, padDigits_length]
  have h4 : n = 1000000 * (n / 1000000) + n % 1000000 := (Nat.div_add_mod n 1000000).symm
  have h5 : (n : ℚ) = 1000000 * ((n / 1000000 : Nat) : ℚ) + ((n % 1000000 : Nat) : ℚ) := by
    exact_mod_cast h4
  rw [h5]
  have e : (10 : Nat) ^ 6 = 1000000 := by norm_num
  rw [e]
  norm_num
  ring

/-- Reading a number printed with `%f`: the nearest multiple of 10^-6, rounded to a
double. -/
theorem atof_fmtF (rd : ℚ → ℚ) (v : ℚ) :
    atof rd (fmtF v) =
      rd ((if v < 0 then -1 else 1) * (((roundEven (|v| * 1000000)).toNat : ℚ) / 1000000)) := by
  unfold fmtF
  simp only []
  generalize (roundEven (|v| * 1000000)).toNat = n
  obtain ⟨c, s, hcs⟩ := List.exists_cons_of_ne_nil (decDigits_ne_nil (n / 1000000))
  have hc : c.isDigit = true := decDigits_isDigit (n / 1000000) c (by rw [hcs]; simp)
  have key := decVal_fixed n
  by_cases hv : v < 0
  · rw [if_pos hv, if_pos hv]
    unfold atof
    have : (['-'] ++ (decDigits (n / 1000000) ++ '.' :: padDigits 6 n)).dropWhile isSpace =
        '-' :: (decDigits (n / 1000000) ++ '.' :: padDigits 6 n) := by
      simp [isSpace]
    rw [this]
    simp only [key]; congr 1; ring
  · rw [if_neg hv, if_neg hv, List.nil_append]
    unfold atof
    have : (decDigits (n / 1000000) ++ '.' :: padDigits 6 n).dropWhile isSpace =
        decDigits (n / 1000000) ++ '.' :: padDigits 6 n := by
      rw [hcs, List.cons_append, List.dropWhile_cons]; simp [digit_not_space hc]
    rw [this]
    split
    · rename_i cs heq
      rw [hcs] at heq; simp only [List.cons_append, List.cons.injEq] at heq
      exfalso; rw [heq.1] at hc; revert hc; decide
    · rename_i cs heq
      rw [hcs] at heq; simp only [List.cons_append, List.cons.injEq] at heq
      exfalso; rw [heq.1] at hc; revert hc; decide
    · rw [key]; congr 1; ring

theorem fmtF_chars (v : ℚ) : ∀ c ∈ fmtF v, c.isDigit = true ∨ c = '-' ∨ c = '.' := by
  intro c hc
  unfold fmtF at hc
  simp only [List.mem_append, List.mem_cons] at hc
  rcases hc with hc | hc | hc | hc
  · split at hc
    · simp at hc; exact Or.inr (Or.inl hc)
    · simp at hc
  · exact Or.inl (decDigits_isDigit _ c hc)
  · exact Or.inr (Or.inr hc)
  · exact Or.inl (padDigits_isDigit _ _ c hc)

theorem fmtF_ne_nil (v : ℚ) : fmtF v ≠ [] := by
  unfold fmtF; simp

theorem roundEven_of_close (q : ℚ) (k : ℤ) (h : |q - k| < 1 / 2) : roundEven q = k := by
  rw [abs_lt] at h
  unfold roundEven
  simp only []
  have h1 : (⌊q⌋ : ℚ) ≤ q := Int.floor_le q
  have h2 : q < ⌊q⌋ + 1 := Int.lt_floor_add_one q
  have h3 : ⌊q⌋ = k ∨ ⌊q⌋ = k - 1 := by
    have a : k - 1 ≤ ⌊q⌋ := by rw [Int.le_floor]; push_cast; linarith
    have b : ⌊q⌋ < k + 1 := by rw [Int.floor_lt]; push_cast; linarith
    omega
  rcases h3 with h3 | h3
  · rw [h3, if_pos (by linarith)]
  · rw [h3]
    rw [if_neg (by push_cast; linarith), if_pos (by push_cast; linarith)]; omega

theorem decDigits_length (k n : Nat) (h : n < 10 ^ (k + 1)) : (decDigits n).length ≤ k + 1 := by
  induction k generalizing n with
  | zero => rw [decDigits, if_pos (by simpa using h)]; simp
  | succ k ih =>
    rw [decDigits]
    split
    · simp
    · rw [List.length_append]
      have := ih (n / 10) (by rw [Nat.div_lt_iff_lt_mul (by omega), ← Nat.pow_succ]; exact h)
      simp only [List.length_singleton]; omega

theorem roundEven_lt (q : ℚ) (k : ℤ) (h : q < k) : roundEven q ≤ k := by
  unfold roundEven
  simp only []
  have : ⌊q⌋ < k := by rw [Int.floor_lt]; exact h
  split
  · omega
  · split
    · omega
    · split <;> omega

/-- A double printed with `%f` has at most 320 characters. -/
theorem fmtF_length (v : ℚ) (h : |v| < 2 ^ 1024) : (fmtF v).length < 320 := by
  have h1 : roundEven (|v| * 1000000) ≤ 2 ^ 1024 * 1000000 := by
    apply roundEven_lt; push_cast; linarith
  have h2 : (roundEven (|v| * 1000000)).toNat / 1000000 < 10 ^ (308 + 1) := by
    have : (roundEven (|v| * 1000000)).toNat ≤ 2 ^ 1024 * 1000000 := by
      have e : ((2 ^ 1024 * 1000000 : Nat) : ℤ) = 2 ^ 1024 * 1000000 := by
        rw [Nat.cast_mul, Nat.cast_pow]; rfl
      omega
    calc (roundEven (|v| * 1000000)).toNat / 1000000 ≤ 2 ^ 1024 * 1000000 / 1000000 :=
          Nat.div_le_div_right this
      _ = 2 ^ 1024 := Nat.mul_div_cancel _ (by norm_num)
      _ < 10 ^ (308 + 1) := by decide +kernel
  have h3 := decDigits_length 308 _ h2
  unfold fmtF
  simp only [List.length_append, List.length_cons, padDigits_length]
  split <;> simp <;> omega

end Verif.Libc
