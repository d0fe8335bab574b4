import Verif.Wvp.Lut
import Verif.Libc.Lemmas
import Verif.Float
import Verif.FloatErr
import Verif.Stats.Props
import Mathlib.Tactic.Linarith
import Mathlib.Tactic.Ring

/-!
# C144: tables are read back as they were written; C145: climatology
-/

namespace Verif.Wvp

open Verif.Str (Out)
open Verif.Libc
open Verif.Float (Rep Nearest)
open Verif.Float (nearest_err)

theorem roundEven_err (q : ℚ) : |(roundEven q : ℚ) - q| ≤ 1 / 2 := by
  unfold roundEven
  simp only
  have h1 := Int.floor_le q
  have h2 := Int.lt_floor_add_one q
  rw [abs_le]
  split_ifs with a b c
  · constructor <;> linarith
  · push_cast; constructor <;> linarith
  · constructor <;> linarith
  · push_cast; constructor <;> linarith

theorem roundEven_nonneg (q : ℚ) (h : 0 ≤ q) : 0 ≤ roundEven q := by
  have := abs_le.1 (roundEven_err q)
  have h1 : (-1 : ℚ) < roundEven q := by linarith [this.1]
  have : (-1 : ℤ) < roundEven q := by exact_mod_cast h1
  omega

theorem decVal_K (k n : Nat) (hk : 0 < k) : decVal (decDigits (n / 10 ^ k) ++ '.' :: padDigits k n) = (n : ℚ) / 10 ^ k := by
  unfold decVal
  have h1 := takeWhile_digits (decDigits (n / 10 ^ k)) ('.' :: padDigits k n) (decDigits_isDigit _) (by intro c hc; simp at hc; subst hc; decide)
  have h2 := dropWhile_digits (decDigits (n / 10 ^ k)) ('.' :: padDigits k n) (decDigits_isDigit _) (by intro c hc; simp at hc; subst hc; decide)
  have h3 := takeWhile_digits (padDigits k n) [] (padDigits_isDigit _ _) (by simp)
  rw [List.append_nil] at h3
  rw [h1, h2]
  simp only [h3, natVal_decDigits, natVal_padDigits, padDigits_length]
  have h5 : (n : ℚ) = 10 ^ k * ((n / 10 ^ k : Nat) : ℚ) + ((n % 10 ^ k : Nat) : ℚ) := by
    have h4 : n = 10 ^ k * (n / 10 ^ k) + n % 10 ^ k := (Nat.div_add_mod n (10 ^ k)).symm
    exact_mod_cast h4
  have hp : (10 ^ k : ℚ) ≠ 0 := pow_ne_zero _ (by norm_num)
  rw [eq_div_iff hp, add_mul, div_mul_cancel₀ _ hp]
  linarith

/-- The decimal number that is printed. -/
def printed (k : Nat) (v : ℚ) : ℚ := (if v < 0 then -1 else 1) * (((roundEven (|v| * 10 ^ k)).toNat : ℚ) / 10 ^ k)

theorem atof_fmtK (rd : ℚ → ℚ) (k : Nat) (hk : 0 < k) (v : ℚ) : atof rd (fmtK k v) = rd (printed k v) := by
  unfold fmtK printed
  simp only []
  generalize (roundEven (|v| * 10 ^ k)).toNat = n
  obtain ⟨c, s, hcs⟩ := List.exists_cons_of_ne_nil (decDigits_ne_nil (n / 10 ^ k))
  have hc : c.isDigit = true := decDigits_isDigit (n / 10 ^ k) c (by rw [hcs]; simp)
  have key := decVal_K k n hk
  by_cases hv : v < 0
  · rw [if_pos hv, if_pos hv]
    unfold atof
    have : (['-'] ++ (decDigits (n / 10 ^ k) ++ '.' :: padDigits k n)).dropWhile Verif.Date.isSpace =
        '-' :: (decDigits (n / 10 ^ k) ++ '.' :: padDigits k n) := by
      simp [Verif.Date.isSpace]
    rw [this]
    simp only [key]; congr 1; ring
  · rw [if_neg hv, if_neg hv, List.nil_append]
    unfold atof
    have : (decDigits (n / 10 ^ k) ++ '.' :: padDigits k n).dropWhile Verif.Date.isSpace =
        decDigits (n / 10 ^ k) ++ '.' :: padDigits k n := by
      rw [hcs, List.cons_append, List.dropWhile_cons]; simp [digit_not_space hc]
    rw [this]
    split
    · rename_i cs heq
      rw [hcs] at heq; simp only [List.cons_append, List.cons.injEq] at heq
      exfalso; rw [heq.1] at hc; revert hc; decide
    · rename_i cs heq
      rw [hcs] at heq; simp only [List.cons_append, List.cons.injEq] at heq
      exfalso; rw [heq.1] at hc; revert hc; decide
    · rw [key]; congr 1; ring

theorem fmtF_fmtK (v : ℚ) : fmtF v = fmtK 6 v := by
  unfold fmtF fmtK
  norm_num

theorem printed_err (k : Nat) (v : ℚ) : |printed k v - v| ≤ 1 / 2 / 10 ^ k := by
  have hp : (0 : ℚ) < 10 ^ k := by positivity
  have h0 := roundEven_nonneg (|v| * 10 ^ k) (by positivity)
  have h1 := roundEven_err (|v| * 10 ^ k)
  have hn : (((roundEven (|v| * 10 ^ k)).toNat : ℕ) : ℚ) = ((roundEven (|v| * 10 ^ k) : ℤ) : ℚ) := by
    have : (((roundEven (|v| * 10 ^ k)).toNat : ℕ) : ℤ) = roundEven (|v| * 10 ^ k) := Int.toNat_of_nonneg h0
    exact_mod_cast this
  unfold printed
  rw [hn]
  have key : |((roundEven (|v| * 10 ^ k) : ℤ) : ℚ) / 10 ^ k - (|v|)| ≤ 1 / 2 / 10 ^ k := by
    have : ((roundEven (|v| * 10 ^ k) : ℤ) : ℚ) / 10 ^ k - (|v|) = (((roundEven (|v| * 10 ^ k) : ℤ) : ℚ) - |v| * 10 ^ k) / 10 ^ k := by
      rw [sub_div, mul_div_cancel_right₀ _ (ne_of_gt hp)]
    rw [this, abs_div, abs_of_pos hp]
    exact div_le_div_of_nonneg_right h1 hp.le
  by_cases hv : v < 0
  · rw [if_pos hv]
    rw [abs_of_neg hv] at key ⊢
    have e : -1 * (((roundEven (-v * 10 ^ k) : ℤ) : ℚ) / 10 ^ k) - v = -(((roundEven (-v * 10 ^ k) : ℤ) : ℚ) / 10 ^ k - -v) := by ring
    rw [e, abs_neg]; exact key
  · rw [if_neg hv]
    rw [abs_of_nonneg (not_lt.1 hv)] at key ⊢
    rw [one_mul]; exact key

theorem fmtK_chars (k : Nat) (v : ℚ) : ∀ c ∈ fmtK k v, c.isDigit = true ∨ c = '-' ∨ c = '.' := by
  intro c hc
  unfold fmtK at hc
  simp only [List.mem_append, List.mem_cons] at hc
  rcases hc with hc | hc | hc | hc
  · split at hc
    · simp at hc; exact Or.inr (Or.inl hc)
    · simp at hc
  · exact Or.inl (decDigits_isDigit _ c hc)
  · exact Or.inr (Or.inr hc)
  · exact Or.inl (padDigits_isDigit _ _ c hc)

theorem fmtK_ne_nil (k : Nat) (v : ℚ) : fmtK k v ≠ [] := by unfold fmtK; simp

theorem fmtK_length (k : Nat) (v : ℚ) (h : |v| < 100000) : (fmtK k v).length ≤ k + 9 := by
  have hp : (0 : ℚ) < 10 ^ k := by positivity
  have h1 : roundEven (|v| * 10 ^ k) ≤ 100000 * 10 ^ k := by
    apply roundEven_lt; push_cast
    exact mul_lt_mul_of_pos_right h hp
  have h2 : (roundEven (|v| * 10 ^ k)).toNat / 10 ^ k < 10 ^ (5 + 1) := by
    have : (roundEven (|v| * 10 ^ k)).toNat ≤ 100000 * 10 ^ k := by
      have e : ((100000 * 10 ^ k : Nat) : ℤ) = 100000 * 10 ^ k := by push_cast; ring
      omega
    calc (roundEven (|v| * 10 ^ k)).toNat / 10 ^ k ≤ 100000 * 10 ^ k / 10 ^ k := Nat.div_le_div_right this
      _ = 100000 := Nat.mul_div_cancel _ (by positivity)
      _ < 10 ^ (5 + 1) := by norm_num
  have h3 := decDigits_length 5 _ h2
  unfold fmtK
  simp only [List.length_append, List.length_cons, padDigits_length]
  split <;> simp <;> omega

theorem notSep (k : Nat) (v : ℚ) : ∀ c ∈ fmtK k v, sep c = false := by
  intro c hc
  unfold sep
  rcases fmtK_chars k v c hc with h | h | h
  · simp only [decide_eq_false_iff_not]
    rintro rfl
    revert h; decide
  · subst h; decide
  · subst h; decide

theorem notLine (k : Nat) (v : ℚ) : '\n' ∉ fmtK k v := by
  intro hc
  rcases fmtK_chars k v _ hc with h | h | h <;> revert h <;> decide

/-- Reading a printed number. -/
theorem num_fmtK (rd : ℚ → ℚ) (k : Nat) (hk : 0 < k) (v : ℚ) (r : List Char) : num rd (strtok sep (fmtK k v ++ ' ' :: r)) = .ok (rd (printed k v), r) := by
  have := strtok_cons sep [] (fmtK k v) r (by simp) (notSep k v) (fmtK_ne_nil k v) ' ' (by decide)
  rw [List.nil_append] at this
  rw [this]
  simp only [num, atof_fmtK rd k hk]

/-- A name of a source (MOD, MYD, TBD, or any other word). -/
def IsName (s : List Char) : Prop := s ≠ [] ∧ (∀ c ∈ s, c ≠ ' ' ∧ c ≠ '\n') ∧ s.length ≤ 100

theorem coord_err (rd fl : ℚ → ℚ) (hrd : ∀ x, Nearest 53 x (rd x)) (hfl : ∀ x, Nearest 24 x (fl x)) (v : ℚ) (hv : |v| ≤ 360) :
    |fl (rd (printed 4 v)) - v| ≤ 73 / 1000000 := by
  have h1 := printed_err 4 v
  have h2 := nearest_err (by norm_num) (hrd (printed 4 v))
  have h3 := nearest_err (by norm_num) (hfl (rd (printed 4 v)))
  generalize printed 4 v = p at *
  generalize rd p = d at *
  generalize fl d = f at *
  rw [abs_le] at h1 hv
  have hp : |p| ≤ 361 := by rw [abs_le]; norm_num at h1 ⊢; constructor <;> linarith [h1.1, h1.2]
  have h2' : |p - d| ≤ 361 / 2 ^ 53 := le_trans h2 (div_le_div_of_nonneg_right hp (by positivity))
  rw [abs_le] at hp h2'
  norm_num at h2' h1
  have hd : |d| ≤ 361.0001 := by rw [abs_le]; norm_num; constructor <;> linarith [h2'.1, h2'.2, h1.1, h1.2]
  have h3' : |d - f| ≤ 361.0001 / 2 ^ 24 := le_trans h3 (div_le_div_of_nonneg_right hd (by positivity))
  rw [abs_le] at h3' ⊢
  norm_num at h3' ⊢
  constructor <;> linarith [h1.1, h1.2, h2'.1, h2'.2, h3'.1, h3'.2]

theorem tol (rd : ℚ → ℚ) (hrd : ∀ x, Nearest 53 x (rd x)) : 99 / 1000000 < rd (1 / 10000) ∧ rd (1 / 10000) < 101 / 1000000 := by
  have h := nearest_err (by norm_num) (hrd (1 / 10000))
  rw [abs_of_pos (by norm_num : (0 : ℚ) < 1 / 10000)] at h
  rw [abs_le] at h
  norm_num at h ⊢
  constructor <;> linarith [h.1, h.2]

theorem diff_small (fl : ℚ → ℚ) (hfl : ∀ x, Nearest 24 x (fl x)) (x : ℚ) (h : |x| ≤ 73 / 1000000) : |fl x| ≤ 74 / 1000000 := by
  have h1 := nearest_err (by norm_num) (hfl x)
  have h2 : |x - fl x| ≤ 73 / 1000000 / 2 ^ 24 := le_trans h1 (div_le_div_of_nonneg_right h (by positivity))
  rw [abs_le] at h h2 ⊢
  norm_num at h2 ⊢
  constructor <;> linarith [h.1, h.2, h2.1, h2.2]

theorem diff_big (fl : ℚ → ℚ) (hfl : ∀ x, Nearest 24 x (fl x)) (x : ℚ) (h : 127 / 1000000 ≤ |x|) : 126 / 1000000 ≤ |fl x| := by
  have h1 := nearest_err (by norm_num) (hfl x)
  have h2 : |x| - |fl x| ≤ |x| / 2 ^ 24 := le_trans (abs_sub_abs_le_abs_sub _ _) h1
  have : |x| / 2 ^ 24 ≤ |x| / 128 := div_le_div_of_nonneg_left (abs_nonneg x) (by norm_num) (by norm_num)
  linarith

/-- One line of a table. -/
theorem row_read (rd fl : ℚ → ℚ) (hrd : ∀ x, Nearest 53 x (rd x)) (hfl : ∀ x, Nearest 24 x (fl x)) (c c' : ℚ × ℚ) (w : ℚ) (sen : List Char)
    (hc : |c.1| ≤ 360 ∧ |c.2| ≤ 360) (ls : List (List Char)) (cs : List (ℚ × ℚ)) :
    (c' = c → readRows rd fl ((lutLine c w sen ++ ['\n']) :: ls) (c' :: cs) = (readRows rd fl ls cs).bind fun l => .ok (fl (rd (printed 6 w)) :: l)) ∧
    (1 / 5000 ≤ |c.1 - c'.1| ∨ 1 / 5000 ≤ |c.2 - c'.2| → readRows rd fl ((lutLine c w sen ++ ['\n']) :: ls) (c' :: cs) = .exit) ∧
    (readRows rd fl ((lutLine c w sen ++ ['\n']) :: ls) (c' :: cs) = .exit ∨
      readRows rd fl ((lutLine c w sen ++ ['\n']) :: ls) (c' :: cs) = (readRows rd fl ls cs).bind fun l => .ok (fl (rd (printed 6 w)) :: l)) := by
  have e : readRows rd fl ((lutLine c w sen ++ ['\n']) :: ls) (c' :: cs) =
      if |fl (fl (rd (printed 4 c.1)) - c'.1)| > rd (1 / 10000) ∨ |fl (fl (rd (printed 4 c.2)) - c'.2)| > rd (1 / 10000) then .exit
      else (readRows rd fl ls cs).bind fun l => .ok (fl (rd (printed 6 w)) :: l) := by
    rw [readRows.eq_def]
    simp only
    unfold lutLine
    rw [fmtF_fmtK]
    have t1 := num_fmtK rd 4 (by norm_num) c.1 ((fmtK 4 c.2 ++ ' ' :: (fmtK 6 w ++ ' ' :: sen)) ++ ['\n'])
    have t2 := num_fmtK rd 4 (by norm_num) c.2 ((fmtK 6 w ++ ' ' :: sen) ++ ['\n'])
    have t3 := num_fmtK rd 6 (by norm_num) w (sen ++ ['\n'])
    simp only [List.append_assoc, List.cons_append] at t1 t2 t3 ⊢
    rw [t1]
    show Out.bind (num rd (strtok sep _)) _ = _
    simp only
    rw [t2]
    show (if _ then _ else Out.bind (num rd (strtok sep _)) _) = _
    simp only
    rw [t3]
    rfl
  have ex := coord_err rd fl hrd hfl c.1 hc.1
  have ey := coord_err rd fl hrd hfl c.2 hc.2
  have ht := tol rd hrd
  rw [e]
  refine ⟨?_, ?_, ?_⟩
  · rintro rfl
    rw [if_neg]
    have a := diff_small fl hfl _ ex
    have b := diff_small fl hfl _ ey
    rintro (h | h) <;> linarith [ht.1]
  · intro h
    rw [if_pos]
    rcases h with h | h
    · left
      have : 127 / 1000000 ≤ |fl (rd (printed 4 c.1)) - c'.1| := by
        have t := abs_sub_abs_le_abs_sub (c.1 - c'.1) (c.1 - fl (rd (printed 4 c.1)))
        have e1 : c.1 - c'.1 - (c.1 - fl (rd (printed 4 c.1))) = fl (rd (printed 4 c.1)) - c'.1 := by ring
        rw [e1, abs_sub_comm c.1 (fl (rd (printed 4 c.1)))] at t
        linarith
      linarith [diff_big fl hfl _ this, ht.2]
    · right
      have : 127 / 1000000 ≤ |fl (rd (printed 4 c.2)) - c'.2| := by
        have t := abs_sub_abs_le_abs_sub (c.2 - c'.2) (c.2 - fl (rd (printed 4 c.2)))
        have e1 : c.2 - c'.2 - (c.2 - fl (rd (printed 4 c.2))) = fl (rd (printed 4 c.2)) - c'.2 := by ring
        rw [e1, abs_sub_comm c.2 (fl (rd (printed 4 c.2)))] at t
        linarith
      linarith [diff_big fl hfl _ this, ht.2]
  · by_cases h : |fl (fl (rd (printed 4 c.1)) - c'.1)| > rd (1 / 10000) ∨ |fl (fl (rd (printed 4 c.2)) - c'.2)| > rd (1 / 10000)
    · left; rw [if_pos h]
    · right; rw [if_neg h]

theorem write_lines (coo : List (ℚ × ℚ)) (vals : List (ℚ × List Char)) (hc : ∀ p ∈ coo, |p.1| ≤ 360 ∧ |p.2| ≤ 360)
    (hv : ∀ v ∈ vals, |v.1| ≤ 9999 ∧ IsName v.2) :
    fgetsAll 1024 (writeLut coo vals) = (coo.zip vals).map fun p => lutLine p.1 p.2.1 p.2.2 ++ ['\n'] := by
  unfold writeLut
  have := fgetsAll_lines 1024 ((coo.zip vals).map fun p => lutLine p.1 p.2.1 p.2.2) (by
    intro l hl
    rw [List.mem_map] at hl
    obtain ⟨p, hp, rfl⟩ := hl
    have h1 := hc _ (List.of_mem_zip hp).1
    have h2 := hv _ (List.of_mem_zip hp).2
    constructor
    · unfold lutLine
      rw [fmtF_fmtK]
      simp only [List.mem_append, List.mem_cons, not_or]
      exact ⟨notLine _ _, by decide, notLine _ _, by decide, notLine _ _, by decide, fun h => (h2.2.2.1 _ h).2 rfl⟩
    · unfold lutLine
      rw [fmtF_fmtK]
      have l1 := fmtK_length 4 p.1.1 (by linarith [h1.1])
      have l2 := fmtK_length 4 p.1.2 (by linarith [h1.2])
      have l3 := fmtK_length 6 p.2.1 (by linarith [h2.1])
      have l4 := h2.2.2.2
      simp only [List.length_append, List.length_cons]
      omega)
  rw [List.flatMap_map, List.map_map] at this
  exact this

/-- C144: a table that was written for a list of locations (up to 360 degrees) is accepted for the same locations and gives the same values, within 0.00001 cm; exactly the locations without value have no value. -/
theorem c144_roundtrip (rd fl : ℚ → ℚ) (hrd : ∀ x, Nearest 53 x (rd x)) (hfl : ∀ x, Nearest 24 x (fl x))
    (coo : List (ℚ × ℚ)) (vals : List (ℚ × List Char)) (hlen : coo.length = vals.length) (hc : ∀ p ∈ coo, |p.1| ≤ 360 ∧ |p.2| ≤ 360)
    (hv : ∀ v ∈ vals, (v.1 = 9999 ∨ 0 ≤ v.1 ∧ v.1 ≤ 100) ∧ IsName v.2) :
    ∃ ws, readLut rd fl (writeLut coo vals) coo = .ok ws ∧ ws.length = coo.length ∧
      ∀ (i : Nat) v w, vals[i]? = some v → ws[i]? = some w → |w - v.1| ≤ 1 / 100000 ∧ (w = 9999 ↔ v.1 = 9999) := by
  have value : ∀ v : ℚ, (v = 9999 ∨ 0 ≤ v ∧ v ≤ 100) → |fl (rd (printed 6 v)) - v| ≤ 1 / 100000 ∧ (fl (rd (printed 6 v)) = 9999 ↔ v = 9999) := by
    intro v hv
    rcases hv with rfl | hv
    · have e : printed 6 9999 = 9999 := by
        unfold printed
        rw [if_neg (by norm_num), abs_of_pos (by norm_num)]
        have : roundEven (9999 * 10 ^ 6) = 9999000000 := roundEven_of_close _ _ (by norm_num)
        rw [this]
        have e2 : Int.toNat 9999000000 = 9999000000 := rfl
        rw [e2]
        norm_num
      have r53 : Rep 53 (9999 : ℚ) := by
        have := Verif.Float.rep_int (p := 53) (k := 9999) (by norm_num)
        exact_mod_cast this
      have r24 : Rep 24 (9999 : ℚ) := by
        have := Verif.Float.rep_int (p := 24) (k := 9999) (by norm_num)
        exact_mod_cast this
      rw [e, Verif.Float.eq_of_nearest_rep r53 (hrd _), Verif.Float.eq_of_nearest_rep r24 (hfl _)]
      norm_num
    · have h1 := printed_err 6 v
      have h2 := nearest_err (by norm_num) (hrd (printed 6 v))
      have h3 := nearest_err (by norm_num) (hfl (rd (printed 6 v)))
      generalize printed 6 v = p at *
      generalize rd p = d at *
      generalize fl d = f at *
      rw [abs_le] at h1
      norm_num at h1
      have hp : |p| ≤ 101 := by rw [abs_le]; constructor <;> linarith [h1.1, h1.2, hv.1, hv.2]
      have h2' : |p - d| ≤ 101 / 2 ^ 53 := le_trans h2 (div_le_div_of_nonneg_right hp (by positivity))
      rw [abs_le] at hp h2'
      norm_num at h2'
      have hd : |d| ≤ 102 := by rw [abs_le]; constructor <;> linarith [h2'.1, h2'.2, h1.1, h1.2, hv.1, hv.2]
      have h3' : |d - f| ≤ 102 / 2 ^ 24 := le_trans h3 (div_le_div_of_nonneg_right hd (by positivity))
      rw [abs_le] at h3'
      norm_num at h3'
      refine ⟨?_, ?_⟩
      · rw [abs_le]; norm_num; constructor <;> linarith [h1.1, h1.2, h2'.1, h2'.2, h3'.1, h3'.2]
      · constructor
        · intro h; exfalso; linarith [h1.1, h1.2, h2'.1, h2'.2, h3'.1, h3'.2, hv.2]
        · intro h; exfalso; linarith [hv.2]
  have hv' : ∀ v ∈ vals, |v.1| ≤ 9999 ∧ IsName v.2 := by
    intro v h
    refine ⟨?_, (hv v h).2⟩
    rcases (hv v h).1 with e | e
    · rw [e]; norm_num
    · rw [abs_le]; constructor <;> linarith [e.1, e.2]
  unfold readLut
  rw [write_lines coo vals hc hv']
  clear hv'
  have key : ∀ (coo : List (ℚ × ℚ)) (vals : List (ℚ × List Char)), coo.length = vals.length → (∀ p ∈ coo, |p.1| ≤ 360 ∧ |p.2| ≤ 360) →
      readRows rd fl ((coo.zip vals).map fun p => lutLine p.1 p.2.1 p.2.2 ++ ['\n']) coo = .ok (vals.map fun v => fl (rd (printed 6 v.1))) := by
    intro coo
    induction coo with
    | nil =>
      intro vals hl _
      have : vals = [] := List.length_eq_zero_iff.1 (by simpa using hl.symm)
      subst this; rfl
    | cons c coo ih =>
      intro vals hl hc
      cases vals with
      | nil => simp at hl
      | cons v vals =>
        rw [List.zip_cons_cons, List.map_cons]
        rw [(row_read rd fl hrd hfl c c v.1 v.2 (hc c (by simp)) _ _).1 rfl]
        rw [ih vals (by simpa using hl) (fun p hp => hc p (by simp [hp]))]
        rfl
  refine ⟨_, key coo vals hlen hc, by simp [hlen], ?_⟩
  intro i v w h1 h2
  rw [List.getElem?_map, h1] at h2
  simp only [Option.map_some, Option.some.injEq] at h2
  subst h2
  exact value v.1 (hv v (List.mem_of_getElem? h1)).1

/-- C144: a table of other locations (a location differs by 0.0002 degrees or more, or the table has fewer lines) is refused. -/
theorem c144_refused (rd fl : ℚ → ℚ) (hrd : ∀ x, Nearest 53 x (rd x)) (hfl : ∀ x, Nearest 24 x (fl x))
    (coo coo' : List (ℚ × ℚ)) (vals : List (ℚ × List Char)) (hlen : coo.length = vals.length) (hc : ∀ p ∈ coo, |p.1| ≤ 360 ∧ |p.2| ≤ 360)
    (hv : ∀ v ∈ vals, (v.1 = 9999 ∨ 0 ≤ v.1 ∧ v.1 ≤ 100) ∧ IsName v.2)
    (h : coo.length < coo'.length ∨ ∃ (i : Nat) (c c' : ℚ × ℚ), coo[i]? = some c ∧ coo'[i]? = some c' ∧ (1 / 5000 ≤ |c.1 - c'.1| ∨ 1 / 5000 ≤ |c.2 - c'.2|)) :
    readLut rd fl (writeLut coo vals) coo' = .exit := by
  have hv' : ∀ v ∈ vals, |v.1| ≤ 9999 ∧ IsName v.2 := by
    intro v h
    refine ⟨?_, (hv v h).2⟩
    rcases (hv v h).1 with e | e
    · rw [e]; norm_num
    · rw [abs_le]; constructor <;> linarith [e.1, e.2]
  unfold readLut
  rw [write_lines coo vals hc hv']
  clear hv hv'
  induction coo generalizing coo' vals with
  | nil =>
    have : vals = [] := List.length_eq_zero_iff.1 (by simpa using hlen.symm)
    subst this
    cases coo' with
    | nil => rcases h with h | ⟨i, c, c', h1, -⟩ <;> simp at *
    | cons c' coo' => rfl
  | cons c coo ih =>
    cases vals with
    | nil => simp at hlen
    | cons v vals =>
      cases coo' with
      | nil =>
        exfalso
        rcases h with h | ⟨i, c, c', -, h1, -⟩
        · simp at h
        · simp at h1
      | cons c' coo' =>
        rw [List.zip_cons_cons, List.map_cons]
        obtain ⟨-, r2, r3⟩ := row_read rd fl hrd hfl c c' v.1 v.2 (hc c (by simp)) ((coo.zip vals).map fun p => lutLine p.1 p.2.1 p.2.2 ++ ['\n']) coo'
        by_cases hd : 1 / 5000 ≤ |c.1 - c'.1| ∨ 1 / 5000 ≤ |c.2 - c'.2|
        · exact r2 hd
        · have : readRows rd fl ((coo.zip vals).map fun p => lutLine p.1 p.2.1 p.2.2 ++ ['\n']) coo' = .exit := by
            refine ih coo' vals (by simpa using hlen) (fun p hp => hc p (by simp [hp])) ?_
            rcases h with h | ⟨i, d, d', h1, h2, h3⟩
            · left; simpa using h
            · right
              cases i with
              | zero =>
                simp only [List.getElem?_cons_zero, Option.some.injEq] at h1 h2
                subst h1; subst h2
                exact absurd h3 hd
              | succ i => exact ⟨i, d, d', by simpa using h1, by simpa using h2, h3⟩
          rcases r3 with r3 | r3
          · exact r3
          · rw [r3, this]; rfl

/-! ## Locations -/

/-- C144: a file with one location per line (two words with spaces between them) gives exactly these locations in order; a file without line is refused. -/
theorem c144_locations_partial (rd fl : ℚ → ℚ) (ws : List (List Char × Nat × List Char))
    (h : ∀ w ∈ ws, w.1 ≠ [] ∧ w.2.2 ≠ [] ∧ (∀ c ∈ w.1, c ≠ ' ' ∧ c ≠ '\n') ∧ (∀ c ∈ w.2.2, c ≠ ' ' ∧ c ≠ '\n') ∧ w.1.length + w.2.1 + w.2.2.length < 1000) :
    startCoords rd fl (some (ws.flatMap fun w => (w.1 ++ ' ' :: (List.replicate w.2.1 ' ' ++ w.2.2)) ++ ['\n'])) =
      if ws = [] then .exit else .ok (ws.length, some (ws.map fun w => (fl (atof rd w.1), fl (atof rd (w.2.2 ++ ['\n']))))) := by
  have hl := fgetsAll_lines 1024 (ws.map fun w => w.1 ++ ' ' :: (List.replicate w.2.1 ' ' ++ w.2.2)) (by
    intro l hl
    rw [List.mem_map] at hl
    obtain ⟨w, hw, rfl⟩ := hl
    obtain ⟨h1, h2, h3, h4, h5⟩ := h w hw
    constructor
    · simp only [List.mem_append, List.mem_cons, not_or, List.mem_replicate]
      exact ⟨fun hh => (h3 _ hh).2 rfl, by decide, fun hh => absurd hh.2 (by decide), fun hh => (h4 _ hh).2 rfl⟩
    · simp only [List.length_append, List.length_cons, List.length_replicate]
      omega)
  rw [List.flatMap_map, List.map_map] at hl
  unfold startCoords parseCoords
  simp only
  rw [hl]
  have key : ∀ ws : List (List Char × Nat × List Char),
      (∀ w ∈ ws, w.1 ≠ [] ∧ w.2.2 ≠ [] ∧ (∀ c ∈ w.1, c ≠ ' ' ∧ c ≠ '\n') ∧ (∀ c ∈ w.2.2, c ≠ ' ' ∧ c ≠ '\n') ∧ w.1.length + w.2.1 + w.2.2.length < 1000) →
      coordRows rd fl (ws.map ((fun l => l ++ ['\n']) ∘ fun w => w.1 ++ ' ' :: (List.replicate w.2.1 ' ' ++ w.2.2))) =
        .ok (ws.map fun w => (fl (atof rd w.1), fl (atof rd (w.2.2 ++ ['\n'])))) := by
    intro ws h
    induction ws with
    | nil => rfl
    | cons w ws ih =>
      obtain ⟨h1, h2, h3, h4, -⟩ := h w (by simp)
      rw [List.map_cons]
      unfold coordRows
      have t1 := strtok_cons sep [] w.1 ((List.replicate w.2.1 ' ' ++ w.2.2) ++ ['\n']) (by simp) (by intro c hc; simp [sep, (h3 c hc).1]) h1 ' ' (by decide)
      have t2 := strtok_end sep (List.replicate w.2.1 ' ') (w.2.2 ++ ['\n']) (by
        intro c hc; rw [List.mem_replicate] at hc; rw [hc.2]; decide) (by
        intro c hc
        rw [List.mem_append] at hc
        rcases hc with hc | hc
        · simp [sep, (h4 c hc).1]
        · simp at hc; subst hc; decide) (by simp)
      have e1 : ((fun l => l ++ ['\n']) ∘ fun (w : List Char × Nat × List Char) => w.1 ++ ' ' :: (List.replicate w.2.1 ' ' ++ w.2.2)) w =
          w.1 ++ ' ' :: ((List.replicate w.2.1 ' ' ++ w.2.2) ++ ['\n']) := by simp
      rw [e1]
      rw [List.nil_append] at t1
      rw [t1]
      rw [← List.append_assoc] at t2
      show (num rd (strtok sep ((List.replicate w.2.1 ' ' ++ w.2.2) ++ ['\n']))).bind _ = _
      rw [t2]
      show (coordRows rd fl _).bind _ = _
      rw [ih (fun w' hw' => h w' (by simp [hw']))]
      rfl
  have k := key ws h
  show ((coordRows rd fl (ws.map ((fun l => l ++ ['\n']) ∘ fun w => w.1 ++ ' ' :: (List.replicate w.2.1 ' ' ++ w.2.2)))).bind _).bind _ = _
  rw [k]
  simp only [Out.bind, List.length_map]
  by_cases hw : ws = []
  · subst hw; rfl
  · have := List.length_pos_iff.2 hw
    rw [if_neg (by omega), if_neg hw]

/-- C144, violated: if the file with the locations cannot be opened, the program is not stopped: it continues with one location and a pointer that was never set. -/
theorem c144_missing_file_violated (rd fl : ℚ → ℚ) : startCoords rd fl none = .ok (1, none) := rfl

/-- C144, violated: a line without space (also an empty line, or numbers separated by a tabulator or comma) gives undefined behaviour, wherever it occurs in a file of otherwise correct lines. -/
theorem c144_separator_violated (rd fl : ℚ → ℚ) (l : List Char) (hl : ∀ c ∈ l, c ≠ ' ' ∧ c ≠ '\n') (hlen : l.length < 1000) (rest : List (List Char))
    (hr : ∀ r ∈ rest, '\n' ∉ r ∧ r.length < 1000) :
    startCoords rd fl (some ((l :: rest).flatMap fun r => r ++ ['\n'])) = .ub := by
  unfold startCoords parseCoords
  simp only
  rw [fgetsAll_lines 1024 (l :: rest) (by
    intro r hr'
    rcases List.mem_cons.1 hr' with rfl | hr'
    · exact ⟨fun h => (hl _ h).2 rfl, by omega⟩
    · exact ⟨(hr r hr').1, by have := (hr r hr').2; omega⟩)]
  have t := strtok_end sep [] (l ++ ['\n']) (by simp) (by
    intro c hc
    rw [List.mem_append] at hc
    rcases hc with hc | hc
    · simp [sep, (hl c hc).1]
    · simp at hc; subst hc; decide) (by simp)
  rw [List.nil_append] at t
  rw [List.map_cons]
  unfold coordRows
  rw [t]
  rfl

/-! ## Climatology -/

/-- Values of the daily tables of a month at a location. -/
noncomputable def monthValues (days : List (Nat × Option (Nat → ℝ))) (m c : Nat) : List ℝ :=
  open Classical in
  (days.filterMap fun d => if d.1 = m then d.2.map fun t => t c else none).filter fun v => v ≠ 9999

theorem climLoop_eq (days : List (Nat × Option (Nat → ℝ))) (m c : Nat) : climLoop days m c = Verif.Stats.varLoop (monthValues days m c) (0, 0, 0) := by
  induction days using List.reverseRecOn with
  | nil => rfl
  | append_singleton days d ih =>
    unfold climLoop at ih ⊢
    rw [List.foldl_append, ih]
    have hm : monthValues (days ++ [d]) m c = monthValues days m c ++ monthValues [d] m c := by
      unfold monthValues
      rw [List.filterMap_append, List.filter_append]
    rw [hm]
    obtain ⟨k, t⟩ := d
    simp only [List.foldl_cons, List.foldl_nil]
    have nothing : monthValues [(k, t)] m c = [] → Verif.Stats.varLoop (monthValues days m c ++ monthValues [(k, t)] m c) (0, 0, 0) = Verif.Stats.varLoop (monthValues days m c) (0, 0, 0) := by
      intro h; rw [h, List.append_nil]
    cases t with
    | none => rw [nothing (by simp [monthValues])]
    | some t =>
      by_cases hk : k = m
      · subst hk
        by_cases hv : t c = 9999
        · rw [nothing (by simp [monthValues, hv])]
          simp [climStep, hv]
        · have : monthValues [(k, some t)] k c = [t c] := by simp [monthValues, hv]
          rw [this, Verif.Stats.varLoop_snoc]
          simp only [if_true]
          generalize Verif.Stats.varLoop (monthValues days k c) (0, 0, 0) = s
          obtain ⟨n, mx, vx⟩ := s
          unfold climStep
          rw [if_neg hv]
          simp only [Verif.Stats.varLoop]
      · rw [nothing (by simp [monthValues, hk])]
        simp [hk]

/-- C145: the climatology of a month and location is the mean of the values of all daily tables of this month (of all years) that have a value there, with their standard deviation and number; the mean is 9999 without values, the standard deviation with less than two. -/
theorem c145_climatology (days : List (Nat × Option (Nat → ℝ))) (m c : Nat) :
    (climFinal (climLoop days m c)).2.2 = (monthValues days m c).length ∧
    (monthValues days m c = [] → (climFinal (climLoop days m c)).1 = 9999) ∧
    (monthValues days m c ≠ [] → (climFinal (climLoop days m c)).1 = (monthValues days m c).sum / (monthValues days m c).length) ∧
    ((monthValues days m c).length < 2 → (climFinal (climLoop days m c)).2.1 = 9999) ∧
    (2 ≤ (monthValues days m c).length → (climFinal (climLoop days m c)).2.1 =
      Real.sqrt (((monthValues days m c).map fun v => (v - (monthValues days m c).sum / (monthValues days m c).length) ^ 2).sum / ((monthValues days m c).length - 1))) := by
  rw [climLoop_eq]
  generalize monthValues days m c = l
  by_cases hl : l = []
  · subst hl
    simp [climFinal, Verif.Stats.varLoop]
  · have e := Verif.Stats.c36_variance l hl
    have hpos := List.length_pos_iff.2 hl
    rw [e]
    unfold climFinal
    simp only
    refine ⟨trivial, fun h => absurd h hl, fun _ => ?_, fun h => by rw [if_pos h], fun h => ?_⟩
    · rw [if_neg (by omega)]; rfl
    · rw [if_neg (by omega)]
      rfl

end Verif.Wvp
