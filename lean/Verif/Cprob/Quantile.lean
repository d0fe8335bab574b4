import Mathlib.Data.List.GetD
import Mathlib.Tactic.Linarith
import Mathlib.Tactic.Ring
import Verif.Cprob.Model

/-!
# Quantiles (C253) -/

namespace Verif.Cprob

/-- What is rounded in `quantile`, for data that are sorted. -/
def core (f : ℚ) (s : List ℚ) : ℚ :=
  if s.length = 0 then 0
  else if ⌊f * ((s.length : ℚ) - 1)⌋₊ = s.length - 1 then s.getD ⌊f * ((s.length : ℚ) - 1)⌋₊ 0
  else (1 - (f * ((s.length : ℚ) - 1) - (⌊f * ((s.length : ℚ) - 1)⌋₊ : ℕ))) * s.getD ⌊f * ((s.length : ℚ) - 1)⌋₊ 0 +
    (f * ((s.length : ℚ) - 1) - (⌊f * ((s.length : ℚ) - 1)⌋₊ : ℕ)) * s.getD (⌊f * ((s.length : ℚ) - 1)⌋₊ + 1) 0

theorem quantile_eq (rf : ℚ → ℚ) (f : ℚ) (x : List ℚ) : quantile rf f x = rf (core f (x.insertionSort (· ≤ ·))) := rfl

theorem getD_mono {s : List ℚ} (hs : s.Pairwise (· ≤ ·)) {i j : Nat} (h : i ≤ j) (hj : j < s.length) :
    s.getD i 0 ≤ s.getD j 0 := by
  have hi : i < s.length := by omega
  rw [List.getD_eq_getElem _ _ hi, List.getD_eq_getElem _ _ hj]
  rcases Nat.lt_or_ge i j with h' | h'
  · exact List.pairwise_iff_getElem.1 hs i j hi hj h'
  · have : i = j := by omega
    subst this
    exact le_refl _

/-- Linear between neighbouring elements. -/
theorem core_between (f : ℚ) (s : List ℚ) (k : Nat) (hk : k + 1 < s.length) (h0 : (k : ℚ) ≤ f * ((s.length : ℚ) - 1))
    (h1 : f * ((s.length : ℚ) - 1) ≤ k + 1) :
    core f s = s.getD k 0 + (f * ((s.length : ℚ) - 1) - k) * (s.getD (k + 1) 0 - s.getD k 0) := by
  unfold core
  rw [if_neg (by omega)]
  generalize f * ((s.length : ℚ) - 1) = t at *
  have ht : 0 ≤ t := le_trans (Nat.cast_nonneg k) h0
  rcases lt_or_eq_of_le h1 with h | h
  · have e : ⌊t⌋₊ = k := (Nat.floor_eq_iff ht).2 ⟨h0, h⟩
    rw [e, if_neg (by omega)]
    ring
  · have e : ⌊t⌋₊ = k + 1 := (Nat.floor_eq_iff ht).2 ⟨by push_cast; linarith, by push_cast; linarith⟩
    rw [e]
    split
    · rw [h]; ring
    · rw [h]; push_cast; ring

theorem core_last (f : ℚ) (s : List ℚ) (hn : s.length = 1) : core f s = s.getD 0 0 := by
  unfold core
  rw [if_neg (by omega), hn]
  have e : f * (((1 : Nat) : ℚ) - 1) = 0 := by push_cast; ring
  rw [e, Nat.floor_zero, if_pos rfl]

/-- The piece that is used. -/
theorem piece (f : ℚ) (n : Nat) (hn : 2 ≤ n) (h0 : 0 ≤ f) (h1 : f ≤ 1) :
    ∃ k, k = min ⌊f * ((n : ℚ) - 1)⌋₊ (n - 2) ∧ k + 1 < n ∧ (k : ℚ) ≤ f * ((n : ℚ) - 1) ∧ f * ((n : ℚ) - 1) ≤ k + 1 := by
  have hn' : (2 : ℚ) ≤ n := by exact_mod_cast hn
  have ht : 0 ≤ f * ((n : ℚ) - 1) := mul_nonneg h0 (by linarith)
  have ht1 : f * ((n : ℚ) - 1) ≤ n - 1 := by nlinarith
  generalize f * ((n : ℚ) - 1) = t at *
  have hf := Nat.floor_le ht
  have hl := Nat.lt_floor_add_one t
  refine ⟨_, rfl, by omega, ?_, ?_⟩
  · exact le_trans (by exact_mod_cast Nat.min_le_left _ _) hf
  · rcases Nat.le_total ⌊t⌋₊ (n - 2) with h | h
    · rw [Nat.min_eq_left h]; exact hl.le
    · rw [Nat.min_eq_right h, Nat.cast_sub hn]; push_cast; linarith

theorem core_bounds (f : ℚ) (s : List ℚ) (hs : s.Pairwise (· ≤ ·)) (k : Nat) (hk : k + 1 < s.length)
    (h0 : (k : ℚ) ≤ f * ((s.length : ℚ) - 1)) (h1 : f * ((s.length : ℚ) - 1) ≤ k + 1) :
    s.getD k 0 ≤ core f s ∧ core f s ≤ s.getD (k + 1) 0 := by
  rw [core_between f s k hk h0 h1]
  have := getD_mono hs (Nat.le_succ k) hk
  constructor <;> nlinarith

theorem core_mono (f g : ℚ) (s : List ℚ) (hs : s.Pairwise (· ≤ ·)) (h0 : 0 ≤ f) (hfg : f ≤ g) (h1 : g ≤ 1) :
    core f s ≤ core g s := by
  rcases Nat.lt_or_ge s.length 2 with hn | hn
  · rcases Nat.eq_zero_or_pos s.length with h | h
    · unfold core; rw [if_pos h, if_pos h]
    · rw [core_last f s (by omega), core_last g s (by omega)]
  · have hn' : (2 : ℚ) ≤ s.length := by exact_mod_cast hn
    obtain ⟨k, ek, k1, k2, k3⟩ := piece f s.length hn h0 (by linarith)
    obtain ⟨l, el, l1, l2, l3⟩ := piece g s.length hn (by linarith) h1
    have htu : f * ((s.length : ℚ) - 1) ≤ g * ((s.length : ℚ) - 1) := mul_le_mul_of_nonneg_right hfg (by linarith)
    have hkl : k ≤ l := by
      have := Nat.floor_le_floor htu
      omega
    rcases Nat.lt_or_ge k l with h | h
    · have a := (core_bounds f s hs k k1 k2 k3).2
      have b := (core_bounds g s hs l l1 l2 l3).1
      have c := getD_mono hs (show k + 1 ≤ l by omega) (by omega)
      linarith
    · have : k = l := by omega
      subst this
      rw [core_between f s k k1 k2 k3, core_between g s k k1 l2 l3]
      have := getD_mono hs (Nat.le_succ k) k1
      nlinarith

/-- The element below and the element above. -/
theorem core_elements (f : ℚ) (s : List ℚ) (hs : s.Pairwise (· ≤ ·)) (hn : s ≠ []) (h0 : 0 ≤ f) (h1 : f ≤ 1) :
    ∃ i j, i < s.length ∧ j < s.length ∧ s.getD i 0 ≤ core f s ∧ core f s ≤ s.getD j 0 ∧
      f * ((s.length : ℚ) - 1) < i + 1 ∧ (j : ℚ) < f * ((s.length : ℚ) - 1) + 1 := by
  have hpos : 0 < s.length := List.length_pos_iff.2 hn
  rcases Nat.lt_or_ge s.length 2 with h | h
  · have e : s.length = 1 := by omega
    refine ⟨0, 0, hpos, hpos, ?_, ?_, ?_, ?_⟩
    · rw [core_last f s e]
    · rw [core_last f s e]
    · rw [e]; push_cast; linarith
    · rw [e]; push_cast; linarith
  · obtain ⟨k, ek, k1, k2, k3⟩ := piece f s.length h h0 h1
    obtain ⟨b1, b2⟩ := core_bounds f s hs k k1 k2 k3
    have e := core_between f s k k1 k2 k3
    generalize f * ((s.length : ℚ) - 1) = t at *
    by_cases hk : t = k + 1
    · have e' : core f s = s.getD (k + 1) 0 := by rw [e, hk]; ring
      exact ⟨k + 1, k + 1, k1, k1, e'.ge, e'.le, by push_cast; linarith, by push_cast; linarith⟩
    · by_cases hk0 : t = k
      · have e' : core f s = s.getD k 0 := by rw [e, hk0]; ring
        exact ⟨k, k, by omega, by omega, e'.ge, e'.le, by linarith, by linarith⟩
      · have := lt_of_le_of_ne k3 hk
        have := lt_of_le_of_ne k2 (Ne.symm hk0)
        exact ⟨k, k + 1, by omega, k1, b1, b2, by linarith, by push_cast; linarith⟩

theorem count_low (s : List ℚ) (hs : s.Pairwise (· ≤ ·)) (i : Nat) (hi : i < s.length) (q : ℚ) (h : s.getD i 0 ≤ q) :
    i + 1 ≤ s.countP (fun v => decide (v ≤ q)) := by
  have e : s.countP (fun v => decide (v ≤ q)) =
      (s.take (i + 1)).countP (fun v => decide (v ≤ q)) + (s.drop (i + 1)).countP (fun v => decide (v ≤ q)) := by
    rw [← List.countP_append, List.take_append_drop]
  have e2 : (s.take (i + 1)).countP (fun v => decide (v ≤ q)) = (s.take (i + 1)).length := by
    rw [List.countP_eq_length]
    intro v hv
    obtain ⟨k, hk, rfl⟩ := List.getElem_of_mem hv
    rw [List.length_take] at hk
    rw [List.getElem_take, decide_eq_true_eq, ← List.getD_eq_getElem s 0 (by omega)]
    exact le_trans (getD_mono hs (by omega) hi) h
  rw [e, e2, List.length_take]
  omega

theorem count_high (s : List ℚ) (hs : s.Pairwise (· ≤ ·)) (j : Nat) (hj : j < s.length) (q : ℚ) (h : q ≤ s.getD j 0) :
    s.length - j ≤ s.countP (fun v => decide (q ≤ v)) := by
  have e : s.countP (fun v => decide (q ≤ v)) =
      (s.take j).countP (fun v => decide (q ≤ v)) + (s.drop j).countP (fun v => decide (q ≤ v)) := by
    rw [← List.countP_append, List.take_append_drop]
  have e2 : (s.drop j).countP (fun v => decide (q ≤ v)) = (s.drop j).length := by
    rw [List.countP_eq_length]
    intro v hv
    obtain ⟨k, hk, rfl⟩ := List.getElem_of_mem hv
    rw [List.length_drop] at hk
    rw [List.getElem_drop, decide_eq_true_eq, ← List.getD_eq_getElem s 0 (by omega)]
    exact le_trans h (getD_mono hs (by omega) (by omega))
  rw [e, e2, List.length_drop]
  omega

/-- C253: the quantile interpolates linearly between the sorted values: the `k`-th of `n` sorted values is at
`k / (n - 1)`. -/
theorem c253_interpolation (rf : ℚ → ℚ) (f : ℚ) (x s : List ℚ) (hp : s.Perm x) (hs : s.Pairwise (· ≤ ·)) (k : Nat)
    (a b : ℚ) (ha : s[k]? = some a) (hb : s[k + 1]? = some b) (h0 : (k : ℚ) / (s.length - 1) ≤ f)
    (h1 : f ≤ (k + 1 : ℚ) / (s.length - 1)) :
    quantile rf f x = rf (a + (f * ((s.length : ℚ) - 1) - k) * (b - a)) := by
  have e : x.insertionSort (· ≤ ·) = s :=
    List.Perm.eq_of_pairwise' (List.pairwise_insertionSort (· ≤ ·) x) hs
      ((List.perm_insertionSort (· ≤ ·) x).trans hp.symm)
  have hk : k + 1 < s.length := (List.getElem?_eq_some_iff.1 hb).1
  have hn : (0 : ℚ) < (s.length : ℚ) - 1 := by
    have : ((k : ℚ) + 1) < s.length := by exact_mod_cast hk
    have : (0 : ℚ) ≤ k := Nat.cast_nonneg k
    linarith
  have ea : s.getD k 0 = a := by rw [List.getD_eq_getElem?_getD, ha]; rfl
  have eb : s.getD (k + 1) 0 = b := by rw [List.getD_eq_getElem?_getD, hb]; rfl
  rw [quantile_eq, e, core_between f s k hk ((div_le_iff₀ hn).1 h0) ((le_div_iff₀ hn).1 h1), ea, eb]

/-- C253: a single value is its own quantile, and the quantile of no values is 0. -/
theorem c253_single (rf : ℚ → ℚ) (f v : ℚ) : quantile rf f [v] = rf v ∧ quantile rf f [] = rf 0 := by
  refine ⟨?_, rfl⟩
  rw [quantile_eq, List.insertionSort_cons, List.insertionSort_nil, List.orderedInsert_nil, core_last _ _ rfl]
  rfl

/-- C253: it depends on the values, not on their order. -/
theorem c253_order (rf : ℚ → ℚ) (f : ℚ) (x y : List ℚ) (h : x.Perm y) : quantile rf f x = quantile rf f y := by
  rw [quantile_eq, quantile_eq, List.Perm.eq_of_pairwise' (List.pairwise_insertionSort (· ≤ ·) x)
    (List.pairwise_insertionSort (· ≤ ·) y) (((List.perm_insertionSort (· ≤ ·) x).trans h).trans
      (List.perm_insertionSort (· ≤ ·) y).symm)]

/-- C253: a higher probability gives a higher quantile. -/
theorem c253_monotone (rf : ℚ → ℚ) (hm : Monotone rf) (f g : ℚ) (x : List ℚ) (h0 : 0 ≤ f) (hfg : f ≤ g) (h1 : g ≤ 1) :
    quantile rf f x ≤ quantile rf g x :=
  hm (core_mono f g _ (List.pairwise_insertionSort (· ≤ ·) x) h0 hfg h1)

/-- C253: of `n` values more than `f (n - 1)` are at most the quantile, and more than `(1 - f) (n - 1)` are at least the
quantile. -/
theorem c253_share (rf : ℚ → ℚ) (hm : Monotone rf) (f : ℚ) (x : List ℚ) (hx : x ≠ []) (hr : ∀ v ∈ x, rf v = v)
    (h0 : 0 ≤ f) (h1 : f ≤ 1) :
    f * ((x.length : ℚ) - 1) < (x.filter fun v => decide (v ≤ quantile rf f x)).length ∧
    (1 - f) * ((x.length : ℚ) - 1) < (x.filter fun v => decide (quantile rf f x ≤ v)).length := by
  have hs := List.pairwise_insertionSort (· ≤ ·) x
  have hp := List.perm_insertionSort (· ≤ ·) x
  rw [← List.countP_eq_length_filter, ← List.countP_eq_length_filter, ← hp.countP_eq, ← hp.countP_eq, ← hp.length_eq,
    quantile_eq]
  have hr' : ∀ v ∈ x.insertionSort (· ≤ ·), rf v = v := fun v hv => hr v (hp.mem_iff.1 hv)
  have hne : x.insertionSort (· ≤ ·) ≠ [] := fun h => hx (List.length_eq_zero_iff.1 (by rw [← hp.length_eq, h]; rfl))
  generalize x.insertionSort (· ≤ ·) = s at *
  obtain ⟨i, j, hi, hj, b1, b2, b3, b4⟩ := core_elements f s hs hne h0 h1
  have ri : rf (s.getD i 0) = s.getD i 0 := hr' _ (by rw [List.getD_eq_getElem _ _ hi]; exact List.getElem_mem hi)
  have rj : rf (s.getD j 0) = s.getD j 0 := hr' _ (by rw [List.getD_eq_getElem _ _ hj]; exact List.getElem_mem hj)
  have c1 := count_low s hs i hi (rf (core f s)) (by rw [← ri]; exact hm b1)
  have c2 := count_high s hs j hj (rf (core f s)) (by rw [← rj]; exact hm b2)
  have c1' : ((i : ℚ) + 1) ≤ (s.countP (fun v => decide (v ≤ rf (core f s))) : ℕ) := by exact_mod_cast c1
  have c2' : ((s.length : ℚ) - j) ≤ (s.countP (fun v => decide (rf (core f s) ≤ v)) : ℕ) := by
    have : (s.length - j : ℕ) = ((s.length : ℚ) - j) := by rw [Nat.cast_sub hj.le]
    rw [← this]; exact_mod_cast c2
  constructor
  · linarith
  · linarith

/-- C253: it is not below the smallest and not above the largest value. -/
theorem c253_range (rf : ℚ → ℚ) (hm : Monotone rf) (f : ℚ) (x : List ℚ) (hx : x ≠ []) (hr : ∀ v ∈ x, rf v = v)
    (h0 : 0 ≤ f) (h1 : f ≤ 1) : (∃ v ∈ x, v ≤ quantile rf f x) ∧ ∃ v ∈ x, quantile rf f x ≤ v := by
  have hl : (1 : ℚ) ≤ x.length := by exact_mod_cast List.length_pos_iff.2 hx
  obtain ⟨a, b⟩ := c253_share rf hm f x hx hr h0 h1
  have a' : (0 : ℚ) < (x.filter fun v => decide (v ≤ quantile rf f x)).length :=
    lt_of_le_of_lt (mul_nonneg h0 (by linarith)) a
  have b' : (0 : ℚ) < (x.filter fun v => decide (quantile rf f x ≤ v)).length :=
    lt_of_le_of_lt (mul_nonneg (by linarith) (by linarith)) b
  constructor
  · obtain ⟨v, hv⟩ := List.length_pos_iff_exists_mem.1 (by exact_mod_cast a')
    exact ⟨v, (List.mem_filter.1 hv).1, by simpa using (List.mem_filter.1 hv).2⟩
  · obtain ⟨v, hv⟩ := List.length_pos_iff_exists_mem.1 (by exact_mod_cast b')
    exact ⟨v, (List.mem_filter.1 hv).1, by simpa using (List.mem_filter.1 hv).2⟩

/-- The sorted values are transformed like the values. -/
theorem sort_affine (a c : ℚ) (ha : 0 < a) (x : List ℚ) :
    (x.map fun v => a * v + c).insertionSort (· ≤ ·) = (x.insertionSort (· ≤ ·)).map fun v => a * v + c := by
  refine (List.map_insertionSort (· ≤ ·) (· ≤ ·) (fun v => a * v + c) x fun u _ v _ => ?_).symm
  constructor
  · intro h; nlinarith
  · intro h; nlinarith

/-- C253: in exact arithmetic, rescaled values have the rescaled quantile. -/
theorem c253_affine (a c : ℚ) (ha : 0 < a) (f : ℚ) (x : List ℚ) (hx : x ≠ []) (h0 : 0 ≤ f) (h1 : f ≤ 1) :
    quantile id f (x.map fun v => a * v + c) = a * quantile id f x + c := by
  rw [quantile_eq, quantile_eq, sort_affine a c ha]
  have hne : (x.insertionSort (· ≤ ·)).length ≠ 0 := by
    rw [List.length_insertionSort]; exact fun h => hx (List.length_eq_zero_iff.1 h)
  generalize x.insertionSort (· ≤ ·) = s at *
  have g : ∀ i, i < s.length → (s.map fun v => a * v + c).getD i 0 = a * s.getD i 0 + c := by
    intro i hi
    rw [List.getD_eq_getElem _ _ (by simpa using hi), List.getD_eq_getElem _ _ hi, List.getElem_map]
  show core f _ = a * core f s + c
  rcases Nat.lt_or_ge s.length 2 with h | h
  · rw [core_last f s (by omega), core_last f _ (by rw [List.length_map]; omega), g 0 (by omega)]
  · obtain ⟨k, -, k1, k2, k3⟩ := piece f s.length h h0 h1
    rw [core_between f s k k1 k2 k3, core_between f (s.map _) k (by rw [List.length_map]; exact k1)
      (by rw [List.length_map]; exact k2) (by rw [List.length_map]; exact k3), List.length_map, g k (by omega), g (k + 1) k1]
    ring

/-- The quantile of four values. -/
example : quantile id (1 / 2) [4, 1, 3, 2] = 5 / 2 := by decide +kernel

end Verif.Cprob
