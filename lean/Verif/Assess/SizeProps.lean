import Verif.Assess.Model
import Mathlib.Tactic.Linarith
import Mathlib.Tactic.Ring
import Mathlib.Tactic.FieldSimp
import Mathlib.Tactic.Positivity
import Mathlib.Algebra.Order.BigOperators.Group.List
import Mathlib.Algebra.Order.Field.Basic

/-!
# The sample size
-/

namespace Verif.Assess

/-- C162: the suggested sample size is the largest number whose square root, times the expected standard error, does not exceed the mean standard
deviation of the classes weighted by area. -/
theorem c162_number (t : List Row) (err : ℝ) (he : 0 < err) (n : Nat) :
    n ≤ number t err ↔ n * err ^ 2 ≤ (t.map fun r => ((r.count / (t.map (·.count)).sum : ℚ) : ℝ) * Real.sqrt (r.acc * (1 - r.acc))).sum ^ 2 := by
  unfold number share stdev
  rw [Nat.le_floor_iff (by positivity), div_pow, le_div_iff₀ (by positivity)]

theorem stdev_le (r : Row) : stdev r ≤ 1 / 2 := by
  unfold stdev
  rw [show (1 / 2 : ℝ) = Real.sqrt ((1 / 2) ^ 2) from (Real.sqrt_sq (by norm_num)).symm]
  refine Real.sqrt_le_sqrt ?_
  nlinarith [sq_nonneg (r.acc - 1 / 2)]

theorem stdev_nonneg (r : Row) : 0 ≤ stdev r := Real.sqrt_nonneg _

theorem share_nonneg {t : List Row} (h : ∀ r ∈ t, 0 ≤ r.count) {r : Row} (hr : r ∈ t) : 0 ≤ share t r := by
  unfold share
  exact div_nonneg (h r hr) (List.sum_nonneg fun x hx => by obtain ⟨a, h1, rfl⟩ := List.mem_map.1 hx; exact h a h1)

theorem sum_div_list (l : List Row) (d : ℚ) : (l.map fun r => r.count / d).sum = (l.map (·.count)).sum / d := by
  induction l with
  | nil => simp
  | cons a t ih => simp only [List.map_cons, List.sum_cons, ih]; ring

theorem sum_share {t : List Row} (h : 0 < (t.map (·.count)).sum) : (t.map (share t)).sum = 1 := by
  have := sum_div_list t (t.map (·.count)).sum
  rw [div_self h.ne'] at this
  exact this

/-- C162: no expected accuracy needs more samples than accuracies of one half: a quarter over the squared standard error. -/
theorem c162_bound (t : List Row) (h : ∀ r ∈ t, 0 ≤ r.count) (hs : 0 < (t.map (·.count)).sum) (err : ℝ) (he : 0 < err) :
    number t err * err ^ 2 ≤ 1 / 4 := by
  have h1 := (c162_number t err he (number t err)).1 le_rfl
  refine h1.trans ?_
  have h2 : 0 ≤ (t.map fun r => (share t r : ℝ) * stdev r).sum := List.sum_nonneg fun x hx => by
    obtain ⟨a, h1, rfl⟩ := List.mem_map.1 hx
    exact mul_nonneg (by exact_mod_cast share_nonneg h h1) (stdev_nonneg a)
  have h3 : (t.map fun r => (share t r : ℝ) * stdev r).sum ≤ 1 / 2 := by
    have : ∀ l : List Row, (∀ r ∈ l, 0 ≤ share t r) → (l.map fun r => (share t r : ℝ) * stdev r).sum ≤ (((l.map (share t)).sum : ℚ) : ℝ) * (1 / 2) := by
      intro l
      induction l with
      | nil => simp
      | cons a l ih =>
        intro hl
        have ih := ih fun r hr => hl r (List.mem_cons_of_mem _ hr)
        have h0 : (0 : ℝ) ≤ share t a := by exact_mod_cast hl a List.mem_cons_self
        have := mul_le_mul_of_nonneg_left (stdev_le a) h0
        simp only [List.map_cons, List.sum_cons]
        push_cast
        linarith
    have := this t fun r hr => share_nonneg h hr
    rw [sum_share hs] at this
    simpa using this
  have h4 : (t.map fun r => (share t r : ℝ) * stdev r).sum =
    (t.map fun r => ((r.count / (t.map (·.count)).sum : ℚ) : ℝ) * Real.sqrt (r.acc * (1 - r.acc))).sum := rfl
  rw [← h4]
  nlinarith

theorem roundR_err (x : ℚ) : |(roundR x : ℚ) - x| ≤ 1 / 2 := by
  have h1 := Int.floor_le x
  have h2 := Int.lt_floor_add_one x
  unfold roundR
  simp only
  rw [abs_le]
  split
  · constructor <;> linarith
  · split
    · push_cast; constructor <;> linarith
    · split
      · constructor <;> linarith
      · push_cast; constructor <;> linarith

/-- C163: in the proportional allocation each class gets the nearest integer to its share of the samples, and the total differs from the suggested
number by at most half a sample per class. -/
theorem c163_proportional (t : List Row) (hs : 0 < (t.map (·.count)).sum) (n minSize : Nat) (l : List Int) (h : advise t n minSize = .proportional l) :
    l.length = t.length ∧ (∀ x ∈ l, (minSize : Int) ≤ x) ∧
      (∀ (i : Nat) (r : Row) (x : Int), t[i]? = some r → l[i]? = some x → |(x : ℚ) - n * (r.count / (t.map (·.count)).sum)| ≤ 1 / 2) ∧
      |((l.sum : Int) : ℚ) - n| ≤ t.length / 2 := by
  unfold advise at h
  simp only at h
  split at h
  · split at h <;> cases h
  · rename_i hm
    injection h with h
    subst h
    refine ⟨by simp, ?_, ?_, ?_⟩
    · intro x hx
      obtain ⟨r, h1, rfl⟩ := List.mem_map.1 hx
      by_contra hc
      exact hm (List.any_eq_true.2 ⟨r, h1, by simpa using hc⟩)
    · intro i r x h1 h2
      rw [List.getElem?_map, h1] at h2
      injection h2 with h2
      subst h2
      exact roundR_err _
    · have key : ∀ l : List Row, |(((l.map (proportional t n)).sum : Int) : ℚ) - n * (l.map (share t)).sum| ≤ l.length / 2 := by
        intro l
        induction l with
        | nil => simp
        | cons a l ih =>
          have e := roundR_err ((n : ℚ) * share t a)
          simp only [List.map_cons, List.sum_cons, List.length_cons]
          rw [Int.cast_add, Nat.cast_add, Nat.cast_one]
          rw [abs_le] at *
          unfold proportional at *
          constructor <;> linarith [e.1, e.2, ih.1, ih.2]
      have := key t
      rwa [sum_share hs, mul_one] at this

/-- C163: whenever an allocation is recommended, every class has at least the minimum number of samples. -/
theorem c163_minimum (t : List Row) (n minSize : Nat) (rare big : List ℚ) (h : advise t n minSize = .compromise rare big) :
    (∀ x ∈ rare, x = minSize) ∧ (∀ x ∈ big, (minSize : ℚ) ≤ x) ∧ rare.length + big.length = t.length ∧ rare ≠ [] := by
  unfold advise at h
  simp only at h
  split at h
  · rename_i hm
    split at h
    · cases h
    · rename_i hb
      injection h with h1 h2
      subst h1; subst h2
      refine ⟨?_, ?_, ?_, ?_⟩
      · intro x hx
        obtain ⟨_, -, rfl⟩ := List.mem_map.1 hx
        rfl
      · intro x hx
        by_contra hc
        exact hb (List.any_eq_true.2 ⟨x, hx, by simpa using hc⟩)
      · rw [List.length_map, List.length_map]
        have := List.length_eq_length_filter_add (l := t) (fun r => decide (proportional t n r < minSize))
        rw [this]
        congr 2
        refine List.filter_congr fun r _ => ?_
        rw [← decide_not]
        congr 1
        rw [not_lt]
      · obtain ⟨r, h1, h2⟩ := List.any_eq_true.1 hm
        refine List.ne_nil_of_mem (a := (minSize : ℚ)) (List.mem_map.2 ⟨r, List.mem_filter.2 ⟨h1, h2⟩, rfl⟩)
  · cases h

/-- C163, violated: the samples left after the rare classes are distributed with the shares of the whole area, which do not sum to 1 over the big
classes. The compromise falls short of the suggested number by the share of the rare classes in the rest: it has always fewer samples than
suggested, unless the rare classes are empty or take them all. -/
theorem c163_total_violated (t : List Row) (h0 : ∀ r ∈ t, 0 < r.count) (n minSize : Nat) (rare big : List ℚ)
    (h : advise t n minSize = .compromise rare big) (hn : rare.length * minSize < n) : rare.sum + big.sum < n := by
  have hm := c163_minimum t n minSize rare big h
  unfold advise at h
  simp only at h
  split at h
  · rename_i ha
    split at h
    · cases h
    · injection h with h1 h2
      have hr : rare.sum = rare.length * minSize := by
        have : ∀ l : List ℚ, (∀ x ∈ l, x = minSize) → l.sum = l.length * minSize := by
          intro l
          induction l with
          | nil => simp
          | cons a l ih =>
            intro hl
            rw [List.sum_cons, ih fun x hx => hl x (List.mem_cons_of_mem _ hx), hl a List.mem_cons_self, List.length_cons]
            push_cast
            ring
        exact this rare hm.1
      have hlt : rare.sum < n := by rw [hr]; exact_mod_cast hn
      rw [h1] at h2
      obtain ⟨r0, q1, q2⟩ := List.any_eq_true.1 ha
      have hpos : 0 < (t.map (·.count)).sum := by
        refine List.sum_pos _ (fun x hx => ?_) (by simpa using List.ne_nil_of_mem q1)
        obtain ⟨r, h1, rfl⟩ := List.mem_map.1 hx
        exact h0 r h1
      have hsplit : ∀ (p : Row → Bool) (l : List Row), (l.map (share t)).sum = ((l.filter p).map (share t)).sum + ((l.filter fun r => !p r).map (share t)).sum := by
        intro p l
        induction l with
        | nil => simp
        | cons a l ih =>
          by_cases hp : p a = true
          · simp only [List.map_cons, List.sum_cons, List.filter_cons, hp, ih]; simp; ring
          · simp only [Bool.not_eq_true] at hp
            simp only [List.map_cons, List.sum_cons, List.filter_cons, hp, ih]; simp; ring
      have hs := hsplit (fun r => decide (proportional t n r < minSize)) t
      rw [sum_share hpos] at hs
      have hrare : 0 < ((t.filter fun r => decide (proportional t n r < minSize)).map (share t)).sum := by
        refine List.sum_pos _ (fun x hx => ?_) ?_
        · obtain ⟨r, h1, rfl⟩ := List.mem_map.1 hx
          exact div_pos (h0 r (List.mem_filter.1 h1).1) hpos
        · simpa using ⟨r0, q1, by simpa using q2⟩
      have hbig : big.sum = (n - rare.sum) * ((t.filter fun r => !decide (proportional t n r < minSize)).map (share t)).sum := by
        rw [← h2]
        have e : (t.filter fun r => decide ((minSize : Int) ≤ proportional t n r)) = t.filter fun r => !decide (proportional t n r < minSize) := by
          refine List.filter_congr fun r _ => ?_
          rw [← decide_not]
          congr 1
          rw [not_lt]
        rw [e]
        generalize (t.filter fun r => !decide (proportional t n r < minSize)) = l
        induction l with
        | nil => simp
        | cons a l ih => simp only [List.map_cons, List.sum_cons, ih]; ring
      rw [hbig]
      nlinarith
  · cases h

end Verif.Assess
