import Verif.Watch.Props
import Mathlib.Data.Rat.Floor
import Mathlib.Tactic.Positivity
import Mathlib.Tactic.FieldSimp

/-!
# Progress, success of a unit, writing of the products: properties C268 to C270
-/

namespace Verif.Watch

open Verif.Float

/-! ## C268 -/

/-- Rounding keeps the order. -/
theorem round_mono {p : Nat} {rd : ℚ → ℚ} (h : ∀ x, Nearest p x (rd x)) {x y : ℚ} (hxy : x ≤ y) :
    rd x ≤ rd y := by
  rcases eq_or_lt_of_le hxy with rfl | hlt
  · exact le_refl _
  · by_contra hc
    have hc := not_le.1 hc
    have h1 := (h x).2 (rd y) (h y).1
    have h2 := (h y).2 (rd x) (h x).1
    rcases abs_cases (x - rd x) with ⟨a, _⟩ | ⟨a, _⟩ <;>
      rcases abs_cases (x - rd y) with ⟨b, _⟩ | ⟨b, _⟩ <;>
      rcases abs_cases (y - rd x) with ⟨c, _⟩ | ⟨c, _⟩ <;>
      rcases abs_cases (y - rd y) with ⟨d, _⟩ | ⟨d, _⟩ <;>
      rw [a, b] at h1 <;> rw [d, c] at h2 <;> linarith

theorem round_int {p : Nat} {rd : ℚ → ℚ} (h : ∀ x, Nearest p x (rd x)) {k : ℤ} (hk : |k| ≤ 2 ^ p) :
    rd k = k := eq_of_nearest_rep (rep_int hk) (h k)

theorem percent_eq (rf rd : ℚ → ℚ) (hf : ∀ x, Nearest 24 x (rf x)) (n : Nat)
    (hn : n ≤ 2 ^ 24) (now : Int) (h0 : 0 ≤ now) (h1 : now ≤ n) :
    percentDone rf rd n now = rf (rd (rf ((now : ℚ) / n) * 100)) := by
  have hn' : (n : Int) ≤ 2 ^ 24 := by exact_mod_cast hn
  have e1 : rf (now : ℚ) = now := round_int hf (by rw [abs_of_nonneg h0]; omega)
  have e2 : rf ((n : ℤ) : ℚ) = ((n : ℤ) : ℚ) := round_int hf (by rw [abs_of_nonneg (by omega)]; exact hn')
  have e3 : rf (n : ℚ) = n := by exact_mod_cast e2
  unfold percentDone
  rw [if_pos h0, e1, e3]

/-- C268: the reported progress is between 0 and 100 percent and never decreases; it is 0 before
the first unit and 100 after the last. `rf`, `rd`: any rounding to the nearest float and double. -/
theorem c268_percent (rf rd : ℚ → ℚ) (hf : ∀ x, Nearest 24 x (rf x)) (hd : ∀ x, Nearest 53 x (rd x))
    (n : Nat) (hn : 1 ≤ n) (hn' : n ≤ 2 ^ 24) :
    (∀ now : Int, now ≤ 0 → percentDone rf rd n now = 0) ∧
    percentDone rf rd n n = 100 ∧
    (∀ now later : Int, now ≤ later → later ≤ n →
      0 ≤ percentDone rf rd n now ∧ percentDone rf rd n now ≤ percentDone rf rd n later ∧
      percentDone rf rd n later ≤ 100) := by
  have f0 : rf 0 = 0 := by simpa using round_int hf (k := 0) (by norm_num)
  have d0 : rd 0 = 0 := by simpa using round_int hd (k := 0) (by norm_num)
  have f1 : rf 1 = 1 := by simpa using round_int hf (k := 1) (by norm_num)
  have f100 : rf 100 = 100 := by simpa using round_int hf (k := 100) (by norm_num)
  have d100 : rd 100 = 100 := by simpa using round_int hd (k := 100) (by norm_num)
  have hnq : (0 : ℚ) < n := by exact_mod_cast hn
  have z : ∀ now : Int, now ≤ 0 → percentDone rf rd n now = 0 := by
    intro now h
    by_cases hz : now = 0
    · subst hz
      rw [percent_eq rf rd hf n hn' 0 (le_refl _) (by omega)]
      simp [f0, d0]
    · unfold percentDone
      rw [if_neg (by omega)]
  have top : percentDone rf rd n n = 100 := by
    rw [percent_eq rf rd hf n hn' n (by omega) (le_refl _)]
    have : ((n : ℤ) : ℚ) / n = 1 := by push_cast; exact div_self (ne_of_gt hnq)
    rw [this, f1, one_mul, d100, f100]
  have mono : ∀ a b : Int, 0 ≤ a → a ≤ b → b ≤ n →
      percentDone rf rd n a ≤ percentDone rf rd n b := by
    intro a b ha hab hb
    rw [percent_eq rf rd hf n hn' a ha (by omega), percent_eq rf rd hf n hn' b (by omega) hb]
    apply round_mono hf
    apply round_mono hd
    apply mul_le_mul_of_nonneg_right _ (by norm_num)
    apply round_mono hf
    apply div_le_div_of_nonneg_right _ hnq.le
    exact_mod_cast hab
  refine ⟨z, top, ?_⟩
  intro now later h1 h2
  have nn : ∀ a : Int, a ≤ n → 0 ≤ percentDone rf rd n a := by
    intro a ha
    by_cases h : a ≤ 0
    · rw [z a h]
    · have := mono 0 a (le_refl _) (by omega) ha
      rwa [z 0 (le_refl _)] at this
  refine ⟨nn now (by omega), ?_, ?_⟩
  · by_cases h : now ≤ 0
    · rw [z now h]; exact nn later h2
    · exact mono now later (by omega) h1 h2
  · by_cases h : later ≤ 0
    · rw [z later h]; norm_num
    · have := mono later n (by omega) h2 (le_refl _)
      rwa [top] at this

/-- C268: the number from which the percentage is computed is the number of units that have been
computed already. At the beginning of the loop body with number `j`, the current unit has number
`j - 1`, and in the loop bodies before exactly the units below it were computed. -/
theorem c268_computed (n j : Nat) (h1 : 1 ≤ j) (h2 : j < n + 2) :
    ((Pipeline.loop n Pipeline.initUnits)[j]?).map (fun u => u.now) = some ((j : Int) - 1) ∧
    ((Pipeline.iterations n).take j).filterMap (fun w => w.compute) =
      (List.range (j - 1)).map (fun (u : Nat) => (u : Int)) := by
  constructor
  · have h := Pipeline.loop_eq n (n + 2) 0 (by omega) (by omega)
    have hi : Pipeline.initUnits = ⟨((0 : Nat) : Int) - 3, ((0 : Nat) : Int) - 2, ((0 : Nat) : Int) - 1⟩ := rfl
    rw [hi, h, List.getElem?_map, List.getElem?_range' h2]
    simp [Pipeline.unitsAt]
  · rw [Pipeline.iterations_eq, ← List.map_take, List.take_range, Nat.min_eq_left (by omega)]
    clear h1
    induction j with
    | zero => rfl
    | succ j ih =>
      rw [List.range_succ, List.map_append, List.filterMap_append, ih (by omega)]
      by_cases hj : j = 0
      · subst hj; simp [Pipeline.workAt]
      · obtain ⟨k, rfl⟩ : ∃ k, j = k + 1 := ⟨j - 1, by omega⟩
        have e : (Pipeline.workAt n (k + 1)).compute = some (k : Int) := by
          simp [Pipeline.workAt]; omega
        have e2 : k + 1 + 1 - 1 = k + 1 := by omega
        have e3 : k + 1 - 1 = k := by omega
        rw [e2, e3, List.range_succ, List.map_append]
        simp [e]

/-- C268: the remaining time. It is 0 before the first unit is computed and when all are; if each
unit so far has taken `s` seconds, it is `s` seconds for each of the remaining units. -/
theorem c268_eta (rd : ℚ → ℚ) (hd : ∀ x, Nearest 53 x (rd x)) (n : Nat) (hn : n < 2 ^ 22) :
    (∀ now total : Int, now ≤ 0 → eta rd n now total = 0) ∧
    (∀ total : Int, eta rd n n total = 0) ∧
    (∀ now s : Int, 1 ≤ now → now ≤ n → 0 ≤ s → s < 2 ^ 31 →
      eta rd n now (s * now) = s * (n - now)) := by
  have d0 : rd 0 = 0 := by simpa using round_int hd (k := 0) (by norm_num)
  refine ⟨?_, ?_, ?_⟩
  · intro now total h
    unfold eta
    rw [if_neg (by omega)]
  · intro total
    unfold eta
    split
    · simp [d0]
    · rfl
  · intro now s h1 h2 h3 h4
    unfold eta
    by_cases hs : s = 0
    · subst hs; simp
    · have hs' : 0 < s := by omega
      rw [if_pos ⟨by omega, Int.mul_pos hs' (by omega)⟩]
      have hq : ((s * now : Int) : ℚ) / now = (s : ℚ) := by
        push_cast
        have : (now : ℚ) ≠ 0 := by exact_mod_cast (by omega : now ≠ 0)
        field_simp
      have e1 : rd (s : ℚ) = s := round_int hd (by rw [abs_of_nonneg h3]; omega)
      rw [hq, e1]
      have hb : 0 ≤ ((n : Int) - now) * s := Int.mul_nonneg (by omega) h3
      have hb2 : ((n : Int) - now) * s ≤ 2 ^ 22 * 2 ^ 31 := by
        apply Int.mul_le_mul <;> omega
      have e2 : rd ((((n : Int) - now) * s : Int) : ℚ) = (((n : Int) - now) * s : Int) :=
        round_int hd (by rw [abs_of_nonneg hb]; exact hb2.trans (by norm_num))
      have e3 : (((n : Int) - now : Int) : ℚ) * (s : ℚ) = ((((n : Int) - now) * s : Int) : ℚ) := by
        push_cast; ring
      rw [e3, e2, Int.floor_intCast, Int.mul_comm]

/-- Such roundings exist. -/
example : ∃ rf rd : ℚ → ℚ, (∀ x, Nearest 24 x (rf x)) ∧ (∀ x, Nearest 53 x (rd x)) ∧
    percentDone rf rd 8 4 = 50 ∧ eta rd 8 2 20 = 60 := by
  obtain ⟨rf, hf⟩ := exists_round 24 (by norm_num)
  obtain ⟨rd, hd⟩ := exists_round 53 (by norm_num)
  refine ⟨rf, rd, hf, hd, ?_, ?_⟩
  · rw [percent_eq rf rd hf 8 (by norm_num) 4 (by norm_num) (by norm_num)]
    have h1 : rf ((4 : ℤ) / (8 : ℕ) : ℚ) = 1 / 2 := by
      have : Rep 24 (1 / 2 : ℚ) := ⟨1, -1, by norm_num, by norm_num⟩
      have h := eq_of_nearest_rep this (hf _)
      rw [← h]; congr 1; norm_num
    rw [h1]
    have h2 : rd (50 : ℚ) = 50 := by simpa using round_int hd (k := 50) (by norm_num)
    have h3 : rf (50 : ℚ) = 50 := by simpa using round_int hf (k := 50) (by norm_num)
    rw [show (1 / 2 * 100 : ℚ) = 50 by norm_num, h2, h3]
  · have := (c268_eta rd hd 8 (by norm_num)).2.2 2 10 (by norm_num) (by norm_num) (by norm_num) (by norm_num)
    simpa using this

/-! ## C269 -/

theorem noisy_iff (l : Level) : (l = .images ∨ l = .quality) ↔ noisy l = true := by
  cases l <;> simp [noisy]

theorem failed_iff (l1 l2 : Level) (nt1 nt2 : Int) (s : Steps) :
    failed l1 l2 nt1 nt2 s = false ↔ 0 < nt1 ∧
      s.quality1 = true ∧ ((l1 = .images ∨ l1 = .quality) → s.noise1 = true) ∧
      (0 < nt2 → s.quality2 = true ∧ ((l2 = .images ∨ l2 = .quality) → s.noise2 = true)) ∧
      (l1 = .images → s.adjust = true) := by
  obtain ⟨q1, n1, q2, n2, ad⟩ := s
  rw [noisy_iff, noisy_iff]
  unfold failed
  dsimp only
  generalize noisy l1 = x
  generalize noisy l2 = y
  have e1 : (l1 = .images → ad = true) ↔ (decide (l1 = .images) = true → ad = true) := by simp
  rw [e1]
  clear e1
  generalize decide (l1 = .images) = z
  by_cases h1 : nt1 > 0
  · by_cases h2 : nt2 > 0
    · have h1' : 0 < nt1 := h1
      have h2' : 0 < nt2 := h2
      simp only [h1, h2, h1', h2', if_true, true_and, true_implies]
      revert q1 n1 q2 n2 ad x y z
      decide
    · have h1' : 0 < nt1 := h1
      have h2' : ¬ 0 < nt2 := h2
      simp only [h1, h2, h1', h2', if_true, if_false, true_and, false_implies]
      revert q1 n1 q2 n2 ad x y z
      decide
  · have h1' : ¬ 0 < nt1 := h1
    simp only [h1, h1', if_false, false_and, iff_false]
    by_cases h2 : nt2 > 0 <;> simp [h2]

/-- C269: a unit delivers products only if its mask and its primary input were read, its secondary
input did not fail while being screened, every step on the data succeeded, and the module had the
secondary input that it needs. Otherwise it delivers nothing; then it delivers what the module
gives. -/
theorem c269_complete (l1 l2 : Level) (m : Module) (r : Read) (s : Steps) (nprod : Nat) :
    computeUnit l1 l2 m r s nprod =
      if r.mask = true ∧ 0 < r.nt1 ∧
        s.quality1 = true ∧ ((l1 = .images ∨ l1 = .quality) → s.noise1 = true) ∧
        (0 < r.nt2 → s.quality2 = true ∧ ((l2 = .images ∨ l2 = .quality) → s.noise2 = true)) ∧
        (l1 = .images → s.adjust = true) ∧
        (m = .composite true → 3 ≤ r.nt2) ∧ (m = .prediction → 1 ≤ r.nt2)
      then nprod else 0 := by
  unfold computeUnit
  dsimp only
  by_cases hm : r.mask = true
  · by_cases hn : r.nt1 < 0
    · have hr : readUnit r = (r.nt1, 0) := by simp [readUnit, hm, hn]
      have : failed l1 l2 r.nt1 0 s = true := by
        rw [← Bool.not_eq_false, failed_iff]; omega
      rw [hr]
      dsimp only
      rw [if_pos this, if_neg (fun h => absurd h.2.1 (by omega))]
    · have hr : readUnit r = (r.nt1, r.nt2) := by simp [readUnit, hm, hn]
      rw [hr]
      dsimp only
      by_cases hf : failed l1 l2 r.nt1 r.nt2 s = true
      · rw [if_pos hf, if_neg]
        rintro ⟨-, a, b, c, d, e, -, -⟩
        have := (failed_iff l1 l2 r.nt1 r.nt2 s).2 ⟨a, b, c, d, e⟩
        rw [this] at hf; exact absurd hf (by simp)
      · rw [if_neg hf]
        have hf' : failed l1 l2 r.nt1 r.nt2 s = false := by simpa using hf
        obtain ⟨a, b, c, d, e⟩ := (failed_iff l1 l2 r.nt1 r.nt2 s).1 hf'
        have ha : accepts m r.nt1 r.nt2 = true ↔
            (m = .composite true → 3 ≤ r.nt2) ∧ (m = .prediction → 1 ≤ r.nt2) := by
          have a' : 1 ≤ r.nt1 := a
          rcases m with lsp | _ | _
          · cases lsp <;> simp [accepts]
          · simp [accepts, a']
          · simp [accepts]
        by_cases hacc : accepts m r.nt1 r.nt2 = true
        · rw [if_pos hacc, if_pos]
          exact ⟨hm, a, b, c, d, e, (ha.1 hacc).1, (ha.1 hacc).2⟩
        · rw [if_neg hacc, if_neg]
          rintro ⟨-, -, -, -, -, -, f, g⟩
          exact hacc (ha.2 ⟨f, g⟩)
  · have hr : readUnit r = (0, 0) := by simp [readUnit, hm]
    have : failed l1 l2 0 0 s = true := by
      rw [← Bool.not_eq_false, failed_iff]; omega
    rw [hr]
    dsimp only
    rw [if_pos this, if_neg (fun h => hm h.1)]

/-- C269: if reading the mask, the primary or a needed secondary input fails, there are no
products. -/
theorem c269_unreadable (l1 l2 : Level) (m : Module) (r : Read) (s : Steps) (nprod : Nat)
    (h : r.mask = false ∨ r.nt1 < 0 ∨ (r.nt2 < 0 ∧ (m = .composite true ∨ m = .prediction))) :
    computeUnit l1 l2 m r s nprod = 0 := by
  rw [c269_complete, if_neg]
  rintro ⟨a, b, -, -, -, -, c, d⟩
  rcases h with h | h | ⟨h, h' | h'⟩
  · rw [h] at a; exact absurd a (by simp)
  · omega
  · have := c h'; omega
  · have := d h'; omega

example : computeUnit .images .fields (.composite true) ⟨true, 12, 3⟩ ⟨true, true, true, true, true⟩ 2 = 2 ∧
    computeUnit .images .fields (.composite true) ⟨true, 12, -1⟩ ⟨true, true, true, true, true⟩ 2 = 0 ∧
    computeUnit .images .none .other ⟨true, 12, 0⟩ ⟨true, true, true, true, false⟩ 2 = 0 := by
  decide

/-! ## C270 -/

/-- C270, what holds: if all directories can be locked and all products can be written, then
exactly the products that are to be written reach the disk, unit by unit. -/
theorem c270_written_partial (ibytes : Nat) (sampling failIfEmpty : Bool) (us : List Unit')
    (h : ∀ u ∈ us, u.lock = true ∧ ∀ p ∈ u.products, p.writes = true) :
    (outputs ibytes sampling failIfEmpty us).1 =
      (us.map (fun u => u.products.filter (fun p => p.active))).flatten := by
  unfold outputs
  dsimp only
  congr 1
  apply List.map_congr_left
  intro u hu
  obtain ⟨hl, hw⟩ := h u hu
  unfold written
  rw [if_pos hl]
  apply List.filter_congr
  intro p hp
  rw [hw p hp, Bool.and_true]

theorem stream_pos (us : List Unit') (u : Unit') (hu : u ∈ us) (h : 0 < bytes u) :
    0 < Pipeline.bytesStream (us.map (fun u => some (bytes u))) := by
  rw [Nat.pos_iff_ne_zero]
  intro hz
  rw [Pipeline.bytesStream_zero] at hz
  have := hz _ (List.mem_map.2 ⟨u, hu, rfl⟩) _ rfl
  omega

/-- C270, violated: a run reports success although products are missing. If the directory of a unit
cannot be locked, none of its products is written. Nevertheless the exit code is SUCCESS as soon as
something was read and another unit has counted bytes, even if the user asked to fail on empty
output. -/
theorem c270_lock_violated (ibytes : Nat) (sampling failIfEmpty : Bool) (us : List Unit')
    (u v : Unit') (p q : Product) (hi : 0 < ibytes)
    (hu : u ∈ us) (hlu : u.lock = true) (hp : p ∈ u.products) (hpa : p.active = true) (hps : 0 < p.size)
    (hlv : v.lock = false) (hq : q ∈ v.products)
    (hother : ∀ w ∈ us, q ∉ w.products) :
    (outputs ibytes sampling failIfEmpty (us ++ [v])).2 = false ∧
    q ∉ (outputs ibytes sampling failIfEmpty (us ++ [v])).1 := by
  constructor
  · have hb : 0 < bytes u := by
      unfold bytes
      rw [if_pos hlu]
      have : p.size ≤ ((u.products.filter (fun p => p.active)).map (fun p => p.size)).sum :=
        List.single_le_sum (by intro x _; exact Nat.zero_le x) _
          (List.mem_map.2 ⟨p, List.mem_filter.2 ⟨hp, hpa⟩, rfl⟩)
      omega
    have := stream_pos (us ++ [v]) u (by simp [hu]) hb
    unfold outputs
    rw [Bool.eq_false_iff]
    intro hc
    rw [Pipeline.c24_exit_code] at hc
    omega
  · unfold outputs
    dsimp only
    intro hc
    obtain ⟨l, hl, hql⟩ := List.mem_flatten.1 hc
    obtain ⟨w, hw, rfl⟩ := List.mem_map.1 hl
    rcases List.mem_append.1 hw with hw | hw
    · unfold written at hql
      split at hql
      · exact hother w hw (List.mem_filter.1 hql).1
      · simp at hql
    · rw [List.mem_singleton] at hw
      subst hw
      unfold written at hql
      rw [hlv] at hql
      simp at hql

/-- C270, violated: the result of writing a product is not looked at, and its bytes are counted in
any case. Even if no product at all can be written (disk full), the exit code is SUCCESS. -/
theorem c270_write_violated (ibytes : Nat) (sampling failIfEmpty : Bool) (us : List Unit')
    (u : Unit') (p : Product) (hi : 0 < ibytes)
    (hu : u ∈ us) (hl : u.lock = true) (hp : p ∈ u.products) (ha : p.active = true) (hs : 0 < p.size)
    (hw : ∀ w ∈ us, ∀ q ∈ w.products, q.writes = false) :
    (outputs ibytes sampling failIfEmpty us).2 = false ∧
    (outputs ibytes sampling failIfEmpty us).1 = [] := by
  constructor
  · have hb : 0 < bytes u := by
      unfold bytes
      rw [if_pos hl]
      have : p.size ≤ ((u.products.filter (fun p => p.active)).map (fun p => p.size)).sum :=
        List.single_le_sum (by intro x _; exact Nat.zero_le x) _
          (List.mem_map.2 ⟨p, List.mem_filter.2 ⟨hp, ha⟩, rfl⟩)
      omega
    have := stream_pos us u hu hb
    unfold outputs
    rw [Bool.eq_false_iff]
    intro hc
    rw [Pipeline.c24_exit_code] at hc
    omega
  · unfold outputs
    rw [List.flatten_eq_nil_iff]
    intro l hl
    obtain ⟨w, hwm, rfl⟩ := List.mem_map.1 hl
    unfold written
    split
    · rw [List.filter_eq_nil_iff]
      intro q hq
      rw [hw w hwm q hq]; simp
    · rfl

/-- C270: if the user asks to fail on empty output, then a run in which no directory can be locked
fails (unless it is a sampling run). -/
theorem c270_no_lock (ibytes : Nat) (us : List Unit') (h : ∀ u ∈ us, u.lock = false) :
    outputs ibytes false true us = ([], true) := by
  have hz : Pipeline.bytesStream (us.map (fun u => some (bytes u))) = 0 := by
    rw [Pipeline.bytesStream_zero]
    intro e he b hb
    obtain ⟨u, hu, rfl⟩ := List.mem_map.1 he
    have : bytes u = 0 := by unfold bytes; rw [h u hu]; rfl
    simp only [Option.some.injEq] at hb
    omega
  unfold outputs
  rw [hz]
  refine Prod.ext ?_ ?_
  · rw [List.flatten_eq_nil_iff]
    intro l hl
    obtain ⟨u, hu, rfl⟩ := List.mem_map.1 hl
    unfold written; rw [h u hu]; rfl
  · exact (Pipeline.c24_exit_code _ _ _ _).2 ⟨rfl, Or.inr ⟨rfl, rfl⟩⟩

example : outputs 100 false true [⟨true, [⟨1, true, 10, true⟩, ⟨2, false, 10, true⟩]⟩,
      ⟨false, [⟨3, true, 10, true⟩]⟩] = ([⟨1, true, 10, true⟩], false) ∧
    outputs 100 false true [⟨true, [⟨1, true, 10, false⟩]⟩] = ([], false) := by decide

end Verif.Watch
